import Verif.Spec.Orderly
import Verif.Props.RoutingExact
/-
C97: the order of registration does not matter in an orderly table, and only there.
-/
namespace Verif
open Spec
set_option linter.unusedSectionVars false
variable {σ : Type}

theorem orderlyCheck_iff (R : List (List Pat)) : orderlyCheck R = true ↔ orderly R := by
  simp only [orderlyCheck, List.all_eq_true, List.mem_range]
  constructor
  · intro h i j p q hi hj hm ho
    have il := (List.getElem?_eq_some_iff.1 hi).1
    have jl := (List.getElem?_eq_some_iff.1 hj).1
    have := h i il j jl
    rw [hi, hj] at this
    obtain ⟨k, hk, h1, h2⟩ := ho
    simp only [hm, Bool.true_and, Bool.not_eq_true', List.any_eq_false, List.mem_range] at this
    refine this k (by omega) ?_
    simpa [h1] using h2
  · intro h i il j jl
    rw [List.getElem?_eq_getElem il, List.getElem?_eq_getElem jl]
    simp only [Bool.not_eq_true', Bool.and_eq_false_iff]
    cases hm : meets R[i] R[j] with
    | false => exact Or.inl rfl
    | true =>
      right
      rw [List.any_eq_false]
      intro k hk hc
      simp only [Bool.and_eq_true, decide_eq_true_eq, List.all_eq_true, List.mem_range, beq_iff_eq] at hc
      exact h i j _ _ (List.getElem?_eq_getElem il) (List.getElem?_eq_getElem jl) hm
        ⟨k, by have := List.mem_range.1 hk; omega, hc.1, hc.2⟩

/-- The branch of a registration is that of one with the same segments. -/
theorem birth_spec (R : List (List Pat)) (i k : Nat) (p : List Pat) (h : R[i]? = some p) :
    (∃ q, R[birth R i k]? = some q ∧ q.take k = p.take k) ∧ birth R i k ≤ i ∧
    (allLit (p.take k) = false → birth R i k = i) ∧
    (allLit (p.take k) = true → birth R i k = R.findIdx fun q => q.take k = p.take k) := by
  unfold birth
  rw [h]
  simp only
  have il := (List.getElem?_eq_some_iff.1 h).1
  cases hl : allLit (p.take k) with
  | false => simp [h]
  | true =>
    have hle : (R.findIdx fun q => decide (q.take k = p.take k)) ≤ i := by
      refine Nat.le_of_not_lt fun hlt => ?_
      have := List.not_of_lt_findIdx hlt
      rw [(List.getElem?_eq_some_iff.1 h).2] at this
      simp at this
    have hlt : (R.findIdx fun q => decide (q.take k = p.take k)) < R.length := by omega
    have hg := List.findIdx_getElem (p := fun q => decide (q.take k = p.take k)) (xs := R) (w := hlt)
    simp only [decide_eq_true_eq] at hg
    simp only [if_true]
    refine ⟨⟨_, List.getElem?_eq_getElem hlt, hg⟩, hle, ?_⟩
    simp

theorem same_birth {R : List (List Pat)} {i j k : Nat} {p q : List Pat} (hi : R[i]? = some p) (hj : R[j]? = some q)
    (h : birth R i k = birth R j k) : p.take k = q.take k ∧ (allLit (p.take k) = false → i = j) := by
  obtain ⟨⟨x, hx, ex⟩, -, hx2, -⟩ := birth_spec R i k p hi
  obtain ⟨⟨y, hy, ey⟩, -, hy2, -⟩ := birth_spec R j k q hj
  rw [h, hy] at hx
  cases hx
  have e : p.take k = q.take k := by rw [← ex, ey]
  refine ⟨e, fun hn => ?_⟩
  rw [← hx2 hn, h, hy2 (by rw [← e]; exact hn)]

theorem match_length {ps : List Pat} {ss : List Str} (h : (matchRoute ps ss).isSome = true) : ps.length = ss.length := by
  induction ps generalizing ss with
  | nil => cases ss <;> simp_all [matchRoute]
  | cons p ps ih =>
    cases ss with
    | nil => cases p <;> simp [matchRoute] at h
    | cons s ss =>
      cases p with
      | lit t =>
        simp only [matchRoute] at h
        split at h
        · simp [ih h]
        · simp at h
      | par n =>
        simp only [matchRoute, Option.isSome_map] at h
        simp [ih h]

theorem meets_of_path {p q : List Pat} {ss : List Str} (hc : competes p ss = true) (hm : (matchRoute q ss).isSome = true) :
    meets p q = true := by
  induction q generalizing p ss with
  | nil => cases p <;> simp [meets]
  | cons q0 q ih =>
    cases ss with
    | nil => cases q0 <;> simp [matchRoute] at hm
    | cons s ss =>
      cases p with
      | nil => simp at hc
      | cons p0 p =>
        have hq : (matchRoute q ss).isSome = true ∧ q0.accepts s = true := by
          cases q0 with
          | lit t =>
            simp only [matchRoute] at hm
            split at hm
            · exact ⟨hm, by simp [Pat.accepts, *]⟩
            · simp at hm
          | par n => simp only [matchRoute, Option.isSome_map] at hm; exact ⟨hm, rfl⟩
        have hp : competes p ss = true ∧ p0.accepts s = true := by
          cases p0 with
          | lit t => simpa [Pat.accepts, and_comm] using hc
          | par n => simp at hc; exact ⟨hc, rfl⟩
        have := ih hp.1 hq.1
        cases p0 <;> cases q0 <;> simp_all [meets, Pat.accepts]

/-- A path for which the two routes meet. -/
def meeting : List Pat → List Pat → List Str
  | _, [] => []
  | [], _ :: _ => []
  | _ :: ps, .lit b :: qs => b :: meeting ps qs
  | .lit a :: ps, .par _ :: qs => a :: meeting ps qs
  | .par _ :: ps, .par _ :: qs => b!"x" :: meeting ps qs

theorem meeting_ok (p q : List Pat) (h : meets p q = true) :
    competes p (meeting p q) = true ∧ (matchRoute q (meeting p q)).isSome = true ∧
    ∀ s ∈ meeting p q, s = b!"x" ∨ Pat.lit s ∈ p ∨ Pat.lit s ∈ q := by
  induction q generalizing p with
  | nil => cases p <;> simp [meeting, matchRoute]
  | cons q0 q ih =>
    cases p with
    | nil => simp [meets] at h
    | cons p0 p =>
      have h' : meets p q = true := by cases p0 <;> cases q0 <;> simp_all [meets]
      obtain ⟨h1, h2, h3⟩ := ih p h'
      have mem : ∀ x, (x = b!"x" ∨ Pat.lit x ∈ p0 :: p ∨ Pat.lit x ∈ q0 :: q) → ∀ s ∈ x :: meeting p q,
          s = b!"x" ∨ Pat.lit s ∈ p0 :: p ∨ Pat.lit s ∈ q0 :: q := by
        intro x hx s hs
        rcases List.mem_cons.1 hs with rfl | hs
        · exact hx
        · rcases h3 s hs with h | h | h
          · exact Or.inl h
          · exact Or.inr (Or.inl (List.mem_cons_of_mem _ h))
          · exact Or.inr (Or.inr (List.mem_cons_of_mem _ h))
      cases q0 with
      | lit b =>
        refine ⟨?_, by simpa [meeting, matchRoute] using h2, ?_⟩
        · cases p0 with
          | lit a => simp only [meets, Bool.and_eq_true, decide_eq_true_eq] at h; simp [meeting, h.1, h1]
          | par n => simp [meeting, h1]
        · cases p0 <;> exact mem b (Or.inr (Or.inr (List.mem_cons_self ..)))
      | par n =>
        cases p0 with
        | lit a =>
          refine ⟨by simp [meeting, h1], by simpa [meeting, matchRoute] using h2, mem a (Or.inr (Or.inl (List.mem_cons_self ..)))⟩
        | par n' => exact ⟨by simp [meeting, h1], by simpa [meeting, matchRoute] using h2, mem _ (Or.inl rfl)⟩

/-- `meets` says what it should. -/
theorem meets_iff (p q : List Pat) :
    meets p q = true ↔ ∃ ss, competes p ss = true ∧ (matchRoute q ss).isSome = true :=
  ⟨fun h => ⟨_, (meeting_ok p q h).1, (meeting_ok p q h).2.1⟩, fun ⟨_, h1, h2⟩ => meets_of_path h1 h2⟩

theorem find_latest {α : Type} (P : α → Bool) (l : List α) (i : Nat) (r : α) (hi : l[i]? = some r) (hr : P r = true)
    (h : ∀ (j : Nat) o, l[j]? = some o → P o = true → j ≤ i) : l.reverse.find? P = some r := by
  have il := (List.getElem?_eq_some_iff.1 hi).1
  have e : l = l.take i ++ r :: l.drop (i + 1) := by
    have h0 : l.drop i = r :: l.drop (i + 1) := by
      rw [List.drop_eq_getElem_cons il, (List.getElem?_eq_some_iff.1 hi).2]
    rw [← h0, List.take_append_drop]
  rw [e]
  simp only [List.reverse_append, List.reverse_cons, List.append_assoc, List.find?_append]
  have h0 : (l.drop (i + 1)).reverse.find? P = none := by
    rw [List.find?_eq_none]
    intro x hx hc
    rw [List.mem_reverse, List.mem_iff_getElem?] at hx
    obtain ⟨n, hn⟩ := hx
    rw [List.getElem?_drop] at hn
    have := h _ x hn hc
    omega
  rw [h0]
  simp [hr]

/-- **C97**, reading: in an orderly table every lookup gives the latest registration whose route matches the path and whose
method covers the request method, with the parameters of that route, and nothing if there is none. -/
theorem C97_reading (hist : List (Reg σ)) (hclean : ∀ r ∈ hist, Clean r) (ho : orderly (hist.map routePats)) (m : Method)
    (path : Str) (buf : Args) :
    treeFind (treeOf hist) m path buf =
      match hist.reverse.find? fun r => (matchRoute (routePats r) (segs path)).isSome && covers r.method m with
      | some r => .ret ⟨some r.set, true, params (routePats r) (segs path)⟩
      | none => .ret ⟨none, false, []⟩ := by
  obtain ⟨res, hres, hnf, hset⟩ := find_total hist hclean m path buf
  have get : ∀ (i : Nat) r, hist[i]? = some r → (hist.map routePats)[i]? = some (routePats r) := by
    intro i r h; simp [h]
  cases hf : res.found with
  | true =>
    obtain ⟨i, r, hi, h1, h2, h3, h4⟩ := C04_arbitration hist hclean m path buf res hres hf
    have hfirst := find_latest (fun r => (matchRoute (routePats r) (segs path)).isSome && covers r.method m) hist i r hi
      (by simp [h2, h3]) (by
        intro j o hj hP
        simp only [Bool.and_eq_true] at hP
        have hcj : competes (routePats o) (segs path) = true := by
          obtain ⟨b, hb⟩ := Option.isSome_iff_exists.1 hP.1
          exact competes_of_match hb
        rcases h4 j o hj hcj with h | h
        · exfalso
          have := ho i j _ _ (get i r hi) (get j o hj) (meets_of_path (competes_of_match h3) hP.1)
          rw [match_length hP.1] at this
          exact this h
        · exact h.2 hP.2 hP.1)
    rw [hfirst, hres]
    simp only
    have hb := (matchRoute_bindings _ _ _ h3)
    cases res
    simp_all
  | false =>
    have hnone : (hist.reverse.find? fun r => (matchRoute (routePats r) (segs path)).isSome && covers r.method m) = none := by
      rw [List.find?_eq_none]
      intro o ho' hP
      simp only [Bool.and_eq_true] at hP
      rw [List.mem_reverse, List.mem_iff_getElem?] at ho'
      obtain ⟨j, hj⟩ := ho'
      have hcj : competes (routePats o) (segs path) = true := by
        obtain ⟨b, hb⟩ := Option.isSome_iff_exists.1 hP.1
        exact competes_of_match hb
      obtain ⟨i, r, hi, g1, g2, g3⟩ := C04_not_found hist hclean m path buf res hres hf ⟨o, List.mem_of_getElem? hj, hcj⟩
      rcases g2 j o hj hcj with h | h
      · have := ho i j _ _ (get i r hi) (get j o hj) (meets_of_path g1 hP.1)
        rw [match_length hP.1] at this
        exact this h
      · have := g3 j o hj h hP.1
        rw [hP.2] at this
        simp at this
    rw [hnone, hres, hnf hf]

/-- **C97**, order: two tables with the same registrations, both orderly, give the same answer to a request for which the
registrations do not collide (at most one matches the path and covers the method). -/
theorem C97_order (hist hist' : List (Reg σ)) (hperm : hist.Perm hist') (hclean : ∀ r ∈ hist, Clean r)
    (ho : orderly (hist.map routePats)) (ho' : orderly (hist'.map routePats)) (m : Method) (path : Str) (buf buf' : Args)
    (hone : ∀ r ∈ hist, ∀ r' ∈ hist, (matchRoute (routePats r) (segs path)).isSome = true → covers r.method m = true →
      (matchRoute (routePats r') (segs path)).isSome = true → covers r'.method m = true → r = r') :
    treeFind (treeOf hist) m path buf = treeFind (treeOf hist') m path buf' := by
  rw [C97_reading hist hclean ho m path buf,
    C97_reading hist' (fun r hr => hclean r (hperm.mem_iff.2 hr)) ho' m path buf']
  have key : (hist.reverse.find? fun r => (matchRoute (routePats r) (segs path)).isSome && covers r.method m) =
      hist'.reverse.find? fun r => (matchRoute (routePats r) (segs path)).isSome && covers r.method m := by
    cases h1 : hist.reverse.find? fun r => (matchRoute (routePats r) (segs path)).isSome && covers r.method m with
    | none =>
      symm
      rw [List.find?_eq_none] at h1 ⊢
      intro x hx
      exact h1 x (by rw [List.mem_reverse] at hx ⊢; exact hperm.mem_iff.2 hx)
    | some r =>
      have hr := List.mem_of_find?_eq_some h1
      have hp := List.find?_some h1
      rw [List.mem_reverse] at hr
      cases h2 : hist'.reverse.find? fun r => (matchRoute (routePats r) (segs path)).isSome && covers r.method m with
      | none =>
        rw [List.find?_eq_none] at h2
        exact absurd hp (h2 r (by rw [List.mem_reverse]; exact hperm.mem_iff.1 hr))
      | some r' =>
        have hr' := List.mem_of_find?_eq_some h2
        have hp' := List.find?_some h2
        rw [List.mem_reverse] at hr'
        simp only [Bool.and_eq_true] at hp hp'
        rw [hone r hr r' (hperm.mem_iff.2 hr') hp.1 hp.2 hp'.1 hp'.2]
  rw [key]

/-- Every route of the table is served on every path it matches: by itself or by a later registration of the same route. -/
def Spec.reachable (hist : List (Reg σ)) : Prop :=
  ∀ (j : Nat) r (m : Method) (path : Str) b, hist[j]? = some r → matchRoute ((segs r.route).map segPat) (segs path) = some b →
    covers r.method m = true →
    ∃ (k : Nat) (r' : Reg σ), j ≤ k ∧ hist[k]? = some r' ∧ (segs r'.route).map segPat = (segs r.route).map segPat ∧
      covers r'.method m = true ∧ treeFind (treeOf hist) m path [] = .ret ⟨some r'.set, true, b⟩

/-- A path with given segments. -/
theorem path_of_segs (ss : List Str) (h : ∀ s ∈ ss, s ≠ [] ∧ (47 : UInt8) ∉ s ∧ ¬ EndsWithSpace s) :
    ∃ path, segs path = ss := by
  by_cases hne : ss = []
  · exact ⟨[], by rw [hne]; exact C10_root [] [] spaces_nil spaces_nil 0⟩
  · exact ⟨_, C10_segments ss hne (fun s hs => (h s hs).2.1) (h _ (List.head_mem hne)).1 (h _ (List.getLast_mem hne)).1
      (h _ (List.getLast_mem hne)).2.2 [] [] spaces_nil spaces_nil 1 0 (Or.inl (by decide))⟩

theorem lit_of_seg {l : List Str} {t : Str} (h : Pat.lit t ∈ l.map segPat) : t ∈ l := by
  obtain ⟨s, hs, e⟩ := List.mem_map.1 h
  by_cases hc : s.head? = some 58
  · rw [segPat_colon hc] at e; cases e
  · rw [segPat_lit hc] at e; cases e; exact hs

/-- **C97**, exactly: every route of a table is served on every path it matches, iff the table is orderly. (Each registration
has a handler set of its own; no segment of a route ends with white space.) -/
theorem C97_exact (hist : List (Reg σ)) (hclean : ∀ r ∈ hist, Clean r) (hsets : (hist.map (·.set)).Nodup)
    (htidy : ∀ r ∈ hist, ∀ s ∈ segs r.route, ¬ EndsWithSpace s) :
    reachable hist ↔ orderly (hist.map routePats) := by
  have get : ∀ {i : Nat} {r}, hist[i]? = some r → (hist.map routePats)[i]? = some (routePats r) := by
    intro i r h; simp [h]
  constructor
  · intro hreach i j p q hi hj hm hout
    rw [List.getElem?_map, Option.map_eq_some_iff] at hi hj
    obtain ⟨ri, hi, rfl⟩ := hi
    obtain ⟨rj, hj, rfl⟩ := hj
    obtain ⟨h1, h2, h3⟩ := meeting_ok _ _ hm
    -- a path on which the two meet
    obtain ⟨path, hpath⟩ := path_of_segs (meeting (routePats ri) (routePats rj)) (by
      intro s hs
      have seg : ∀ r ∈ hist, Pat.lit s ∈ routePats r → s ≠ [] ∧ (47 : UInt8) ∉ s ∧ ¬ EndsWithSpace s := by
        intro r hr hl
        have := lit_of_seg hl
        refine ⟨?_, C10_no_slash _ s this, htidy r hr s this⟩
        rintro rfl
        exact hclean r hr [] this rfl
      rcases h3 s hs with rfl | h | h
      · refine ⟨by decide, by decide, ?_⟩
        rintro ⟨x, hx, h⟩
        revert x
        decide +kernel
      · exact seg ri (List.mem_of_getElem? hi) h
      · exact seg rj (List.mem_of_getElem? hj) h)
    rw [← hpath] at h1 h2
    obtain ⟨b, hb⟩ := Option.isSome_iff_exists.1 h2
    -- a method it covers
    obtain ⟨m, hcov⟩ : ∃ m, covers rj.method m = true := by
      unfold covers
      by_cases e1 : rj.method = b!"GETPOST"
      · exact ⟨b!"GET", by simp [e1]⟩
      · by_cases e2 : rj.method = b!"GETHEAD"
        · exact ⟨b!"GET", by simp [e2]⟩
        · exact ⟨rj.method, by simp [e1, e2]⟩
    obtain ⟨k, rk, hjk, hk, hpk, -, hfind⟩ := hreach j rj m path b hj hb hcov
    obtain ⟨i', r', hi', g1, -, g3, g4⟩ := C04_arbitration hist hclean m path [] _ hfind rfl
    have e : i' = k := by
      have hx : (hist.map (·.set))[i']? = some r'.set := by simp [hi']
      have hy : (hist.map (·.set))[k]? = some rk.set := by simp [hk]
      simp only [Option.some.injEq] at g1
      rw [← g1] at hx
      have il := (List.getElem?_eq_some_iff.1 hx).1
      exact (List.getElem?_inj il hsets).1 (hx.trans hy.symm)
    subst e
    have hk2 : r' = rk := Option.some.inj (hi'.symm.trans hk)
    subst hk2
    have hn : (segs path).length = (routePats rj).length := (match_length h2).symm
    have hpk' : routePats r' = routePats rj := hpk
    -- the first one outranks what is served
    have hout' : outranks (hist.map routePats) (segs path).length i i' := by
      obtain ⟨d, hd, o1, o2⟩ := hout
      refine ⟨d, by rw [hn]; exact hd, ?_, ?_⟩
      · obtain ⟨-, -, a3, a4⟩ := birth_spec _ j d _ (get hj)
        obtain ⟨-, -, c3, c4⟩ := birth_spec _ i' d _ (get hi')
        rw [hpk'] at c3 c4
        cases hl : allLit ((routePats rj).take d) with
        | true => rw [c4 hl, ← a4 hl]; exact o1
        | false => rw [c3 hl]; rw [a3 hl] at o1; omega
      · intro l hl
        have hb := o2 l hl
        obtain ⟨-, -, a3, a4⟩ := birth_spec _ j l _ (get hj)
        obtain ⟨-, -, c3, c4⟩ := birth_spec _ i' l _ (get hi')
        rw [hpk'] at c3 c4
        obtain ⟨e1, e2⟩ := same_birth (get hi) (get hj) hb
        cases hll : allLit ((routePats rj).take l) with
        | true => rw [c4 hll, hb, a4 hll]
        | false =>
          have := e2 (by rw [e1]; exact hll)
          subst this
          omega
    rcases g4 i ri hi h1 with h | h
    · exact outranks_asymm h hout'
    · exact outranks_not_same hout' (sameBranch_symm h.1)
  · intro ho j r m path b hj hb hcov
    obtain ⟨res, hres, hnf, hset⟩ := find_total hist hclean m path []
    have hP : ∃ x ∈ hist, ((matchRoute (routePats x) (segs path)).isSome && covers x.method m) = true :=
      ⟨r, List.mem_of_getElem? hj, by rw [show routePats r = (segs r.route).map segPat from rfl, hb]; simpa using hcov⟩
    cases hf : res.found with
    | false =>
      have hr := C97_reading hist hclean ho m path []
      rw [hres, hnf hf] at hr
      cases hfd : hist.reverse.find? fun r => (matchRoute (routePats r) (segs path)).isSome && covers r.method m with
      | none =>
        rw [List.find?_eq_none] at hfd
        obtain ⟨x, hx, h⟩ := hP
        exact absurd h (hfd x (by simpa using hx))
      | some y => rw [hfd] at hr; simp at hr
    | true =>
      obtain ⟨i, ri, hi, g1, g2, g3, g4⟩ := C04_arbitration hist hclean m path [] res hres hf
      have hb' : matchRoute (routePats r) (segs path) = some b := hb
      have hbs : (matchRoute (routePats r) (segs path)).isSome = true := by rw [hb']; rfl
      have hgs : (matchRoute (routePats ri) (segs path)).isSome = true := by rw [g3]; rfl
      have hsame : sameBranch (hist.map routePats) (segs path).length i j ∧ j ≤ i := by
        rcases g4 j r hj (competes_of_match hb') with h | h
        · exfalso
          have := ho i j _ _ (get hi) (get hj) (meets_of_path (competes_of_match g3) hbs)
          rw [match_length hbs] at this
          exact this h
        · exact ⟨h.1, h.2 hcov hbs⟩
      have hpe : routePats ri = routePats r := by
        have := (same_birth (get hi) (get hj) (hsame.1 (segs path).length (Nat.le_refl _))).1
        rw [← match_length hbs, List.take_length] at this
        rwa [show (routePats r).length = (routePats ri).length from by rw [match_length hbs, match_length hgs],
          List.take_length] at this
      refine ⟨i, ri, hsame.2, hi, hpe, g2, ?_⟩
      rw [hres]
      rw [hpe, hb'] at g3
      cases res
      simp_all

/-- The routes of /repo/examples/example_1/main.go:38-58 are an orderly table; moving the longer of the two routes with
parameters before the shorter one makes it disorderly. -/
example :
    orderlyCheck ([b!"/private_group", b!"/", b!"/a", b!"/", b!"/b", b!"/c", b!"/user/:user_id", b!"/user/:user_id/:action"].map
      fun r => (segs r).map segPat) = true ∧
    orderlyCheck ([b!"/user/:user_id/:action", b!"/user/:user_id"].map fun r => (segs r).map segPat) = false ∧
    orderlyCheck ([b!"/a/x", b!"/:p", b!"/a"].map fun r => (segs r).map segPat) = false := by decide +kernel

/-- The hypotheses of `C97_exact` and `C97_reading` hold of this table. -/
example :
    let hist : List (Reg Nat) := [⟨b!"GET", b!"/user/:id", 1⟩, ⟨b!"POST", b!"/user/:id/:action", 2⟩, ⟨b!"GET", b!"/a/b", 3⟩,
      ⟨b!"GET", b!"/a", 4⟩, ⟨b!"GETPOST", b!"/a", 5⟩]
    (∀ r ∈ hist, Clean r) ∧ (hist.map (·.set)).Nodup ∧ orderly (hist.map routePats) ∧
    treeFind (treeOf hist) b!"POST" b!"/user/7/edit" [] = .ret ⟨some 2, true, [(b!"id", b!"7"), (b!"action", b!"edit")]⟩ := by
  refine ⟨by decide +kernel, by decide +kernel, (orderlyCheck_iff _).1 (by decide +kernel), by decide +kernel⟩

end Verif
