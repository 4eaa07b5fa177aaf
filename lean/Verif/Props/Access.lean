import Verif.Props.Auth
import Verif.Props.Wire
import Verif.Spec.Challenge
/-
C102: access functions that look at the path. C103: the login dialogue.
-/
namespace Verif
open Spec

/-! ### C102 -/

/-- The segments of a normalised path, written again, are the beginning of the path. -/
theorem segs_prefix (raw : Str) : ofSegs (segs (normalizePath raw)) <+: normalizePath raw := by
  obtain ⟨l, hn, hl⟩ := normalizePath_normal raw
  obtain ⟨t, ht, ht'⟩ := ofSegs_cons_ex hn.1
  have hsplit := ht' hn.2.1
  rw [hl, ht]
  have htop : t.head? ≠ some 47 := by
    intro h
    cases t with
    | nil => cases h
    | cons c t =>
      cases h
      have h0 : l = [] :: splitByte 47 t := by rw [← hsplit, splitByte, if_pos rfl]
      exact (hn.2.2.1 [] [] (splitByte 47 t) (by rw [h0]; rfl) (splitByte_ne 47 t)).1 rfl
  unfold segs splitPath
  simp only
  have hXp : trimSpace (47 :: t) <+: 47 :: t := by rw [trimSpace, trimLeftSpace_slash]; exact trimRightSpace_prefix _
  have hY : 47 :: trimByte 47 (trimSpace (47 :: t)) <+: 47 :: t := by
    cases hX : trimSpace (47 :: t) with
    | nil => exact List.cons_prefix_cons.2 ⟨rfl, List.nil_prefix⟩
    | cons a u =>
      rw [hX] at hXp
      obtain ⟨ha, hu⟩ := List.cons_prefix_cons.1 hXp
      rw [ha]
      unfold trimByte trimLeftByte
      have hd : (47 :: u).dropWhile (· == 47) = u := by
        rw [List.dropWhile_cons_of_pos (by rfl)]
        cases u with
        | nil => rfl
        | cons b u =>
          rw [List.dropWhile_cons_of_neg]
          intro hb
          have hb' : b = 47 := by simpa using hb
          obtain ⟨r, hr⟩ := hu
          rw [← hr, hb'] at htop
          exact htop rfl
      rw [hd]
      exact List.cons_prefix_cons.2 ⟨rfl, (rdropWhile_isPrefix _ u).trans hu⟩
  generalize trimByte 47 (trimSpace (47 :: t)) = Y at hY
  have hZp : trimSpace (47 :: Y) <+: 47 :: Y := by rw [trimSpace, trimLeftSpace_slash]; exact trimRightSpace_prefix _
  split
  · exact List.nil_prefix
  · rename_i hc
    cases hZ : trimSpace (47 :: Y) with
    | nil => rw [hZ] at hc; exact absurd (Or.inr rfl) hc
    | cons a v =>
      rw [hZ] at hZp
      have ha : a = 47 := (List.cons_prefix_cons.1 hZp).1
      rw [ha, splitByte, if_pos rfl]
      simp only [List.tail_cons]
      subst ha
      rw [ofSegs_split]
      exact hZp.trans hY

/-- What a literal prefix matches. -/
theorem match_literals {L : List Str} {ps : List Pat} {ss : List Str} {b : List (Str × Str)}
    (h : matchRoute (L.map Pat.lit ++ ps) ss = some b) : L <+: ss := by
  induction L generalizing ss with
  | nil => exact List.nil_prefix
  | cons s L ih =>
    cases ss with
    | nil => simp [matchRoute] at h
    | cons x ss =>
      simp only [List.map_cons, List.cons_append, matchRoute] at h
      split at h
      · rename_i he
        exact List.cons_prefix_cons.2 ⟨he, ih h⟩
      · cases h

/-- A route matches paths of its own length only. -/
theorem match_len_eq {ps : List Pat} {ss : List Str} {b : List (Str × Str)} (h : matchRoute ps ss = some b) :
    ps.length = ss.length := by
  induction ps generalizing ss b with
  | nil =>
    cases ss with
    | nil => rfl
    | cons x ss => simp [matchRoute] at h
  | cons p ps ih =>
    cases ss with
    | nil => cases p <;> simp [matchRoute] at h
    | cons x ss =>
      cases p with
      | lit t =>
        simp only [matchRoute] at h
        split at h
        · simp [ih h]
        · cases h
      | par n =>
        simp only [matchRoute, Option.map_eq_some_iff] at h
        obtain ⟨b', hb, -⟩ := h
        simp [ih hb]

theorem ofSegs_prefix {a b : List Str} (h : a <+: b) : ofSegs a <+: ofSegs b := by
  obtain ⟨r, rfl⟩ := h
  rw [ofSegs_append]
  exact List.prefix_append _ _

/-- A path that a route below the prefix matches begins with the prefix. -/
theorem below_prefix {L : List Str} {route raw : Str} {b : List (Str × Str)} (hb : Below L route)
    (h : matchRoute ((segs route).map segPat) (segs (normalizePath raw)) = some b) : ofSegs L <+: normalizePath raw := by
  obtain ⟨ps, hps⟩ := hb
  rw [← hps] at h
  exact (ofSegs_prefix (match_literals h)).trans (segs_prefix raw)

/-- If the route goes on after the prefix, the path has a slash after it. -/
theorem below_prefix_slash {L : List Str} {route raw : Str} {b : List (Str × Str)} (hb : Below L route)
    (hlen : L.length < (segs route).length)
    (h : matchRoute ((segs route).map segPat) (segs (normalizePath raw)) = some b) :
    ofSegs L ++ [47] <+: normalizePath raw := by
  have hl := match_len_eq h
  obtain ⟨ps, hps⟩ := hb
  rw [← hps] at h
  obtain ⟨ss, hss⟩ := match_literals h
  cases ss with
  | nil =>
    rw [← hss] at hl
    simp at hl
    omega
  | cons s ss =>
    refine List.IsPrefix.trans ?_ (segs_prefix raw)
    rw [← hss, ofSegs_append]
    exact ⟨s ++ ofSegs ss, by simp [ofSegs]⟩

/-- A lookup that yields a route below the prefix is for a path that begins with it (in every history, clean or not). -/
theorem below_found {σ : Type} (hist : List (Reg σ)) (L : List Str) (hL : ∀ s ∈ L, s ≠ []) (m : Method) (raw : Str) (buf : Args)
    (res : FindResult σ) (h : treeFind (treeOf hist) m (normalizePath raw) buf = .ret res) (hf : res.found = true) :
    ∃ r ∈ hist, res.set = some r.set ∧ covers r.method m = true ∧
      (Below L r.route → (ofSegs L <+: normalizePath raw)) := by
  obtain ⟨-, r, hr, h1, h2, h3, h4⟩ := C02_any_history hist m _ buf res h hf
  refine ⟨r, hr, h1, h2, fun hb => ?_⟩
  obtain ⟨ps, hps⟩ := hb
  have h5 : ((segs r.route).map segPat).take L.length = L.map Pat.lit := by
    rw [← hps]
    have : L.length = (L.map Pat.lit).length := by simp
    rw [this, List.take_left]
  have hlit : ∀ s ∈ (segs r.route).take L.length, s.dropWhile (· == 58) ≠ [] := by
    intro s hs
    have h6 := h5
    rw [← List.map_take] at h6
    have : segPat s ∈ L.map Pat.lit := h6 ▸ List.mem_map.2 ⟨s, hs, rfl⟩
    obtain ⟨x, hxL, hx⟩ := List.mem_map.1 this
    cases s with
    | nil => simp [segPat] at hx; exact absurd hx (hL x hxL)
    | cons c s =>
      by_cases hc : c = 58
      · subst hc; simp [segPat] at hx
      · rw [List.dropWhile_cons_of_neg (by simpa using hc)]; simp
  obtain ⟨b, h7, -⟩ := h4 L.length hlit
  have h8 : (routePats r).take L.length = L.map Pat.lit ++ [] := by rw [List.append_nil]; exact h5
  rw [h8] at h7
  exact (ofSegs_prefix ((match_literals h7).trans (List.take_prefix _ _))).trans (segs_prefix raw)

section
variable {υ : Type} {σ ρ : Type} [DecidableEq ρ]
variable {env : Env υ} {rxMatch : ρ → Str → Bool} {visit : GoMap ρ (Option σ) → List (ρ × Option σ)}
  {srv : Srv υ σ ρ} {req : Req} {resp : Resp} {store : Args → υ} {buf : Args} {clock : Nat} {u : Str → Str}
  {ops : List AuthOp} {sv : Served υ}

/-- C102.  Authentication is on, and the access function asks for credentials whenever the path begins with the literal
segments `L`.  A request that is processed without accepted credentials, whatever its target, matches no route below `L`;
and the handler set its lookup yields, in every registration history, was registered under a route that is not below `L`. -/
theorem C102_covered (hist : List (Reg σ)) (L : List Str) (htree : srv.tree = treeOf hist) (w : WireReq) (hpath : req.path = wirePath w)
    (huse : saidUse ops false = true) (f : Req → Bool) (hf : saidAccess ops (some fun _ => true) = some f)
    (hask : ∀ r : Req, ofSegs L <+: r.path → f r = true)
    (h : serveHTTP u env rxMatch visit srv (authOf ops) req resp store buf clock = .ret sv)
    (hran : sv.ran.isSome = true) (hno : ¬ Accepted u (saidRoles ops []) req.auth) :
    (∀ r ∈ hist, Below L r.route → matchRoute (routePats r) (segs req.path) = none) ∧
    ((∀ s ∈ L, s ≠ []) → ∀ res, treeFind srv.tree req.method req.path buf = .ret res → res.found = true →
      ∃ r ∈ hist, res.set = some r.set ∧ covers r.method req.method = true ∧ ¬ Below L r.route) := by
  have hnp : ¬ ofSegs L <+: req.path := by
    intro hp
    rcases (C26_gate ops h).1.1 hran with h1 | ⟨f', h1, h2⟩ | h1
    · rw [huse] at h1; cases h1
    · rw [hf] at h1; cases h1
      rw [hask req hp] at h2; cases h2
    · exact hno h1
  constructor
  · intro r _ hb
    cases hm : matchRoute (routePats r) (segs req.path) with
    | none => rfl
    | some b =>
      refine absurd ?_ hnp
      rw [hpath] at hm ⊢
      exact below_prefix hb hm
  · intro hL res ht hfound
    rw [htree, hpath] at ht
    obtain ⟨r, h1, h2, h3, h4⟩ := below_found hist L hL _ _ _ _ ht hfound
    exact ⟨r, h1, h2, h3, fun hb => hnp (by rw [hpath]; exact h4 hb)⟩

/-- C102, with the slash: it is enough to ask for paths that begin with `L` and a slash, for the routes that go on after `L`. -/
theorem C102_slash (hist : List (Reg σ)) (L : List Str) (w : WireReq) (hpath : req.path = wirePath w)
    (huse : saidUse ops false = true) (f : Req → Bool) (hf : saidAccess ops (some fun _ => true) = some f)
    (hask : ∀ r : Req, ofSegs L ++ [47] <+: r.path → f r = true)
    (h : serveHTTP u env rxMatch visit srv (authOf ops) req resp store buf clock = .ret sv)
    (hran : sv.ran.isSome = true) (hno : ¬ Accepted u (saidRoles ops []) req.auth) :
    ∀ r ∈ hist, Below L r.route → L.length < (segs r.route).length → matchRoute (routePats r) (segs req.path) = none := by
  intro r _ hb hlen
  cases hm : matchRoute (routePats r) (segs req.path) with
  | none => rfl
  | some b =>
    exfalso
    have hp : ofSegs L ++ [47] <+: req.path := by
      rw [hpath] at hm ⊢
      exact below_prefix_slash hb hlen hm
    rcases (C26_gate ops h).1.1 hran with h1 | ⟨f', h1, h2⟩ | h1
    · rw [huse] at h1; cases h1
    · rw [hf] at h1; cases h1
      rw [hask req hp] at h2; cases h2
    · exact hno h1

end

/-- An access function that compares the whole path misses a route: the lookup also answers for the path with a slash or a
blank after it. -/
theorem access_equal_insufficient :
    treeFind (treeOf [(⟨b!"GET", b!"/admin", 1⟩ : Reg Nat)]) b!"GET" (wirePath ⟨b!"/admin/", [], []⟩) [] = .ret ⟨some 1, true, []⟩ ∧
    treeFind (treeOf [(⟨b!"GET", b!"/admin", 1⟩ : Reg Nat)]) b!"GET" (wirePath ⟨b!"/admin%20", [], []⟩) [] = .ret ⟨some 1, true, []⟩ ∧
    wirePath ⟨b!"/admin/", [], []⟩ ≠ b!"/admin" ∧ wirePath ⟨b!"/admin%20", [], []⟩ ≠ b!"/admin" := by
  decide +kernel

/-- Routes below "/admin". -/
example : Below [b!"admin"] b!"/admin/users/:id" ∧ Below [b!"admin"] b!"/admin" ∧ ¬ Below [b!"admin"] b!"/:any/users" := by
  refine ⟨⟨[.lit b!"users", .par b!"id"], by decide +kernel⟩, ⟨[], by decide +kernel⟩, ?_⟩
  rintro ⟨t, h⟩
  have : ((segs b!"/:any/users").map segPat).head? = some (.lit b!"admin") := by rw [← h]; rfl
  exact absurd this (by decide +kernel)

/-! ### C103 -/

theorem challenge_last (ops : List AuthOp) (m c : Str) :
    challenge ops (b!"Basic realm=\"" ++ m ++ b!"\", charset=\"" ++ c ++ b!"\"") =
      b!"Basic realm=\"" ++ (lastMessage ops (m, c)).1 ++ b!"\", charset=\"" ++ (lastMessage ops (m, c)).2 ++ b!"\"" := by
  induction ops generalizing m c with
  | nil => rfl
  | cons op ops ih => cases op <;> first | exact ih m c | exact ih _ _

theorem readQuoted_end (t : Str) : readQuoted (34 :: t) = some ([], t) := by
  rw [readQuoted.eq_def]
  rfl

theorem readQuoted_plain {m : Str} (h1 : (34 : UInt8) ∉ m) (h2 : (92 : UInt8) ∉ m) (t : Str) :
    readQuoted (m ++ 34 :: t) = some (m, t) := by
  induction m with
  | nil => exact readQuoted_end t
  | cons c m ih =>
    simp only [List.mem_cons, not_or] at h1 h2
    rw [List.cons_append, readQuoted.eq_def]
    simp only
    rw [if_neg (Ne.symm h1.1), if_neg (Ne.symm h2.1), ih h1.2 h2.2]
    rfl

theorem readQuoted_ahead (n : Nat) : ∀ (m : Str), m.length ≤ n → ∀ (t v r : Str) (j : Nat), readQuoted (m ++ 34 :: t) = some (v, r) →
    v ≠ List.replicate (j + 1) 92 ++ m := by
  induction n with
  | zero =>
    intro m hm t v r j h
    have : m = [] := List.length_eq_zero_iff.1 (by omega)
    subst this
    rw [List.nil_append, readQuoted_end] at h
    cases h
    simp [List.replicate_succ]
  | succ n ih =>
    intro m hm t v r j h
    cases m with
    | nil =>
      rw [List.nil_append, readQuoted_end] at h
      cases h
      simp [List.replicate_succ]
    | cons c m =>
      rw [List.cons_append, readQuoted.eq_def] at h
      simp only at h
      split at h
      · cases h
        simp [List.replicate_succ]
      · split at h
        · rename_i hc
          subst hc
          cases m with
          | nil =>
            simp only [List.nil_append, Option.map_eq_some_iff, Prod.mk.injEq] at h
            obtain ⟨a, -, h1, -⟩ := h
            rw [← h1]
            simp [List.replicate_succ]
          | cons d m =>
            simp only [List.cons_append, Option.map_eq_some_iff, Prod.mk.injEq] at h
            obtain ⟨a, h0, h1, h2⟩ := h
            intro he
            rw [← h1, List.replicate_succ, List.cons_append] at he
            obtain ⟨hd, ha⟩ := List.cons.inj he
            subst hd
            refine ih m (by simp at hm; omega) t a.1 a.2 (j + 1) h0 ?_
            rw [ha]
            have : ∀ k : Nat, List.replicate k (92 : UInt8) ++ 92 :: 92 :: m = List.replicate (k + 2) 92 ++ m := by
              intro k
              induction k with
              | zero => rfl
              | succ k ih => rw [List.replicate_succ, List.cons_append, ih]; rfl
            exact this j
        · rename_i hc
          simp only [Option.map_eq_some_iff, Prod.mk.injEq] at h
          obtain ⟨a, -, h1, -⟩ := h
          rw [← h1]
          intro he
          rw [List.replicate_succ, List.cons_append] at he
          exact hc (List.cons.inj he).1

/-- A quoted text is read as it was meant only if it has neither quotes nor backslashes. -/
theorem readQuoted_exact {m t : Str} : ∀ {r : Str}, readQuoted (m ++ 34 :: t) = some (m, r) → (34 : UInt8) ∉ m ∧ (92 : UInt8) ∉ m := by
  induction m with
  | nil => simp
  | cons c m ih =>
    intro r h
    rw [List.cons_append, readQuoted.eq_def] at h
    simp only at h
    split at h
    · cases h
    · rename_i h34
      split at h
      · rename_i hc
        subst hc
        exfalso
        cases m with
        | nil =>
          simp only [List.nil_append, Option.map_eq_some_iff, Prod.mk.injEq] at h
          obtain ⟨a, -, h1, -⟩ := h
          simp at h1
        | cons d m =>
          simp only [List.cons_append, Option.map_eq_some_iff, Prod.mk.injEq] at h
          obtain ⟨a, h0, h1, -⟩ := h
          obtain ⟨hd, ha⟩ := List.cons.inj h1
          subst hd
          exact readQuoted_ahead _ m (Nat.le_refl _) t a.1 a.2 0 h0 ha
      · rename_i h92
        simp only [Option.map_eq_some_iff, Prod.mk.injEq] at h
        obtain ⟨a, h0, h1, -⟩ := h
        have ha := (List.cons.inj h1).2
        obtain ⟨k1, k2⟩ := ih (r := a.2) (by rw [h0, ← ha])
        simp only [List.mem_cons, not_or]
        exact ⟨⟨Ne.symm h34, k1⟩, Ne.symm h92, k2⟩

/-- What is read was written. -/
theorem readQuoted_mem (n : Nat) : ∀ (s v r : Str), s.length ≤ n → readQuoted s = some (v, r) → (∀ c ∈ v, c ∈ s) ∧ (∀ c ∈ r, c ∈ s) := by
  induction n with
  | zero =>
    intro s v r hs h
    have : s = [] := List.length_eq_zero_iff.1 (by omega)
    subst this
    simp [readQuoted] at h
  | succ n ih =>
    intro s v r hs h
    cases s with
    | nil => simp [readQuoted] at h
    | cons c t =>
      rw [readQuoted.eq_def] at h
      simp only at h
      split at h
      · cases h
        exact ⟨by simp, fun c hc => List.mem_cons_of_mem _ hc⟩
      · split at h
        · cases t with
          | nil => cases h
          | cons d t =>
            simp only [Option.map_eq_some_iff, Prod.mk.injEq] at h
            obtain ⟨a, h0, h1, h2⟩ := h
            obtain ⟨k1, k2⟩ := ih t a.1 a.2 (by simp at hs; omega) h0
            subst h1 h2
            constructor
            · intro x hx
              rcases List.mem_cons.1 hx with rfl | hx
              · simp
              · exact List.mem_cons_of_mem _ (List.mem_cons_of_mem _ (k1 x hx))
            · exact fun x hx => List.mem_cons_of_mem _ (List.mem_cons_of_mem _ (k2 x hx))
        · simp only [Option.map_eq_some_iff, Prod.mk.injEq] at h
          obtain ⟨a, h0, h1, h2⟩ := h
          obtain ⟨k1, k2⟩ := ih t a.1 a.2 (by simp at hs; omega) h0
          subst h1 h2
          constructor
          · intro x hx
            rcases List.mem_cons.1 hx with rfl | hx
            · simp
            · exact List.mem_cons_of_mem _ (k1 x hx)
          · exact fun x hx => List.mem_cons_of_mem _ (k2 x hx)

theorem headerValue_append (a b : Str) : headerValue (a ++ b) = headerValue a ++ headerValue b := List.map_append

theorem headerValue_id {m : Str} (h1 : (10 : UInt8) ∉ m) (h2 : (13 : UInt8) ∉ m) : headerValue m = m := by
  unfold headerValue
  conv => rhs; rw [← List.map_id m]
  apply List.map_congr_left
  intro c hc
  rw [if_neg]
  · rfl
  · rintro (rfl | rfl)
    · exact h1 hc
    · exact h2 hc

theorem headerValue_no (m : Str) : (10 : UInt8) ∉ headerValue m ∧ (13 : UInt8) ∉ headerValue m := by
  constructor <;>
  · intro h
    obtain ⟨c, -, hc⟩ := List.mem_map.1 h
    split at hc
    · cases hc
    · rename_i hn
      subst hc
      exact hn (by simp)

/-- A quoted text, after its line breaks have been replaced, is read as it was meant iff it is quotable. -/
theorem readQuoted_iff (m t r : Str) (ht : t = headerValue t) :
    readQuoted (headerValue m ++ 34 :: t) = some (m, r) ↔ Quotable m ∧ r = t := by
  constructor
  · intro h
    have hmem := (readQuoted_mem _ _ _ _ (Nat.le_refl _) h).1
    have hno : ∀ c ∈ m, c ≠ 10 ∧ c ≠ 13 := by
      intro c hc
      have := hmem c hc
      rw [ht] at this
      rcases List.mem_append.1 this with h1 | h1
      · exact ⟨fun e => (headerValue_no m).1 (e ▸ h1), fun e => (headerValue_no m).2 (e ▸ h1)⟩
      · rcases List.mem_cons.1 h1 with h1 | h1
        · subst h1; decide
        · exact ⟨fun e => (headerValue_no t).1 (e ▸ h1), fun e => (headerValue_no t).2 (e ▸ h1)⟩
    have h10 : (10 : UInt8) ∉ m := fun hc => (hno _ hc).1 rfl
    have h13 : (13 : UInt8) ∉ m := fun hc => (hno _ hc).2 rfl
    rw [headerValue_id h10 h13] at h
    obtain ⟨h34, h92⟩ := readQuoted_exact h
    rw [readQuoted_plain h34 h92] at h
    cases h
    exact ⟨⟨h34, h92, h10, h13⟩, rfl⟩
  · rintro ⟨⟨h34, h92, h10, h13⟩, rfl⟩
    rw [headerValue_id h10 h13, readQuoted_plain h34 h92]

theorem readParams_ne (n : Nat) (s : Str) : readParams n s ≠ some [] := by
  intro h
  cases n with
  | zero => cases h
  | succ n =>
    rw [readParams.eq_def] at h
    simp only at h
    split at h
    · cases h
    · split at h
      · cases h
      · simp only [Option.map_eq_some_iff] at h
        obtain ⟨_, -, h⟩ := h
        cases h
      · cases h

theorem readParams_last {n : Nat} {s : Str} {p : Str × Str} (h : readParams n s = some [p]) : readParam s = some (p, []) := by
  cases n with
  | zero => cases h
  | succ n =>
    rw [readParams.eq_def] at h
    simp only at h
    split at h
    · cases h
    · rename_i p' rest hp
      split at h
      · cases h; exact hp
      · simp only [Option.map_eq_some_iff] at h
        obtain ⟨l, hl, h⟩ := h
        obtain ⟨-, rfl⟩ := List.cons.inj h
        exact absurd hl (readParams_ne _ _)
      · cases h

theorem readParams_two {n : Nat} {s : Str} {p q : Str × Str} {l : List (Str × Str)} (h : readParams (n + 1) s = some (p :: q :: l)) :
    ∃ more, readParam s = some (p, 44 :: more) ∧ readParams n (more.dropWhile (· == 32)) = some (q :: l) := by
  rw [readParams.eq_def] at h
  simp only at h
  split at h
  · cases h
  · rename_i p' rest hp
    split at h
    · cases h
    · rename_i more
      simp only [Option.map_eq_some_iff] at h
      obtain ⟨l', hl, h⟩ := h
      obtain ⟨rfl, rfl⟩ := List.cons.inj h
      exact ⟨more, hp, hl⟩
    · cases h

/-- The challenge reads as it was meant iff both texts are quotable. -/
theorem readChallenge_iff (m c : Str) :
    readChallenge (headerValue (b!"Basic realm=\"" ++ m ++ b!"\", charset=\"" ++ c ++ b!"\"")) =
        some (b!"Basic", [(b!"realm", m), (b!"charset", c)]) ↔ Quotable m ∧ Quotable c := by
  have e : headerValue (b!"Basic realm=\"" ++ m ++ b!"\", charset=\"" ++ c ++ b!"\"") =
      b!"Basic realm=\"" ++ (headerValue m ++ 34 :: (b!", charset=\"" ++ (headerValue c ++ [34]))) := by
    simp only [headerValue_append, List.append_assoc]
    rfl
  have ht : b!", charset=\"" ++ (headerValue c ++ [34]) = headerValue (b!", charset=\"" ++ (headerValue c ++ [34])) := by
    rw [headerValue_append, headerValue_append, headerValue_id (headerValue_no c).1 (headerValue_no c).2]
    rfl
  have hp : ∀ x : Str, readParam (b!"realm=\"" ++ x) = (readQuoted x).map fun r => ((b!"realm", r.1), r.2) := fun x => rfl
  have hp' : ∀ x : Str, readParam (b!"charset=\"" ++ x) = (readQuoted x).map fun r => ((b!"charset", r.1), r.2) := fun x => rfl
  rw [e]
  obtain ⟨k, hk⟩ : ∃ k, (b!"Basic realm=\"" ++ (headerValue m ++ 34 :: (b!", charset=\"" ++ (headerValue c ++ [34])))).length = k + 2 :=
    ⟨(b!"sic realm=\"" ++ (headerValue m ++ 34 :: (b!", charset=\"" ++ (headerValue c ++ [34])))).length, rfl⟩
  have hcut : ∀ x : Str, ((b!"Basic realm=\"" ++ x).dropWhile (· != 32) |>.drop 1) = b!"realm=\"" ++ x := fun x => rfl
  have htake : ∀ x : Str, (b!"Basic realm=\"" ++ x).takeWhile (· != 32) = b!"Basic" := fun x => rfl
  have hcut' : ∀ x : Str, (b!" charset=\"" ++ x).dropWhile (· == 32) = b!"charset=\"" ++ x := fun x => rfl
  unfold readChallenge
  rw [hk, hcut, htake]
  constructor
  · intro h
    simp only [Option.map_eq_some_iff, Prod.mk.injEq, true_and] at h
    obtain ⟨ps, h, rfl⟩ := h
    obtain ⟨more, h1, h2⟩ := readParams_two h
    rw [hp] at h1
    simp only [Option.map_eq_some_iff, Prod.mk.injEq, true_and] at h1
    obtain ⟨⟨q1, q2⟩, h1, h3, h4⟩ := h1
    simp only at h3 h4
    subst h3
    obtain ⟨hm, hr⟩ := (readQuoted_iff _ _ _ ht).1 h1
    have hmore : more = b!" charset=\"" ++ (headerValue c ++ [34]) := by
      have : (44 : UInt8) :: more = 44 :: (b!" charset=\"" ++ (headerValue c ++ [34])) := h4.symm.trans hr
      exact (List.cons.inj this).2
    rw [hmore, hcut'] at h2
    have h5 := readParams_last h2
    rw [hp'] at h5
    simp only [Option.map_eq_some_iff, Prod.mk.injEq, true_and] at h5
    obtain ⟨⟨q1', q2'⟩, h5, h6, h7⟩ := h5
    simp only at h6 h7
    subst h6 h7
    exact ⟨hm, ((readQuoted_iff _ [] _ rfl).1 h5).1⟩
  · rintro ⟨hm, hc⟩
    have h1 := (readQuoted_iff m _ _ ht).2 ⟨hm, rfl⟩
    have h2 := (readQuoted_iff c [] _ rfl).2 ⟨hc, rfl⟩
    have h3 : readParam (b!"charset=\"" ++ (headerValue c ++ [34])) = some ((b!"charset", c), []) := by rw [hp', h2]; rfl
    have h4 : readParam (b!"realm=\"" ++ (headerValue m ++ 34 :: (b!", charset=\"" ++ (headerValue c ++ [34])))) =
        some ((b!"realm", m), 44 :: (b!" charset=\"" ++ (headerValue c ++ [34]))) := by rw [hp, h1]; rfl
    have h5 : readParams (k + 1) (b!"charset=\"" ++ (headerValue c ++ [34])) = some [(b!"charset", c)] := by
      rw [readParams.eq_def]
      simp only
      rw [h3]
    have h6 : readParams (k + 2) (b!"realm=\"" ++ (headerValue m ++ 34 :: (b!", charset=\"" ++ (headerValue c ++ [34])))) =
        some [(b!"realm", m), (b!"charset", c)] := by
      rw [readParams.eq_def]
      simp only
      rw [h4]
      show (readParams (k + 1) ((b!" charset=\"" ++ (headerValue c ++ [34])).dropWhile (· == 32))).map _ = _
      rw [hcut', h5]
      rfl
    rw [h6]
    rfl

section
variable {υ : Type} {σ ρ : Type} [DecidableEq ρ]
variable {env : Env υ} {rxMatch : ρ → Str → Bool} {visit : GoMap ρ (Option σ) → List (ρ × Option σ)}
  {srv : Srv υ σ ρ} {req : Req} {resp : Resp} {store : Args → υ} {buf : Args} {clock : Nat} {u : Str → Str}
  {ops : List AuthOp} {sv : Served υ}

/-- C103, the first half, exactly.  A request without credentials that the access function asks about is answered 401,
nothing runs, and the one WWW-Authenticate header, as it is sent, reads (RFC 7235) as scheme Basic with the realm and the
charset of the last SetMessage if and only if neither text has a quote, a backslash or a line break. -/
theorem C103_exact (huse : saidUse ops false = true) (f : Req → Bool) (hf : saidAccess ops (some fun _ => true) = some f)
    (hask : f req = true) (hauth : req.auth = [])
    (h : serveHTTP u env rxMatch visit srv (authOf ops) req resp store buf clock = .ret sv) :
    sv.ran = none ∧ sv.resp.status = 401 ∧ sv.resp.body = resp.body ∧
    ∃ v, sv.resp.headers.filter (fun e => e.1 = b!"WWW-Authenticate") = [(b!"WWW-Authenticate", v)] ∧
      (readChallenge (headerValue v) = some (b!"Basic",
          [(b!"realm", (lastMessage ops (b!"Access to the staging site", b!"UTF-8")).1),
           (b!"charset", (lastMessage ops (b!"Access to the staging site", b!"UTF-8")).2)]) ↔
        Quotable (lastMessage ops (b!"Access to the staging site", b!"UTF-8")).1 ∧
        Quotable (lastMessage ops (b!"Access to the staging site", b!"UTF-8")).2) := by
  obtain ⟨h1, h2⟩ := C26_gate ops h
  have hran : sv.ran = none := by
    cases hr : sv.ran with
    | none => rfl
    | some d =>
      exfalso
      rcases h1.1 (by rw [hr]; rfl) with h3 | ⟨f', h3, h4⟩ | h3
      · rw [huse] at h3; cases h3
      · rw [hf] at h3; cases h3; rw [hask] at h4; cases h4
      · rw [hauth] at h3
        exact malformed_refused u _ [] (Or.inl rfl) h3
  obtain ⟨h3, h4, h5⟩ := h2 hran
  refine ⟨hran, h3, h4, _, h5, ?_⟩
  have := challenge_last ops b!"Access to the staging site" b!"UTF-8"
  have e : b!"Basic realm=\"" ++ b!"Access to the staging site" ++ b!"\", charset=\"" ++ b!"UTF-8" ++ b!"\"" =
      b!"Basic realm=\"Access to the staging site\", charset=\"UTF-8\"" := rfl
  rw [e] at this
  rw [this]
  exact readChallenge_iff _ _

/-- C103, the second half: the client repeats the request with the standard header for an entry of the table.  Whatever the
access function says, the request is processed exactly as by the same server without authentication. -/
theorem C103_repeat (huse : saidUse ops false = true) (hlog : saidLog ops none ≠ some true)
    (hf : (saidAccess ops (some fun _ => true)).isSome = true) (user pass : Str)
    (hu : user ≠ []) (hc : 58 ∉ user) (hlow : toLower u user = user) (hp : 58 ∉ pass)
    (hr : (saidRoles ops []).get? user = some pass) (req' : Req) (hreq : req' = { req with auth := basicHeader user pass }) :
    (∀ sv, serveHTTP u env rxMatch visit srv (authOf ops) req' resp store buf clock = .ret sv →
      serveHTTP u env rxMatch visit srv { authOf ops with use := false } req' resp store buf clock = .ret ⟨[], sv.ran, sv.resp⟩) ∧
    (∀ sv', serveHTTP u env rxMatch visit srv { authOf ops with use := false } req' resp store buf clock = .ret sv' →
      ∃ sv, serveHTTP u env rxMatch visit srv (authOf ops) req' resp store buf clock = .ret sv ∧ sv.ran = sv'.ran ∧ sv.resp = sv'.resp) := by
  obtain ⟨e1, e2, e3, e4⟩ := authOf_said ops
  rw [← e1] at huse
  rw [← e2] at hr
  rw [← e3] at hf
  rw [← e4] at hlog
  have hlog : (authOf ops).useLogFunc = true → (authOf ops).logNil = false := by
    intro hu
    rw [if_pos hu] at hlog
    cases hn : (authOf ops).logNil with
    | false => rfl
    | true => exact absurd (by rw [hn]) hlog
  obtain ⟨log, hl⟩ := C30_login_partial u (authOf ops) huse hlog user pass hu hc hlow hp hr resp
  have ha : req'.auth = basicHeader user pass := by rw [hreq]
  obtain ⟨f, hf⟩ := Option.isSome_iff_exists.1 hf
  have off : serveHTTP u env rxMatch visit srv { authOf ops with use := false } req' resp store buf clock =
      (runHTTP env rxMatch visit srv req'.method req'.path resp store buf clock).bind fun d => .ret ⟨[], some d, d.resp⟩ := rfl
  have on : ∃ lg, serveHTTP u env rxMatch visit srv (authOf ops) req' resp store buf clock =
      (runHTTP env rxMatch visit srv req'.method req'.path resp store buf clock).bind fun d => .ret ⟨lg, some d, d.resp⟩ := by
    unfold serveHTTP
    simp only [huse, if_true, hf, ha, hl, Outcome.bind_ret, not_true_eq_false, if_false]
    split
    · exact ⟨log, rfl⟩
    · exact ⟨[], rfl⟩
  obtain ⟨lg, on⟩ := on
  rw [off, on]
  cases runHTTP env rxMatch visit srv req'.method req'.path resp store buf clock with
  | panic => exact ⟨fun _ h => (by cases h), fun _ h => (by cases h)⟩
  | outOfFuel => exact ⟨fun _ h => (by cases h), fun _ h => (by cases h)⟩
  | ret d =>
    refine ⟨fun sv h => ?_, fun sv h => ?_⟩
    · cases h; rfl
    · cases h; exact ⟨_, rfl, rfl, rfl⟩

/-- C103 (partial).  The whole dialogue, for messages without quotes, backslashes and line breaks: the first answer tells
the client scheme, realm and charset, and the repeated request is processed as without authentication. -/
theorem C103_dialogue_partial (huse : saidUse ops false = true) (hlog : saidLog ops none ≠ some true)
    (f : Req → Bool) (hf : saidAccess ops (some fun _ => true) = some f) (hask : f req = true) (hauth : req.auth = [])
    (m c : Str) (hm : lastMessage ops (b!"Access to the staging site", b!"UTF-8") = (m, c)) (hqm : Quotable m) (hqc : Quotable c)
    (user pass : Str) (hu : user ≠ []) (hc : 58 ∉ user) (hlow : toLower u user = user) (hp : 58 ∉ pass)
    (hr : (saidRoles ops []).get? user = some pass)
    (h : serveHTTP u env rxMatch visit srv (authOf ops) req resp store buf clock = .ret sv) :
    (sv.ran = none ∧ sv.resp.status = 401 ∧
      ∃ v, sv.resp.headers.filter (fun e => e.1 = b!"WWW-Authenticate") = [(b!"WWW-Authenticate", v)] ∧
        readChallenge (headerValue v) = some (b!"Basic", [(b!"realm", m), (b!"charset", c)])) ∧
    ∀ sv', serveHTTP u env rxMatch visit srv { authOf ops with use := false } { req with auth := basicHeader user pass } resp store buf clock = .ret sv' →
      ∃ sv, serveHTTP u env rxMatch visit srv (authOf ops) { req with auth := basicHeader user pass } resp store buf clock = .ret sv ∧
        sv.ran = sv'.ran ∧ sv.resp = sv'.resp := by
  obtain ⟨h1, h2, -, v, h3, h4⟩ := C103_exact huse f hf hask hauth h
  rw [hm] at h4
  refine ⟨⟨h1, h2, v, h3, h4.2 ⟨hqm, hqc⟩⟩, ?_⟩
  exact (C103_repeat huse hlog (by rw [hf]; rfl) user pass hu hc hlow hp hr _ rfl).2

end

/-- C103 is violated for a message with quotes: the client reads another realm (here: an empty one, and no charset), so that
what it is told is not what was configured. -/
theorem C103_violated (m c : Str) (h : ¬ (Quotable m ∧ Quotable c)) :
    readChallenge (headerValue (authOf [.setUse true, .setMessage m c]).header) ≠
      some (b!"Basic", [(b!"realm", m), (b!"charset", c)]) :=
  fun he => h ((readChallenge_iff m c).1 he)

/-- Concretely: a realm "x", y="z" forges a parameter; one that ends in a backslash swallows the rest. -/
example : readChallenge (headerValue (authOf [.setUse true, .setMessage b!"x\", y=\"z" b!"UTF-8"]).header) =
      some (b!"Basic", [(b!"realm", b!"x"), (b!"y", b!"z"), (b!"charset", b!"UTF-8")]) ∧
    readChallenge (headerValue (authOf [.setUse true, .setMessage b!"C:\\" b!"UTF-8"]).header) = none ∧
    readChallenge (headerValue (authOf [.setUse true, .setMessage b!"staff only" b!"UTF-8"]).header) =
      some (b!"Basic", [(b!"realm", b!"staff only"), (b!"charset", b!"UTF-8")]) := by decide +kernel

namespace AccessEx
open ChainEx ReqEx

/-- Everything below "/a" asks for credentials. -/
def ops : List AuthOp := [.setUse true, .setRoles [(b!"alice", b!"pw")], .setMessage b!"staff" b!"latin1",
  .setCheckAccess (some fun r => hasPrefix r.path b!"/a")]

def serve (target auth : Str) : Option (Bool × Nat × List (Str × Str)) :=
  match serveHTTP id lazy (fun _ _ => false) id (server 5 none set1 empty) (authOf ops) ⟨mGet, wirePath ⟨target, [], []⟩, auth⟩
    ⟨200, [], []⟩ (fun a => a.length) [] 0 with
  | .ret s => some (s.ran.isSome, s.resp.status, s.resp.headers)
  | _ => none

-- C102: "/b" is open; the spellings of a path below "/a" are all covered
example : serve b!"/b" [] = some (true, 200, []) ∧
    (serve b!"/a/7" []).map (·.1) = some false ∧ (serve b!"/%61/7/" []).map (·.1) = some false ∧
    (serve b!"/b/../a/7%20" []).map (·.1) = some false ∧ (serve b!"//a//./7" []).map (·.1) = some false := by decide +kernel
example : Below [b!"a"] b!"/a/:id" ∧ ∀ r : Req, ofSegs [b!"a"] <+: r.path → hasPrefix r.path b!"/a" = true :=
  ⟨⟨[.par b!"id"], by decide +kernel⟩, fun r h => List.isPrefixOf_iff_prefix.2 h⟩
-- C103: the dialogue
example : serve b!"/a/7" [] = some (false, 401, [(b!"WWW-Authenticate", b!"Basic realm=\"staff\", charset=\"latin1\"")]) ∧
    serve b!"/a/7" (basicHeader b!"alice" b!"pw") = some (true, 200, []) :=
  ⟨by decide +kernel, by decide +kernel⟩

end AccessEx

end Verif
