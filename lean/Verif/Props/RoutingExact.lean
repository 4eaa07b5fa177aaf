import Verif.Props.Routing
/-
C03 and C07, exactly: which lookups succeed, and what one more registration does to a lookup that succeeds.
-/
namespace Verif
open Spec
variable {σ : Type}

/-! ### The order of branches -/

theorem sameBranch_symm {R : List (List Pat)} {n i j : Nat} (h : sameBranch R n i j) : sameBranch R n j i :=
  fun k hk => (h k hk).symm

theorem sameBranch_trans {R : List (List Pat)} {n i j l : Nat} (h : sameBranch R n i j) (h' : sameBranch R n j l) :
    sameBranch R n i l := fun k hk => (h k hk).trans (h' k hk)

theorem outranks_asymm {R : List (List Pat)} {n i j : Nat} (h : outranks R n i j) (h' : outranks R n j i) : False := by
  obtain ⟨k, hk, h1, h2⟩ := h
  obtain ⟨l, hl, h3, h4⟩ := h'
  rcases Nat.lt_trichotomy k l with c | c | c
  · have := h4 k c; omega
  · subst c; omega
  · have := h2 l c; omega

theorem outranks_not_same {R : List (List Pat)} {n i j : Nat} (h : outranks R n i j) (h' : sameBranch R n i j) : False := by
  obtain ⟨k, hk, h1, -⟩ := h
  have := h' k hk; omega

/-- Any two registrations are comparable. -/
theorem branch_trichotomy (R : List (List Pat)) (n i j : Nat) :
    outranks R n i j ∨ sameBranch R n i j ∨ outranks R n j i := by
  induction n with
  | zero =>
    rcases Nat.lt_trichotomy (birth R i 0) (birth R j 0) with h | h | h
    · exact Or.inl ⟨0, Nat.le_refl _, h, fun l hl => absurd hl (Nat.not_lt_zero _)⟩
    · refine Or.inr (Or.inl fun k hk => ?_)
      have : k = 0 := by omega
      subst this; exact h
    · exact Or.inr (Or.inr ⟨0, Nat.le_refl _, h, fun l hl => absurd hl (Nat.not_lt_zero _)⟩)
  | succ n ih =>
    rcases ih with ⟨k, hk, h⟩ | h | ⟨k, hk, h⟩
    · exact Or.inl ⟨k, by omega, h⟩
    · rcases Nat.lt_trichotomy (birth R i (n + 1)) (birth R j (n + 1)) with c | c | c
      · exact Or.inl ⟨n + 1, Nat.le_refl _, c, fun l hl => h l (by omega)⟩
      · refine Or.inr (Or.inl fun k hk => ?_)
        by_cases e : k = n + 1
        · subst e; exact c
        · exact h k (by omega)
      · exact Or.inr (Or.inr ⟨n + 1, Nat.le_refl _, c, fun l hl => (h l (by omega)).symm⟩)
    · exact Or.inr (Or.inr ⟨k, by omega, h⟩)

/-- Adding a registration does not change the age of a branch. -/
theorem birth_append (R S : List (List Pat)) (i k : Nat) (hi : i < R.length) : birth (R ++ S) i k = birth R i k := by
  unfold birth
  rw [List.getElem?_append_left hi]
  cases h : R[i]? with
  | none => rfl
  | some p =>
    simp only
    split
    · rw [List.findIdx_append, if_pos]
      rw [List.findIdx_lt_length]
      exact ⟨p, List.mem_of_getElem? h, by simp⟩
    · rfl

theorem outranks_append (R S : List (List Pat)) (n i j : Nat) (hi : i < R.length) (hj : j < R.length) :
    outranks (R ++ S) n i j ↔ outranks R n i j := by
  simp only [outranks, birth_append R S _ _ hi, birth_append R S _ _ hj]

theorem sameBranch_append (R S : List (List Pat)) (n i j : Nat) (hi : i < R.length) (hj : j < R.length) :
    sameBranch (R ++ S) n i j ↔ sameBranch R n i j := by
  simp only [sameBranch, birth_append R S _ _ hi, birth_append R S _ _ hj]

theorem find_total (hist : List (Reg σ)) (hclean : ∀ r ∈ hist, Clean r) (m : Method) (path : Str) (buf : Args) :
    ∃ res, treeFind (treeOf hist) m path buf = .ret res ∧ (res.found = false → res = ⟨none, false, []⟩) ∧
      (res.found = true → ∃ s, res.set = some s) := by
  rw [find_clean hclean]
  refine ⟨_, rfl, ?_, ?_⟩
  · cases serve (hist.map Reg.toRoute) m (segs path) <;> simp [specResult, FindResult.notFound]
  · cases serve (hist.map Reg.toRoute) m (segs path) <;> simp [specResult, FindResult.notFound]

/-! ### C03 -/

/-- The oldest of the branches that compete for a path: registration `i` competes, and every other competitor is outranked
by it or on the same branch. -/
def Spec.oldest (routes : List (List Pat)) (path : List Str) (i : Nat) : Prop :=
  ∃ p, routes[i]? = some p ∧ competes p path = true ∧
    ∀ (j : Nat) q, routes[j]? = some q → competes q path = true →
      outranks routes path.length i j ∨ sameBranch routes path.length i j

/-- **C03, exactly**: a path is found for a method iff on the oldest branch that competes for it some route ends there and
covers the method. -/
theorem C03_exact (hist : List (Reg σ)) (hclean : ∀ r ∈ hist, Clean r) (m : Method) (path : Str) (buf : Args) :
    (∃ s args, treeFind (treeOf hist) m path buf = .ret ⟨some s, true, args⟩) ↔
    ∃ i j r, oldest (hist.map routePats) (segs path) i ∧ hist[j]? = some r ∧
      sameBranch (hist.map routePats) (segs path).length i j ∧
      (matchRoute (routePats r) (segs path)).isSome = true ∧ covers r.method m = true := by
  constructor
  · rintro ⟨s, args, h⟩
    obtain ⟨i, r, hi, -, h2, h3, h4⟩ := C04_arbitration hist hclean m path buf _ h rfl
    refine ⟨i, i, r, ⟨routePats r, by simp [hi], competes_of_match h3, ?_⟩, hi, fun _ _ => rfl, by rw [h3]; rfl, h2⟩
    intro j q hj hq
    rw [List.getElem?_map, Option.map_eq_some_iff] at hj
    obtain ⟨o, ho, rfl⟩ := hj
    rcases h4 j o ho hq with h | h
    · exact Or.inl h
    · exact Or.inr h.1
  · rintro ⟨i, j, r, ⟨p, hp, hc, hold⟩, hj, hsame, hm, hcov⟩
    obtain ⟨res, hres, -, hset⟩ := find_total hist hclean m path buf
    cases hf : res.found with
    | true =>
      obtain ⟨s, hs⟩ := hset hf
      refine ⟨s, res.args, ?_⟩
      rw [hres]
      cases res; simp_all
    | false =>
      exfalso
      rw [List.getElem?_map, Option.map_eq_some_iff] at hp
      obtain ⟨o, ho, rfl⟩ := hp
      obtain ⟨k, q, hk, hkc, hkold, hknone⟩ := C04_not_found hist hclean m path buf res hres hf
        ⟨o, List.mem_of_getElem? ho, hc⟩
      have hik : sameBranch (hist.map routePats) (segs path).length k i := by
        rcases hkold i o ho hc with h | h
        · rcases hold k _ (by simp [hk]) hkc with h' | h'
          · exact (outranks_asymm h h').elim
          · exact sameBranch_symm h'
        · exact h
      have := hknone j r hj (sameBranch_trans hik hsame) hm
      rw [hcov] at this; cases this

example :
    let hist : List (Reg Nat) := [⟨b!"GET", b!"/a/x", 1⟩, ⟨b!"GET", b!"/:p/b", 2⟩, ⟨b!"GET", b!"/a/b", 3⟩]
    (∀ r ∈ hist, Clean r) ∧ competes (routePats ⟨b!"GET", b!"/a/b", 3⟩) (segs b!"/a/b") = true ∧
      treeFind (treeOf hist) b!"GET" b!"/a/b" [] = .ret ⟨some 3, true, []⟩ := by decide +kernel

/-! ### C07 -/

/-- **C07, exactly**: what one more registration does to a lookup that succeeds.  There is a registration `i` that is
served; if the new route does not compete for the path, or is outranked by it, nothing changes; if it is on the same branch
only the handler set may change; if it outranks it, the lookup now gives the new route if that matches and covers the
method, and fails otherwise. These are all cases. -/
theorem C07_exact (hist : List (Reg σ)) (new : Reg σ) (hclean : ∀ r ∈ hist ++ [new], Clean r) (m : Method) (path : Str)
    (buf buf' : Args) (s : σ) (args : Args) (hfound : treeFind (treeOf hist) m path buf = .ret ⟨some s, true, args⟩) :
    ∃ i r, hist[i]? = some r ∧ r.set = s ∧ matchRoute (routePats r) (segs path) = some args ∧ covers r.method m = true ∧
      let R := (hist ++ [new]).map routePats
      let n := (segs path).length
      (competes (routePats new) (segs path) = false ∨ outranks R n i hist.length →
        treeFind (treeOf (hist ++ [new])) m path buf' = .ret ⟨some s, true, args⟩) ∧
      (sameBranch R n i hist.length → competes (routePats new) (segs path) = true →
        treeFind (treeOf (hist ++ [new])) m path buf' = .ret ⟨some (if covers new.method m ∧
          (matchRoute (routePats new) (segs path)).isSome then new.set else s), true, args⟩) ∧
      (outranks R n hist.length i → competes (routePats new) (segs path) = true →
        treeFind (treeOf (hist ++ [new])) m path buf' =
          match matchRoute (routePats new) (segs path), covers new.method m with
          | some b, true => .ret ⟨some new.set, true, b⟩
          | _, _ => .ret ⟨none, false, []⟩) ∧
      (outranks R n i hist.length ∨ sameBranch R n i hist.length ∨ outranks R n hist.length i) := by
  have hclean0 : ∀ r ∈ hist, Clean r := fun r hr => hclean r (List.mem_append_left _ hr)
  obtain ⟨i, r, hi, h1, h2, h3, h4⟩ := C04_arbitration hist hclean0 m path buf _ hfound rfl
  simp only [Option.some.injEq] at h1
  simp only at h3
  have hil : i < hist.length := by
    rcases Nat.lt_or_ge i hist.length with h | h
    · exact h
    · rw [List.getElem?_eq_none h] at hi; cases hi
  have hRl : ((hist.map routePats).length) = hist.length := by simp
  have hR : (hist ++ [new]).map routePats = hist.map routePats ++ [routePats new] := by simp
  have hgi : (hist ++ [new])[i]? = some r := by rw [List.getElem?_append_left hil]; exact hi
  have hgn : (hist ++ [new])[hist.length]? = some new := by simp
  obtain ⟨res, hres, hnf, hset⟩ := find_total (hist ++ [new]) hclean m path buf'
  -- the lookup afterwards: what can have happened
  have outcome :
      (res = ⟨some s, true, args⟩ ∧ (competes (routePats new) (segs path) = true →
        outranks ((hist ++ [new]).map routePats) (segs path).length i hist.length ∨
        (sameBranch ((hist ++ [new]).map routePats) (segs path).length i hist.length ∧
          ¬ (covers new.method m = true ∧ (matchRoute (routePats new) (segs path)).isSome = true)))) ∨
      (∃ b, res = ⟨some new.set, true, b⟩ ∧ competes (routePats new) (segs path) = true ∧
        matchRoute (routePats new) (segs path) = some b ∧ covers new.method m = true ∧
        (outranks ((hist ++ [new]).map routePats) (segs path).length hist.length i ∨
         sameBranch ((hist ++ [new]).map routePats) (segs path).length i hist.length)) ∨
      (res = ⟨none, false, []⟩ ∧ competes (routePats new) (segs path) = true ∧
        outranks ((hist ++ [new]).map routePats) (segs path).length hist.length i ∧
        ¬ (covers new.method m = true ∧ (matchRoute (routePats new) (segs path)).isSome = true)) := by
    cases hf : res.found with
    | true =>
      obtain ⟨j, o, hj, j1, j2, j3, j4⟩ := C04_arbitration _ hclean m path buf' res hres hf
      by_cases hjn : j = hist.length
      · subst hjn
        rw [hgn] at hj
        cases hj
        refine Or.inr (Or.inl ⟨res.args, ?_, competes_of_match j3, j3, j2, ?_⟩)
        · cases res; simp_all
        · rcases j4 i r hgi (competes_of_match h3) with h | h
          · exact Or.inl h
          · exact Or.inr (sameBranch_symm h.1)
      · have hjl : j < hist.length := by
          rcases Nat.lt_or_ge j (hist ++ [new]).length with h | h
          · simp at h; omega
          · rw [List.getElem?_eq_none h] at hj; cases hj
        have hj0 : hist[j]? = some o := by rw [List.getElem?_append_left hjl] at hj; exact hj
        have hij : i = j := by
          have a := h4 j o hj0 (competes_of_match j3)
          have b := j4 i r hgi (competes_of_match h3)
          rw [hR, outranks_append _ _ _ _ _ (by omega) (by omega), sameBranch_append _ _ _ _ _ (by omega) (by omega)] at b
          rcases a with a | ⟨a, a'⟩
          · rcases b with b | ⟨b, -⟩
            · exact (outranks_asymm a b).elim
            · exact (outranks_not_same a (sameBranch_symm b)).elim
          · rcases b with b | ⟨b, b'⟩
            · exact (outranks_not_same b (sameBranch_symm a)).elim
            · have e1 := a' j2 (by rw [j3]; rfl)
              have e2 := b' h2 (by rw [h3]; rfl)
              omega
        subst hij
        rw [hj0] at hi
        cases hi
        rw [h3] at j3
        refine Or.inl ⟨?_, ?_⟩
        · cases res; simp_all
        · intro hc
          rcases j4 _ new hgn hc with h | ⟨h, h'⟩
          · exact Or.inl h
          · refine Or.inr ⟨h, fun ⟨c1, c2⟩ => ?_⟩
            have := h' c1 c2
            omega
    | false =>
      refine Or.inr (Or.inr ?_)
      have hres0 := hnf hf
      obtain ⟨k, q, hk, hkc, hkold, hknone⟩ := C04_not_found _ hclean m path buf' res hres hf
        ⟨r, List.mem_of_getElem? hgi, competes_of_match h3⟩
      have hki : ¬ sameBranch ((hist ++ [new]).map routePats) (segs path).length k i := by
        intro h
        have := hknone i r hgi h (by rw [h3]; rfl)
        rw [h2] at this; cases this
      have hkr : outranks ((hist ++ [new]).map routePats) (segs path).length k i := by
        rcases hkold i r hgi (competes_of_match h3) with h | h
        · exact h
        · exact (hki h).elim
      by_cases hkn : k = hist.length
      · subst hkn
        rw [hgn] at hk
        cases hk
        refine ⟨hres0, hkc, hkr, ?_⟩
        rintro ⟨c1, c2⟩
        have := hknone _ new hgn (fun _ _ => rfl) c2
        rw [c1] at this; cases this
      · exfalso
        have hkl : k < hist.length := by
          rcases Nat.lt_or_ge k (hist ++ [new]).length with h | h
          · simp at h; omega
          · rw [List.getElem?_eq_none h] at hk; cases hk
        have hk0 : hist[k]? = some q := by rw [List.getElem?_append_left hkl] at hk; exact hk
        rw [hR, outranks_append _ _ _ _ _ (by omega) (by omega)] at hkr
        rcases h4 k q hk0 hkc with h | h
        · exact outranks_asymm h hkr
        · exact outranks_not_same hkr (sameBranch_symm h.1)
  refine ⟨i, r, hi, h1.symm, h3, h2, ?_⟩
  simp only
  have sb_args : ∀ b, sameBranch ((hist ++ [new]).map routePats) (segs path).length i hist.length →
      matchRoute (routePats new) (segs path) = some b → b = args := by
    intro b hsb hb
    have hn := hsb (segs path).length (Nat.le_refl _)
    unfold birth at hn
    rw [List.getElem?_map, hgi, List.getElem?_map, hgn] at hn
    simp only [Option.map_some] at hn
    have li := (matchRoute_bindings _ _ _ h3).1
    have ln := (matchRoute_bindings _ _ _ hb).1
    have key : routePats new = routePats r := by
      rw [← li, List.take_length] at hn
      have ln' : (routePats new).take (routePats r).length = routePats new := by rw [li, ← ln, List.take_length]
      rw [ln'] at hn
      by_cases c1 : allLit (routePats r) = true
      · by_cases c2 : allLit (routePats new) = true
        · rw [if_pos c1, if_pos c2] at hn
          have e1 : ∃ q ∈ (hist ++ [new]).map routePats, decide (q.take (routePats r).length = routePats r) = true :=
            ⟨routePats r, List.mem_map.2 ⟨r, List.mem_of_getElem? hgi, rfl⟩, by simp⟩
          have l1 := List.findIdx_lt_length.2 e1
          have f1 := List.findIdx_getElem (w := l1)
          have e2 : ∃ q ∈ (hist ++ [new]).map routePats, decide (q.take (routePats r).length = routePats new) = true :=
            ⟨routePats new, List.mem_map.2 ⟨new, by simp, rfl⟩, by simp [ln']⟩
          have l2 := List.findIdx_lt_length.2 e2
          have f2 := List.findIdx_getElem (w := l2)
          simp only [decide_eq_true_eq] at f1 f2
          have hx : ∀ a b (ha : a < ((hist ++ [new]).map routePats).length) (hb : b < ((hist ++ [new]).map routePats).length),
              a = b → ((hist ++ [new]).map routePats)[a] = ((hist ++ [new]).map routePats)[b] := by
            intro a b ha hb e; subst e; rfl
          have := hx _ _ l1 l2 hn
          rw [this] at f1
          rw [← f1, f2]
        · exfalso
          rw [if_pos c1, if_neg c2] at hn
          have hi' : i < ((hist ++ [new]).map routePats).length := by simp; omega
          have hri : ((hist ++ [new]).map routePats)[i] = routePats r := by
            have := hgi
            rw [List.getElem?_eq_getElem (by simp; omega)] at this
            simp only [Option.some.injEq] at this
            rw [List.getElem_map, this]
          have := List.not_of_lt_findIdx (p := fun q => decide (q.take (routePats r).length = routePats r))
            (xs := (hist ++ [new]).map routePats) (i := i) (by rw [hn]; exact hil)
          rw [hri] at this
          simp at this
      · exfalso
        rw [if_neg c1] at hn
        by_cases c2 : allLit (routePats new) = true
        · rw [if_pos c2] at hn
          have e2 : ∃ q ∈ (hist ++ [new]).map routePats, decide (q.take (routePats r).length = routePats new) = true :=
            ⟨routePats new, List.mem_map.2 ⟨new, by simp, rfl⟩, by simp [ln']⟩
          have l2 := List.findIdx_lt_length.2 e2
          have f2 := List.findIdx_getElem (w := l2)
          simp only [decide_eq_true_eq] at f2
          have hx : ∀ a b (ha : a < ((hist ++ [new]).map routePats).length) (hb : b < ((hist ++ [new]).map routePats).length),
              a = b → ((hist ++ [new]).map routePats)[a] = ((hist ++ [new]).map routePats)[b] := by
            intro a b ha hb e; subst e; rfl
          have hi' : i < ((hist ++ [new]).map routePats).length := by simp; omega
          rw [← hx i _ hi' l2 hn] at f2
          have : ((hist ++ [new]).map routePats)[i] = routePats r := by
            have := hgi
            rw [List.getElem?_eq_getElem (by simp; omega)] at this
            simp only [Option.some.injEq] at this
            rw [List.getElem_map, this]
          rw [this, List.take_length] at f2
          rw [f2] at c1; exact c1 c2
        · rw [if_neg c2] at hn; omega
    rw [key, h3] at hb
    exact (Option.some.inj hb).symm
  refine ⟨?_, ?_, ?_, ?_⟩
  · intro hc
    rw [hres]
    rcases outcome with ⟨e, -⟩ | ⟨b, -, c1, -, -, c2⟩ | ⟨-, c1, c2, -⟩
    · rw [e]
    · rcases hc with hc | hc
      · rw [hc] at c1; cases c1
      · rcases c2 with c2 | c2
        · exact (outranks_asymm hc c2).elim
        · exact (outranks_not_same hc c2).elim
    · rcases hc with hc | hc
      · rw [hc] at c1; cases c1
      · exact (outranks_asymm hc c2).elim
  · intro hsb hc
    rw [hres]
    rcases outcome with ⟨e, hx⟩ | ⟨b, e, c1, cm, cc, c2⟩ | ⟨-, c1, c2, -⟩
    · rcases hx hc with h | ⟨-, h⟩
      · exact (outranks_not_same h hsb).elim
      · rw [e, if_neg h]
    · rw [e, if_pos ⟨cc, by rw [cm]; rfl⟩, sb_args b hsb cm]
    · exact (outranks_not_same c2 (sameBranch_symm hsb)).elim
  · intro ho hc
    rw [hres]
    rcases outcome with ⟨e, hx⟩ | ⟨b, e, c1, cm, cc, c2⟩ | ⟨e, c1, c2, c3⟩
    · rcases hx hc with h | ⟨h, -⟩
      · exact (outranks_asymm h ho).elim
      · exact (outranks_not_same ho (sameBranch_symm h)).elim
    · rw [e, cm, cc]
    · rw [e]
      cases hm : matchRoute (routePats new) (segs path) with
      | none => rfl
      | some b =>
        cases hcv : covers new.method m with
        | false => rfl
        | true => exact (c3 ⟨hcv, by rw [hm]; rfl⟩).elim
  · exact branch_trichotomy _ _ _ _

/-- The three cases on one table: `/a/x` and `/:p/b` are registered, `/a/b` is asked for. -/
example :
    let hist : List (Reg Nat) := [⟨b!"GET", b!"/a/x", 1⟩, ⟨b!"GET", b!"/:p/b", 2⟩]
    treeFind (treeOf hist) b!"GET" b!"/a/b" [] = .ret ⟨some 2, true, [(b!"p", b!"a")]⟩ ∧
      treeFind (treeOf (hist ++ [⟨b!"GET", b!"/:q/b", 3⟩])) b!"GET" b!"/a/b" [] = .ret ⟨some 2, true, [(b!"p", b!"a")]⟩ ∧
      treeFind (treeOf (hist ++ [⟨b!"GET", b!"/a/b", 3⟩])) b!"GET" b!"/a/b" [] = .ret ⟨some 3, true, []⟩ ∧
      treeFind (treeOf (hist ++ [⟨b!"POST", b!"/a/b", 3⟩])) b!"GET" b!"/a/b" [] = .ret ⟨none, false, []⟩ := by decide +kernel

end Verif
