import Verif.Lemmas.TreeAdd
/-
Handler maps occurring anywhere in a tree: an invariant for ALL histories, with no condition on the
routes.
-/
namespace Verif
open Spec
variable {σ : Type}

/-- `h` is the handler map of some node of the tree. -/
inductive HIn (h : Handlers σ) : Node σ → Prop
  | here (p u : Str) (cs : List (Node σ)) : HIn h (.mk p u h cs)
  | child (p u : Str) (hs : Handlers σ) (cs : List (Node σ)) (c : Node σ) :
      c ∈ cs → HIn h c → HIn h (.mk p u hs cs)

theorem HIn.top (n : Node σ) : HIn n.handlers n := by
  cases n; exact HIn.here _ _ _

theorem newChain_HIn (m : Method) (s : Option σ) (ps : List Str) : ∀ (p : Str) (h : Handlers σ),
    HIn h (newChain m s p ps) → h = [] ∨ h = addMethod m [] s := by
  induction ps with
  | nil =>
    intro p h hh
    simp only [newChain] at hh
    cases hh with
    | here => exact Or.inr rfl
    | child _ _ _ _ c hc => simp at hc
  | cons q qs ih =>
    intro p h hh
    simp only [newChain] at hh
    cases hh with
    | here => exact Or.inl rfl
    | child _ _ _ _ c hc hin =>
      simp only [List.mem_singleton] at hc; subst hc
      exact ih q h hin

/-- Maps after `_add`: old ones, old ones with the method added, or fresh ones. -/
def AddedMap (m : Method) (s : Option σ) (n : Node σ) (h : Handlers σ) : Prop :=
  HIn h n ∨ h = [] ∨ ∃ h0, (HIn h0 n ∨ h0 = []) ∧ h = addMethod m h0 s

theorem addRec_HIn (m : Method) (s : Option σ) (ps : List Str) : ∀ (p : Str) (n : Node σ) (h : Handlers σ),
    HIn h (addRec m s p ps n) → AddedMap m s n h := by
  have lift : ∀ (np nu : Str) (nh : Handlers σ) (nc : List (Node σ)) (c : Node σ) (h : Handlers σ), c ∈ nc →
      AddedMap m s c h → AddedMap m s (.mk np nu nh nc) h := by
    intro np nu nh nc c h hc hh
    rcases hh with hh | hh | ⟨h0, hh0 | hh0, rfl⟩
    · exact Or.inl (HIn.child _ _ _ _ c hc hh)
    · exact Or.inr (Or.inl hh)
    · exact Or.inr (Or.inr ⟨h0, Or.inl (HIn.child _ _ _ _ c hc hh0), rfl⟩)
    · exact Or.inr (Or.inr ⟨h0, Or.inr hh0, rfl⟩)
  have newc : ∀ (p : Str) (ps : List Str) (n : Node σ) (h : Handlers σ), HIn h (newChain m s p ps) → AddedMap m s n h := by
    intro p ps n h hh
    rcases newChain_HIn m s ps p h hh with hh | hh
    · exact Or.inr (Or.inl hh)
    · exact Or.inr (Or.inr ⟨[], Or.inr rfl, hh⟩)
  induction ps with
  | nil =>
    intro p n h hh
    obtain ⟨np, nu, nh, nc⟩ := n
    simp only [addRec] at hh
    split at hh
    · cases hh with
      | here => exact Or.inl (HIn.here _ _ _)
      | child _ _ _ _ c hc hin =>
        rcases List.mem_append.1 hc with hc | hc
        · exact lift _ _ _ _ c h hc (Or.inl hin)
        · simp only [List.mem_singleton] at hc; subst hc
          exact newc _ _ _ _ hin
    · cases hh with
      | here => exact Or.inl (HIn.here _ _ _)
      | child _ _ _ _ c hc hin =>
        rw [List.mem_mapIdx] at hc
        obtain ⟨i, hi, rfl⟩ := hc
        have hmem : nc[i] ∈ nc := List.getElem_mem hi
        split at hin
        · refine lift _ _ _ _ _ h hmem ?_
          generalize nc[i] = c at hin
          cases c with
          | mk a b d e =>
            cases hin with
            | here => exact Or.inr (Or.inr ⟨d, Or.inl (HIn.here _ _ _), rfl⟩)
            | child _ _ _ _ c' hc' hin' => exact Or.inl (HIn.child _ _ _ _ c' hc' hin')
        · exact lift _ _ _ _ _ h hmem (Or.inl hin)
  | cons q qs ih =>
    intro p n h hh
    obtain ⟨np, nu, nh, nc⟩ := n
    simp only [addRec] at hh
    split at hh
    · cases hh with
      | here => exact Or.inl (HIn.here _ _ _)
      | child _ _ _ _ c hc hin =>
        rcases List.mem_append.1 hc with hc | hc
        · exact lift _ _ _ _ c h hc (Or.inl hin)
        · simp only [List.mem_singleton] at hc; subst hc
          exact newc _ _ _ _ hin
    · cases hh with
      | here => exact Or.inl (HIn.here _ _ _)
      | child _ _ _ _ c hc hin =>
        rw [List.mem_mapIdx] at hc
        obtain ⟨i, hi, rfl⟩ := hc
        have hmem : nc[i] ∈ nc := List.getElem_mem hi
        split at hin
        · exact lift _ _ _ _ _ h hmem (ih q _ h hin)
        · exact lift _ _ _ _ _ h hmem (Or.inl hin)

theorem treeAdd_HIn (t : Node σ) (m : Method) (route : Str) (s : Option σ) (h : Handlers σ)
    (hh : HIn h (treeAdd t m route s)) : AddedMap m s t h := by
  simp only [treeAdd] at hh
  split at hh
  · exact addRec_HIn _ _ _ _ _ _ hh
  · obtain ⟨a, b, d, e⟩ := t
    cases hh with
    | here => exact Or.inr (Or.inr ⟨d, Or.inl (HIn.here _ _ _), rfl⟩)
    | child _ _ _ _ c hc hin => exact Or.inl (HIn.child _ _ _ _ c hc hin)

/-- Every entry of every handler map of the tree comes from a registration covering its method. -/
theorem treeOf_entries (hist : List (Reg σ)) : ∀ h, HIn h (treeOf hist) → ∀ m s,
    h.get? m = some s → ∃ r ∈ hist, s = some r.set ∧ covers r.method m = true := by
  have key : ∀ (hist pre : List (Reg σ)) (t : Node σ),
      (∀ h, HIn h t → ∀ m s, h.get? m = some s → ∃ r ∈ pre, s = some r.set ∧ covers r.method m = true) →
      ∀ h, HIn h (hist.foldl (fun t r => treeAdd t r.method r.route (some r.set)) t) → ∀ m s,
        h.get? m = some s → ∃ r ∈ pre ++ hist, s = some r.set ∧ covers r.method m = true := by
    intro hist
    induction hist with
    | nil => intro pre t ht; simpa using ht
    | cons r hist ih =>
      intro pre t ht h hh m s hs
      simp only [List.foldl_cons] at hh
      have := ih (pre ++ [r]) (treeAdd t r.method r.route (some r.set)) (by
        intro h hh m s hs
        rcases treeAdd_HIn _ _ _ _ _ hh with hh | hh | ⟨h0, h0in, rfl⟩
        · obtain ⟨x, hx, hx'⟩ := ht h hh m s hs
          exact ⟨x, by simp [hx], hx'⟩
        · subst hh; simp [GoMap.get?] at hs
        · rw [addMethod_get] at hs
          split at hs
          · simp at hs; exact ⟨r, by simp, hs.symm, by assumption⟩
          · rcases h0in with h0in | rfl
            · obtain ⟨x, hx, hx'⟩ := ht h0 h0in m s hs
              exact ⟨x, by simp [hx], hx'⟩
            · simp [GoMap.get?] at hs) h hh m s hs
      simpa using this
  have := key hist [] newTree (by
    intro h hh m s hs
    cases hh with
    | here => simp [GoMap.get?] at hs
    | child _ _ _ _ c hc => simp at hc)
  simpa [treeOf] using this

theorem candsAt_HIn (ss : List Str) : ∀ (n : Node σ) (args : Args), ∀ c ∈ candsAt ss n args, HIn c.1 n := by
  induction ss with
  | nil => intro n args c hc; simp only [candsAt, List.mem_singleton] at hc; subst hc; exact HIn.top n
  | cons s ss ih =>
    intro n args c hc
    simp only [candsAt, List.mem_flatMap, List.mem_filter] at hc
    obtain ⟨x, ⟨hx, _⟩, hc⟩ := hc
    have := ih x _ c hc
    cases n with
    | mk a b d e => exact HIn.child _ _ _ _ x hx this

/-- What a lookup can find, on any tree. -/
theorem treeFind_found (t : Node σ) (m : Method) (path : Str) (buf : Args) (res : FindResult σ)
    (h : treeFind t m path buf = .ret res) :
    (∃ hs, HIn hs t ∧ ∃ s, hs.get? m = some (some s) ∧ res.set = some s ∧ res.found = true) ∨
      res = FindResult.notFound [] := by
  have dec : ∀ l : List (Handlers σ × Args), (∀ c ∈ l, HIn c.1 t) →
      (∃ hs, HIn hs t ∧ ∃ s, hs.get? m = some (some s) ∧ (decideFirst m [] l).set = some s ∧ (decideFirst m [] l).found = true) ∨
      decideFirst m [] l = FindResult.notFound [] := by
    intro l hl
    cases l with
    | nil => exact Or.inr rfl
    | cons c l =>
      obtain ⟨hs, a⟩ := c
      simp only [decideFirst]
      cases hg : hs.get? m with
      | none => exact Or.inr rfl
      | some o =>
        cases o with
        | none => exact Or.inr rfl
        | some s => exact Or.inl ⟨hs, hl (hs, a) (by simp), s, hg, rfl, rfl⟩
  rw [treeFind_eq] at h
  simp only [Outcome.ret.injEq] at h
  subst h
  split
  · exact dec _ (by simp [HIn.top])
  · split
    · exact Or.inr rfl
    · exact dec _ (candsAt_HIn _ _ _)

end Verif
