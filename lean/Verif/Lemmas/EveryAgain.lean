import Verif.Lemmas.EveryTree
/-
A list of registrations read twice, in the sense of Spec/Every.
-/
namespace Verif
open Spec
variable {σ : Type}

/-- A registration behind its first segment. -/
def Spec.Row.cut (r : Row σ) : Row σ := { r with segs := r.segs.tail }

/-- The registrations continuing with this segment, cut. -/
def rowsWith (t : Str) (X : List (Row σ)) : List (Row σ) := (X.filter fun r => decide (r.segs.head? = some t)).map Row.cut

/-- The other ones. -/
def rowsWithout (t : Str) (X : List (Row σ)) : List (Row σ) := X.filter fun r => !decide (r.segs.head? = some t)

/-- The registration ends here or continues with a parameter (or colons only). -/
def colonOrEnd (r : Row σ) : Prop := ∀ p, r.segs.head? = some p → p.head? = some 58

def colonForks (X : List (Row σ)) : List (Fork σ) :=
  X.filterMap fun r => match r.segs with
    | [] => none
    | p :: ps => if p.head? = some 58 then some ⟨segText p, segName p, [{ r with segs := ps }]⟩ else none

theorem segText_not_colon (p : Str) : (segText p).head? ≠ some 58 := by
  unfold segText
  split
  · simp
  · assumption

theorem foldl_fork_cons (f : Fork σ) (fs : List (Fork σ)) : ∀ (X : List (Row σ)) (rows : List (Row σ)),
    X.foldl (fork false) ({ f with rows := rows } :: fs) =
      { f with rows := rows ++ rowsWith f.text X } :: (rowsWithout f.text X).foldl (fork false) fs := by
  intro X
  induction X generalizing fs with
  | nil => intro rows; simp [rowsWith, rowsWithout]
  | cons r X ih =>
    intro rows
    rw [List.foldl_cons]
    cases hs : r.segs with
    | nil =>
      have h1 : fork false ({ f with rows := rows } :: fs) r = { f with rows := rows } :: fs := by simp [fork, hs]
      rw [h1, ih]
      have h2 : rowsWith f.text (r :: X) = rowsWith f.text X := by simp [rowsWith, hs]
      have h3 : rowsWithout f.text (r :: X) = r :: rowsWithout f.text X := by simp [rowsWithout, hs]
      have h4 : fork false fs r = fs := by simp [fork, hs]
      rw [h2, h3, List.foldl_cons, h4]
    | cons p ps =>
      by_cases hp : f.text = p
      · have h1 : fork false ({ f with rows := rows } :: fs) r = { f with rows := rows ++ [r.cut] } :: fs := by
          simp [fork, hs, forkFirst, hp, Fork.take, Row.cut]
        rw [h1, ih]
        have h2 : rowsWith f.text (r :: X) = r.cut :: rowsWith f.text X := by simp [rowsWith, hs, hp]
        have h3 : rowsWithout f.text (r :: X) = rowsWithout f.text X := by simp [rowsWithout, hs, hp]
        rw [h2, h3]
        simp
      · have h1 : fork false ({ f with rows := rows } :: fs) r = { f with rows := rows } :: fork false fs r := by
          simp [fork, hs, forkFirst, hp]
        rw [h1, ih]
        have h2 : rowsWith f.text (r :: X) = rowsWith f.text X := by simp [rowsWith, hs, Ne.symm hp]
        have h3 : rowsWithout f.text (r :: X) = r :: rowsWithout f.text X := by simp [rowsWithout, hs, Ne.symm hp]
        rw [h2, h3, List.foldl_cons]

theorem forkFirst_colon (p : Str) (r : Row σ) (hp : p.head? = some 58) : ∀ fs : List (Fork σ), (∀ f ∈ fs, f.text.head? ≠ some 58) →
    forkFirst p r fs = fs ++ [⟨segText p, segName p, [r]⟩] := by
  intro fs
  induction fs with
  | nil => intro _; rfl
  | cons f fs ih =>
    intro h
    have : ¬ f.text = p := by intro e; exact h f (by simp) (by rw [e]; exact hp)
    simp only [forkFirst, if_neg this, List.cons_append]
    rw [ih fun g hg => h g (by simp [hg])]

theorem foldl_fork_colon : ∀ (X : List (Row σ)) (fs : List (Fork σ)), (∀ r ∈ X, colonOrEnd r) → (∀ f ∈ fs, f.text.head? ≠ some 58) →
    X.foldl (fork false) fs = fs ++ colonForks X := by
  intro X
  induction X with
  | nil => intro fs _ _; simp [colonForks]
  | cons r X ih =>
    intro fs hX hfs
    rw [List.foldl_cons]
    cases hs : r.segs with
    | nil =>
      have h4 : fork false fs r = fs := by simp [fork, hs]
      rw [h4, ih fs (fun x hx => hX x (by simp [hx])) hfs]
      simp [colonForks, hs]
    | cons p ps =>
      have hp : p.head? = some 58 := hX r (by simp) p (by rw [hs]; rfl)
      have h4 : fork false fs r = fs ++ [⟨segText p, segName p, [{ r with segs := ps }]⟩] := by
        simp only [fork, hs, Bool.false_eq_true, false_and, if_false]
        exact forkFirst_colon p _ hp fs hfs
      rw [h4, ih _ (fun x hx => hX x (by simp [hx]))]
      · simp [colonForks, hs, hp]
      · intro f hf
        rcases List.mem_append.1 hf with h | h
        · exact hfs f h
        · simp only [List.mem_singleton] at h
          subst h
          exact segText_not_colon p

/-- What the ways to continue say about the registrations. -/
def RowsFit : List (Fork σ) → List (Row σ) → Prop
  | [], rows => ∀ r ∈ rows, colonOrEnd r
  | f :: fs, rows => rowsWith f.text rows <:+ f.rows ∧ RowsFit fs (rowsWithout f.text rows)

/-- The ways when some of the registrations are read again. -/
def again : List (Fork σ) → List (Row σ) → List (Fork σ)
  | [], _ => []
  | f :: fs, X => { f with rows := f.rows ++ rowsWith f.text X } :: again fs (rowsWithout f.text X)

theorem fits_fork : ∀ (fs : List (Fork σ)) (rows : List (Row σ)) (r : Row σ), RowsFit fs rows → RowsFit (fork false fs r) (rows ++ [r]) := by
  intro fs
  induction fs with
  | nil =>
    intro rows r h
    cases hs : r.segs with
    | nil =>
      have h4 : fork false ([] : List (Fork σ)) r = [] := by simp [fork, hs]
      rw [h4]
      intro x hx
      rcases List.mem_append.1 hx with hx | hx
      · exact h x hx
      · simp only [List.mem_singleton] at hx
        subst hx
        intro p hp
        rw [hs] at hp; cases hp
    | cons p ps =>
      have h4 : fork false ([] : List (Fork σ)) r = [⟨segText p, segName p, [r.cut]⟩] := by
        simp [fork, hs, forkFirst, Row.cut]
      rw [h4]
      have none : rowsWith (segText p) rows = [] := by
        simp only [rowsWith, List.map_eq_nil_iff, List.filter_eq_nil_iff, decide_eq_true_eq]
        intro x hx e
        exact segText_not_colon p (h x hx _ e)
      have happ : rowsWith (segText p) (rows ++ [r]) = rowsWith (segText p) rows ++ rowsWith (segText p) [r] := by simp [rowsWith]
      refine ⟨?_, ?_⟩
      · simp only
        rw [happ, none, List.nil_append]
        by_cases e : p = segText p
        · have : rowsWith (segText p) [r] = [r.cut] := by simp [rowsWith, hs, ← e]
          rw [this]; exact List.suffix_refl _
        · have : rowsWith (segText p) [r] = [] := by simp [rowsWith, hs, e]
          rw [this]; exact List.nil_suffix
      · intro x hx
        simp only [rowsWithout, List.mem_filter, List.mem_append, List.mem_singleton, Bool.not_eq_true', decide_eq_false_iff_not] at hx
        rcases hx with ⟨hx | hx, hne⟩
        · exact h x hx
        · subst hx
          intro q hq
          rw [hs, List.head?_cons, Option.some.injEq] at hq
          subst hq
          rw [hs, List.head?_cons, Option.some.injEq] at hne
          unfold segText at hne
          by_cases hc : p.head? = some 58
          · exact hc
          · rw [if_neg hc] at hne; exact absurd rfl hne
  | cons f fs ih =>
    intro rows r h
    obtain ⟨h1, h2⟩ := h
    have happ : ∀ t, rowsWith t (rows ++ [r]) = rowsWith t rows ++ rowsWith t [r] := by intro t; simp [rowsWith]
    have hapo : ∀ t, rowsWithout t (rows ++ [r]) = rowsWithout t rows ++ rowsWithout t [r] := by intro t; simp [rowsWithout]
    cases hs : r.segs with
    | nil =>
      have h4 : ∀ g : List (Fork σ), fork false g r = g := by intro g; simp [fork, hs]
      rw [h4]
      refine ⟨?_, ?_⟩
      · rw [happ]
        have : rowsWith f.text [r] = [] := by simp [rowsWith, hs]
        rw [this, List.append_nil]; exact h1
      · rw [hapo]
        have : rowsWithout f.text [r] = [r] := by simp [rowsWithout, hs]
        rw [this]
        have := ih _ r h2
        rwa [h4] at this
    | cons p ps =>
      by_cases hp : f.text = p
      · have h4 : fork false (f :: fs) r = { f with rows := f.rows ++ [r.cut] } :: fs := by
          simp [fork, hs, forkFirst, hp, Fork.take, Row.cut]
        rw [h4]
        refine ⟨?_, ?_⟩
        · simp only
          rw [happ]
          have : rowsWith f.text [r] = [r.cut] := by simp [rowsWith, hs, hp]
          rw [this]
          obtain ⟨a, ha⟩ := h1
          exact ⟨a, by rw [← ha, List.append_assoc]⟩
        · simp only
          rw [hapo]
          have : rowsWithout f.text [r] = [] := by simp [rowsWithout, hs, hp]
          rw [this, List.append_nil]; exact h2
      · have h4 : fork false (f :: fs) r = f :: fork false fs r := by simp [fork, hs, forkFirst, hp]
        rw [h4]
        refine ⟨?_, ?_⟩
        · rw [happ]
          have : rowsWith f.text [r] = [] := by simp [rowsWith, hs, Ne.symm hp]
          rw [this, List.append_nil]; exact h1
        · rw [hapo]
          have : rowsWithout f.text [r] = [r] := by simp [rowsWithout, hs, Ne.symm hp]
          rw [this]
          exact ih _ r h2

theorem fits_forks (rows : List (Row σ)) : RowsFit (forks false rows) rows := by
  have : ∀ (X done : List (Row σ)) (fs : List (Fork σ)), RowsFit fs done → RowsFit (X.foldl (fork false) fs) (done ++ X) := by
    intro X
    induction X with
    | nil => intro done fs h; simpa using h
    | cons r X ih =>
      intro done fs h
      have := ih (done ++ [r]) _ (fits_fork fs done r h)
      simpa using this
  have h := this rows [] [] (by intro r hr; cases hr)
  simpa [forks] using h

theorem texts_forks (rows : List (Row σ)) : ∀ f ∈ forks false rows, f.text.head? ≠ some 58 := by
  have first : ∀ (p : Str) (r : Row σ) (fs : List (Fork σ)), (∀ f ∈ fs, f.text.head? ≠ some 58) →
      ∀ f ∈ forkFirst p r fs, f.text.head? ≠ some 58 := by
    intro p r fs
    induction fs with
    | nil =>
      intro _ f hf
      simp only [forkFirst, List.mem_singleton] at hf
      subst hf
      exact segText_not_colon p
    | cons g fs ih =>
      intro h f hf
      simp only [forkFirst] at hf
      split at hf
      · rcases List.mem_cons.1 hf with rfl | hf
        · exact h g (by simp)
        · exact h f (by simp [hf])
      · rcases List.mem_cons.1 hf with rfl | hf
        · exact h _ (by simp)
        · exact ih (fun x hx => h x (by simp [hx])) f hf
  have : ∀ (X : List (Row σ)) (fs : List (Fork σ)), (∀ f ∈ fs, f.text.head? ≠ some 58) →
      ∀ f ∈ X.foldl (fork false) fs, f.text.head? ≠ some 58 := by
    intro X
    induction X with
    | nil => intro fs h; exact h
    | cons r X ih =>
      intro fs h
      refine ih _ ?_
      unfold fork
      cases r.segs with
      | nil => exact h
      | cons p ps =>
        simp only [Bool.false_eq_true, false_and, if_false]
        exact first p _ fs h
  exact this rows [] (by intro f hf; cases hf)

theorem colonForks_without (t : Str) (ht : t.head? ≠ some 58) (X : List (Row σ)) : colonForks (rowsWithout t X) = colonForks X := by
  induction X with
  | nil => rfl
  | cons r X ih =>
    unfold colonForks rowsWithout at ih ⊢
    cases hs : r.segs with
    | nil => rw [List.filter_cons_of_pos (by simp [hs])]; simp [hs, ih]
    | cons p ps =>
      by_cases hp : p = t
      · subst hp
        rw [List.filter_cons_of_neg (by simp [hs])]
        simp [hs, ht, ih]
      · rw [List.filter_cons_of_pos (by simp [hs, hp])]
        by_cases hc : p.head? = some 58
        · simp [hs, hc, ih]
        · simp [hs, hc, ih]

/-- Reading registrations again that the ways already know. -/
theorem foldl_again : ∀ (fs : List (Fork σ)) (rows X : List (Row σ)), RowsFit fs rows → (∀ x ∈ X, x ∈ rows) →
    (∀ f ∈ fs, f.text.head? ≠ some 58) → X.foldl (fork false) fs = again fs X ++ colonForks X := by
  intro fs
  induction fs with
  | nil =>
    intro rows X h hX _
    rw [foldl_fork_colon X [] (fun r hr => h r (hX r hr)) (by intro f hf; cases hf)]
    rfl
  | cons f fs ih =>
    intro rows X h hX ht
    have := foldl_fork_cons f fs X f.rows
    rw [show ({ f with rows := f.rows } : Fork σ) = f from rfl] at this
    rw [this, ih (rowsWithout f.text rows) (rowsWithout f.text X) h.2 ?_ fun g hg => ht g (by simp [hg]),
      colonForks_without _ (ht f (by simp))]
    · rfl
    · intro x hx
      simp only [rowsWithout, List.mem_filter] at hx ⊢
      exact ⟨hX x hx.1, hx.2⟩

/-! ### Monotony -/

/-- Every way is still there, with the registrations it had in front. -/
def Wider (fs gs : List (Fork σ)) : Prop := ∀ f ∈ fs, ∃ g ∈ gs, g.text = f.text ∧ g.name = f.name ∧ ∃ more, g.rows = f.rows ++ more

theorem wider_refl (fs : List (Fork σ)) : Wider fs fs := fun f hf => ⟨f, hf, rfl, rfl, [], by simp⟩

theorem wider_trans {a b c : List (Fork σ)} (h1 : Wider a b) (h2 : Wider b c) : Wider a c := by
  intro f hf
  obtain ⟨g, hg, a1, a2, m, a3⟩ := h1 f hf
  obtain ⟨k, hk, b1, b2, n, b3⟩ := h2 g hg
  exact ⟨k, hk, b1.trans a1, b2.trans a2, m ++ n, by rw [b3, a3, List.append_assoc]⟩

theorem wider_first (p : Str) (r : Row σ) (fs : List (Fork σ)) : Wider fs (forkFirst p r fs) := by
  induction fs with
  | nil => intro f hf; cases hf
  | cons g fs ih =>
    intro f hf
    simp only [forkFirst]
    by_cases hp : g.text = p
    · rw [if_pos hp]
      rcases List.mem_cons.1 hf with rfl | hf
      · exact ⟨f.take r, by simp, rfl, rfl, [r], rfl⟩
      · exact ⟨f, by simp [hf], rfl, rfl, [], by simp⟩
    · rw [if_neg hp]
      rcases List.mem_cons.1 hf with rfl | hf
      · exact ⟨f, by simp, rfl, rfl, [], by simp⟩
      · obtain ⟨k, hk, h⟩ := ih f hf
        exact ⟨k, by simp [hk], h⟩

theorem wider_fork (below : Bool) (fs : List (Fork σ)) (r : Row σ) : Wider fs (fork below fs r) := by
  unfold fork
  cases r.segs with
  | nil => exact wider_refl _
  | cons p ps =>
    simp only
    split
    · intro f hf
      exact ⟨f.take _, List.mem_map_of_mem hf, rfl, rfl, _, rfl⟩
    · exact wider_first p _ fs

theorem wider_forks (below : Bool) (rows more : List (Row σ)) : Wider (forks below rows) (forks below (rows ++ more)) := by
  unfold forks
  rw [List.foldl_append]
  generalize rows.foldl (fork below) [] = fs
  induction more generalizing fs with
  | nil => exact wider_refl _
  | cons r more ih => exact wider_trans (wider_fork below fs r) (ih _)

/-- A path that has a candidate keeps having one. -/
theorem choices_more (ss : List Str) : ∀ (below : Bool) (rows more : List (Row σ)), choices below (rows ++ more) ss = [] →
    choices below rows ss = [] := by
  induction ss with
  | nil => intro below rows more h; simp [choices] at h
  | cons s ss ih =>
    intro below rows more h
    simp only [choices, List.flatMap_eq_nil_iff] at h ⊢
    intro f hf
    obtain ⟨g, hg, h1, h2, m, h3⟩ := wider_forks below rows more f hf
    have := h g hg
    rw [h1, h2, h3] at this
    split
    · rename_i hn
      rw [if_pos hn] at this
      split
      · rename_i ht
        rw [if_pos ht] at this
        exact ih _ _ _ this
      · rfl
    · rename_i hn
      rw [if_neg hn, List.map_eq_nil_iff] at this
      rw [List.map_eq_nil_iff]
      exact ih _ _ _ this

/-- Every registration that continues with colons has a way of its own. -/
theorem own_fork : ∀ (rows : List (Row σ)), ∀ g ∈ colonForks rows, ∃ f ∈ forks false rows, f.text = g.text ∧ f.name = g.name ∧
    ∃ more, f.rows = g.rows ++ more := by
  have key : ∀ (X : List (Row σ)) (fs : List (Fork σ)), (∀ f ∈ fs, f.text.head? ≠ some 58) →
      ∀ g ∈ colonForks X, ∃ f ∈ X.foldl (fork false) fs, f.text = g.text ∧ f.name = g.name ∧ ∃ more, f.rows = g.rows ++ more := by
    intro X
    induction X with
    | nil => intro fs _ g hg; simp [colonForks] at hg
    | cons r X ih =>
      intro fs hfs g hg
      rw [List.foldl_cons]
      have hfs' : ∀ f ∈ fork false fs r, f.text.head? ≠ some 58 := by
        unfold fork
        cases r.segs with
        | nil => exact hfs
        | cons p ps =>
          simp only [Bool.false_eq_true, false_and, if_false]
          intro f hf
          have first : ∀ (fs : List (Fork σ)), (∀ f ∈ fs, f.text.head? ≠ some 58) →
              ∀ f ∈ forkFirst p { r with segs := ps } fs, f.text.head? ≠ some 58 := by
            intro fs
            induction fs with
            | nil =>
              intro _ f hf
              simp only [forkFirst, List.mem_singleton] at hf
              subst hf
              exact segText_not_colon p
            | cons g fs ih =>
              intro h f hf
              simp only [forkFirst] at hf
              split at hf
              · rcases List.mem_cons.1 hf with rfl | hf
                · exact h g (by simp)
                · exact h f (by simp [hf])
              · rcases List.mem_cons.1 hf with rfl | hf
                · exact h _ (by simp)
                · exact ih (fun x hx => h x (by simp [hx])) f hf
          exact first fs hfs f hf
      cases hs : r.segs with
      | nil =>
        refine ih _ hfs' g ?_
        simpa [colonForks, hs] using hg
      | cons p ps =>
        by_cases hp : p.head? = some 58
        · have e : colonForks (r :: X) = ⟨segText p, segName p, [{ r with segs := ps }]⟩ :: colonForks X := by
            simp [colonForks, hs, hp]
          rw [e] at hg
          rcases List.mem_cons.1 hg with rfl | hg
          · have h4 : fork false fs r = fs ++ [⟨segText p, segName p, [{ r with segs := ps }]⟩] := by
              simp only [fork, hs, Bool.false_eq_true, false_and, if_false]
              exact forkFirst_colon p _ hp fs hfs
            have hw : ∀ (X : List (Row σ)) (fs : List (Fork σ)), Wider fs (X.foldl (fork false) fs) := by
              intro X
              induction X with
              | nil => intro fs; exact wider_refl _
              | cons r X ih => intro fs; exact wider_trans (wider_fork false fs r) (ih _)
            obtain ⟨f, hf, h1, h2, h3⟩ := hw X (fork false fs r) ⟨segText p, segName p, [{ r with segs := ps }]⟩ (by rw [h4]; simp)
            exact ⟨f, hf, h1, h2, h3⟩
          · exact ih _ hfs' g hg
        · refine ih _ hfs' g ?_
          simpa [colonForks, hs, hp] using hg
  intro rows g hg
  exact key rows [] (by intro f hf; cases hf) g hg

end Verif
