import Verif.Lemmas.EveryAgain
import Verif.Props.Reload
/-
C136 and C137: every table of routes, also with empty segments and segments of colons only.
-/
namespace Verif
open Spec
variable {σ : Type}

/-- The first candidate after some of its registrations were read again. -/
def Longer (o o' : Option (List (Row σ) × List (Str × Str))) : Prop :=
  match o with
  | none => o' = none
  | some (rs, b) => ∃ Y, Y <:+ rs ∧ o' = some (rs ++ Y, b)

theorem longer_append {a a' b b' : List (List (Row σ) × List (Str × Str))} (h1 : Longer a.head? a'.head?) (h2 : Longer b.head? b'.head?) :
    Longer (a ++ b).head? (a' ++ b').head? := by
  rw [List.head?_append, List.head?_append]
  cases ha : a.head? with
  | none =>
    rw [ha] at h1
    have h1' : a'.head? = none := h1
    rw [h1']
    simpa using h2
  | some x =>
    rw [ha] at h1
    obtain ⟨Y, hY, e⟩ := h1
    rw [e]
    exact ⟨Y, hY, rfl⟩

theorem longer_map {a a' : List (List (Row σ) × List (Str × Str))} (x : Str × Str) (h : Longer a.head? a'.head?) :
    Longer (a.map fun c => (c.1, x :: c.2)).head? (a'.map fun c => (c.1, x :: c.2)).head? := by
  rw [List.head?_map, List.head?_map]
  cases ha : a.head? with
  | none =>
    rw [ha] at h
    have h' : a'.head? = none := h
    rw [h']
    rfl
  | some y =>
    rw [ha] at h
    obtain ⟨Y, hY, e⟩ := h
    rw [e]
    exact ⟨Y, hY, rfl⟩

theorem rowsWith_suffix (t : Str) {X rows : List (Row σ)} (h : X <:+ rows) : rowsWith t X <:+ rowsWith t rows := by
  obtain ⟨a, rfl⟩ := h
  exact ⟨rowsWith t a, by simp [rowsWith]⟩

theorem rowsWithout_suffix (t : Str) {X rows : List (Row σ)} (h : X <:+ rows) : rowsWithout t X <:+ rowsWithout t rows := by
  obtain ⟨a, rfl⟩ := h
  exact ⟨rowsWithout t a, by simp [rowsWithout]⟩

/-- What a way contributes to the candidates. -/
def share (s : Str) (ss : List Str) (f : Fork σ) : List (List (Row σ) × List (Str × Str)) :=
  if f.name = [] then if f.text = s then choices false f.rows ss else []
  else (choices true f.rows ss).map fun c => (c.1, (f.name, s) :: c.2)

theorem choices_cons (below : Bool) (rows : List (Row σ)) (s : Str) (ss : List Str) :
    choices below rows (s :: ss) = (forks below rows).flatMap (share s ss) := rfl

theorem again_longer (s : Str) (ss : List Str)
    (ih : ∀ (below : Bool) (rows X : List (Row σ)), X <:+ rows → Longer (choices below rows ss).head? (choices below (rows ++ X) ss).head?) :
    ∀ (fs : List (Fork σ)) (rows X : List (Row σ)), RowsFit fs rows → X <:+ rows →
      Longer (fs.flatMap (share s ss)).head? ((again fs X).flatMap (share s ss)).head? := by
  intro fs
  induction fs with
  | nil => intro rows X _ _; rfl
  | cons f fs ihf =>
    intro rows X h hX
    simp only [again, List.flatMap_cons]
    refine longer_append ?_ (ihf _ _ h.2 (rowsWithout_suffix _ hX))
    have hs : rowsWith f.text X <:+ f.rows := (rowsWith_suffix _ hX).trans h.1
    simp only [share]
    by_cases hn : f.name = []
    · rw [if_pos hn, if_pos hn]
      by_cases ht : f.text = s
      · rw [if_pos ht, if_pos ht]
        exact ih false _ _ hs
      · rw [if_neg ht, if_neg ht]; rfl
    · rw [if_neg hn, if_neg hn]
      exact longer_map _ (ih true _ _ hs)

/-- All registrations that go on, cut. -/
def rowsOn (X : List (Row σ)) : List (Row σ) := (X.filter fun r => !decide (r.segs = [])).map Row.cut

theorem rowsOn_suffix {X rows : List (Row σ)} (h : X <:+ rows) : rowsOn X <:+ rowsOn rows := by
  obtain ⟨a, rfl⟩ := h
  exact ⟨rowsOn a, by simp [rowsOn]⟩

theorem foldl_below (X : List (Row σ)) : ∀ f : Fork σ, X.foldl (fork true) [f] = [{ f with rows := f.rows ++ rowsOn X }] := by
  induction X with
  | nil => intro f; simp [rowsOn]
  | cons r X ih =>
    intro f
    rw [List.foldl_cons]
    cases hs : r.segs with
    | nil =>
      have : fork true [f] r = [f] := by simp [fork, hs]
      rw [this, ih]
      simp [rowsOn, hs]
    | cons p ps =>
      have : fork true [f] r = [{ f with rows := f.rows ++ [r.cut] }] := by simp [fork, hs, Fork.take, Row.cut]
      rw [this, ih]
      simp [rowsOn, hs]

/-- Below a parameter there is at most one way. -/
theorem forks_below : ∀ rows : List (Row σ), (forks true rows = [] ∧ rowsOn rows = []) ∨ ∃ f, forks true rows = [f] ∧ f.rows = rowsOn rows := by
  intro rows
  unfold forks
  induction rows with
  | nil => exact Or.inl ⟨rfl, rfl⟩
  | cons r rows ih =>
    rw [List.foldl_cons]
    cases hs : r.segs with
    | nil =>
      have h1 : fork true ([] : List (Fork σ)) r = [] := by simp [fork, hs]
      have h2 : rowsOn (r :: rows) = rowsOn rows := by simp [rowsOn, hs]
      rw [h1, h2]
      exact ih
    | cons p ps =>
      have h1 : fork true ([] : List (Fork σ)) r = [⟨segText p, segName p, [r.cut]⟩] := by simp [fork, hs, forkFirst, Row.cut]
      have h2 : rowsOn (r :: rows) = r.cut :: rowsOn rows := by simp [rowsOn, hs]
      rw [h1, h2, foldl_below]
      exact Or.inr ⟨_, rfl, rfl⟩

/-- Reading the last part of a table again: the first candidate of every path stays, with the last part of its registrations again. -/
theorem choices_again (ss : List Str) : ∀ (below : Bool) (rows X : List (Row σ)), X <:+ rows →
    Longer (choices below rows ss).head? (choices below (rows ++ X) ss).head? := by
  induction ss with
  | nil =>
    intro below rows X hX
    obtain ⟨a, rfl⟩ := hX
    refine ⟨X.filter fun r => decide (r.segs = []), ?_, ?_⟩
    · exact ⟨a.filter fun r => decide (r.segs = []), by simp⟩
    · simp [choices]
  | cons s ss ih =>
    intro below rows X hX
    rw [choices_cons, choices_cons]
    cases below with
    | false =>
      have h1 : forks false (rows ++ X) = again (forks false rows) X ++ colonForks X := by
        unfold forks
        rw [List.foldl_append]
        exact foldl_again _ rows X (fits_forks rows) (fun x hx => hX.subset hx) (texts_forks rows)
      rw [h1, List.flatMap_append]
      have h2 := again_longer s ss ih (forks false rows) rows X (fits_forks rows) hX
      cases hF : ((forks false rows).flatMap (share s ss)).head? with
      | some c =>
        rw [hF] at h2
        obtain ⟨Y, hY, e⟩ := h2
        exact ⟨Y, hY, by rw [List.head?_append, e]; rfl⟩
      | none =>
        rw [hF] at h2
        have h2' : ((again (forks false rows) X).flatMap (share s ss)).head? = none := h2
        have h3 : (colonForks X).flatMap (share s ss) = [] := by
          rw [List.flatMap_eq_nil_iff]
          intro g hg
          -- the way that the first reading opened contributes nothing
          have hg' : g ∈ colonForks rows := by
            obtain ⟨a, rfl⟩ := hX
            unfold colonForks at hg ⊢
            rw [List.filterMap_append]
            exact List.mem_append_right _ hg
          obtain ⟨f, hf, e1, e2, m, e3⟩ := own_fork rows g hg'
          have hz : share s ss f = [] := by
            rw [List.head?_eq_none_iff, List.flatMap_eq_nil_iff] at hF
            exact hF f hf
          unfold share at hz ⊢
          rw [e1, e2, e3] at hz
          split
          · rename_i hn
            rw [if_pos hn] at hz
            split
            · rename_i ht
              rw [if_pos ht] at hz
              exact choices_more ss _ _ m hz
            · rfl
          · rename_i hn
            rw [if_neg hn, List.map_eq_nil_iff] at hz
            rw [List.map_eq_nil_iff]
            exact choices_more ss _ _ m hz
        show _ = none
        rw [List.head?_append, h2', h3]
        rfl
    | true =>
      have h1 : forks true (rows ++ X) = X.foldl (fork true) (forks true rows) := by
        unfold forks
        rw [List.foldl_append]
      rcases forks_below rows with ⟨e1, e2⟩ | ⟨f, e1, e2⟩
      · have hz : rowsOn X = [] := List.suffix_nil.1 (e2 ▸ rowsOn_suffix hX)
        have h4 : forks true (rows ++ X) = [] := by
          rcases forks_below (rows ++ X) with ⟨k, -⟩ | ⟨f, k1, k2⟩
          · exact k
          · have : rowsOn (rows ++ X) = [] := by
              have : rowsOn (rows ++ X) = rowsOn rows ++ rowsOn X := by simp [rowsOn]
              rw [this, e2, hz]; rfl
            exfalso
            have hl : ∀ Z : List (Row σ), (∀ r ∈ Z, r.segs = []) → Z.foldl (fork true) [] = [] := by
              intro Z
              induction Z with
              | nil => intro _; rfl
              | cons r Z ihZ =>
                intro h
                rw [List.foldl_cons]
                have : fork true ([] : List (Fork σ)) r = [] := by simp [fork, h r (by simp)]
                rw [this]
                exact ihZ fun x hx => h x (by simp [hx])
            have hall : ∀ r ∈ rows ++ X, r.segs = [] := by
              intro r hr
              simp only [rowsOn, List.map_eq_nil_iff, List.filter_eq_nil_iff] at this
              simpa using this r hr
            have := hl _ hall
            unfold forks at k1
            rw [k1] at this
            cases this
        rw [e1, h4]
        rfl
      · rw [h1, e1, foldl_below]
        simp only [List.flatMap_cons, List.flatMap_nil, List.append_nil]
        have hs : rowsOn X <:+ f.rows := by rw [e2]; exact rowsOn_suffix hX
        simp only [share]
        by_cases hn : f.name = []
        · rw [if_pos hn, if_pos hn]
          by_cases ht : f.text = s
          · rw [if_pos ht, if_pos ht]
            exact ih false _ _ hs
          · rw [if_neg ht, if_neg ht]; rfl
        · rw [if_neg hn, if_neg hn]
          exact longer_map _ (ih true _ _ hs)

theorem find_again {α : Type} (p : α → Bool) {rs Y : List α} (h : Y <:+ rs) : (rs ++ Y).reverse.find? p = rs.reverse.find? p := by
  obtain ⟨a, rfl⟩ := h
  rw [List.reverse_append, List.find?_append, List.reverse_append, List.find?_append]
  cases Y.reverse.find? p <;> simp

/-- C136, for EVERY table, also with empty segments: registered once more as it is, or only its last part, it answers every lookup as before. -/
theorem C136_every_table (hist more : List (Reg σ)) (h : more <:+ hist) (m : Method) (path : Str) (buf buf' : Args) :
    treeFind (treeOf (hist ++ more)) m path buf = treeFind (treeOf hist) m path buf' := by
  rw [treeFind_every, treeFind_every, List.map_append]
  congr 2
  have hX : more.map Reg.toRow <:+ hist.map Reg.toRow := by
    obtain ⟨a, rfl⟩ := h
    exact ⟨a.map Reg.toRow, by simp⟩
  have key := choices_again (segs path) false (hist.map Reg.toRow) (more.map Reg.toRow) hX
  unfold serveEvery
  cases h1 : choices false (hist.map Reg.toRow) (segs path) with
  | nil =>
    rw [h1] at key
    have : (choices false (hist.map Reg.toRow ++ more.map Reg.toRow) (segs path)).head? = none := key
    rw [List.head?_eq_none_iff] at this
    rw [this]
  | cons c cs =>
    rw [h1] at key
    obtain ⟨Y, hY, e⟩ := key
    cases h2 : choices false (hist.map Reg.toRow ++ more.map Reg.toRow) (segs path) with
    | nil => rw [h2] at e; cases e
    | cons d ds =>
      rw [h2] at e
      simp only [List.head?_cons, Option.some.injEq] at e
      subst e
      simp only [find_again _ hY]

/-! ### C137 -/

/-- C137.  For EVERY list of registrations the answer of the router is the one of the specification. -/
theorem C137_table (hist : List (Reg σ)) (m : Method) (path : Str) (buf : Args) :
    treeFind (treeOf hist) m path buf = .ret (
      match serveEvery (hist.map fun r => ⟨segs r.route, r.method, r.set⟩) m (segs path) with
      | some (r, b) => ⟨some r.set, true, b⟩
      | none => ⟨none, false, []⟩) := by
  rw [treeFind_every]
  have : hist.map Reg.toRow = hist.map fun r => (⟨segs r.route, r.method, r.set⟩ : Row σ) := rfl
  rw [this]
  cases serveEvery (hist.map fun r => (⟨segs r.route, r.method, r.set⟩ : Row σ)) m (segs path) <;> rfl

/-- Where the registrations on a way come from: the first one opened it, the others have its text. -/
def Origin (below : Bool) (rows : List (Row σ)) (fs : List (Fork σ)) : Prop :=
  ∀ f ∈ fs, f.rows ≠ [] ∧ ∀ (j : Nat) (y : Row σ), f.rows[j]? = some y → ∃ (i : Nat) (o : Row σ) (p : Str) (ps : List Str),
    rows[i]? = some o ∧ o.segs = p :: ps ∧ y = ⟨ps, o.method, o.set⟩ ∧ (j = 0 → f.text = segText p ∧ f.name = segName p) ∧
    (j ≠ 0 → below = false → p = f.text) ∧ (below = true → i = 0 → j = 0)

theorem origin_mono {below : Bool} {rows : List (Row σ)} {fs : List (Fork σ)} (r : Row σ) (h : Origin below rows fs) : Origin below (rows ++ [r]) fs := by
  intro f hf
  refine ⟨(h f hf).1, fun j y hy => ?_⟩
  obtain ⟨i, o, p, ps, h1, h2⟩ := (h f hf).2 j y hy
  refine ⟨i, o, p, ps, ?_, h2⟩
  rw [List.getElem?_append_left (by
    rcases Nat.lt_or_ge i rows.length with c | c
    · exact c
    · rw [List.getElem?_eq_none c] at h1; cases h1)]
  exact h1

/-- One more registration on a way. -/
theorem origin_take {below : Bool} {rows : List (Row σ)} {f : Fork σ} {r : Row σ} {p : Str} {ps : List Str} (hs : r.segs = p :: ps)
    (hj : below = false → p = f.text) (h : Origin below rows [f]) : Origin below (rows ++ [r]) [f.take { r with segs := ps }] := by
  intro g hg
  rw [List.mem_singleton] at hg
  subst hg
  obtain ⟨hne, hrows⟩ := h f (by simp)
  refine ⟨by simp [Fork.take], fun j y hy => ?_⟩
  simp only [Fork.take] at hy
  by_cases hl : j < f.rows.length
  · rw [List.getElem?_append_left hl] at hy
    obtain ⟨i, o, q, qs, h1, h2⟩ := hrows j y hy
    refine ⟨i, o, q, qs, ?_, h2⟩
    rw [List.getElem?_append_left (by
      rcases Nat.lt_or_ge i rows.length with c | c
      · exact c
      · rw [List.getElem?_eq_none c] at h1; cases h1)]
    exact h1
  · have hpos : 0 < f.rows.length := List.length_pos_iff.2 hne
    have hj0 : j ≠ 0 := by omega
    rw [List.getElem?_append_right (by omega)] at hy
    have hy' : y = { r with segs := ps } := by
      cases hk : j - f.rows.length with
      | zero => rw [hk] at hy; exact (Option.some.inj hy).symm
      | succ n => rw [hk] at hy; simp at hy
    refine ⟨rows.length, r, p, ps, by simp, hs, hy', fun e => absurd e hj0, fun _ hb => hj hb, ?_⟩
    intro _ hz
    have hr : rows = [] := List.length_eq_zero_iff.1 hz
    obtain ⟨y0, hy0⟩ : ∃ y0, f.rows[0]? = some y0 := ⟨f.rows[0], by simp⟩
    obtain ⟨i, o, _, _, h1, _⟩ := hrows 0 y0 hy0
    rw [hr] at h1; simp at h1

theorem origin_cons {below : Bool} {rows : List (Row σ)} {f : Fork σ} {fs : List (Fork σ)} (h1 : Origin below rows [f]) (h2 : Origin below rows fs) :
    Origin below rows (f :: fs) := by
  intro g hg
  rcases List.mem_cons.1 hg with rfl | hg
  · exact h1 g (by simp)
  · exact h2 g hg

theorem origin_first {rows : List (Row σ)} {r : Row σ} {p : Str} {ps : List Str} (below : Bool) (hs : r.segs = p :: ps) :
    ∀ fs : List (Fork σ), (below = true → fs = []) → Origin below rows fs → Origin below (rows ++ [r]) (forkFirst p { r with segs := ps } fs) := by
  intro fs
  induction fs with
  | nil =>
    intro _ _ g hg
    simp only [forkFirst, List.mem_singleton] at hg
    subst hg
    refine ⟨by simp, fun j y hy => ?_⟩
    cases j with
    | succ n => simp at hy
    | zero =>
      simp only [List.getElem?_cons_zero, Option.some.injEq] at hy
      exact ⟨rows.length, r, p, ps, by simp, hs, hy.symm, fun _ => ⟨rfl, rfl⟩, fun h => absurd rfl h, fun _ _ => rfl⟩
  | cons f fs ih =>
    intro hb h
    have hbf : below = false := by
      cases below with
      | false => rfl
      | true => exact absurd (hb rfl) (by simp)
    have hf : Origin below rows [f] := fun g hg => h g (by rw [List.mem_singleton] at hg; subst hg; simp)
    have hfs : Origin below rows fs := fun g hg => h g (by simp [hg])
    simp only [forkFirst]
    by_cases hp : f.text = p
    · rw [if_pos hp]
      exact origin_cons (origin_take hs (fun _ => hp.symm) hf) (origin_mono r hfs)
    · rw [if_neg hp]
      exact origin_cons (origin_mono r hf) (ih (by simp [hbf]) hfs)

theorem origin_forks (below : Bool) (rows : List (Row σ)) : Origin below rows (forks below rows) := by
  have : ∀ (X done : List (Row σ)) (fs : List (Fork σ)), Origin below done fs → Origin below (done ++ X) (X.foldl (fork below) fs) := by
    intro X
    induction X with
    | nil => intro done fs h; simpa using h
    | cons r X ih =>
      intro done fs h
      have step : Origin below (done ++ [r]) (fork below fs r) := by
        cases hs : r.segs with
        | nil =>
          have : fork below fs r = fs := by simp [fork, hs]
          rw [this]; exact origin_mono r h
        | cons p ps =>
          simp only [fork, hs]
          by_cases hc : below = true ∧ fs ≠ []
          · rw [if_pos hc]
            intro g hg
            obtain ⟨f, hf, rfl⟩ := List.mem_map.1 hg
            have hf1 : Origin below done [f] := fun g hg => by
              rw [List.mem_singleton] at hg; subst hg; exact h g hf
            exact origin_take hs (by simp [hc.1]) hf1 _ (by simp)
          · rw [if_neg hc]
            refine origin_first below hs fs ?_ h
            intro hb
            exact Classical.byContradiction fun hn => hc ⟨hb, hn⟩
      have := ih (done ++ [r]) _ step
      simpa using this
  have h := this rows [] [] (by intro f hf; cases hf)
  simpa [forks] using h

theorem choices_reads (ss : List Str) : ∀ (below : Bool) (rows : List (Row σ)), ∀ c ∈ choices below rows ss, ∀ x ∈ c.1,
    ∃ (i : Nat) (o : Row σ), rows[i]? = some o ∧ o.method = x.method ∧ o.set = x.set ∧ o.segs.length = ss.length ∧
      (below = false ∨ i = 0 → reads o.segs ss) := by
  induction ss with
  | nil =>
    intro below rows c hc x hx
    simp only [choices, List.mem_singleton] at hc
    subst hc
    simp only [List.mem_filter, decide_eq_true_eq] at hx
    obtain ⟨i, hi⟩ := List.mem_iff_getElem?.1 hx.1
    exact ⟨i, x, hi, rfl, rfl, by rw [hx.2], fun _ => by rw [hx.2]; trivial⟩
  | cons s ss ih =>
    intro below rows c hc x hx
    rw [choices_cons, List.mem_flatMap] at hc
    obtain ⟨f, hf, hc⟩ := hc
    obtain ⟨hne, horg⟩ := origin_forks below rows f hf
    unfold share at hc
    by_cases hn : f.name = []
    · rw [if_pos hn] at hc
      by_cases ht : f.text = s
      · rw [if_pos ht] at hc
        obtain ⟨j, y, hy, y1, y2, y3, y4⟩ := ih _ _ c hc x hx
        obtain ⟨i, o, p, ps, o1, o2, rfl, o4, o5, o6⟩ := horg j y hy
        refine ⟨i, o, o1, y1, y2, by rw [o2]; simp only [List.length_cons]; exact congrArg (· + 1) y3, fun hb => ?_⟩
        rw [o2]
        by_cases hp : p = []
        · exact Or.inl ⟨hp, y3⟩
        · refine Or.inr ⟨?_, y4 (Or.inl rfl)⟩
          by_cases hj : j = 0
          · obtain ⟨k1, -⟩ := o4 hj
            rw [ht] at k1
            unfold segText at k1
            by_cases hcol : p.head? = some 58
            · exact Or.inl hcol
            · rw [if_neg hcol] at k1; exact Or.inr k1.symm
          · cases below with
            | false => exact Or.inr ((o5 hj rfl).trans ht)
            | true =>
              rcases hb with hb | hb
              · cases hb
              · exact absurd (o6 rfl hb) hj
      · rw [if_neg ht] at hc; cases hc
    · rw [if_neg hn] at hc
      obtain ⟨c', hc', rfl⟩ := List.mem_map.1 hc
      obtain ⟨j, y, hy, y1, y2, y3, y4⟩ := ih _ _ c' hc' x hx
      obtain ⟨i, o, p, ps, o1, o2, rfl, o4, o5, o6⟩ := horg j y hy
      refine ⟨i, o, o1, y1, y2, by rw [o2]; simp only [List.length_cons]; exact congrArg (· + 1) y3, fun hb => ?_⟩
      rw [o2]
      by_cases hj : j = 0
      · refine Or.inr ⟨Or.inl ?_, y4 (Or.inr hj)⟩
        obtain ⟨-, k2⟩ := o4 hj
        refine Classical.byContradiction fun hcol => hn ?_
        rw [k2]
        unfold segName
        rw [if_neg hcol]
      · cases below with
        | false =>
          refine Or.inl ⟨?_, y3⟩
          rw [o5 hj rfl]
          obtain ⟨y0, hy0⟩ : ∃ y0, f.rows[0]? = some y0 := ⟨f.rows[0]'(List.length_pos_iff.2 hne), by simp⟩
          obtain ⟨-, -, q, -, -, -, -, q4, -, -⟩ := horg 0 y0 hy0
          obtain ⟨k1, k2⟩ := q4 rfl
          rw [k1]
          unfold segText
          by_cases hcol : q.head? = some 58
          · rw [if_pos hcol]
          · exfalso
            apply hn
            rw [k2]
            unfold segName
            rw [if_neg hcol]
        | true =>
          rcases hb with hb | hb
          · cases hb
          · exact absurd (o6 rfl hb) hj

/-- C137, soundness: in EVERY table, what is found was registered, for a method that covers the request, with a route that has as many segments as the
path, and whose segments accept those of the path, one by one, up to the first empty segment of the route. -/
theorem C137_served (hist : List (Reg σ)) (m : Method) (path : Str) (buf : Args) (s : σ) (args : Args)
    (h : treeFind (treeOf hist) m path buf = .ret ⟨some s, true, args⟩) :
    ∃ r ∈ hist, r.set = s ∧ covers r.method m = true ∧ reads (segs r.route) (segs path) := by
  rw [treeFind_every] at h
  have h' := Outcome.ret.inj h
  unfold serveEvery at h'
  cases hc : choices false (hist.map Reg.toRow) (segs path) with
  | nil => rw [hc] at h'; simp [rowResult, FindResult.notFound] at h'
  | cons c cs =>
    rw [hc] at h'
    obtain ⟨rs, b⟩ := c
    cases hf : rs.reverse.find? fun r => covers r.method m with
    | none => simp only [hf] at h'; simp [rowResult, FindResult.notFound] at h'
    | some x =>
      simp only [hf, Option.map_some, rowResult, FindResult.mk.injEq, Option.some.injEq] at h'
      obtain ⟨i, o, h1, h2, h3, -, h5⟩ := choices_reads (segs path) false _ (rs, b) (by rw [hc]; simp) x
        (List.mem_reverse.1 (List.mem_of_find?_eq_some hf))
      rw [List.getElem?_map, Option.map_eq_some_iff] at h1
      obtain ⟨r, hr, rfl⟩ := h1
      have hcov := List.find?_some hf
      refine ⟨r, List.mem_of_getElem? hr, h3.trans h'.1, ?_, h5 (Or.inl rfl)⟩
      rw [← h2] at hcov
      exact hcov

/-- A registration with fewer segments than the path. -/
theorem choices_shorter (ss : List Str) : ∀ (below : Bool) (rows : List (Row σ)) (r : Row σ), r.segs.length < ss.length →
    choices below (rows ++ [r]) ss = choices below rows ss := by
  induction ss with
  | nil => intro _ _ _ h; cases h
  | cons s ss ih =>
    intro below rows r hl
    rw [choices_cons, choices_cons, forks_append]
    cases hs : r.segs with
    | nil =>
      have : fork below (forks below rows) r = forks below rows := by simp [fork, hs]
      rw [this]
    | cons p ps =>
      have hl' : ps.length < ss.length := by rw [hs] at hl; simpa using hl
      have htake : ∀ f : Fork σ, share s ss (f.take { r with segs := ps }) = share s ss f := by
        intro f
        simp only [share, Fork.take]
        rw [ih false f.rows { r with segs := ps } hl', ih true f.rows { r with segs := ps } hl']
        rfl
      have hnew : share s ss (⟨segText p, segName p, [{ r with segs := ps }]⟩ : Fork σ) = [] := by
        have e : ∀ b, choices b [({ r with segs := ps } : Row σ)] ss = [] := by
          intro b
          have h1 := ih b [] { r with segs := ps } hl'
          rw [List.nil_append] at h1
          rw [h1]
          cases ss with
          | nil => cases hl'
          | cons t ts => rfl
        simp only [share, e]
        split <;> simp
      have hfirst : ∀ fs : List (Fork σ), (forkFirst p { r with segs := ps } fs).flatMap (share s ss) = fs.flatMap (share s ss) := by
        intro fs
        induction fs with
        | nil => simp only [forkFirst, List.flatMap_cons, List.flatMap_nil, hnew, List.append_nil]
        | cons f fs ihf =>
          simp only [forkFirst]
          split
          · simp only [List.flatMap_cons, htake]
          · simp only [List.flatMap_cons, ihf]
      simp only [fork, hs]
      split
      · rw [List.flatMap_map]
        congr 1
        funext f
        exact htake f
      · exact hfirst _

/-- C137, isolation: in EVERY table, registering a route with fewer segments than the path does not change how the path is answered. -/
theorem C137_shorter (hist : List (Reg σ)) (new : Reg σ) (m : Method) (path : Str) (buf buf' : Args)
    (h : (segs new.route).length < (segs path).length) :
    treeFind (treeOf (hist ++ [new])) m path buf = treeFind (treeOf hist) m path buf' := by
  rw [treeFind_every, treeFind_every, List.map_append, List.map_singleton]
  unfold serveEvery
  rw [choices_shorter (segs path) false (hist.map Reg.toRow) new.toRow h]

/-- A table of odd routes. -/
def oddTable : List (Reg Nat) :=
  [⟨b!"GET", b!"/u/:id", 1⟩, ⟨b!"GET", b!"/u//x", 2⟩, ⟨b!"POST", b!"/u/:", 4⟩, ⟨b!"GET", b!"/u//y", 5⟩, ⟨b!"GET", b!"/:/:", 6⟩]

example : ¬ (∀ r ∈ oddTable, Clean r) ∧
    treeFind (treeOf oddTable) b!"GET" b!"/u/7" [] = .ret ⟨some 1, true, [(b!"id", b!"7")]⟩ ∧
    treeFind (treeOf oddTable) b!"GET" b!"/u/7/x" [] = .ret ⟨some 5, true, [(b!"id", b!"7")]⟩ ∧
    treeFind (treeOf oddTable) b!"GET" b!"/u/7/y" [] = .ret ⟨none, false, []⟩ ∧
    treeFind (treeOf (oddTable ++ oddTable)) b!"GET" b!"/u/7/x" [] = .ret ⟨some 5, true, [(b!"id", b!"7")]⟩ ∧
    (segs (⟨b!"GET", b!"/u/:id", 1⟩ : Reg Nat).route).length < (segs b!"/u/7/x").length ∧
    reads (segs b!"/u//y") (segs b!"/u/7/x") := by
  refine ⟨by decide +kernel, by decide +kernel, by decide +kernel, by decide +kernel, by decide +kernel, by decide +kernel, ?_⟩
  exact Or.inr ⟨Or.inr (by decide +kernel), Or.inl ⟨by decide +kernel, by decide +kernel⟩⟩

end Verif
