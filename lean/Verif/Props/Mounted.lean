import Verif.Spec.Mounted
import Verif.Props.Every
/-
C133 for every table of routes, also with empty segments and segments of colons only.
-/
namespace Verif
open Spec
variable {σ : Type}

/-- One segment: the candidates come from the rows that go on with it. -/
theorem forks_segment (q : Str) (ss : List Str) : ∀ (n : Nat) (rows : List (Row σ)), rows.length ≤ n →
    (∀ r ∈ rows, ∀ p, r.segs.head? = some p → p.head? ≠ some 58) →
    (rows.foldl (fork false) []).flatMap (share q ss) = if rowsWith q rows = [] then [] else choices false (rowsWith q rows) ss := by
  intro n
  induction n with
  | zero =>
    intro rows h _
    have : rows = [] := List.length_eq_zero_iff.1 (Nat.le_zero.1 h)
    subst this
    rfl
  | succ n ih =>
    intro rows hlen hc
    cases rows with
    | nil => rfl
    | cons r X =>
      have hX : X.length ≤ n := by simpa using hlen
      have hcX : ∀ r ∈ X, ∀ p, r.segs.head? = some p → p.head? ≠ some 58 := fun x hx => hc x (List.mem_cons_of_mem _ hx)
      rw [List.foldl_cons]
      cases hs : r.segs with
      | nil =>
        have h1 : fork false ([] : List (Fork σ)) r = [] := by simp [fork, hs]
        have h2 : rowsWith q (r :: X) = rowsWith q X := by simp [rowsWith, hs]
        rw [h1, h2]
        exact ih X hX hcX
      | cons p ps =>
        have hp : p.head? ≠ some 58 := hc r (List.mem_cons_self ..) p (by rw [hs]; rfl)
        have h1 : fork false ([] : List (Fork σ)) r = [{ (⟨p, [], []⟩ : Fork σ) with rows := [r.cut] }] := by
          simp [fork, hs, forkFirst, segText, segName, hp, Row.cut]
        rw [h1, foldl_fork_cons, List.flatMap_cons]
        have hlen2 : (rowsWithout p X).length ≤ n := Nat.le_trans (List.length_filter_le ..) hX
        have hrest := ih (rowsWithout p X) hlen2 fun x hx => hcX x (List.mem_filter.1 hx).1
        have hshow : (rowsWithout (⟨p, [], []⟩ : Fork σ).text X) = rowsWithout p X := rfl
        rw [hshow, hrest]
        by_cases hpq : p = q
        · subst hpq
          have e1 : rowsWith p (rowsWithout p X) = [] := by
            unfold rowsWith rowsWithout
            rw [List.filter_filter]
            simp
          have e2 : rowsWith p (r :: X) = r.cut :: rowsWith p X := by simp [rowsWith, hs]
          rw [e1, e2]
          simp [share]
        · have e1 : rowsWith q (rowsWithout p X) = rowsWith q X := by
            unfold rowsWith rowsWithout
            rw [List.filter_filter]
            congr 1
            apply List.filter_congr
            intro x _
            by_cases hx : x.segs.head? = some q
            · simp [hx, Ne.symm hpq]
            · simp [hx]
          have e2 : rowsWith q (r :: X) = rowsWith q X := by simp [rowsWith, hs, hpq]
          rw [e1, e2]
          simp [share, hpq]

theorem serveEvery_nil (m : Str) (ss : List Str) : serveEvery ([] : List (Row σ)) m ss = none := by
  cases ss <;> rfl

theorem serveEvery_segment (q : Str) (ss : List Str) (rows : List (Row σ)) (m : Str)
    (hc : ∀ r ∈ rows, ∀ p, r.segs.head? = some p → p.head? ≠ some 58) :
    serveEvery rows m (q :: ss) = serveEvery (rowsWith q rows) m ss := by
  have h := forks_segment q ss rows.length rows (Nat.le_refl _) hc
  by_cases he : rowsWith q rows = []
  · rw [if_pos he] at h
    rw [he, serveEvery_nil]
    unfold serveEvery
    rw [choices_cons]
    unfold forks
    rw [h]
  · rw [if_neg he] at h
    unfold serveEvery
    rw [choices_cons]
    unfold forks
    rw [h]

theorem under_cons (q : Str) (pre : List Str) (rows : List (Row σ)) : under (q :: pre) rows = under pre (rowsWith q rows) := by
  unfold under rowsWith
  rw [List.filter_map, List.map_map, List.filter_filter]
  have : (rows.filter fun r => (q :: pre).isPrefixOf r.segs) =
      rows.filter fun r => (((fun r : Row σ => pre.isPrefixOf r.segs) ∘ Row.cut) r) && decide (r.segs.head? = some q) := by
    apply List.filter_congr
    intro r _
    cases hs : r.segs with
    | nil => simp [hs]
    | cons p ps =>
      by_cases hq : q = p
      · subst hq; simp [Row.cut, hs]
      · have : ¬ p = q := fun e => hq e.symm
        simp [List.isPrefixOf, Row.cut, hs, hq, this]
  rw [this]
  apply List.map_congr_left
  intro r _
  simp [Row.cut]

theorem keepsClear_cut (q : Str) (pre : List Str) (r : Row σ) (h : KeepsClear (q :: pre) r.segs) (hq : r.segs.head? = some q) :
    KeepsClear pre r.cut.segs := by
  intro k p hk ht hp
  cases hs : r.segs with
  | nil => rw [hs] at hq; cases hq
  | cons x xs =>
    rw [hs] at hq h
    simp only [List.head?_cons, Option.some.injEq] at hq
    subst hq
    have hc : r.cut.segs = xs := by simp [Row.cut, hs]
    rw [hc] at ht hp
    exact h (k + 1) p (by simpa using hk) (by simp [ht]) (by simpa using hp)

theorem serveEvery_under (ss : List Str) (m : Str) : ∀ (pre : List Str) (rows : List (Row σ)), (∀ r ∈ rows, KeepsClear pre r.segs) →
    serveEvery rows m (pre ++ ss) = serveEvery (under pre rows) m ss := by
  intro pre
  induction pre with
  | nil =>
    intro rows _
    have : under [] rows = rows := by
      unfold under
      rw [List.filter_eq_self.2 (by intro r _; rfl)]
      simp
    rw [this]; rfl
  | cons q pre ih =>
    intro rows h
    rw [List.cons_append, serveEvery_segment q _ rows m, under_cons]
    · refine ih _ fun r hr => ?_
      unfold rowsWith at hr
      obtain ⟨o, ho, rfl⟩ := List.mem_map.1 hr
      obtain ⟨h1, h2⟩ := List.mem_filter.1 ho
      exact keepsClear_cut q pre o (h o h1) (by simpa using h2)
    · intro r hr p hp
      refine h r hr 0 p (by simp) (by simp) ?_
      rw [← List.head?_eq_getElem?]
      exact hp

/-- C133 for every table.  Let no route have a parameter in place of a segment of the prefix.  A lookup below the prefix gives what the table of the
routes that begin with the prefix, without it, gives for the rest of the path.  Routes may have empty segments and segments of colons only. -/
theorem C133_every (pre : List Str) (hist sub : List (Reg σ)) (hclear : ∀ r ∈ hist, KeepsClear pre (segs r.route))
    (hsub : (sub.map fun r => (⟨segs r.route, r.method, r.set⟩ : Row σ)) = under pre (hist.map fun r => ⟨segs r.route, r.method, r.set⟩))
    (m : Method) (path rest : Str) (hp : segs path = pre ++ segs rest) (buf buf' : Args) :
    treeFind (treeOf hist) m path buf = treeFind (treeOf sub) m rest buf' := by
  rw [treeFind_every, treeFind_every, hp]
  congr 2
  have h1 : hist.map Reg.toRow = hist.map fun r => (⟨segs r.route, r.method, r.set⟩ : Row σ) := rfl
  have h2 : sub.map Reg.toRow = sub.map fun r => (⟨segs r.route, r.method, r.set⟩ : Row σ) := rfl
  rw [h1, h2, hsub]
  refine serveEvery_under _ m pre _ fun r hr => ?_
  obtain ⟨o, ho, rfl⟩ := List.mem_map.1 hr
  exact hclear o ho

theorem serveEvery_elsewhere (m : Str) : ∀ (pre : List Str) (rows : List (Row σ)) (ss : List Str), (∀ s ∈ pre, s.head? ≠ some 58) →
    (∀ r ∈ rows, ∃ rest, r.segs = pre ++ rest) → ¬ pre <+: ss → serveEvery rows m ss = none := by
  intro pre
  induction pre with
  | nil => intro rows ss _ _ h; exact absurd (List.nil_prefix) h
  | cons q pre ih =>
    intro rows ss hpre hrows hn
    cases ss with
    | nil =>
      unfold serveEvery
      have : rows.filter (fun r => decide (r.segs = [])) = [] := by
        rw [List.filter_eq_nil_iff]
        intro r hr
        obtain ⟨rest, e⟩ := hrows r hr
        simp [e]
      simp [choices, this]
    | cons s ss =>
      rw [serveEvery_segment s ss rows m]
      · by_cases hs : s = q
        · subst hs
          refine ih _ ss (fun x hx => hpre x (by simp [hx])) ?_ fun hx => hn (by
            obtain ⟨t, ht⟩ := hx
            exact ⟨t, by rw [← ht]; rfl⟩)
          intro r hr
          unfold rowsWith at hr
          obtain ⟨o, ho, rfl⟩ := List.mem_map.1 hr
          obtain ⟨rest, e⟩ := hrows o (List.mem_filter.1 ho).1
          exact ⟨rest, by simp [Row.cut, e]⟩
        · have : rowsWith s rows = [] := by
            unfold rowsWith
            rw [List.map_eq_nil_iff, List.filter_eq_nil_iff]
            intro r hr
            obtain ⟨rest, e⟩ := hrows r hr
            simp [e, Ne.symm hs]
          rw [this, serveEvery_nil]
      · intro r hr p hp
        obtain ⟨rest, e⟩ := hrows r hr
        rw [e] at hp
        simp only [List.cons_append, List.head?_cons, Option.some.injEq] at hp
        subst hp
        exact hpre _ (List.mem_cons_self ..)

/-- C133, moving every table: put a prefix of literal segments in front of all routes of a table, whatever they look like; the new table answers below the
prefix what the old one answered, and finds nothing elsewhere. -/
theorem C133_moved_every (pre : List Str) (hpre : ∀ s ∈ pre, s.head? ≠ some 58) (hist sub : List (Reg σ))
    (h : (hist.map fun r => (⟨segs r.route, r.method, r.set⟩ : Row σ)) = sub.map fun r => ⟨pre ++ segs r.route, r.method, r.set⟩)
    (m : Method) (path : Str) (buf buf' : Args) :
    (∀ rest, segs path = pre ++ segs rest → treeFind (treeOf hist) m path buf = treeFind (treeOf sub) m rest buf') ∧
    (¬ pre <+: segs path → treeFind (treeOf hist) m path buf = .ret ⟨none, false, []⟩) := by
  have hrow : ∀ r ∈ hist.map Reg.toRow, ∃ rest, r.segs = pre ++ rest := by
    intro r hr
    have hr' : r ∈ sub.map fun r => (⟨pre ++ segs r.route, r.method, r.set⟩ : Row σ) := by rw [← h]; exact hr
    obtain ⟨o, -, rfl⟩ := List.mem_map.1 hr'
    exact ⟨_, rfl⟩
  constructor
  · intro rest hp
    refine C133_every pre hist sub ?_ ?_ m path rest hp buf buf'
    · intro r hr k p hk ht hp
      obtain ⟨rest, e⟩ := hrow r.toRow (List.mem_map.2 ⟨r, hr, rfl⟩)
      have e' : segs r.route = pre ++ rest := e
      rw [e', List.getElem?_append_left hk] at hp
      exact hpre p (List.mem_of_getElem? hp)
    · rw [h]
      unfold under
      rw [List.filter_eq_self.2 (by
        intro r hr
        obtain ⟨o, -, rfl⟩ := List.mem_map.1 hr
        simp), List.map_map]
      apply List.map_congr_left
      intro r _
      simp
  · intro hn
    rw [treeFind_every, serveEvery_elsewhere m pre _ _ hpre hrow hn]
    rfl

/-- The odd table below /api/v1: answered there as it was, and next to other routes. -/
def oddMounted : List (Reg Nat) := [⟨b!"GET", b!"/api/v1/u/:id", 1⟩, ⟨b!"GET", b!"/api/:x", 9⟩, ⟨b!"GET", b!"/api/v1/u//x", 2⟩, ⟨b!"POST", b!"/api/v1/u/:", 4⟩,
  ⟨b!"GET", b!"/api/v1/u//y", 5⟩, ⟨b!"GET", b!"/other/:x", 8⟩, ⟨b!"GET", b!"/api/v1/:/:", 6⟩]

/-- Without the route that has a parameter in place of v1. -/
def oddMounted' : List (Reg Nat) := oddMounted.filter fun r => r.set ≠ 9

theorem keepsClear_check (pre route : List Str)
    (h : ∀ k, k < pre.length → route.take k = pre.take k → ∀ p ∈ route[k]?, p.head? ≠ some 58) : KeepsClear pre route :=
  fun k p hk ht hp => h k hk ht p hp

example : (∀ r ∈ oddMounted', KeepsClear [b!"api", b!"v1"] (segs r.route)) ∧
    (oddTable.map fun r => (⟨segs r.route, r.method, r.set⟩ : Row Nat)) = under [b!"api", b!"v1"] (oddMounted'.map fun r => ⟨segs r.route, r.method, r.set⟩) ∧
    segs b!"/api/v1/u/7/x" = [b!"api", b!"v1"] ++ segs b!"/u/7/x" ∧
    treeFind (treeOf oddMounted') b!"GET" b!"/api/v1/u/7/x" [] = .ret ⟨some 5, true, [(b!"id", b!"7")]⟩ := by
  refine ⟨fun r hr => keepsClear_check _ _ ?_, by rfl, by decide +kernel, by decide +kernel⟩
  revert r
  decide +kernel

end Verif
