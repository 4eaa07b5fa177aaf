import Verif.Props.Frame
import Verif.Props.Lost
/-
C07 and C03 for every table: only a route that is longer than a path, or that does not cover the method, can hide the path.
-/
namespace Verif
open Spec
variable {σ : Type}

/-- The best candidate is as before, or the new registration is on it. -/
def Gain (m : Method) (a b : List (List (Row σ) × List (Str × Str))) : Prop :=
  a.head? = b.head? ∨ ∃ X r v, b.head? = some (X ++ [r], v) ∧ r.method = m

theorem Gain.append {m : Method} {a a' b b' : List (List (Row σ) × List (Str × Str))} (h : Gain m a a') (h' : Gain m b b') :
    Gain m (a ++ b) (a' ++ b') := by
  unfold Gain at *
  rw [List.head?_append, List.head?_append]
  rcases h with h | ⟨X, r, v, h, hm⟩
  · rw [h]
    cases a'.head? with
    | some c => exact Or.inl rfl
    | none => simpa using h'
  · exact Or.inr ⟨X, r, v, by rw [h]; rfl, hm⟩

theorem Gain.map {m : Method} {a a' : List (List (Row σ) × List (Str × Str))} (h : Gain m a a') (x : Str × Str) :
    Gain m (a.map fun c => (c.1, x :: c.2)) (a'.map fun c => (c.1, x :: c.2)) := by
  unfold Gain at *
  rw [List.head?_map, List.head?_map]
  rcases h with h | ⟨X, r, v, h, hm⟩
  · rw [h]; exact Or.inl rfl
  · exact Or.inr ⟨X, r, x :: v, by rw [h]; rfl, hm⟩

/-- A registration that is not longer than the path. -/
theorem choices_gain (ss : List Str) : ∀ (below : Bool) (rows : List (Row σ)) (r : Row σ), r.segs.length ≤ ss.length →
    Gain r.method (choices below rows ss) (choices below (rows ++ [r]) ss) := by
  induction ss with
  | nil =>
    intro below rows r h
    obtain ⟨sg, mt, st⟩ := r
    have hs : sg = [] := List.eq_nil_of_length_eq_zero (Nat.le_zero.1 h)
    subst hs
    exact Or.inr ⟨rows.filter fun r => decide (r.segs = []), ⟨[], mt, st⟩, [], by simp [choices, List.filter_append], rfl⟩
  | cons s ss ih =>
    intro below rows r h
    cases hs : r.segs with
    | nil =>
      have : fork below (forks below rows) r = forks below rows := by simp [fork, hs]
      rw [choices_cons, choices_cons, forks_append, this]
      exact Or.inl rfl
    | cons p ps =>
      rw [hs] at h
      have hl : ps.length ≤ ss.length := by simpa using h
      have htake : ∀ f : Fork σ, Gain r.method (share s ss f) (share s ss (f.take { r with segs := ps })) := by
        intro f
        have e : (f.take { r with segs := ps }).name = f.name ∧ (f.take { r with segs := ps }).text = f.text ∧
            (f.take { r with segs := ps }).rows = f.rows ++ [{ r with segs := ps }] := ⟨rfl, rfl, rfl⟩
        generalize f.take { r with segs := ps } = g at e ⊢
        obtain ⟨e1, e2, e3⟩ := e
        unfold share
        rw [e1, e2, e3]
        split
        · split
          · exact ih false f.rows { r with segs := ps } hl
          · exact Or.inl rfl
        · exact (ih true f.rows { r with segs := ps } hl).map _
      have hall : ∀ fs : List (Fork σ), Gain r.method (fs.flatMap (share s ss)) ((fs.map (Fork.take { r with segs := ps })).flatMap (share s ss)) := by
        intro fs
        induction fs with
        | nil => exact Or.inl rfl
        | cons f fs ihf =>
          rw [List.map_cons, List.flatMap_cons, List.flatMap_cons]
          exact (htake f).append ihf
      have hone : ∀ b, Gain r.method [] (choices b [({ r with segs := ps } : Row σ)] ss) := by
        intro b
        have h1 := ih b [] { r with segs := ps } hl
        rw [List.nil_append] at h1
        cases ss with
        | nil =>
          have hps : ps = [] := List.eq_nil_of_length_eq_zero (Nat.le_zero.1 hl)
          subst hps
          exact Or.inr ⟨[], _, [], rfl, rfl⟩
        | cons t ts => exact h1
      have hnew : Gain r.method [] (share s ss (⟨segText p, segName p, [{ r with segs := ps }]⟩ : Fork σ)) := by
        unfold share
        simp only
        split
        · split
          · exact hone false
          · exact Or.inl rfl
        · exact (hone true).map _
      have hfirst : ∀ fs : List (Fork σ), Gain r.method (fs.flatMap (share s ss)) ((forkFirst p { r with segs := ps } fs).flatMap (share s ss)) := by
        intro fs
        induction fs with
        | nil => simpa [forkFirst] using hnew
        | cons f fs ihf =>
          simp only [forkFirst]
          split
          · simp only [List.flatMap_cons]
            exact (htake f).append (Or.inl rfl)
          · simp only [List.flatMap_cons]
            exact Gain.append (Or.inl rfl) ihf
      rw [choices_cons, choices_cons, forks_append]
      simp only [fork, hs]
      split
      · exact hall _
      · exact hfirst _

/-- One more route that is not longer than the path and covers the method. -/
theorem found_covering (hist : List (Reg σ)) (new : Reg σ) (m : Method) (path : Str) (buf buf' : Args)
    (hl : (segs new.route).length ≤ (segs path).length) (hc : covers new.method m = true) (s : σ) (args : Args)
    (h : treeFind (treeOf hist) m path buf = .ret ⟨some s, true, args⟩) :
    ∃ s' args', treeFind (treeOf (hist ++ [new])) m path buf' = .ret ⟨some s', true, args'⟩ := by
  rw [treeFind_every] at h ⊢
  rw [List.map_append, List.map_singleton]
  rcases choices_gain (segs path) false (hist.map Reg.toRow) new.toRow hl with hg | ⟨X, r, v, hg, hm⟩
  · refine ⟨s, args, ?_⟩
    rw [← h]
    unfold serveEvery
    generalize choices false (hist.map Reg.toRow) (segs path) = a at hg ⊢
    generalize choices false (hist.map Reg.toRow ++ [new.toRow]) (segs path) = b at hg ⊢
    cases a <;> cases b <;> simp_all
  · refine ⟨r.set, v, ?_⟩
    unfold serveEvery
    generalize choices false (hist.map Reg.toRow ++ [new.toRow]) (segs path) = b at hg ⊢
    cases b with
    | nil => cases hg
    | cons c cs =>
      simp only [List.head?_cons, Option.some.injEq] at hg
      subst hg
      have hcr : covers r.method m = true := by rw [hm]; exact hc
      simp [hcr, rowResult]

/-- C07 for every table and all further routes: if a path is found before and not after, then one of the further routes reads the path as far as the
path goes, and is longer than it or does not cover the method. -/
theorem C07_culprit (hist more : List (Reg σ)) (m : Method) (path : Str) (buf buf' : Args) (s : σ) (args : Args)
    (h : treeFind (treeOf hist) m path buf = .ret ⟨some s, true, args⟩)
    (hnot : ¬ ∃ s' args', treeFind (treeOf (hist ++ more)) m path buf' = .ret ⟨some s', true, args'⟩) :
    ∃ r ∈ more, reads ((segs r.route).take (segs path).length) (segs path) ∧
      ((segs path).length < (segs r.route).length ∨ covers r.method m = false) := by
  induction more generalizing hist s args buf with
  | nil =>
    refine absurd ⟨s, args, ?_⟩ hnot
    rw [List.append_nil]
    rw [treeFind_every] at h ⊢
    exact h
  | cons new more ih =>
    rw [← List.singleton_append, ← List.append_assoc] at hnot
    by_cases hr : reads ((segs new.route).take (segs path).length) (segs path)
    · by_cases hl : (segs path).length < (segs new.route).length
      · exact ⟨new, List.mem_cons_self .., hr, Or.inl hl⟩
      · cases hc : covers new.method m with
        | false => exact ⟨new, List.mem_cons_self .., hr, Or.inr hc⟩
        | true =>
          obtain ⟨s', args', h'⟩ := found_covering hist new m path buf buf (Nat.le_of_not_lt hl) hc s args h
          obtain ⟨r, h1, h2⟩ := ih (hist ++ [new]) buf s' args' h' hnot
          exact ⟨r, List.mem_cons_of_mem _ h1, h2⟩
    · rw [← C08_every hist new m path buf buf hr] at h
      obtain ⟨r, h1, h2⟩ := ih (hist ++ [new]) buf s args h hnot
      exact ⟨r, List.mem_cons_of_mem _ h1, h2⟩

/-- C07 for every table: handler set and parameters of a lookup only change if one of the further routes reads the path as far as the path goes. -/
theorem C07_unread_partial (hist more : List (Reg σ)) (m : Method) (path : Str) (buf buf' : Args)
    (h : ∀ r ∈ more, ¬ reads ((segs r.route).take (segs path).length) (segs path)) :
    treeFind (treeOf (hist ++ more)) m path buf = treeFind (treeOf hist) m path buf' := by
  induction more generalizing hist with
  | nil => rw [List.append_nil, treeFind_every, treeFind_every]
  | cons new more ih =>
    rw [← List.singleton_append, ← List.append_assoc, ih (hist ++ [new]) fun r hr => h r (List.mem_cons_of_mem _ hr)]
    exact C08_every hist new m path buf' buf' (h new (List.mem_cons_self ..))

/-- C07 for whole requests: however many further routes are registered, a request whose path none of them reads gets the same answer, with the same
effects. -/
theorem C07_requests_partial {υ ρ : Type} [DecidableEq ρ] (hist more : List (Reg σ)) (u : Str → Str) (env : Env υ) (rxMatch : ρ → Str → Bool)
    (visit : GoMap ρ (Option σ) → List (ρ × Option σ)) (srv : Srv υ σ ρ) (ba : BaseAuth) (req : Req) (resp : Resp)
    (store : Args → υ) (buf : Args) (clock : Nat)
    (h : ∀ r ∈ more, ¬ reads ((segs r.route).take (segs req.path).length) (segs req.path)) :
    serveHTTP u env rxMatch visit { srv with tree := treeOf (hist ++ more) } ba req resp store buf clock =
      serveHTTP u env rxMatch visit { srv with tree := treeOf hist } ba req resp store buf clock := by
  induction more generalizing hist with
  | nil => rw [List.append_nil]
  | cons new more ih =>
    rw [← List.singleton_append, ← List.append_assoc, ih (hist ++ [new]) fun r hr => h r (List.mem_cons_of_mem _ hr)]
    exact C08_requests hist new u env rxMatch visit srv ba req resp store buf buf clock (h new (List.mem_cons_self ..))

theorem forkFirst_way (p : Str) (r : Row σ) : ∀ fs : List (Fork σ), ∃ f ∈ forkFirst p r fs,
    f = ⟨segText p, segName p, [r]⟩ ∨ ∃ g ∈ fs, g.text = p ∧ f.text = p ∧ f.name = g.name ∧ f.rows = g.rows ++ [r] := by
  intro fs
  induction fs with
  | nil => exact ⟨_, List.mem_singleton.2 rfl, Or.inl rfl⟩
  | cons g gs ih =>
    simp only [forkFirst]
    split
    · rename_i h
      exact ⟨_, List.mem_cons_self .., Or.inr ⟨g, List.mem_cons_self .., h, h, rfl, rfl⟩⟩
    · obtain ⟨f, hf, h⟩ := ih
      refine ⟨f, List.mem_cons_of_mem _ hf, ?_⟩
      rcases h with h | ⟨g', hg', h⟩
      · exact Or.inl h
      · exact Or.inr ⟨g', List.mem_cons_of_mem _ hg', h⟩

/-- A path that a clean registration matches has a candidate. -/
theorem choices_match (ss : List Str) : ∀ (below : Bool) (rows : List (Row σ)) (r : Row σ) (b : List (Str × Str)), (below = false ∨ rows = []) →
    (∀ s ∈ r.segs, s.dropWhile (· == 58) ≠ []) → matchRoute (r.segs.map segPat) ss = some b → choices below (rows ++ [r]) ss ≠ [] := by
  induction ss with
  | nil => intro _ _ _ _ _ _ _ h; cases h
  | cons s ss ih =>
    intro below rows r b hb hc hm
    cases hs : r.segs with
    | nil => rw [hs] at hm; cases hm
    | cons p ps =>
      rw [hs] at hc hm
      have hcp := hc p (List.mem_cons_self ..)
      have hcps : ∀ x ∈ ps, x.dropWhile (· == 58) ≠ [] := fun x hx => hc x (List.mem_cons_of_mem _ hx)
      have hp0 : p ≠ [] := fun h => hcp (by rw [h]; rfl)
      have hway : fork below (forks below rows) r = forkFirst p { r with segs := ps } (forks below rows) := by
        simp only [fork, hs]
        rw [if_neg]
        rintro ⟨h1, h2⟩
        rcases hb with hb | hb
        · rw [hb] at h1; cases h1
        · subst hb; exact h2 rfl
      rw [choices_cons, forks_append, hway]
      obtain ⟨f, hf, h⟩ := forkFirst_way p ({ r with segs := ps } : Row σ) (forks below rows)
      suffices hsh : share s ss f ≠ [] by
        intro h0
        exact hsh (List.flatMap_eq_nil_iff.1 h0 f hf)
      simp only [List.map_cons] at hm
      by_cases hcol : p.head? = some 58
      · obtain ⟨t, rfl⟩ : ∃ t, p = 58 :: t := by
          cases p with
          | nil => cases hcol
          | cons a t => simp only [List.head?_cons, Option.some.injEq] at hcol; exact ⟨t, by rw [hcol]⟩
        simp only [segPat, matchRoute, Option.map_eq_some_iff] at hm
        obtain ⟨b', hb', -⟩ := hm
        rcases h with h | ⟨g, hg, ht, -⟩
        · have hn : f.name ≠ [] := by rw [h]; simpa [segName] using hcp
          have hr : f.rows = [] ++ [{ r with segs := ps }] := by rw [h]; rfl
          unfold share
          rw [if_neg hn, hr]
          intro h0
          exact ih true [] { r with segs := ps } b' (Or.inr rfl) hcps hb' (List.map_eq_nil_iff.1 h0)
        · obtain ⟨q, hq, -⟩ := ofSegment_forks below rows g hg
          rw [ht] at hq
          unfold segText at hq
          split at hq
          · cases hq
          · rename_i hne; rw [← hq] at hne; exact absurd rfl hne
      · have hp : segPat p = .lit p := by
          unfold segPat
          split
          · exact absurd rfl hcol
          · rfl
        rw [hp] at hm
        simp only [matchRoute] at hm
        split at hm
        · rename_i he
          have hlit : f.name = [] ∧ f.text = s ∧ ∃ R, f.rows = R ++ [{ r with segs := ps }] := by
            rcases h with h | ⟨g, hg, h1, h2, h3, h4⟩
            · refine ⟨by rw [h]; simp [segName, hcol], by rw [h, ← he]; simp [segText, hcol], [], by rw [h]; rfl⟩
            · exact ⟨h3.trans ((ofSegment_forks below rows g hg).lit hp0 h1), by rw [h2, he], g.rows, h4⟩
          obtain ⟨h1, h2, R, h3⟩ := hlit
          unfold share
          rw [if_pos h1, if_pos h2, h3]
          exact ih false R { r with segs := ps } b (Or.inl rfl) hcps hm
        · cases hm

/-- C03 for every table, part: a route without empty or colon-only segments is reachable for a path it matches if every route that reads the path, as
far as the path goes, covers the method and is not longer than the path - whatever other routes there are, odd ones included. -/
theorem C03_covering_partial (hist : List (Reg σ)) (m : Method) (path : Str) (buf : Args)
    (hall : ∀ r ∈ hist, reads ((segs r.route).take (segs path).length) (segs path) →
      covers r.method m = true ∧ (segs r.route).length ≤ (segs path).length)
    (r : Reg σ) (hr : r ∈ hist) (hclean : Clean r) (b : List (Str × Str)) (hm : matchRoute (routePats r) (segs path) = some b)
    (hcov : covers r.method m = true) :
    ∃ s args, treeFind (treeOf hist) m path buf = .ret ⟨some s, true, args⟩ := by
  obtain ⟨pre, post, rfl⟩ := List.append_of_mem hr
  have hlen : r.toRow.segs.length ≤ (segs path).length := by
    have : ∀ (ps : List Str) (ss : List Str) (b : List (Str × Str)), matchRoute (ps.map segPat) ss = some b → ps.length ≤ ss.length := by
      intro ps
      induction ps with
      | nil => intros; exact Nat.zero_le _
      | cons p ps ih =>
        intro ss b h
        cases ss with
        | nil => cases hp : segPat p <;> simp [hp, matchRoute] at h
        | cons s ss =>
          cases hp : segPat p with
          | lit t =>
            simp only [List.map_cons, hp, matchRoute] at h
            split at h
            · exact Nat.succ_le_succ (ih ss b h)
            · cases h
          | par n =>
            simp only [List.map_cons, hp, matchRoute, Option.map_eq_some_iff] at h
            obtain ⟨b', h, -⟩ := h
            exact Nat.succ_le_succ (ih ss b' h)
    exact this _ _ _ hm
  -- the route itself, after the earlier ones
  have hmid : ∃ s args, treeFind (treeOf (pre ++ [r])) m path buf = .ret ⟨some s, true, args⟩ := by
    have hinv : ∀ (P : List (Reg σ)), (∀ x ∈ P, x ∈ pre) → segs path ≠ [] →
        (choices false (P.map Reg.toRow) (segs path)).head? = none ∨
          ∃ X x v, (choices false (P.map Reg.toRow) (segs path)).head? = some (X ++ [x], v) ∧ covers x.method m = true := by
      intro P
      induction P using backwards with
      | nil =>
        intro _ hne
        left
        cases h : segs path with
        | nil => exact absurd h hne
        | cons s ss => rfl
      | snoc P x ih =>
        intro hP hne
        have ih := ih (fun y hy => hP y (by simp [hy])) hne
        rw [List.map_append, List.map_singleton]
        by_cases hx : reads ((segs x.route).take (segs path).length) (segs path)
        · obtain ⟨h1, h2⟩ := hall x (by simp [hP x (by simp)]) hx
          rcases choices_gain (segs path) false (P.map Reg.toRow) x.toRow h2 with h | ⟨X, y, v, h, hy⟩
          · rw [← h]; exact ih
          · exact Or.inr ⟨X, y, v, h, by rw [hy]; exact h1⟩
        · rw [choices_unread (segs path) false (P.map Reg.toRow) x.toRow (Or.inl rfl) hx]
          exact ih
    have hserve : ∃ X x v, (choices false ((pre ++ [r]).map Reg.toRow) (segs path)).head? = some (X ++ [x], v) ∧ covers x.method m = true := by
      rw [List.map_append, List.map_singleton]
      have hne := choices_match (segs path) false (pre.map Reg.toRow) r.toRow b (Or.inl rfl) hclean hm
      rcases choices_gain (segs path) false (pre.map Reg.toRow) r.toRow hlen with h | ⟨X, y, v, h, hy⟩
      · by_cases h0 : segs path = []
        · have hs : r.toRow.segs = [] := List.eq_nil_of_length_eq_zero (Nat.le_zero.1 (by rw [h0] at hlen; exact hlen))
          rw [h0]
          exact ⟨(pre.map Reg.toRow).filter fun r => decide (r.segs = []), r.toRow, [], by simp [choices, List.filter_append, hs], hcov⟩
        · rcases hinv pre (fun _ h => h) h0 with h' | h'
          · rw [h'] at h
            exact absurd (List.head?_eq_none_iff.1 h.symm) hne
          · rw [← h]; exact h'
      · exact ⟨X, y, v, h, by rw [hy]; exact hcov⟩
    obtain ⟨X, x, v, h1, h2⟩ := hserve
    refine ⟨x.set, v, ?_⟩
    rw [treeFind_every]
    unfold serveEvery
    generalize choices false ((pre ++ [r]).map Reg.toRow) (segs path) = c at h1 ⊢
    cases c with
    | nil => cases h1
    | cons c cs =>
      simp only [List.head?_cons, Option.some.injEq] at h1
      subst h1
      simp [h2, rowResult]
  obtain ⟨s, args, hfound⟩ := hmid
  have hsplit : pre ++ r :: post = (pre ++ [r]) ++ post := by simp
  rw [hsplit]
  by_cases hgoal : ∃ s' args', treeFind (treeOf ((pre ++ [r]) ++ post)) m path buf = .ret ⟨some s', true, args'⟩
  · exact hgoal
  · obtain ⟨x, hx, h1, h2⟩ := C07_culprit (pre ++ [r]) post m path buf buf s args hfound hgoal
    obtain ⟨h3, h4⟩ := hall x (by simp [hx]) h1
    rcases h2 with h2 | h2
    · omega
    · rw [h3] at h2; cases h2

instance decReads : ∀ a b : List Str, Decidable (reads a b)
  | [], [] => isTrue trivial
  | [], _ :: _ => isFalse id
  | _ :: _, [] => isFalse id
  | p :: ps, s :: ss =>
    have := decReads ps ss
    inferInstanceAs (Decidable ((p = [] ∧ ps.length = ss.length) ∨ ((p.head? = some 58 ∨ p = s) ∧ reads ps ss)))

/-- A table with a route of colons, one with an empty segment and a method of its own that does not read the path, and another route for the path. -/
def oddOnes : List (Reg Nat) := [⟨b!"GET", b!"/:/:", 1⟩, ⟨b!"POST", b!"/b//x", 2⟩, ⟨b!"GET", b!"/a/:id", 3⟩, ⟨b!"GET", b!"/a/b", 4⟩]

example : ∃ s args, treeFind (treeOf oddOnes) b!"GET" b!"/a/b" [] = .ret ⟨some s, true, args⟩ :=
  C03_covering_partial oddOnes b!"GET" b!"/a/b" [] (by decide +kernel) ⟨b!"GET", b!"/a/:id", 3⟩ (by simp [oddOnes])
    (by unfold Clean; decide +kernel) [(b!"id", b!"b")] (by decide +kernel) (by decide +kernel)

/-- What the culprit does: a longer one, and one for another method. -/
example : treeFind (treeOf [⟨b!"GET", b!"/a/x", 1⟩, ⟨b!"GET", b!"/:p/b", 2⟩]) b!"GET" b!"/a/b" [] = .ret ⟨some 2, true, [(b!"p", b!"a")]⟩ ∧
    treeFind (treeOf [⟨b!"GET", b!"/a/x", 1⟩, ⟨b!"GET", b!"/:p/b", 2⟩, ⟨b!"GET", b!"/a/b/c", 3⟩]) b!"GET" b!"/a/b" [] = .ret ⟨none, false, []⟩ ∧
    treeFind (treeOf [⟨b!"GET", b!"/a/x", 1⟩, ⟨b!"GET", b!"/:p/b", 2⟩, ⟨b!"GET", b!"/a/b", 3⟩]) b!"GET" b!"/a/b" [] = .ret ⟨some 3, true, []⟩ := by
  decide +kernel

/-- Further routes that do not read the path: another first segment, a longer one, one with an empty segment. -/
example : treeFind (treeOf ([(⟨b!"GET", b!"/:p/b", 2⟩ : Reg Nat)] ++ [⟨b!"GET", b!"/b/:x", 3⟩, ⟨b!"GET", b!"/a/c/d", 4⟩, ⟨b!"PUT", b!"/c//x", 5⟩])) b!"GET" b!"/a/b" [] =
    treeFind (treeOf [⟨b!"GET", b!"/:p/b", 2⟩]) b!"GET" b!"/a/b" [] :=
  C07_unread_partial _ _ _ _ _ _ (by decide +kernel)

end Verif
