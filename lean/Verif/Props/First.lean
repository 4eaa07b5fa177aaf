import Verif.Props.Frame
/-
C03 for every table: the route registered first can always be reached.
-/
namespace Verif
open Spec
variable {σ : Type}

/-- The first way stays the first way, and keeps its first registration. -/
theorem fork_head (below : Bool) (r : Row σ) {f : Fork σ} {fs : List (Fork σ)} : ∃ g gs, fork below (f :: fs) r = g :: gs ∧ g.text = f.text ∧
    g.name = f.name ∧ ∃ Y, g.rows = f.rows ++ Y := by
  unfold fork
  split
  · exact ⟨f, fs, rfl, rfl, rfl, [], by simp⟩
  · split
    · exact ⟨_, _, rfl, rfl, rfl, [_], rfl⟩
    · simp only [forkFirst]
      split
      · exact ⟨_, _, rfl, rfl, rfl, [_], rfl⟩
      · exact ⟨_, _, rfl, rfl, rfl, [], by simp⟩

theorem foldl_head (below : Bool) : ∀ (B : List (Row σ)) (f : Fork σ) (fs : List (Fork σ)), ∃ g gs, B.foldl (fork below) (f :: fs) = g :: gs ∧
    g.text = f.text ∧ g.name = f.name ∧ ∃ Y, g.rows = f.rows ++ Y := by
  intro B
  induction B with
  | nil => intro f fs; exact ⟨f, fs, rfl, rfl, rfl, [], by simp⟩
  | cons b B ih =>
    intro f fs
    obtain ⟨g, gs, h1, h2, h3, Y, h4⟩ := fork_head below b (f := f) (fs := fs)
    obtain ⟨g', gs', k1, k2, k3, Y', k4⟩ := ih g gs
    exact ⟨g', gs', by rw [List.foldl_cons, h1, k1], k2.trans h2, k3.trans h3, Y ++ Y', by rw [k4, h4, List.append_assoc]⟩

/-- The first registration is on the first candidate of every path it matches. -/
theorem choices_head (ss : List Str) : ∀ (below : Bool) (r : Row σ) (rest : List (Row σ)) (b : List (Str × Str)),
    (∀ s ∈ r.segs, s.dropWhile (· == 58) ≠ []) → matchRoute (r.segs.map segPat) ss = some b →
    ∃ tail more, choices below (r :: rest) ss = ((⟨[], r.method, r.set⟩ : Row σ) :: tail, b) :: more := by
  induction ss with
  | nil =>
    intro below r rest b _ hm
    cases hs : r.segs with
    | nil =>
      rw [hs] at hm
      simp only [List.map_nil, matchRoute, Option.some.injEq] at hm
      subst hm
      refine ⟨rest.filter (fun r => decide (r.segs = [])), [], ?_⟩
      obtain ⟨sg, mt, st⟩ := r
      simp only at hs
      subst hs
      simp [choices]
    | cons p ps =>
      rw [hs, List.map_cons] at hm
      cases h : segPat p <;> simp [h, matchRoute] at hm
  | cons s ss ih =>
    intro below r rest b hc hm
    cases hs : r.segs with
    | nil => rw [hs] at hm; cases hm
    | cons p ps =>
      rw [hs] at hc hm
      have hcp := hc p (List.mem_cons_self ..)
      have hcps : ∀ x ∈ ps, x.dropWhile (· == 58) ≠ [] := fun x hx => hc x (List.mem_cons_of_mem _ hx)
      have hfirst : fork below ([] : List (Fork σ)) r = [⟨segText p, segName p, [{ r with segs := ps }]⟩] := by
        simp [fork, hs, forkFirst]
      obtain ⟨g, gs, h1, h2, h3, Y, h4⟩ := foldl_head below rest (⟨segText p, segName p, [{ r with segs := ps }]⟩ : Fork σ) []
      have hall : choices below (r :: rest) (s :: ss) = share s ss g ++ gs.flatMap (share s ss) := by
        rw [choices_cons]
        show ((r :: rest).foldl (fork below) []).flatMap (share s ss) = _
        rw [List.foldl_cons, hfirst, h1, List.flatMap_cons]
      have hrows : g.rows = ({ r with segs := ps } : Row σ) :: Y := by rw [h4]; rfl
      rw [hall]
      simp only [List.map_cons] at hm
      by_cases hcol : p.head? = some 58
      · obtain ⟨t, rfl⟩ : ∃ t, p = 58 :: t := by
          cases p with
          | nil => cases hcol
          | cons a t => simp only [List.head?_cons, Option.some.injEq] at hcol; exact ⟨t, by rw [hcol]⟩
        have hn : g.name = (58 :: t : Str).dropWhile (· == 58) := by
          rw [h3]; simp [segName]
        have hne : g.name ≠ [] := by rw [hn]; exact hcp
        simp only [segPat, matchRoute, Option.map_eq_some_iff] at hm
        obtain ⟨b', hb', rfl⟩ := hm
        obtain ⟨tail, more, he⟩ := ih true { r with segs := ps } Y b' hcps hb'
        unfold share
        rw [if_neg hne, hrows, he, hn]
        exact ⟨tail, _, rfl⟩
      · have hp : segPat p = .lit p := by
          unfold segPat
          split
          · exact absurd rfl hcol
          · rfl
        rw [hp] at hm
        simp only [matchRoute] at hm
        split at hm
        · rename_i he
          have hn : g.name = [] := by rw [h3]; simp [segName, hcol]
          have ht : g.text = s := by rw [h2, ← he]; simp [segText, hcol]
          obtain ⟨tail, more, he'⟩ := ih false { r with segs := ps } Y b hcps hm
          unfold share
          rw [if_pos hn, if_pos ht, hrows, he']
          exact ⟨tail, _, rfl⟩
        · cases hm

/-- C03 for every table, part: a route without empty or colon-only segments that is registered FIRST is never hidden, whatever is registered afterwards,
odd routes included: every request it matches is served, with the parameters this route gives, by a registration that covers the method and reads the
path; and by the route itself unless a later such registration exists. -/
theorem C03_first_partial (r : Reg σ) (rest : List (Reg σ)) (hclean : Clean r) (m : Method) (path : Str) (buf : Args)
    (hcov : covers r.method m = true) (b : List (Str × Str)) (hm : matchRoute (routePats r) (segs path) = some b) :
    ∃ x ∈ r :: rest, treeFind (treeOf (r :: rest)) m path buf = .ret ⟨some x.set, true, b⟩ ∧ covers x.method m = true ∧
      (x = r ∨ x ∈ rest ∧ reads (segs x.route) (segs path)) := by
  obtain ⟨tail, more, he⟩ := choices_head (segs path) false r.toRow (rest.map Reg.toRow) b hclean hm
  have hfind : treeFind (treeOf (r :: rest)) m path buf = .ret (rowResult (serveEvery ((r :: rest).map Reg.toRow) m (segs path))) :=
    treeFind_every ..
  obtain ⟨x0, hx0⟩ : ∃ x0, ((⟨[], r.method, r.set⟩ : Row σ) :: tail).reverse.find? (fun x => covers x.method m) = some x0 := by
    apply Option.isSome_iff_exists.1
    rw [List.find?_isSome]
    exact ⟨⟨[], r.method, r.set⟩, by simp, hcov⟩
  have hfound : treeFind (treeOf (r :: rest)) m path buf = .ret ⟨some x0.set, true, b⟩ := by
    rw [hfind]
    unfold serveEvery
    rw [List.map_cons]
    have he' : choices false (Reg.toRow r :: rest.map Reg.toRow) (segs path) = _ := he
    rw [he']
    simp only
    rw [show r.toRow.method = r.method from rfl, show r.toRow.set = r.set from rfl, hx0]
    rfl
  obtain ⟨x, hx, h1, h2, h3⟩ := C137_served (r :: rest) m path buf x0.set b hfound
  refine ⟨x, hx, by rw [hfound, h1], h2, ?_⟩
  rcases List.mem_cons.1 hx with rfl | hx
  · exact Or.inl rfl
  · exact Or.inr ⟨hx, h3⟩

/-- The oldest route among odd ones that go where it goes. -/
example : treeFind (treeOf [⟨b!"GET", b!"/u/:id", 1⟩, ⟨b!"POST", b!"/u//", 2⟩, ⟨b!"GET", b!"/u/7", 3⟩, ⟨b!"GET", b!"/u/:/:x", 4⟩]) b!"GET" b!"/u/7" [] =
    .ret ⟨some 1, true, [(b!"id", b!"7")]⟩ := by decide +kernel

end Verif
