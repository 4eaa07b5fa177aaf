import Verif.Spec.Routing
/-
Routing for EVERY table, also with routes that have empty segments or segments of colons only.

Reading such a table needs two more rules than `Spec.Routing`.  An empty segment continues on the first branch that has no text of its own - which
may be the branch of a parameter.  And what is registered below a parameter that has branches already goes to all of these branches, whatever the
segment says.  Nothing here mentions the tree.
-/
namespace Verif.Spec

/-- A registration: its segments as they were written. -/
structure Row (σ : Type) where
  segs : List Str
  method : Str
  set : σ

/-- A way to continue: the text it accepts, or the name of its parameter (not empty), and the registrations that go this way, cut. -/
structure Fork (σ : Type) where
  text : Str
  name : Str
  rows : List (Row σ)

/-- The text of a segment: none if the segment begins with a colon. -/
def segText (s : Str) : Str := if s.head? = some 58 then [] else s

/-- The name of a segment: what follows the colons. -/
def segName (s : Str) : Str := if s.head? = some 58 then s.dropWhile (· == 58) else []

/-- One more registration on this way. -/
def Fork.take {σ : Type} (r : Row σ) (f : Fork σ) : Fork σ := { f with rows := f.rows ++ [r] }

/-- A registration continuing with the segment `p` goes the first way with this text; if there is none, it opens a way. -/
def forkFirst {σ : Type} (p : Str) (r : Row σ) : List (Fork σ) → List (Fork σ)
  | [] => [⟨segText p, segName p, [r]⟩]
  | f :: fs => if f.text = p then f.take r :: fs else f :: forkFirst p r fs

/-- One more registration: below a parameter it goes all ways that exist. -/
def fork {σ : Type} (below : Bool) (forks : List (Fork σ)) (r : Row σ) : List (Fork σ) :=
  match r.segs with
  | [] => forks
  | p :: ps =>
    if below = true ∧ forks ≠ [] then forks.map (Fork.take { r with segs := ps })
    else forkFirst p { r with segs := ps } forks

/-- The ways to continue, oldest registration first. -/
def forks {σ : Type} (below : Bool) (rows : List (Row σ)) : List (Fork σ) := rows.foldl (fork below) []

/-- The candidates for a path, best first. -/
def choices {σ : Type} : Bool → List (Row σ) → List Str → List (List (Row σ) × List (Str × Str))
  | _, rows, [] => [(rows.filter fun r => decide (r.segs = []), [])]
  | below, rows, s :: ss =>
    (forks below rows).flatMap fun f =>
      if f.name = [] then if f.text = s then choices false f.rows ss else []
      else (choices true f.rows ss).map fun c => (c.1, (f.name, s) :: c.2)

/-- The registration served: the latest one covering the method on the first candidate. -/
def serveEvery {σ : Type} (rows : List (Row σ)) (method : Str) (path : List Str) : Option (Row σ × List (Str × Str)) :=
  match choices false rows path with
  | [] => none
  | (rs, b) :: _ => (rs.reverse.find? fun r => covers r.method method).map fun r => (r, b)

/-- The segments of a route accept those of a path, one by one, up to the first empty segment of the route; behind it only their number counts. -/
def reads : List Str → List Str → Prop
  | [], [] => True
  | p :: ps, s :: ss => (p = [] ∧ ps.length = ss.length) ∨ ((p.head? = some 58 ∨ p = s) ∧ reads ps ss)
  | _, _ => False

end Verif.Spec
