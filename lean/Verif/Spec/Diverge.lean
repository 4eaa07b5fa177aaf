import Verif.Spec.Every
/-
Routes that part after common literal segments.
-/
namespace Verif.Spec

/-- A literal segment: not empty, no colon in front. -/
def LitSeg (p : Str) : Prop := p ≠ [] ∧ p.head? ≠ some 58

/-- The routes begin with the same literal segments, and then one ends or both go on with different segments, neither of which is a parameter (one may
be empty). -/
inductive Parting : List Str → List Str → Prop
  | endsLeft {q : Str} {qs : List Str} : Parting [] (q :: qs)
  | endsRight {p : Str} {ps : List Str} : Parting (p :: ps) []
  | differ {p q : Str} {ps qs : List Str} : p.head? ≠ some 58 → q.head? ≠ some 58 → p ≠ q → Parting (p :: ps) (q :: qs)
  | same {p : Str} {ps qs : List Str} : LitSeg p → Parting ps qs → Parting (p :: ps) (p :: qs)

/-- A list that has the elements of two lists, each in their order. -/
inductive Shuffle {α : Type} : List α → List α → List α → Prop
  | nil : Shuffle [] [] []
  | left {a : α} {x y z : List α} : Shuffle x y z → Shuffle (a :: x) y (a :: z)
  | right {a : α} {x y z : List α} : Shuffle x y z → Shuffle x (a :: y) (a :: z)

end Verif.Spec
