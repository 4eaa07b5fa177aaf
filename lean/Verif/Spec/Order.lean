import Verif.Spec.Orderly
/-
When the order of two registrations matters.
-/
namespace Verif.Spec

/-- The first route gets into the way of the second: there is a path that the second one matches and for which the first one competes (it, or the
beginning of it, matches the path too), and they do not share one branch, literal all the way. -/
def disturbs (p q : List Pat) : Prop :=
  (∃ ss, competes p ss = true ∧ (matchRoute q ss).isSome = true) ∧ ¬ (allLit q = true ∧ p.take q.length = q)

/-- The order of two registrations does not matter: neither route gets into the way of the other, and they are not registrations of one route for
one method. -/
def orderFree (p : List Pat) (m : Str) (q : List Pat) (m' : Str) : Prop :=
  ¬ disturbs p q ∧ ¬ disturbs q p ∧ ¬ (p = q ∧ ∃ x, covers m x = true ∧ covers m' x = true)

/-- The same, as a computation over two rows of the table. -/
def orderFreeCheck (p : List Pat) (m : Str) (q : List Pat) (m' : Str) : Bool :=
  (!meets p q || (allLit q && decide (p.take q.length = q))) && (!meets q p || (allLit p && decide (q.take p.length = p))) &&
  !(decide (p = q) && ([b!"GET", b!"POST", b!"HEAD", m].any fun x => covers m x && covers m' x))

end Verif.Spec
