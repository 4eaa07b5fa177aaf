import Verif.Model.Heap
/-
When appending to one list of handlers changes another one.
-/
namespace Verif.Spec
variable {η ρ : Type}

/-- The list `z` has an element in cell `p` of array `a`. -/
def Holds (z : Slice) (a p : Nat) : Prop := z.arr = a ∧ z.off ≤ p ∧ p < z.off + z.len

/-- Appending `xs` to the list `s` changes the list `z`: there is room behind `s`, so that the new elements go into the cells behind `s`;
one of these cells is in use by `z`, and had another content. -/
def Overwrites (A : Arrs η) (s : Slice) (xs : List η) (z : Slice) : Prop :=
  s.len + xs.length ≤ s.cap ∧
  ∃ i x, xs[i]? = some x ∧ Holds z s.arr (s.off + s.len + i) ∧ (A[s.arr]?).bind (·[s.off + s.len + i]?) ≠ some x

/-- The handlers given as an argument. -/
def argHandlers (w : World η ρ) : Arg η → Option (List η)
  | .lit xs => some xs
  | .spread v => (w.slices[v]?).map (cells w.arrs)

/-- The call appends handlers to a list of a set of the program, and this changes a list of the set `s`. -/
def Spoils (w : World η ρ) (s : HSet η) : Op η ρ → Prop
  | .setBefore j arg => ∃ addr t xs, w.setVars[j]? = some addr ∧ w.sets[addr]? = some t ∧ argHandlers w arg = some xs ∧ Overwrites w.arrs t.before xs s.before
  | .setAfter j arg => ∃ addr t xs, w.setVars[j]? = some addr ∧ w.sets[addr]? = some t ∧ argHandlers w arg = some xs ∧ Overwrites w.arrs t.after xs s.after
  | _ => False

end Verif.Spec
