import Verif.Spec.Every
/-
The rows of a table below a prefix, for tables with whatever routes.
-/
namespace Verif.Spec

/-- The rows whose segments begin with the prefix, without it. -/
def under {σ : Type} (pre : List Str) (rows : List (Row σ)) : List (Row σ) :=
  (rows.filter fun r => pre.isPrefixOf r.segs).map fun r => { r with segs := r.segs.drop pre.length }

/-- The route has no parameter in place of a segment of the prefix, as far as it agrees with the prefix up to there. -/
def KeepsClear (pre route : List Str) : Prop :=
  ∀ (k : Nat) (p : Str), k < pre.length → route.take k = pre.take k → route[k]? = some p → p.head? ≠ some 58

end Verif.Spec
