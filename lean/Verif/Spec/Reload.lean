import Verif.Model.Tree
/-
What it means to run the set-up of the routes again.
-/
namespace Verif.Spec
variable {σ : Type}

/-- The table has a registration with this method and this route. -/
def known (hist : List (Reg σ)) (r : Reg σ) : Prop := ∃ o ∈ hist, o.method = r.method ∧ segs o.route = segs r.route

/-- Two lists of registrations with the same methods and routes, in the same order; the handler sets may differ. -/
def sameRoutes (a b : List (Reg σ)) : Prop := a.map (fun r => (r.method, segs r.route)) = b.map fun r => (r.method, segs r.route)

end Verif.Spec
