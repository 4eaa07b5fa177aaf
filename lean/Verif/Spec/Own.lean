import Verif.Model.Tree
import Verif.Spec.Routing
/-
C140: the routes of one method.
-/
namespace Verif.Spec

/-- The registrations that are for a method. -/
def ofMethod {σ : Type} (m : Method) (hist : List (Reg σ)) : List (Reg σ) := hist.filter fun r => covers r.method m

end Verif.Spec
