import Verif.Spec.Every
import Verif.Spec.Table
/-
The table of a whole program, read row by row as it was written (`Spec.Every`), whatever its routes look like.
-/
namespace Verif.Spec
variable {η : Type}

/-- The entry of the table that serves the method and path, and what its parameters are bound to. -/
def entryEvery (routes : List (Method × Str × HView η)) (meth : Method) (path : Str) : Option ((Method × Str × HView η) × List (Str × Str)) :=
  (serveEvery (routes.map fun x => ⟨segs x.2.1, x.1, x⟩) meth (segs path)).map fun x => (x.1.set, x.2)

end Verif.Spec
