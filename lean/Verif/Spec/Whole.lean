import Verif.Spec.Wire
import Verif.Model.Wire
import Verif.Spec.Table
/-
What a handler is to see of a request a client wrote.
-/
namespace Verif.Spec

/-- The parameters with a name or a value. -/
def named (ps : List (Str × Str)) : List (Str × Str) := ps.filter fun e => decide (e.1 ≠ [] ∨ e.2 ≠ [])

/-- What the request means: the path with the segments, the parameters of the query and of the form. -/
structure ReadsAs (r : WireReq) (ss : List Str) (qs fs : List (Str × Str)) : Prop where
  target : WrittenTarget r.target ss qs
  form : FormOf r.contentType r.body fs

end Verif.Spec
