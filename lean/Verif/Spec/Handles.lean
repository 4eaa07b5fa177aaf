import Verif.Model.Handles
/-
Specification of C121: which files are open after some events; nothing if a file is used or closed that is not open.
-/
namespace Verif.Spec

def openAfter : List Nat → List FileEv → Option (List Nat)
  | now, [] => some now
  | now, .opened n :: t => if n ∈ now then none else openAfter (n :: now) t
  | now, .used n :: t => if n ∈ now then openAfter now t else none
  | now, .closed n :: t => if n ∈ now then openAfter (now.erase n) t else none

/-- Every file is closed once, after its last use, and none stays open. -/
def Tidy (evs : List FileEv) : Prop := openAfter [] evs = some []

end Verif.Spec
