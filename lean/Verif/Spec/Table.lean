import Verif.Spec.Routing
import Verif.Spec.EndToEnd
import Verif.Spec.Builders
/-
What a whole server is expected to do: look the request up in the table of its registrations.

`Spec.vrun` (Spec/Builders) reads a program of calls as plain values and collects the table; `Spec.serve` (Spec/Routing)
says which entry of a table of routes serves a path; `Spec.soleServer` and `Spec.soleRegServer` (Spec/EndToEnd) say what
serving an entry means.
-/
namespace Verif.Spec
variable {η ρ υ : Type}

/-- An entry of the table as a route. -/
def asRoute (x : Method × Str × HView η) : Route (Method × Str × HView η) := ⟨(segs x.2.1).map segPat, x.1, x⟩

/-- The entry of the table of routes that serves the method and path. -/
def entry (routes : List (Method × Str × HView η)) (meth : Method) (path : Str) : Option (Method × Str × HView η) :=
  (serve (routes.map asRoute) meth (segs path)).map fun x => x.1.set

/-- The entry of the table of expressions with this expression that serves the method: the latest. -/
def rxEntry [DecidableEq ρ] (rxs : List (Method × ρ × HView η)) (meth : Method) (rx : ρ) : Option (Method × ρ × HView η) :=
  rxs.reverse.find? fun y => decide (y.2.1 = rx) && covers y.1 meth

/-- A server without routes and expressions. -/
def emptyServer (init : Option (RCtx υ → Prog υ)) (level : Int) : Srv υ Nat ρ where
  tree := newTree
  regs := newRegTree
  sets := fun _ => ⟨[], [], none, none⟩
  initCtx := init
  logLevel := level

end Verif.Spec
