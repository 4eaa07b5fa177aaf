import Verif.Model.Heap
import Verif.Props.RegTree
/-
Specification of C123: the calls that panic.
-/
namespace Verif.Spec
open Verif
variable {η ρ : Type}

/-- The slice variable exists. -/
def ArgExists (w : World η ρ) : Arg η → Prop
  | .lit _ => True
  | .spread v => v < w.slices.length

/-- The variables in a call exist (that a program uses only variables it has is Go's rule, not the library's), and what the
program does with slices of its own is within their bounds. -/
def Scoped (w : World η ρ) : Op η ρ → Prop
  | .newSet | .newRouter | .mkSlice _ _ => True
  | .setBefore j a | .setAfter j a => j < w.setVars.length ∧ ArgExists w a
  | .setLast j _ | .setUse j _ | .setClone j => j < w.setVars.length
  | .rFirst r _ | .rLastAfter r _ | .rLast r _ | .rUse r _ _ _ | .rUseReg r _ _ _ | .rClone r | .rGetBefore r | .rGetAfter r =>
    r < w.routers.length
  | .rBefore r a | .rAfter r a => r < w.routers.length ∧ ArgExists w a
  | .sAdd _ _ _ s | .sAddReg _ _ _ s => ∀ j, s = some j → j < w.setVars.length
  | .sConv _ _ _ l => ∀ s ∈ l, ∀ j, s = some j → j < w.setVars.length
  | .slSet v i _ => ∃ s, w.slices[v]? = some s ∧ i < s.len
  | .slAppend v _ => v < w.slices.length
  | .slSub v lo hi mx => ∃ s, w.slices[v]? = some s ∧ lo ≤ hi ∧ hi ≤ mx ∧ mx ≤ s.cap

/-- The calls that panic: a route or an expression is added with a nil set, a convenience method (Get, Post, ...) is called
without a set or with nil as its first one, an expression is added for a method that is none of the eleven. -/
def PanicCall : Op η ρ → Prop
  | .sAdd _ _ _ s => s = none
  | .sAddReg m _ _ s => s = none ∨ m ∉ rxMethods
  | .sConv _ _ _ l => l = [] ∨ l.head? = some none
  | .rUseReg _ m _ _ => m ∉ rxMethods
  | _ => False

end Verif.Spec
