import Verif.Model.EndToEnd
/-
What a route is expected to do: what a server with only that route would do.
-/
namespace Verif.Spec
variable {η ρ υ : Type}

/-- A server with one route and nothing else. -/
def soleServer (I : Handlers3 η υ) (m : Method) (route : Str) (v : HView η) (init : Option (RCtx υ → Prog υ))
    (level : Int) : Srv υ Nat ρ where
  tree := treeOf [⟨m, route, 0⟩]
  regs := newRegTree
  sets := fun _ => ⟨v.before.map I.hdl, v.after.map I.hdl, v.last.bind I.last, v.main.bind I.main⟩
  initCtx := init
  logLevel := level

/-- The method and route a call registers (in the tree), if it registers any. -/
def registers : Op η ρ → Option (Method × Str)
  | .rUse _ m route _ => some (m, route)
  | .sAdd m route _ _ => some (m, route)
  | .sConv m route _ _ => some (m, route)
  | _ => none

/-- A server with one regular expression and nothing else. -/
def soleRegServer [DecidableEq ρ] (I : Handlers3 η υ) (m : Method) (rx : ρ) (v : HView η) (init : Option (RCtx υ → Prog υ))
    (level : Int) : Srv υ Nat ρ where
  tree := newTree
  regs := regOf [⟨m, rx, 0⟩]
  sets := fun _ => ⟨v.before.map I.hdl, v.after.map I.hdl, v.last.bind I.last, v.main.bind I.main⟩
  initCtx := init
  logLevel := level

/-- The method and expression a call registers, if it registers any. -/
def registersRx : Op η ρ → Option (Method × ρ)
  | .rUseReg _ m rx _ => some (m, rx)
  | .sAddReg m rx _ _ => some (m, rx)
  | _ => none

end Verif.Spec
