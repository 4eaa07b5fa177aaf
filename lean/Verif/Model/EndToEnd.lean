import Verif.Model.Heap
import Verif.Model.Auth
/-
The whole server: what request processing (Model/Pipeline, /repo/server_run.go:109-167) does on the tables a program of
API calls has left behind (Model/Heap, /repo/gorouter.go, server.go, top_handler.go).
-/
namespace Verif

/-- What an interface value is when it is called as a before/after handler, as a main handler or as a last handler
(handler.go:3-19); `none` is the nil interface. -/
structure Handlers3 (η υ : Type) where
  hdl : η → Option (Hdl υ)
  main : η → Option (MainH υ)
  last : η → Option (LastH υ)

variable {η ρ υ : Type}

/-- The handlers of a set, as `Run` and `RunLast` call them (top_handler.go:24-81). -/
def viewSet (I : Handlers3 η υ) (v : HView η) : HSetV υ :=
  ⟨v.before.map I.hdl, v.after.map I.hdl, v.last.bind I.last, v.main.bind I.main⟩

/-- The server (server.go:19-42) with the tables of a program's state, its session initialiser and log level. -/
def serverOf (I : Handlers3 η υ) (w : World η ρ) (init : Option (RCtx υ → Prog υ)) (level : Int) : Srv υ Nat ρ where
  tree := w.tree
  regs := w.regs
  sets := fun a => match setHandlers w a with
    | some v => viewSet I v
    | none => ⟨[], [], none, none⟩
  initCtx := init
  logLevel := level

end Verif
