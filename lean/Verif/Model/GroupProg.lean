import Verif.Model.Group
/-
Who makes the calls on a request's group: the handlers (one after the other, on the request's goroutine) and the functions
they give to EGGo and EGTryGo, which may call EGGo, EGTryGo and EGWait themselves (ctx.go:377-387 only forwards).  The limit is
set before the first goroutine is started.  server_run.go:158: EGWait is called when the handlers are done.
-/
namespace Verif

/-- What a function does with the group: return; EGGo(child), then the rest; EGTryGo(child), then what it does after `true` or
`false`; EGWait, then the rest.  The functions given to ctx.go:381, 385. -/
inductive GFn where
  | ret
  | go (child rest : GFn)
  | tryGo (child yes no : GFn)
  | wait (rest : GFn)
  deriving DecidableEq, Repr

/-- The group, what is left of the handlers, and what is left of the functions (same numbers as in the group).  A request of server_run.go:153-158 with the group of ctx.go:59, 377-391. -/
structure GPSt where
  grp : GroupSt
  main : GFn
  progs : List GFn
  deriving DecidableEq, Repr

/-- The next call of a function with rest `f`; `put` stores what is left of it. `none`: it cannot go on now.  The functions given to ctx.go:381, 385. -/
def gpCall (s : GPSt) (put : GPSt → GFn → GPSt) : GFn → Option GPSt
  | .ret => none
  | .go c r =>
    match groupStep s.grp .go with
    | .ok g _ => some (put { s with grp := g, progs := s.progs ++ [c] } r)
    | _ => none
  | .tryGo c y n =>
    match groupStep s.grp .tryGo with
    | .ok g true => some (put { s with grp := g, progs := s.progs ++ [c] } y)
    | .ok _ false => some (put s n)
    | _ => none
  | .wait r =>
    match groupStep s.grp .wait with
    | .ok _ _ => some (put s r)
    | _ => none

/-- One step of the handlers (`none`) or of goroutine `k`: its next call, its return, its `done`.  A request of server_run.go:153-158 with the group of ctx.go:59, 377-391. -/
def gpStep (s : GPSt) : Option Nat → Option GPSt
  | none => gpCall s (fun s r => { s with main := r }) s.main
  | some k =>
    match s.grp.gs[k]?, s.progs[k]? with
    | some .running, some .ret =>
      match groupStep s.grp (.fin k) with
      | .ok g _ => some { s with grp := g }
      | _ => none
    | some .running, some f => gpCall s (fun s r => { s with progs := s.progs.set k r }) f
    | some .returned, _ =>
      match groupStep s.grp (.rel k) with
      | .ok g _ => some { s with grp := g }
      | _ => none
    | _, _ => none

/-- A schedule: who makes the next step.  A request of server_run.go:153-158 with the group of ctx.go:59, 377-391. -/
def gpRun (s : GPSt) : List (Option Nat) → Option GPSt
  | [] => some s
  | t :: ts => (gpStep s t).bind fun s' => gpRun s' ts

/-- A request whose handlers do `main`, after the calls `lim` on the group (EGSetLimit).  A request of server_run.go:153-158 with the group of ctx.go:59, 377-391. -/
def gpInit (lim : List GOp) (main : GFn) : Option GPSt := (groupRun groupInit lim).map fun g => ⟨g, main, []⟩

/-- The handlers are done and the server's EGWait returns.  server_run.go:158. -/
def gpOver (s : GPSt) : Prop := s.main = .ret ∧ groupStep s.grp .wait = .ok s.grp true

end Verif
