/-
The limit of a request's goroutine group: ctx.go:66-68 (the group), 377-391 `EGWait`, `EGGo`, `EGTryGo`, `EGSetLimit`, which
forward to golang.org/x/sync v0.10.0 `errgroup.Group` (external code, trusted reading).  Errors and cancellation are in
Model/Pipeline.
-/
namespace Verif

/-- A goroutine of the group: running the function; the function has returned; `done` has run.  The group `eg` of ctx.go:59, 68 (golang.org/x/sync/errgroup, external). -/
inductive GPhase where
  | running | returned | done
  deriving DecidableEq, Repr

/-- `sem`: capacity and length of the channel of tokens, `none` for nil.  The group `eg` of ctx.go:59, 68 (golang.org/x/sync/errgroup, external). -/
structure GroupSt where
  sem : Option (Nat × Nat)
  gs : List GPhase
  deriving DecidableEq, Repr

/-- ctx.go:68: a new group has no limit. -/
def groupInit : GroupSt := ⟨none, []⟩

/-- Calls, in the order in which they take effect, and what the goroutines do: `fin k`: the function of goroutine `k`
returns; `rel k`: its deferred `done` runs.  ctx.go:377-391. -/
inductive GOp where
  | setLimit (n : Int) | go | tryGo | fin (k : Nat) | rel (k : Nat) | wait
  deriving DecidableEq, Repr

/-- What a step does: blocks for the time being, panics, or completes, with the result of TryGo (`true` for the others).  External (errgroup): called in ctx.go:378, 382, 386, 390. -/
inductive GRes where
  | blocked
  | panic
  | ok (s : GroupSt) (b : Bool)
  deriving DecidableEq, Repr

/-- `Go` and `TryGo` once there is room: `sem <- token{}`, `wg.Add(1)`, `go ...`.  External (errgroup): called in ctx.go:382, 386. -/
def groupSpawn (s : GroupSt) : GroupSt := ⟨s.sem.map fun p => (p.1, p.2 + 1), s.gs ++ [.running]⟩

/-- Whether a token can be sent at once.  External (errgroup): called in ctx.go:382, 386. -/
def groupRoom (s : GroupSt) : Bool :=
  match s.sem with
  | none => true
  | some (cap, len) => len < cap

/-- External (errgroup): called in ctx.go:378, 382, 386, 390. -/
def groupStep (s : GroupSt) : GOp → GRes
  /- errgroup.go SetLimit: a negative limit removes the channel; otherwise tokens in the channel panic. -/
  | .setLimit n =>
    if n < 0 then .ok ⟨none, s.gs⟩ true
    else match s.sem with
      | some (_, _ + 1) => .panic
      | _ => .ok ⟨some (n.toNat, 0), s.gs⟩ true
  /- errgroup.go Go: the send blocks while the channel is full. -/
  | .go => if groupRoom s then .ok (groupSpawn s) true else .blocked
  /- errgroup.go TryGo: false if it would block. -/
  | .tryGo => if groupRoom s then .ok (groupSpawn s) true else .ok s false
  | .fin k => if s.gs[k]? = some .running then .ok ⟨s.sem, s.gs.set k .returned⟩ true else .blocked
  /- errgroup.go done: receives a token if there is a channel (now), and blocks if it is empty. -/
  | .rel k =>
    if s.gs[k]? = some .returned then
      match s.sem with
      | none => .ok ⟨none, s.gs.set k .done⟩ true
      | some (_, 0) => .blocked
      | some (cap, len + 1) => .ok ⟨some (cap, len), s.gs.set k .done⟩ true
    else .blocked
  /- errgroup.go Wait: until all goroutines are done. -/
  | .wait => if s.gs.all (· == .done) then .ok s true else .blocked

/-- Steps that all complete; `none` otherwise.  External (errgroup): called in ctx.go:378, 382, 386, 390. -/
def groupRun (s : GroupSt) : List GOp → Option GroupSt
  | [] => some s
  | o :: os => match groupStep s o with
    | .ok s' _ => groupRun s' os
    | _ => none

end Verif
