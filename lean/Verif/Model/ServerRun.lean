import Verif.Base.Str
/-
Model of the life of a server: /repo/server.go:143-155 (resolveAddress) and /repo/server_run.go:22-107 (Run, Shutdown).
-/
namespace Verif

/-! ### The listen address -/

/-- server.go:143-155 `resolveAddress`; `port` is the PORT environment variable ("" if unset). -/
def resolveAddress (port : Str) (addr : List Str) : Outcome Str :=
  match addr with
  | [] => if port ≠ [] then .ret (b!":" ++ port) else .ret b!":8080"
  | [a] => .ret a
  | _ => .panic

/-- server_run.go:23-30: the address given to `net.Listen`; `none` if the server already has a listener. -/
def runListen (hasListener : Bool) (port add : Str) (addr : List Str) : Outcome (Option Str) :=
  if hasListener then .ret none
  else (resolveAddress port ([add] ++ addr)).bind fun a => .ret (some a)

/-! ### Concurrent Shutdown calls -/

/-- Where a goroutine calling `Server.Shutdown` (server_run.go:100-107) is. -/
inductive ShutPc where
  /-- before `atomic.AddInt64` -/
  | start
  /-- after it, with its result -/
  | got (v : BitVec 64)
  /-- inside / after `server.srv.Shutdown()` -/
  | invoked
  /-- returned nil without doing anything -/
  | skipped
  deriving DecidableEq, Repr

/-- The shared counter `*server.shutdownLocker` and the callers.  server.go:20, server_run.go:100-107. -/
structure ShutSt where
  locker : BitVec 64
  pcs : List ShutPc

/-- server.go:46: `new(int64)`; `n` goroutines are about to call Shutdown. -/
def shutInit (n : Nat) : ShutSt := ⟨0, List.replicate n .start⟩

/-- One atomic step of caller `i`: server_run.go:102 (add, then compare), 106. -/
def shutStep (s : ShutSt) (i : Nat) : ShutSt :=
  match s.pcs[i]? with
  | some .start => ⟨s.locker + 1, s.pcs.set i (.got (s.locker + 1))⟩
  | some (.got v) => if v ≠ 1 then { s with pcs := s.pcs.set i .skipped } else { s with pcs := s.pcs.set i .invoked }
  | _ => s

/-- The state after an interleaving: the list says which caller moves.  server.go:20, server_run.go:100-107. -/
def shutRun (n : Nat) (sched : List Nat) : ShutSt := sched.foldl shutStep (shutInit n)

/-! ### Run: the two goroutines of the error group -/

/-- The goroutine of server_run.go:70-88. -/
inductive ServePc where
  /-- before fasthttp's Serve has stored the listener (TLS set-up, scheduling) -/
  | starting
  /-- accepting connections -/
  | serving
  | ended
  deriving DecidableEq, Repr

/-- The goroutine of server_run.go:47-68. -/
inductive WatchPc where
  /-- in the select (line 51) -/
  | waiting
  /-- in a shutdown call; `wait`: it found a listener and waits until nothing is open -/
  | shutting (wait : Bool)
  | ended
  deriving DecidableEq, Repr

/-- The state of one Run.  `ε` is the type of errors.  server_run.go:47-90. -/
structure RunSt (ε : Type) where
  /-- server.go:35 `shutdownTimeOut` -/
  timeout : Int
  /-- the caller's context is done -/
  cancelled : Bool
  /-- a signal is in the channel -/
  signalled : Bool
  /-- fasthttp has a listener (`Server.ln`), and whether it was closed -/
  lnReg : Bool
  closed : Bool
  serve : ServePc
  watch : WatchPc
  /-- the group's first error; its context is done once there is one -/
  egErr : Option ε
  locker : BitVec 64
  /-- calls of the underlying fasthttp shutdown so far -/
  calls : Nat
  deriving DecidableEq, Repr

/-- What can happen while Run runs.  server_run.go:47-90. -/
inductive RunLbl (ε : Type) where
  /-- the caller cancels the context given to Run -/
  | cancel
  /-- the process gets SIGTERM, SIGQUIT or SIGINT -/
  | signal
  /-- somebody calls Server.Shutdown -/
  | userShutdown
  /-- TLS set-up or accepting fails -/
  | serveFail (e : ε)
  /-- Serve stores the listener and starts to accept -/
  | serveStart
  /-- the accept loop notices that the listener is closed; fasthttp's Serve returns nil -/
  | serveEnd
  /-- line 52: the context branch of the select -/
  | watchCtx
  /-- line 65: the signal branch -/
  | watchSig
  /-- the shutdown call returns -/
  | watchEnd (r : Option ε)

/-- Run after line 44: no goroutine has moved yet. -/
def runInit (ε : Type) (timeout : Int) : RunSt ε :=
  ⟨timeout, false, false, false, false, .starting, .waiting, none, 0, 0⟩

/-- golang.org/x/sync/errgroup: the group's context (errCtx) is done.  server_run.go:32, 51. -/
def RunSt.errCtxDone {ε : Type} (s : RunSt ε) : Bool := s.cancelled || s.egErr.isSome

/-- errgroup: a goroutine returned `r`; the first error is kept.  server_run.go:47, 70. -/
def RunSt.report {ε : Type} (s : RunSt ε) (r : Option ε) : RunSt ε :=
  { s with egErr := s.egErr.or r }

/-- fasthttp `Shutdown` / `ShutdownWithContext` (external): nothing if Serve has not stored a listener, otherwise
close it.  Called in server_run.go:57, 66, 106. -/
def RunSt.fastShutdown {ε : Type} (s : RunSt ε) : RunSt ε :=
  if s.lnReg then { s with closed := true, calls := s.calls + 1 } else { s with calls := s.calls + 1 }

/-- server_run.go:100-107 `Server.Shutdown` in one step; the Bool says whether fasthttp's shutdown was called. -/
def RunSt.shutdown {ε : Type} (s : RunSt ε) : RunSt ε × Bool :=
  if s.locker + 1 ≠ 1 then ({ s with locker := s.locker + 1 }, false)
  else ({ s with locker := s.locker + 1 }.fastShutdown, true)

/-- One step; `none` if it cannot happen.  server_run.go:47-90. -/
def runStep {ε : Type} (s : RunSt ε) : RunLbl ε → Option (RunSt ε)
  | .cancel => some { s with cancelled := true }
  | .signal => some { s with signalled := true }
  | .userShutdown => some s.shutdown.1
  | .serveFail e => if s.serve = .ended then none else some ({ s with serve := .ended }.report (some e))
  | .serveStart => if s.serve = .starting then some { s with serve := .serving, lnReg := true } else none
  | .serveEnd => if s.serve = .serving ∧ s.closed = true then some ({ s with serve := .ended }.report none) else none
  | .watchCtx =>
    if s.watch = .waiting ∧ s.errCtxDone = true then
      if s.timeout > 0 then some { s.fastShutdown with watch := .shutting s.lnReg }       -- lines 55-59
      else some { s.shutdown.1 with watch := .shutting (s.shutdown.2 && s.lnReg) }         -- line 61
    else none
  | .watchSig =>
    if s.watch = .waiting ∧ s.signalled = true then some { s.fastShutdown with watch := .shutting s.lnReg }
    else none
  | .watchEnd r =>
    match s.watch with
    | .shutting wait =>
      -- a successful wait needs the accept loop (and every connection) to have ended; errors.Wrap(nil, _) is nil
      if (wait = false ∧ r.isSome) ∨ (wait = true ∧ r = none ∧ s.serve ≠ .ended) then none
      else some ({ s with watch := .ended }.report r)
    | _ => none

/-- The state after a sequence of events; `none` if one of them could not happen.  server_run.go:47-90. -/
def runRun {ε : Type} (s : RunSt ε) : List (RunLbl ε) → Option (RunSt ε)
  | [] => some s
  | l :: t =>
    match runStep s l with
    | none => none
    | some s' => runRun s' t

/-- server_run.go:90: `errGroup.Wait()` has returned; Run's result is the group's error. -/
def RunSt.returned {ε : Type} (s : RunSt ε) : Prop := s.serve = .ended ∧ s.watch = .ended

end Verif
