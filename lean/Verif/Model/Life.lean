import Verif.Model.ServerRun
/-
Settings of a server and several Runs of it, one after the other: /repo/server.go:19-95 (fields, setters, getters),
/repo/server_run.go:22-107.  The server's own log settings are in Model/ReqLog, authentication in Model/Auth.
-/
namespace Verif

/-- A `net.Listener`: a socket, or TLS over a listener (`tls.NewListener`); closing it closes the socket.  server.go:39, 68-71, server_run.go:25-29, 84. -/
inductive Ln where
  | sock (n : Nat)
  | tls (l : Ln)
  deriving DecidableEq, Repr

/-- The socket of a listener.  server.go:39, 68-71, server_run.go:25-29, 84. -/
def Ln.socket : Ln → Nat
  | .sock n => n
  | .tls l => l.socket

/-- Whose handler a fasthttp server calls.  server_run.go:39-41. -/
inductive FastHandler where
  | unset
  | user (n : Nat)
  /-- `server.ServeHTTP` of the router -/
  | router
  deriving DecidableEq, Repr

/-- The fields of `fasthttp.Server` the router writes.  server_run.go:36, 39, 44. -/
structure FastSrv where
  name : Str
  handler : FastHandler
  deriving DecidableEq, Repr

/-- server.go:19-42 `Server`, without routes, logger and authentication.  `closed`: the sockets closed so far, `next`: the
number of the next socket `net.Listen` makes. -/
structure LifeSt where
  srv : Option FastSrv
  serverName : Str
  certFile : Str
  keyFile : Str
  timeout : Int
  listener : Option Ln
  locker : BitVec 64
  closed : List Nat
  next : Nat
  deriving DecidableEq, Repr

/-- server.go:44-52 `New`.  Sockets below `n` exist already (and may be given to SetListener). -/
def lifeInit (n : Nat) : LifeSt := ⟨none, [], [], [], 0, none, 0, [], n⟩

/-- The setters.  server.go:58-61, 68-71, 77-86, 92-95. -/
inductive Setting where
  | server (s : Option FastSrv)
  | listener (l : Option Ln)
  | name (s : Str)
  | tls (cert key : Str)
  | timeout (t : Int)

/-- server.go:58-61, 68-71, 77-86, 92-95. -/
def LifeSt.set (s : LifeSt) : Setting → LifeSt
  | .server x => { s with srv := x }
  | .listener l => { s with listener := l }
  | .name n => { s with serverName := n }
  | .tls c k => { s with certFile := c, keyFile := k }
  | .timeout t => { s with timeout := t }

/-- server_run.go:23-30: the listener Run will use; `net.Listen` is called with the address (second component) unless
there is a listener.  `listens`: whether it succeeds. -/
def LifeSt.listen (s : LifeSt) (port add : Str) (addr : List Str) (listens : Bool) : Outcome (Option (LifeSt × Ln) × Option Str) :=
  match s.listener with
  | some l => .ret (some (s, l), none)
  | none =>
    (resolveAddress port ([add] ++ addr)).bind fun a =>
      if listens then .ret (some ({ s with listener := some (.sock s.next), next := s.next + 1 }, .sock s.next), some a)
      else .ret (none, some a)

/-- server_run.go:35-45: the fasthttp server. -/
def LifeSt.prepare (s : LifeSt) : LifeSt × FastSrv :=
  let f := s.srv.getD ⟨[], .unset⟩
  let f := { f with handler := .router }
  let f := if s.serverName ≠ [] then { f with name := s.serverName } else f
  ({ s with srv := some f }, f)

/-- server_run.go:72-87: the listener given to `Serve`; `none` if the certificate cannot be loaded (`loads`). -/
def LifeSt.wrap (s : LifeSt) (l : Ln) (loads : Str → Str → Bool) : Option (LifeSt × Ln) :=
  if s.certFile ≠ [] ∧ s.keyFile ≠ [] then
    if loads s.certFile s.keyFile then some ({ s with listener := some (.tls l) }, .tls l) else none
  else some (s, l)

/-- What a call of Run sets up: the address given to `net.Listen` (if it was called), the fasthttp server, the listener
given to its `Serve`.  server_run.go:22-88. -/
structure Started where
  addr : Option Str
  srv : FastSrv
  ln : Ln
  deriving DecidableEq, Repr

/-- Why nothing is served.  server_run.go:27, 74, server.go:153. -/
inductive StartErr where
  /-- `net.Listen` was called with the address and failed -/
  | noListen (addr : Str)
  /-- `tls.LoadX509KeyPair` was called with the two files and failed -/
  | noCert (cert key : Str)
  deriving DecidableEq, Repr

/-- Run up to the call of `Serve` (server_run.go:23-45, 71-87), if nothing interferes. -/
def LifeSt.start (s : LifeSt) (port add : Str) (addr : List Str) (listens : Str → Bool) (loads : Str → Str → Bool) :
    Outcome (LifeSt × Except StartErr Started) :=
  (s.listen port add addr (listens add)).bind fun
    | (none, a) => .ret (s, .error (.noListen (a.getD [])))
    | (some (s1, l), a) =>
      let p := s1.prepare
      match p.1.wrap l loads with
      | none => .ret (p.1, .error (.noCert p.1.certFile p.1.keyFile))
      | some (s3, l') => .ret (s3, .ok ⟨a, p.2, l'⟩)

/-- Run after server_run.go:44, in a server whose Shutdown counter and listener may have been used before.  Simplification: fasthttp has
no listener stored, as after a shutdown call that completed; a Run after one that gave up is not described. -/
def runFrom (ε : Type) (timeout : Int) (locker : BitVec 64) (closed : Bool) : RunSt ε :=
  ⟨timeout, false, false, false, closed, .starting, .waiting, none, locker, 0⟩

/-- The outcome of one Run.  server_run.go:22-91. -/
inductive RunEnd (ε : Type) where
  /-- `net.Listen` failed -/
  | noListen
  /-- the group's error -/
  | returned (r : Option ε)

/-- One whole Run, from the call to its return: `evs` is what happens meanwhile.  `none` if that cannot be what happens, or
if Run has not returned after it.  The TLS set-up happens before `serveStart`; `serveFail` before it stands for its
failure.  server_run.go:22-91. -/
def LifeSt.run {ε : Type} (s : LifeSt) (port add : Str) (addr : List Str) (listens : Bool) (evs : List (RunLbl ε)) :
    Outcome (Option (LifeSt × RunEnd ε)) :=
  (s.listen port add addr listens).bind fun
    | (none, _) => .ret (some (s, .noListen))
    | (some (s1, l), _) =>
      let s2 := s1.prepare.1
      match runRun (runFrom ε s2.timeout s2.locker (s2.closed.contains l.socket)) evs with
      | none => .ret none
      | some r =>
        if r.serve = .ended ∧ r.watch = .ended then
          let s3 := if r.lnReg then ((s2.wrap l (fun _ _ => true)).getD (s2, l)).1 else s2
          .ret (some ({ s3 with locker := r.locker,
                                closed := if r.closed then l.socket :: s3.closed else s3.closed }, .returned r.egErr))
        else .ret none

/-- server_run.go:100-107 `Shutdown` while no Run is in progress: without a fasthttp server it panics (nil receiver), after
the counter was incremented; with one that has no listener it does nothing. -/
def LifeSt.shutdown (s : LifeSt) : LifeSt × Bool :=
  ({ s with locker := s.locker + 1 }, decide (s.locker + 1 = 1) && s.srv.isNone)

/-- What a program does with a server, call after call.  server.go:44-95, server_run.go:22-107. -/
inductive LifeOp (ε : Type) where
  | set (x : Setting)
  /-- Shutdown while nothing runs; a panic is recovered by the caller -/
  | shutdown
  | run (port add : Str) (addr : List Str) (listens : Bool) (evs : List (RunLbl ε))

/-- The state after a history; `none` if it cannot happen.  server.go:44-95, server_run.go:22-107. -/
def lifeRun {ε : Type} (s : LifeSt) : List (LifeOp ε) → Option LifeSt
  | [] => some s
  | .set x :: t => lifeRun (s.set x) t
  | .shutdown :: t => lifeRun s.shutdown.1 t
  | .run port add addr listens evs :: t =>
    match s.run port add addr listens evs with
    | .ret (some (s', _)) => lifeRun s' t
    | _ => none

end Verif
