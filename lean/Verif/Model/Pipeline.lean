import Verif.Model.RegTree
/-
Model of request processing: /repo/top_handler.go (HandlerSet.Run, RunLast), /repo/ctx.go (the request
context and its control calls) and /repo/server_run.go (runHTTP).

A handler is any terminating program that, step by step, makes calls on its context and may look at
the context after each (`Prog`).  Request goroutines (ctx.EGGo) run concurrently: at every call of a
handler an arbitrary scheduler (`Env.sched`) may let any goroutines take any number of steps.

`trace` is ghost: what happened, in order.
-/
namespace Verif
variable {υ : Type}

/-- Go `error` values: an opaque error, or github.com/pkg/errors `Wrap(inner, msg)`.  server_run.go:161, logger.go:151, server_run.go:63, 66. -/
inductive GoErr where
  | leaf (id : Nat) (msg : Str)
  | wrap (inner : GoErr) (msg : Str)
  deriving DecidableEq, Repr

/-- `err.Error()`; for a wrapped error "msg: inner" (pkg/errors).  External: called in server_run.go:95, 139, 146, 161, out.go:23. -/
def GoErr.error : GoErr → Str
  | .leaf _ m => m
  | .wrap e m => m ++ b!": " ++ e.error

/-- `errors.Cause(err)` (pkg/errors).  For the errors of server_run.go:161. -/
def GoErr.cause : GoErr → GoErr
  | .leaf i m => .leaf i m
  | .wrap e _ => e.cause

/-- A function given to ctx.EGGo: it may start further goroutines of the group, and ends with the
result number `g` (`Env.fin`).  ctx.go:381-383. -/
inductive Go where
  | ret (g : Nat)
  | spawn (child rest : Go)
  deriving DecidableEq, Repr

/-- ctx.go:381-383. -/
def Go.size : Go → Nat
  | .ret _ => 1
  | .spawn a b => a.size + b.size + 1

/-- How a handler call ends.  handler.go:3-19, called in top_handler.go:30, 37, 48, 60, 80. -/
inductive HOut where
  | ok
  | err (e : GoErr)
  | panic
  deriving DecidableEq, Repr

/-- The handler calls of one request.  top_handler.go:30, 37, 48, 60, 80. -/
inductive HId where
  | sess
  | init
  | before (i : Nat)
  | main
  | after (i : Nat)
  | last (err : Option GoErr)
  deriving DecidableEq, Repr

/-- The control calls on a context.  ctx.go:270-293. -/
inductive Ctl where
  | stop
  | abort
  | skipMain
  | egWait
  deriving DecidableEq, Repr

/-- The part of a fasthttp response that the router itself writes.  server_run.go:131, 138, baseauth.go:99-102, ctx.go:118-127. -/
structure Resp where
  status : Nat
  body : Str
  headers : List (Str × Str)
  deriving DecidableEq, Repr

/-- Ghost events.  `done` records whether `ctx.Ctx().Done()` was closed; `resp` a change of the response.  Of server_run.go:123-167 and top_handler.go:24-81. -/
inductive Ev where
  | start (h : HId) (done : Bool)
  | ret (o : HOut) (done : Bool)
  | ctl (k : Ctl)
  | spawn
  | goEnd (err : Option GoErr)
  | resp (old new : Resp)
  | released
  deriving DecidableEq, Repr

/-- ctx.go:39-64 `type Context struct`, with the errgroup's state (golang.org/x/sync/errgroup v0.10.0)
inlined: `cancelled` is the request's own cancellable context (ctx.go:67), `egCancelled` and `egErr` the
group's (ctx.go:68), `gos` its running goroutines, `parentDone` the connection's context.  `store` is
everything else a handler can read and change (ctx.data, cookies, request headers, ...). -/
structure RCtx (υ : Type) where
  stopped : Bool
  aborted : Bool
  skipped : Bool
  level : Int
  names : List Str
  cancelled : Bool
  egCancelled : Bool
  egErr : Option GoErr
  parentDone : Bool
  gos : List Go
  clock : Nat
  resp : Resp
  store : υ
  trace : List Ev

/-- The environment: results of goroutines (they may look at and change the shared state), scheduling,
and when the connection's own context ends (server shutdown).  Of ctx.go:377-383 and server_run.go:33. -/
structure Env (υ : Type) where
  fin : Nat → RCtx υ → Option GoErr × υ
  sched : Nat → List Nat
  parent : Nat → Bool

/-- `ctx.Ctx().Err() != nil`: the errgroup's context is cancelled, by itself or through its parents.  ctx.go:67-68, 113-115. -/
def RCtx.done (c : RCtx υ) : Bool := c.cancelled || c.egCancelled || c.parentDone

/-- ctx.go:299-301 `Stopped`. -/
def RCtx.isStopped (c : RCtx υ) : Bool := c.aborted || c.stopped

/-- For the trace of top_handler.go:24-81. -/
def RCtx.event (c : RCtx υ) (e : Ev) : RCtx υ := { c with trace := c.trace ++ [e] }

/-- One step of running goroutine number `i`.  errgroup.Go: the first error (in order of completion) is
kept and cancels the group's context.  ctx.go:377-383 (errgroup, external). -/
def goStep (env : Env υ) (c : RCtx υ) (i : Nat) : RCtx υ :=
  match c.gos[i]? with
  | none => c
  | some (.spawn child rest) => ({ c with gos := c.gos.set i rest ++ [child] }).event .spawn
  | some (.ret g) =>
    let r := env.fin g c
    let c := { c with gos := c.gos.eraseIdx i, store := r.2 }
    let c := match r.1, c.egErr with
      | some e, none => { c with egErr := some e, egCancelled := true }
      | _, _ => c
    c.event (.goEnd r.1)

/-- A point where other goroutines may run.  ctx.go:377-383 (errgroup, external). -/
def tick (env : Env υ) (c : RCtx υ) : RCtx υ :=
  let c := (env.sched c.clock).foldl (goStep env) c
  { c with clock := c.clock + 1, parentDone := c.parentDone || env.parent c.clock }

/-- Run the goroutines, in scheduler order, until none is left (or the fuel is used up: see
`waitAll_gos`).  ctx.go:377-383 (errgroup, external). -/
def waitAll (env : Env υ) : Nat → RCtx υ → RCtx υ
  | 0, c => c
  | n + 1, c =>
    if c.gos = [] then c
    else
      let i := (env.sched c.clock).headD 0 % c.gos.length
      waitAll env n (goStep env { c with clock := c.clock + 1 } i)

/-- ctx.go:377-383 (errgroup, external). -/
def goFuel (l : List Go) : Nat := (l.map Go.size).sum

/-- ctx.go:377-379 `EGWait`; errgroup.Wait waits for the goroutines, cancels the group's context, and
returns the first error. -/
def egWait (env : Env υ) (c : RCtx υ) : RCtx υ × Option GoErr :=
  let c := waitAll env (goFuel c.gos) c
  let c := { c with egCancelled := true }
  (c, c.egErr)

/-- The calls a handler makes on its context.  ctx.go:118-127, 270-293, 377-383. -/
inductive COp (υ : Type) where
  /-- ctx.go:270-275 `Stop` -/
  | stop
  /-- ctx.go:286-293 `Abort` -/
  | abort
  /-- ctx.go:278-283 `SkipMain` -/
  | skipMain
  /-- ctx.go:139-143 `SetLoggerLevel` (or SetLogger with a logger of that level) -/
  | setLevel (l : Int)
  /-- ctx.go:407-413 `AddDebugHandleName` -/
  | addName (s : Str)
  /-- ctx.go:381-383 `EGGo`.  A limit (EGSetLimit) only delays the call, which is one of the schedules; a
  refused EGTryGo is no call. -/
  | go (g : Go)
  /-- ctx.go:377-379 `EGWait` called by a handler -/
  | wait
  /-- anything else: ctx.Set, cookies, ... -/
  | upd (f : υ → υ)
  /-- ctx.go:118-127 `Write`, and changes of the response through FastCtx() -/
  | resp (f : Resp → Resp)

/-- ctx.go:407-413 `AddDebugHandleName`; logger.go:98-100 `IsDebug`. -/
def addDebugName (c : RCtx υ) (s : Str) : RCtx υ :=
  if c.level ≥ 5 then { c with names := c.names ++ [s] } else c

/-- ctx.go:416-422 `CalledHandles`. -/
def calledHandles (c : RCtx υ) : List Str :=
  if ¬ c.level ≥ 5 then [b!"available in debug mode only"] else c.names

/-- The effect of a call on the context.  ctx.go:118-127, 270-293, 377-383. -/
def applyOp (env : Env υ) (c : RCtx υ) (op : COp υ) : RCtx υ :=
  let c := tick env c
  match op with
  | .stop => ({ c with stopped := true }).event (.ctl .stop)
  | .abort => ({ c with aborted := true, cancelled := true }).event (.ctl .abort)
  | .skipMain => ({ c with skipped := true }).event (.ctl .skipMain)
  | .setLevel l => { c with level := l }
  | .addName s => addDebugName c s
  | .go g => ({ c with gos := c.gos ++ [g] }).event .spawn
  | .wait => (egWait env (c.event (.ctl .egWait))).1
  | .upd f => { c with store := f c.store }
  | .resp f => ({ c with resp := f c.resp }).event (.resp c.resp (f c.resp))

/-- What a handler does: return, or make a call and go on depending on the context.  A body of handler.go:3-19. -/
inductive Prog (υ : Type) where
  | ret (o : HOut)
  | call (op : COp υ) (k : RCtx υ → Prog υ)

/-- Run a handler body.  A body of handler.go:3-19. -/
def runProg (env : Env υ) : Prog υ → RCtx υ → RCtx υ × HOut
  | .ret o, c => (tick env c, o)
  | .call op k, c => runProg env (k (applyOp env c op)) (applyOp env c op)

/-- handler.go:11-14 `IHandler`. -/
structure Hdl (υ : Type) where
  name : Str
  run : RCtx υ → Prog υ

/-- handler.go:3-9 `IRunHandler`. -/
structure MainH (υ : Type) where
  name : Str
  init : RCtx υ → Prog υ
  run : RCtx υ → Prog υ

/-- handler.go:16-19 `ILastHandler`. -/
structure LastH (υ : Type) where
  name : Str
  run : Option GoErr → RCtx υ → Prog υ

/-- top_handler.go:5-14 `HandlerSet`; nil interface values are `none`. -/
structure HSetV (υ : Type) where
  before : List (Option (Hdl υ))
  after : List (Option (Hdl υ))
  last : Option (LastH υ)
  main : Option (MainH υ)

/-- One handler call, with its ghost events.  top_handler.go:30, 37, 48, 60, 80, server_run.go:144. -/
def callProg (env : Env υ) (h : HId) (p : RCtx υ → Prog υ) (c : RCtx υ) : RCtx υ × HOut :=
  let c := c.event (.start h c.done)
  let (c, o) := runProg env (p c) c
  (c.event (.ret o c.done), o)

/-- How a part of `HandlerSet.Run` ends: go on, return, or panic.  top_handler.go:24-70. -/
inductive Flow where
  | next
  | returned (e : Option GoErr)
  | panicked
  deriving DecidableEq, Repr

/-- `if err := h.Run(context); err != nil { return err }; if context.Stopped() { return nil }`
(top_handler.go:37-43, 48-54, 60-66). -/
def callStop (env : Env υ) (h : HId) (p : RCtx υ → Prog υ) (c : RCtx υ) : RCtx υ × Flow :=
  match callProg env h p c with
  | (c, .panic) => (c, .panicked)
  | (c, .err e) => (c, .returned (some e))
  | (c, .ok) => if c.isStopped then (c, .returned none) else (c, .next)

/-- The loops over the before and after handlers (top_handler.go:34-44, 57-67).  `Name()` of a nil
handler panics. -/
def runList (env : Env υ) (id : Nat → HId) : Nat → List (Option (Hdl υ)) → RCtx υ → RCtx υ × Flow
  | _, [], c => (c, .next)
  | _, none :: _, c => (c, .panicked)
  | i, some h :: t, c =>
    match callStop env (id i) h.run (addDebugName c h.name) with
    | (c, .next) => runList env id (i + 1) t c
    | r => r

/-- top_handler.go:24-70 `HandlerSet.Run`. -/
def runSet (env : Env υ) (set : HSetV υ) (c : RCtx υ) : RCtx υ × Flow :=
  match set.main with
  | none => (c, .panicked)                                            -- line 29: Name() of a nil handler
  | some m =>
    match callProg env .init m.init (addDebugName c m.name) with      -- lines 29-32
    | (c, .panic) => (c, .panicked)
    | (c, .err e) => (c, .returned (some e))
    | (c, .ok) =>
      match runList env .before 0 set.before c with                   -- lines 34-44
      | (c, .next) =>
        match (if c.skipped then (c, Flow.next)                       -- lines 46-55
               else callStop env .main m.run (addDebugName c m.name)) with
        | (c, .next) =>
          match runList env .after 0 set.after c with                 -- lines 57-67
          | (c, .next) => (c, .returned none)                         -- line 69
          | r => r
        | r => r
      | r => r

/-- top_handler.go:72-81 `RunLast`. -/
def runLast (env : Env υ) (set : HSetV υ) (err : Option GoErr) (c : RCtx υ) : RCtx υ × Flow :=
  match set.last with
  | none => (c, .returned err)
  | some l =>
    match callProg env (.last err) (l.run err) c with
    | (c, .panic) => (c, .panicked)
    | (c, .err e) => (c, .returned (some e))
    | (c, .ok) => (c, .returned none)

/-- ctx.go:66-85 `NewContext` (with the logger of logger.New(), whose level is Debug). -/
def newContext (resp : Resp) (store : υ) (clock : Nat) : RCtx υ :=
  { stopped := false, aborted := false, skipped := false, level := 5, names := [], cancelled := false,
    egCancelled := false, egErr := none, parentDone := false, gos := [], clock := clock, resp := resp,
    store := store, trace := [] }

/-- fasthttp `RequestCtx.Error(msg, status)`: the response is reset, then status, content type and body
are set.  Called in server_run.go:131, 138. -/
def respError (msg : Str) (status : Nat) : Resp :=
  ⟨status, msg, [(b!"Content-Type", b!"text/plain; charset=utf-8")]⟩

/-- The parts of a Server that request processing uses (server.go:19-42). -/
structure Srv (υ σ ρ : Type) where
  tree : Node σ
  regs : RegTable ρ σ
  /-- the handlers of a registered set -/
  sets : σ → HSetV υ
  initCtx : Option (RCtx υ → Prog υ)
  /-- server.logConfig.Level() -/
  logLevel : Int

/-- server_run.go:158-162: the chain's error and the goroutines' error. -/
def mergeErr (err egErr : Option GoErr) : Option GoErr :=
  if err = none then egErr
  else
    match err, egErr with
    | some e, some g => some (.wrap e g.error)
    | e, _ => e

/-- server_run.go:153-166: run the chain, wait for the goroutines, run the last handler. -/
def runRouted (env : Env υ) (set : HSetV υ) (c : RCtx υ) : RCtx υ × Flow :=
  match runSet env set c with                                         -- line 152
  | (c, .returned err) =>
    if c.aborted then (c, .returned err)                              -- lines 153-155
    else
      let w := egWait env c                                           -- line 157
      runLast env set (mergeErr err w.2) w.1                          -- line 163
  | r => r

/-- The result of processing a request: the final context (`none` if none was created), whether the
handler panicked, the error that is printed, and the response so far.  server_run.go:123-167. -/
structure Done (υ : Type) where
  ctx : Option (RCtx υ)
  flow : Flow
  resp : Resp

/-- What happened while the request was processed.  server_run.go:123-167. -/
def Done.trace (d : Done υ) : List Ev :=
  match d.ctx with
  | none => []
  | some c => c.trace

/-- server_run.go:123-167 `runHTTP`, from a request (method, path), the response and state the
connection brings, and the pooled URL parameter buffer's contents.  The deferred `ctx.cancel()` (line
136) and the release of the buffer (line 125) happen on every way out. -/
def runHTTP {σ ρ : Type} [DecidableEq ρ] (env : Env υ) (rxMatch : ρ → Str → Bool)
    (visit : GoMap ρ (Option σ) → List (ρ × Option σ)) (srv : Srv υ σ ρ)
    (meth : Method) (path : Str) (resp : Resp) (store : Args → υ) (buf : Args) (clock : Nat) : Outcome (Done υ) :=
  (serverFind rxMatch visit srv.tree srv.regs meth path buf).bind fun res =>
    if ¬ res.found then
      .ret ⟨none, .returned (some (.leaf 0 (b!"path '" ++ path ++ b!"' not found"))),
        respError b!"not found" 404⟩                                   -- lines 129-133
    else
      let c := newContext resp (store res.args) clock
      let r := match srv.initCtx with                                  -- lines 143-147
        | none => (c, HOut.ok)
        | some f => callProg env .sess f c
      let out : RCtx υ × Flow := match r with
        | (c, .panic) => (c, .panicked)
        | (c, .err e) => (c, .returned (some (.leaf 0 (b!"path '" ++ path ++ b!"': " ++ e.error))))
        | (c, .ok) =>
          match res.set with
          | none => (c, .panicked)                                     -- Run on a nil set
          | some s => runRouted env (srv.sets s) { c with level := srv.logLevel }   -- lines 149-150
      let c := { out.1 with cancelled := true }                        -- deferred cancel
      .ret ⟨some (c.event .released), out.2, c.resp⟩

end Verif
