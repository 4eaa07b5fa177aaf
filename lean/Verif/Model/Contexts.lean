import Verif.Base.GoMap
import Verif.Base.Str
/-
The contexts behind a request (package context): /repo/ctx.go:66-85 (`NewContext`), 113-115 (`Ctx`), 150-160 (`RCtx`,
`GlobalContext`), 286-293 (`Abort`), 377-383 (`EGWait`, `EGGo`), /repo/server_run.go:32-33 (`server.ctx`), 123-167.

A history of calls made by the program, by `Server.Run`, by fasthttp and by the handlers of any number of requests.
`context.WithCancel` on a `*fasthttp.RequestCtx` starts a goroutine that waits for the parent; simplified: the child counts as
done as soon as the parent is.  Handlers may derive contexts of their own from `Ctx()`; these are not followed.
fasthttp v1.58.0 (trusted reading): `RequestCtx.Done()` is the channel `s.done` of the server, which `Serve` makes if
there is none, `ShutdownWithContext` closes (after the listeners) and, when it is over, forgets; `Serve` and `Shutdown` exclude
each other; `RequestCtx.Value(k)` is `UserValue(k)`.
-/
namespace Verif

/-- One call. Programs' contexts, runs and requests are numbered in the order in which they are made.  The calls behind server_run.go:32-33, 135-136 and ctx.go:66-85, 113-115, 150-160, 252-260, 286-293, 377-383. -/
inductive CxOp where
  /-- `context.Background()` -/
  | background
  /-- `context.WithCancel(p)` -/
  | child (p : Nat)
  /-- `context.WithValue(p, k, v)` -/
  | value (p : Nat) (k v : Str)
  /-- the cancel function of context `p` -/
  | cancel (p : Nat)
  /-- server_run.go:32-33: `Run(ctx, …)` -/
  | run (c : Nat)
  /-- a goroutine of the run returned an error, or `errGroup.Wait` returned -/
  | runOver (i : Nat)
  /-- fasthttp `Serve` -/
  | serve
  /-- fasthttp `ShutdownWithContext` closes the listeners -/
  | shut
  /-- and returns -/
  | shutEnd
  /-- server_run.go:135: `NewContext` for a request that carries these user values -/
  | request (vals : GoMap Str Str)
  /-- `FastCtx().SetUserValue(k, v)` -/
  | setUser (r : Nat) (k v : Str)
  /-- ctx.go:252-256 `Set(k, v)` -/
  | set (r : Nat) (k v : Str)
  /-- ctx.go:286-293 `Abort` -/
  | abort (r : Nat)
  /-- a function given to `EGGo` returns an error -/
  | groupErr (r : Nat)
  /-- ctx.go:377-379 `EGWait` returns -/
  | wait (r : Nat)
  /-- server_run.go:136: the deferred `ctx.cancel()` -/
  | finish (r : Nat)
  deriving DecidableEq

/-- A context of the program.  The first argument of server_run.go:22, and its parents. -/
structure UserCx where
  parent : Option Nat
  kv : Option (Str × Str)
  cancelled : Bool
  deriving DecidableEq

/-- `errCtx` of a run (server_run.go:32). -/
structure RunCx where
  parent : Nat
  cancelled : Bool
  deriving DecidableEq

/-- The contexts of a request: `baseCtx`, the channel of the fasthttp context, its user values, `data`, and whether the contexts of
`context.WithCancel` (ctx.go:67) and `errgroup.WithContext` (ctx.go:68) are cancelled by themselves. -/
structure ReqCx where
  base : Option Nat
  chan : Option Nat
  vals : GoMap Str Str
  data : GoMap Str Str
  own : Bool
  group : Bool

/-- server.go:22, server_run.go:32-33 and ctx.go:40, 49, 60-61 of all contexts. -/
structure CxWorld where
  users : List UserCx
  runs : List RunCx
  reqs : List ReqCx
  /-- whether the channel is closed, by channel -/
  chans : List Bool
  /-- fasthttp's `s.done` -/
  srvDone : Option Nat
  /-- between `shut` and `shutEnd` -/
  closing : Bool
  /-- server_run.go:33 `server.ctx`: a run -/
  srvCtx : Option Nat

/-- server.go:22, server_run.go:32-33 and ctx.go:40, 49, 60-61 of all contexts. -/
def CxWorld.init : CxWorld := ⟨[], [], [], [], none, false, none⟩

/-- A context made by ctx.go:66-85. -/
def CxWorld.req (w : CxWorld) (r : Nat) (f : ReqCx → ReqCx) : CxWorld := { w with reqs := w.reqs.modify r f }

/-- The effect of a call.  server_run.go:32-33, 135-136; ctx.go:66-85, 252-256, 286-293, 377-383. -/
def CxWorld.step (w : CxWorld) : CxOp → CxWorld
  | .background => { w with users := w.users ++ [⟨none, none, false⟩] }
  | .child p => { w with users := w.users ++ [⟨some p, none, false⟩] }
  | .value p k v => { w with users := w.users ++ [⟨some p, some (k, v), false⟩] }
  | .cancel p => { w with users := w.users.modify p fun c => { c with cancelled := true } }
  | .run c => { w with runs := w.runs ++ [⟨c, false⟩], srvCtx := some w.runs.length }
  | .runOver i => { w with runs := w.runs.modify i fun c => { c with cancelled := true } }
  | .serve => match w.srvDone with
    | none => { w with chans := w.chans ++ [false], srvDone := some w.chans.length }
    | some _ => w
  | .shut => match w.srvDone with
    | none => w
    | some c => { w with chans := w.chans.set c true, closing := true }
  | .shutEnd => if w.closing then { w with srvDone := none, closing := false } else w
  | .request vals => { w with reqs := w.reqs ++ [⟨w.srvCtx, w.srvDone, vals, [], false, false⟩] }
  | .setUser r k v => w.req r fun c => { c with vals := c.vals.set k v }
  | .set r k v => w.req r fun c => { c with data := c.data.set k v }
  | .abort r => w.req r fun c => { c with own := true }
  | .groupErr r => w.req r fun c => { c with group := true }
  | .wait r => w.req r fun c => { c with group := true }
  | .finish r => w.req r fun c => { c with own := true }

/-- server_run.go:32-33, 135-136; ctx.go:66-85, 252-256, 286-293, 377-383. -/
def cxRun (h : List CxOp) : CxWorld := h.foldl CxWorld.step .init

/-- `Err() != nil` of a context of the program (the parents have smaller numbers: `n` is enough if it is greater than the number).  External (package context): the parents of server_run.go:32. -/
def CxWorld.userDone (w : CxWorld) : Nat → Nat → Bool
  | 0, _ => false
  | n + 1, i => match w.users[i]? with
    | none => false
    | some c => c.cancelled || match c.parent with
      | none => false
      | some p => w.userDone n p

/-- `Value(k)` of a context of the program.  External (package context): the parents of server_run.go:32. -/
def CxWorld.userValue (w : CxWorld) (k : Str) : Nat → Nat → Option Str
  | 0, _ => none
  | n + 1, i => match w.users[i]? with
    | none => none
    | some c => match c.kv, c.parent with
      | some (k', v), p => if k' = k then some v else match p with
        | none => none
        | some p => w.userValue k n p
      | none, none => none
      | none, some p => w.userValue k n p

/-- `Err() != nil` of the context of a run.  `errCtx` of server_run.go:32. -/
def CxWorld.runDone (w : CxWorld) (i : Nat) : Bool :=
  match w.runs[i]? with
  | none => false
  | some c => c.cancelled || w.userDone (c.parent + 1) c.parent

/-- ctx.go:113-115: `Ctx().Err() != nil`. -/
def CxWorld.ctxDone (w : CxWorld) (r : Nat) : Bool :=
  match w.reqs[r]? with
  | none => false
  | some c => c.own || c.group || match c.chan with
    | none => false
    | some ch => w.chans[ch]?.getD false

/-- ctx.go:150-152, 158-160: `RCtx()` and `GlobalContext()` both are `baseCtx`; `none` is nil. -/
def CxWorld.globalContext (w : CxWorld) (r : Nat) : Option Nat := (w.reqs[r]?).bind (·.base)
/-- A context made by ctx.go:66-85. -/
def CxWorld.rctx (w : CxWorld) (r : Nat) : Option Nat := (w.reqs[r]?).bind (·.base)

/-- `Ctx().Value(k)`: through both derived contexts to `fastCtx.Value`.  ctx.go:67-68, 113-115. -/
def CxWorld.ctxValue (w : CxWorld) (r : Nat) (k : Str) : Option Str := (w.reqs[r]?).bind fun c => c.vals.get? k

/-- `Value(k)` of the context of a run.  `errCtx` of server_run.go:32. -/
def CxWorld.runValue (w : CxWorld) (i : Nat) (k : Str) : Option Str :=
  (w.runs[i]?).bind fun c => w.userValue k (c.parent + 1) c.parent

/-- ctx.go:258-260 `Get(k)`. -/
def CxWorld.get (w : CxWorld) (r : Nat) (k : Str) : Option Str := (w.reqs[r]?).bind fun c => c.data.get? k

end Verif
