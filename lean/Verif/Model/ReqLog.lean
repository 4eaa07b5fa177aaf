import Verif.Model.Logger
/-
The loggers of requests: server.go:44-52, 97-121 (the server's configuration), ctx.go:66-85, 129-147, 270-309 (the logger of a
context), server_run.go:135-151 (the logger a request's handlers get), on the heap of configurations and loggers of
Model/Logger.  Every call is the list of logger calls it makes.
-/
namespace Verif

/-- The heap, and the logger of each context (ctx.go:57), in order of creation.  The configuration of the server
(server.go:31) is the first one obtained (handle 0); no other code holds it. -/
structure ReqLogSt (ν : Type) where
  heap : LogHeap ν
  ctxs : List Nat

/-- The calls, in the order in which they take effect, whichever request makes them.  server.go:101-121, server_run.go:135-151, ctx.go:129-143, 270-309. -/
inductive RLOp (ν : Type) where
  /-- server.go:106-109 -/
  | setLogLevel (l : Int)
  /-- server.go:101-104 -/
  | setLoggerWriter (w : Nat)
  /-- server.go:115-121 -/
  | serverDebugf (now msg : Str)
  /-- server_run.go:135: a request has found its route -/
  | newContext (now : Str)
  /-- server_run.go:150-151, after the session initialiser -/
  | route (i : Nat) (now : Str)
  /-- ctx.go:129-133 -/
  | setLogger (i l : Nat)
  /-- ctx.go:139-143 -/
  | setLoggerLevel (i : Nat) (l : Int)
  /-- ctx.go:270-293 Stop, SkipMain, Abort: the field they add -/
  | mark (i : Nat) (k : Str) (v : FV ν)
  /-- ctx.go:303-309 -/
  | ctxDebugf (i : Nat) (now msg : Str)
  /-- any call on configurations and loggers, e.g. on `ctx.Logger()` -/
  | user (op : LogOp ν)

/-- The user's configurations are those after the server's.  server.go:31. -/
def LogOp.notServer {ν : Type} : LogOp ν → LogOp ν
  | .cfgClone c => .cfgClone (c + 1)
  | .cfgSetLevel c l => .cfgSetLevel (c + 1) l
  | .cfgSetWriter c w => .cfgSetWriter (c + 1) w
  | .cfgStdKeys c k v => .cfgStdKeys (c + 1) k v
  | .setConfig l c => .setConfig l (c + 1)
  | op => op

/-- server.logConfig.  server.go:31. -/
def ReqLogSt.serverCfg {ν : Type} (s : ReqLogSt ν) : Cfg := s.heap.cfgAt ((s.heap.handles[0]?).getD 0)

/-- The calls on the logger of a context; contexts are never without one (ctx.go:78). -/
def ReqLogSt.onCtx {ν : Type} (s : ReqLogSt ν) (i : Nat) (f : Nat → List (LogOp ν)) : List (LogOp ν) :=
  match s.ctxs[i]? with
  | none => []
  | some l => f l

/-- The level of a logger (logger.go:98-104). -/
def ReqLogSt.levelOf {ν : Type} (s : ReqLogSt ν) (l : Nat) : Int :=
  match s.heap.logs[l]? with
  | none => 0
  | some o => (s.heap.cfgAt o.config).level

/-- The logger calls made by a call.  server.go:101-121, server_run.go:135-151, ctx.go:78, 129-143, 270-309. -/
def ReqLogSt.calls {ν : Type} (s : ReqLogSt ν) : RLOp ν → List (LogOp ν)
  | .setLogLevel l => [.cfgSetLevel 0 l]
  | .setLoggerWriter w => [.cfgSetWriter 0 w]
  | .serverDebugf now msg =>
    if s.serverCfg.level ≥ 5 then [.new now, .setConfig s.heap.logs.length 0, .logf s.heap.logs.length 5 msg] else []
  | .newContext now => [.new now]
  | .route i now => s.onCtx i fun _ =>
      [.new now, .setConfig s.heap.logs.length 0, .setLevel s.heap.logs.length s.serverCfg.level]
  | .setLogger _ _ => []
  | .setLoggerLevel i l => s.onCtx i fun k => [.setLevel k l]
  | .mark i k v => s.onCtx i fun l => [.addDebug l k v]
  | .ctxDebugf i now msg => s.onCtx i fun l =>
      .config l :: if s.levelOf l ≥ 5 then
        [.new now, .config l, .setConfig s.heap.logs.length (s.heap.handles.length + 1), .logf s.heap.logs.length 5 msg]
      else []
  | .user op => [op.notServer]

/-- The loggers of the contexts afterwards.  server.go:101-121, server_run.go:135-151, ctx.go:78, 129-143, 270-309. -/
def ReqLogSt.ctxsAfter {ν : Type} (s : ReqLogSt ν) : RLOp ν → List Nat
  | .newContext _ => s.ctxs ++ [s.heap.logs.length]
  | .route i _ => s.ctxs.set i s.heap.logs.length
  | .setLogger i l => if l < s.heap.logs.length then s.ctxs.set i l else s.ctxs
  | _ => s.ctxs

/-- server.go:101-121, server_run.go:135-151, ctx.go:78, 129-143, 270-309. -/
def rlStep {ν : Type} (enc : (Str → Option (FV ν)) → Option Str) (s : ReqLogSt ν) (op : RLOp ν) : ReqLogSt ν :=
  ⟨(s.calls op).foldl (logStep enc) s.heap, s.ctxsAfter op⟩

/-- server.go:44-52 `New`, then the calls. -/
def rlRun {ν : Type} (enc : (Str → Option (FV ν)) → Option Str) (ops : List (RLOp ν)) : ReqLogSt ν :=
  ops.foldl (rlStep enc) ⟨logRun enc [.newConfig], []⟩

end Verif
