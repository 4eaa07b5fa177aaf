/-
Which shared memory the calls of the API read and write, and which mutexes they hold meanwhile, and goroutines that make
such calls at the same time: /repo/gorouter.go, top_handler.go, tree.go, reg_tree.go, server.go, server_run.go,
baseauth.go, ctx.go, logger/logger.go, logger/out.go, logger/config/config.go.

Each call is the list of its accesses (`Acc`) in program order.  Simplifications: a struct field together with the map it
holds is one location; accesses to objects no other goroutine can know yet (a set, node, configuration or context just
created) and to handler values are left out; so are the backing arrays of slices (Model/Heap).  All nodes of the tree
share one location for their Children, Path and UrlId.  Goroutines exist from the beginning (more interleavings than in
the program).  `sync.RWMutex` (standard library): Lock waits until there is no writer and no reader, RLock until there is
no writer (the real RLock also waits behind a waiting writer: fewer interleavings).
-/
namespace Verif

/-- Shared memory; the numbers are addresses of objects.  The fields of gorouter.go:12-14, top_handler.go:10-13, tree.go:17-21, reg_tree.go:10, logger.go:16-19, config.go:24-26, ctx.go:49-55, baseauth.go:25-32, server.go:28-32. -/
inductive Loc where
  /-- gorouter.go:12-14 -/
  | routerBefore (r : Nat) | routerAfter (r : Nat) | routerLast (r : Nat)
  /-- top_handler.go:10-13 -/
  | setBefore (s : Nat) | setAfter (s : Nat) | setLast (s : Nat) | setMain (s : Nat)
  /-- tree.go:17-20: Children, Path, UrlId of all nodes -/
  | treeNodes
  /-- tree.go:21: Handlers of node `k`; the root is node 0 -/
  | nodeHandlers (k : Nat)
  /-- reg_tree.go:10 -/
  | regTable
  /-- logger/logger.go:16-19 -/
  | logConfig (l : Nat) | logErr (l : Nat) | logFields (l : Nat)
  /-- logger/config/config.go:24-26 -/
  | cfgLevel (c : Nat) | cfgWriter (c : Nat) | cfgKeys (c : Nat)
  /-- ctx.go:49: data; 51, 53, 55: isStopped, isAborted, isSkippedMain; 63: handleDebugPipeline -/
  | ctxData (x : Nat) | ctxFlags (x : Nat) | ctxTrace (x : Nat)
  /-- baseauth.go:25-32 and server.go:28, 32 (the fields themselves) -/
  | authState | serverFields
  deriving DecidableEq, Repr

/-- The mutexes.  gorouter.go:9, top_handler.go:6, tree.go:15, logger.go:15, config.go:22. -/
inductive Mtx where
  | router (r : Nat) | set (s : Nat) | node (k : Nat) | logger (l : Nat) | config (c : Nat)
  deriving DecidableEq, Repr

/-- A read, a write, a Lock or an Unlock in gorouter.go:27-168, top_handler.go:24-126, tree.go:86-190, reg_tree.go:29-56, server.go:101-167, config.go:46-125, logger.go:22-155, out.go:11-73, ctx.go:87-100, 252-309, 407-413. -/
inductive Acc where
  | lock (m : Mtx) | unlock (m : Mtx) | rlock (m : Mtx) | runlock (m : Mtx)
  | rd (x : Loc) | wr (x : Loc)
  deriving DecidableEq, Repr

/-- What Tree.Add does to the tree under the root's lock (tree.go:182-189, 199-241): the root's own handlers, or a walk
that may add nodes and sets handlers of nodes. -/
inductive TreeWrite where
  | root
  | deep (newNodes : Bool) (nodes : List Nat)
  deriving DecidableEq, Repr

/-- How a request finds its handlers: tree.go:86-166 for the root path and for others (the walk ends at some node `k`),
then, if that failed, reg_tree.go:42-56. -/
inductive Lookup where
  | root | deep (k : Nat) | rootThenRx | deepThenRx (k : Nat)
  /-- the walk ends without reaching the handlers of a node -/
  | lostThenRx
  deriving DecidableEq, Repr

/-- tree.go:86-166, reg_tree.go:42-56. -/
def Lookup.events : Lookup → List Acc
  | .root => [.rlock (.node 0), .rd (.nodeHandlers 0), .runlock (.node 0)]
  | .deep k => [.rd .treeNodes, .rlock (.node k), .rd (.nodeHandlers k), .runlock (.node k)]
  | .rootThenRx => [.rlock (.node 0), .rd (.nodeHandlers 0), .runlock (.node 0), .rd .regTable]
  | .deepThenRx k => [.rd .treeNodes, .rlock (.node k), .rd (.nodeHandlers k), .runlock (.node k), .rd .regTable]
  | .lostThenRx => [.rd .treeNodes, .rd .regTable]

/-- The calls.  `c` is the configuration the logger points to when the call reads that pointer.  gorouter.go:27-168, top_handler.go:24-126, tree.go:86-190, reg_tree.go:29-56, server.go:101-167, config.go:46-125, logger.go:22-155, out.go:11-73, ctx.go:87-100, 252-309, 407-413. -/
inductive Call where
  | routerLast (r : Nat) | routerFirst (r : Nat) | routerBefore (r : Nat) | routerAfter (r : Nat) | routerLastAfter (r : Nat)
  | routerUse (r : Nat) (w : TreeWrite) | routerUseReg (r : Nat) | routerClone (r : Nat)
  | routerGetBefore (r : Nat) | routerGetAfter (r : Nat)
  | setBefore (s : Nat) | setAfter (s : Nat) | setLast (s : Nat) | setUse (s : Nat) | setClone (s : Nat)
  | serverAdd (s : Nat) (w : TreeWrite) | serverAddReg (s : Nat)
  | setLogLevel (c : Nat) | setLoggerWriter (c : Nat)
  | cfgClone (c : Nat) | cfgCurrentKey (c : Nat) | cfgLevel (c : Nat) | cfgWriter (c : Nat)
  | cfgSetWriter (c : Nat) | cfgSetLevel (c : Nat) | cfgStdKeys (c : Nat)
  | logSetConfig (l src : Nat) | logConfig (l c : Nat) | logClone (l c : Nat) | logAdd (l : Nat) | logAddDebug (l c : Nat)
  | logMerge (l : Nat) | logWriter (l c : Nat) | logLevel (l c : Nat) | logSetLevel (l c : Nat) | logStdKeys (l c : Nat)
  | logError (l : Nat) | logLog (l c : Nat) | logLogf (l c : Nat)
  | ctxSet (x : Nat) | ctxGet (x : Nat) | ctxClone (x : Nat)
  | ctxStop (x l c : Nat) | ctxStopped (x : Nat) | ctxHandleName (x l c : Nat) | ctxDebugf (l c : Nat)
  | find (q : Lookup)
  deriving DecidableEq, Repr

/-- tree.go:178-190, 199-241 `Tree.Add`. -/
def TreeWrite.events : TreeWrite → List Acc
  | .root => [.lock (.node 0), .rd (.nodeHandlers 0), .wr (.nodeHandlers 0), .unlock (.node 0)]
  | .deep new ks => [.lock (.node 0), .rd .treeNodes] ++ (if new then [.wr .treeNodes] else []) ++
      ks.map (fun k => .wr (.nodeHandlers k)) ++ [.unlock (.node 0)]

/-- config.go:46-61 `Config.Clone`. -/
def cloneCfg (c : Nat) : List Acc :=
  [.lock (.config c), .rd (.cfgWriter c), .rd (.cfgLevel c), .rd (.cfgKeys c), .unlock (.config c)]

/-- top_handler.go:115-126 `HandlerSet.Clone`. -/
def cloneSet (s : Nat) : List Acc :=
  [.lock (.set s), .rd (.setBefore s), .rd (.setAfter s), .rd (.setMain s), .rd (.setLast s), .unlock (.set s)]

/-- The accesses of a call, in order.  gorouter.go:27-168, top_handler.go:24-126, tree.go:86-190, reg_tree.go:29-56, server.go:101-167, config.go:46-125, logger.go:22-155, out.go:11-73, ctx.go:87-100, 252-309, 407-413. -/
def Call.events : Call → List Acc
  | .routerLast r => [.lock (.router r), .wr (.routerLast r), .unlock (.router r)]                       -- gorouter.go:27-33
  | .routerFirst r => [.lock (.router r), .rd (.routerBefore r), .wr (.routerBefore r), .unlock (.router r)]   -- 43-50
  | .routerBefore r => [.lock (.router r), .wr (.routerBefore r), .unlock (.router r)]                   -- 52-59
  | .routerAfter r => [.lock (.router r), .wr (.routerAfter r), .unlock (.router r)]                     -- 61-68
  | .routerLastAfter r => [.lock (.router r), .rd (.routerAfter r), .wr (.routerAfter r), .unlock (.router r)] -- 70-77
  | .routerUse r w => [.lock (.router r), .rd (.routerAfter r), .rd (.routerBefore r), .rd (.routerLast r)] ++
      w.events ++ [.unlock (.router r)]                                                                  -- 79-87
  | .routerUseReg r => [.lock (.router r), .rd (.routerAfter r), .rd (.routerBefore r), .rd (.routerLast r),
      .wr .regTable, .unlock (.router r)]                                                                -- 89-97, reg_tree.go:29-40
  | .routerClone r => [.rd (.routerLast r), .rd (.routerBefore r), .rd (.routerAfter r)]                 -- 159-168
  | .routerGetBefore r => [.rd (.routerBefore r)]                                                        -- 35-37
  | .routerGetAfter r => [.rd (.routerAfter r)]                                                          -- 39-41
  | .setBefore s => [.lock (.set s), .rd (.setBefore s), .wr (.setBefore s), .unlock (.set s)]           -- top_handler.go:91-97
  | .setAfter s => [.lock (.set s), .rd (.setAfter s), .wr (.setAfter s), .unlock (.set s)]              -- 99-105
  | .setLast s => [.lock (.set s), .wr (.setLast s), .unlock (.set s)]                                   -- 83-89
  | .setUse s => [.lock (.set s), .wr (.setMain s), .unlock (.set s)]                                    -- 107-113
  | .setClone s => cloneSet s                                                                            -- 115-126
  | .serverAdd s w => cloneSet s ++ w.events                                                             -- server.go:157-161
  | .serverAddReg s => cloneSet s ++ [.wr .regTable]                                                     -- server.go:163-167
  | .setLogLevel c => [.rd .serverFields, .lock (.config c), .wr (.cfgLevel c), .unlock (.config c)]     -- server.go:106-109
  | .setLoggerWriter c => [.rd .serverFields, .lock (.config c), .wr (.cfgWriter c), .unlock (.config c)] -- server.go:101-104
  | .cfgClone c => cloneCfg c                                                                            -- config.go:46-61
  | .cfgCurrentKey c => [.rd (.cfgKeys c)]                                                               -- 63-69
  | .cfgLevel c => [.rd (.cfgLevel c)]                                                                   -- 71-73
  | .cfgWriter c => [.rd (.cfgWriter c)]                                                                 -- 75-77
  | .cfgSetWriter c => [.lock (.config c), .wr (.cfgWriter c), .unlock (.config c)]                      -- 79-85
  | .cfgSetLevel c => [.lock (.config c), .wr (.cfgLevel c), .unlock (.config c)]                        -- 119-125
  | .cfgStdKeys c => [.lock (.config c), .rd (.cfgKeys c), .wr (.cfgKeys c), .unlock (.config c)]        -- 87-102
  | .logSetConfig l src => cloneCfg src ++ [.lock (.logger l), .wr (.logConfig l), .unlock (.logger l)]  -- logger.go:33-41
  | .logConfig l c => [.lock (.logger l), .rd (.logConfig l)] ++ cloneCfg c ++ [.unlock (.logger l)]     -- 43-48
  | .logClone l c => [.rd (.logConfig l)] ++ cloneCfg c ++
      [.lock (.logger l), .rd (.logFields l), .unlock (.logger l)]                                       -- 50-64
  | .logAdd l => [.lock (.logger l), .wr (.logFields l), .unlock (.logger l)]                            -- 66-72
  | .logAddDebug l c => [.lock (.logger l), .rd (.logConfig l), .rd (.cfgLevel c), .wr (.logFields l),
      .unlock (.logger l)]                                                                               -- 74-83
  | .logMerge l => [.lock (.logger l), .rd (.logFields l), .wr (.logFields l), .unlock (.logger l)]      -- 85-91
  | .logWriter l c => [.rd (.logConfig l), .lock (.config c), .wr (.cfgWriter c), .unlock (.config c)]   -- 93-96
  | .logLevel l c => [.rd (.logConfig l), .rd (.cfgLevel c)]                                             -- 98-104
  | .logSetLevel l c => [.rd (.logConfig l), .lock (.config c), .wr (.cfgLevel c), .unlock (.config c)]  -- 106-109
  | .logStdKeys l c => [.rd (.logConfig l), .lock (.config c), .rd (.cfgKeys c), .wr (.cfgKeys c), .unlock (.config c),
      .lock (.logger l), .rd (.logFields l), .wr (.logFields l), .unlock (.logger l)]                    -- 111-138
  | .logError l => [.lock (.logger l), .rd (.logErr l), .wr (.logErr l), .unlock (.logger l)]            -- 140-155
  | .logLog l c => [.rd (.logConfig l), .rd (.cfgLevel c), .rd (.cfgKeys c), .lock (.logger l), .rd (.logConfig l),
      .rd (.cfgLevel c), .wr (.logFields l), .rd (.logErr l), .rd (.cfgWriter c), .rd (.logFields l),
      .unlock (.logger l)]                                                                               -- out.go:11-32
  | .logLogf l c => [.rd (.logConfig l), .rd (.cfgLevel c), .rd (.logFields l), .wr (.logFields l)] ++
      [.rd (.logConfig l), .rd (.cfgLevel c), .rd (.cfgKeys c), .lock (.logger l), .rd (.logConfig l),
      .rd (.cfgLevel c), .wr (.logFields l), .rd (.logErr l), .rd (.cfgWriter c), .rd (.logFields l),
      .unlock (.logger l)]                                                                               -- out.go:34-41
  | .ctxSet x => [.wr (.ctxData x)]                                                                      -- ctx.go:252-256
  | .ctxGet x => [.rd (.ctxData x)]                                                                      -- ctx.go:258-260
  | .ctxClone x => [.rd (.ctxData x)]                                                                    -- ctx.go:87-100
  | .ctxStop x l c => [.wr (.ctxFlags x), .lock (.logger l), .rd (.logConfig l), .rd (.cfgLevel c), .wr (.logFields l),
      .unlock (.logger l)]                                          -- ctx.go:270-293 Stop, SkipMain, Abort
  | .ctxStopped x => [.rd (.ctxFlags x)]                                                                 -- ctx.go:295-301
  | .ctxHandleName x l c => [.rd (.logConfig l), .rd (.cfgLevel c), .rd (.ctxTrace x), .wr (.ctxTrace x)] -- ctx.go:407-413
  | .ctxDebugf l c => [.lock (.logger l), .rd (.logConfig l)] ++ cloneCfg c ++ [.unlock (.logger l)] ++
      [.lock (.logger l), .rd (.logConfig l)] ++ cloneCfg c ++ [.unlock (.logger l)]                     -- ctx.go:303-309
  | .find q => q.events                                                                                  -- server.go:131-141

/-- A request: its lookup, the set found (`none`: 404), and the calls made by the session initialiser and by the handlers:
the main handler's Init, the handlers of the chain, the last handler.  `ran`: after how many handlers (counting Init) an
error, Stop, Abort or panic ends the chain; `skipMain`, `aborted`: whether SkipMain, Abort was called.  server_run.go:109-167. -/
structure ReqAccess where
  lookup : Lookup
  set : Option Nat
  session : List Call
  init : List Call
  before : List (List Call)
  main : List Call
  after : List (List Call)
  last : List Call
  ran : Nat := before.length + after.length + 2
  skipMain : Bool := false
  aborted : Bool := false

/-- Calls one after the other.  gorouter.go:27-168, top_handler.go:24-126, tree.go:86-190, reg_tree.go:29-56, server.go:101-167, config.go:46-125, logger.go:22-155, out.go:11-73, ctx.go:87-100, 252-309, 407-413. -/
def callsEvents (cs : List Call) : List Acc := cs.flatMap Call.events

/-- top_handler.go:29-67, handler by handler, for request `i`. -/
def ReqAccess.chain (i s : Nat) (q : ReqAccess) : List (List Acc) :=
  [.rd (.setMain s) :: callsEvents (.ctxHandleName i i (i + 1) :: q.init)] ++
  q.before.map (fun h => .rd (.setBefore s) :: callsEvents (.ctxHandleName i i (i + 1) :: h ++ [.ctxStopped i])) ++
  [if q.skipMain then [.rd (.ctxFlags i)]
   else .rd (.ctxFlags i) :: .rd (.setMain s) :: callsEvents (.ctxHandleName i i (i + 1) :: q.main ++ [.ctxStopped i])] ++
  q.after.map (fun h => .rd (.setAfter s) :: callsEvents (.ctxHandleName i i (i + 1) :: h ++ [.ctxStopped i]))

/-- server_run.go:109-167 `ServeHTTP`, `runHTTP`, with top_handler.go:24-81 `Run`, `RunLast`, for the request with number
`i`: its context and its logger have this number too; the configuration of the server's log has number 0, those of the
request's logger `i + 1`. -/
def ReqAccess.events (i : Nat) (q : ReqAccess) : List Acc :=
  [.rd .serverFields, .rd .authState] ++ q.lookup.events ++
  match q.set with
  | none => []
  | some s =>
    [.rd .serverFields] ++ callsEvents q.session ++ cloneCfg 0 ++ [.rd (.cfgLevel 0)] ++
    [.rlock (.set s)] ++ ((q.chain i s).take q.ran).flatten ++ [.runlock (.set s), .rd (.ctxFlags i)] ++
    if q.aborted then [] else [.rlock (.set s), .rd (.setLast s)] ++ callsEvents q.last ++ [.runlock (.set s)]

/-! ### Interleavings -/

/-- What every goroutine has still to do, and who holds the mutexes.  Interleavings of calls and requests (server_run.go:109-167); sync.RWMutex is external. -/
structure RaceSt where
  rest : List (List Acc)
  writer : Mtx → Option Nat
  readers : Mtx → List Nat

/-- Interleavings of calls and requests (server_run.go:109-167); sync.RWMutex is external. -/
def updMtx {α : Type} (f : Mtx → α) (m : Mtx) (v : α) : Mtx → α := fun k => if k = m then v else f k

/-- One step of goroutine `i`; `none`: blocked or over.  Interleavings of calls and requests (server_run.go:109-167); sync.RWMutex is external. -/
def raceStep (s : RaceSt) (i : Nat) : Option RaceSt :=
  match s.rest[i]? with
  | some (e :: es) =>
    let s' := { s with rest := s.rest.set i es }
    match e with
    | .lock m => if s.writer m = none ∧ s.readers m = [] then some { s' with writer := updMtx s.writer m (some i) } else none
    | .unlock m => some { s' with writer := updMtx s.writer m none }
    | .rlock m => if s.writer m = none then some { s' with readers := updMtx s.readers m (i :: s.readers m) } else none
    | .runlock m => some { s' with readers := updMtx s.readers m ((s.readers m).erase i) }
    | .rd _ => some s'
    | .wr _ => some s'
  | _ => none

/-- Interleavings of calls and requests (server_run.go:109-167); sync.RWMutex is external. -/
def raceInit (progs : List (List Acc)) : RaceSt := ⟨progs, fun _ => none, fun _ => []⟩

/-- The state after an interleaving; goroutines scheduled while blocked do nothing.  Interleavings of calls and requests (server_run.go:109-167); sync.RWMutex is external. -/
def raceRun (progs : List (List Acc)) (sched : List Nat) : RaceSt :=
  sched.foldl (fun s i => (raceStep s i).getD s) (raceInit progs)

end Verif
