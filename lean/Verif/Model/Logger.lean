import Verif.Base.Str
import Verif.Base.GoMap
/-
Model of /repo/logger: level/level.go, config/config.go, logger.go, fields.go, out.go; and of the Debugf helpers
of /repo/server.go:115-121 and /repo/ctx.go:303-309.

A Go `any` stored in a record is a string or some other value (`ν`).  Errors are their text.  JSON encoding
(json-iterator, external) is the parameter `enc`, a function of the map's contents; `none` is a marshalling error.  fmt.Sprintf (external) is applied
before: the message is its result.
-/
namespace Verif

/-! ### level/level.go -/

/-- level.go:44-52 `AllLevelsString`. -/
def allLevelsString : List Str := [b!"panic", b!"fatal", b!"error", b!"warning", b!"info", b!"debug", b!"trace"]

/-- level.go:85-91 `Level.Byte`; `none` is the error.  Indexing the table is in range under the guard. -/
def levelByte (lvl : Int) : Option Str :=
  if 6 ≥ lvl ∧ lvl > -1 then allLevelsString[lvl.toNat]? else none

/-- level.go:55-61 `Level.String`. -/
def levelString (lvl : Int) : Str := (levelByte lvl).getD b!"unknown"

/-- level.go:64-83 `Parse`; `none` is (-1, error).  `u` is the non-ASCII part of strings.ToLower. -/
def levelParse (u : Str → Str) (lvl : Str) : Option Int :=
  let s := toLower u lvl
  if s = b!"panic" then some 0
  else if s = b!"fatal" then some 1
  else if s = b!"error" then some 2
  else if s = b!"warn" ∨ s = b!"warning" then some 3
  else if s = b!"info" then some 4
  else if s = b!"debug" then some 5
  else if s = b!"trace" then some 6
  else none

/-! ### config/config.go -/

/-! config.go:12-19: the key constants. -/
/-- config.go:15. -/
def kMessage : Str := b!"message"
/-- config.go:16. -/
def kError : Str := b!"error.message"
/-- config.go:17. -/
def kTimestamp : Str := b!"@timestamp"
/-- config.go:18. -/
def kLevel : Str := b!"@level"

/-- config.go:21-27 `Config`; a writer is a number. -/
structure Cfg where
  level : Int
  writer : Nat
  keys : GoMap Str Str
  deriving DecidableEq, Repr

/-- config.go:29-44 `NewConfig`; writer 0 is os.Stdout. -/
def newCfg : Cfg := ⟨5, 0, [(kMessage, kMessage), (kError, kError), (kTimestamp, kTimestamp), (kLevel, kLevel)]⟩

/-- config.go:46-61 `Clone`. -/
def Cfg.clone (c : Cfg) : Cfg := ⟨c.level, c.writer, c.keys.foldl (fun m e => GoMap.set m e.1 e.2) []⟩

/-- config.go:63-69 `CurrentKey`. -/
def Cfg.currentKey (c : Cfg) (key : Str) : Str := (GoMap.get? c.keys key).getD key

/-- config.go:87-102 `StdKeys`. -/
def Cfg.stdKeys (c : Cfg) (key value : Str) : Cfg × Str :=
  if key = [] ∨ value = [] then (c, [])
  else
    match GoMap.get? c.keys key with
    | none => (c, [])
    | some old => ({ c with keys := GoMap.set c.keys key value }, old)

/-! ### logger.go, fields.go, out.go -/

/-- A value in a record.  fields.go:11; logger.go:25, out.go:21-25. -/
inductive FV (ν : Type) where
  | str (s : Str)
  | val (v : ν)
  deriving DecidableEq, Repr

/-- fields.go:11 `Fields`. -/
abbrev Fields (ν : Type) := GoMap Str (FV ν)

/-- logger.go:14-20 `Logger` without its configuration. -/
structure Lg (ν : Type) where
  err : Option Str
  fields : Fields ν
  deriving DecidableEq, Repr

/-- fields.go:28-34 `Merge`: the entries of `m` in the order they are visited. -/
def mergeFields {ν : Type} (f : Fields ν) (m : List (Str × FV ν)) : Fields ν := m.foldl (fun f e => GoMap.set f e.1 e.2) f

/-- logger.go:74-83 `AddDebug`. -/
def Lg.addDebug {ν : Type} (c : Cfg) (l : Lg ν) (k : Str) (v : FV ν) : Lg ν :=
  if c.level ≥ 5 then { l with fields := GoMap.set l.fields k v } else l

/-- logger.go:111-126 `StdKeys`: the fields after the configuration's answer `oldField`. -/
def Lg.stdKeys {ν : Type} (l : Lg ν) (oldField key value : Str) : Lg ν :=
  if oldField = [] then l
  else
    match GoMap.get? l.fields oldField with
    | none => l
    | some v => if oldField ≠ key then { l with fields := GoMap.erase (GoMap.set l.fields value v) oldField } else l

/-- logger.go:140-155 `Error`; `none` is a nil error.  errors.Wrap(e, msg) has the text "msg: e". -/
def Lg.error {ν : Type} (l : Lg ν) (e : Option Str) : Lg ν :=
  match e with
  | none => l
  | some e =>
    match l.err with
    | none => { l with err := some e }
    | some old => { l with err := some (e ++ b!": " ++ old) }

/-- fields.go:13-21 `Json`. -/
def jsonLine {ν : Type} (enc : (Str → Option (FV ν)) → Option Str) (f : Fields ν) : Str :=
  match enc (GoMap.get? f) with
  | none => []
  | some s => s ++ [10]

/-- The record `Log` writes: out.go:16-26. -/
def Lg.record {ν : Type} (c : Cfg) (l : Lg ν) : Fields ν :=
  GoMap.set (GoMap.set l.fields (c.currentKey kLevel) (.str (levelString c.level))) (c.currentKey kError)
    (.str (l.err.getD []))

/-- out.go:11-32 `Log`: the logger afterwards and the writes (writer, bytes). -/
def Lg.log {ν : Type} (enc : (Str → Option (FV ν)) → Option Str) (c : Cfg) (l : Lg ν) (lvl : Int) : Lg ν × List (Nat × Str) :=
  if lvl > c.level then (l, [])
  else ({ l with fields := l.record c }, [(c.writer, jsonLine enc (l.record c))])

/-- out.go:34-41 `Logf`; fields.go:23-26 `message`. -/
def Lg.logf {ν : Type} (enc : (Str → Option (FV ν)) → Option Str) (c : Cfg) (l : Lg ν) (lvl : Int) (msg : Str) : Lg ν × List (Nat × Str) :=
  if lvl > c.level then (l, [])
  else Lg.log enc c { l with fields := GoMap.set l.fields kMessage (.str msg) } lvl

/-- out.go:43-73: the level each function logs at. -/
inductive LogFn where
  | tracef | printf | infof | debugf | warnf | panicf | errorf | fatalf
  deriving DecidableEq, Repr

/-- out.go:43-73. -/
def LogFn.level : LogFn → Int
  | .tracef => 6
  | .printf => 4
  | .infof => 4
  | .debugf => 5
  | .warnf => 3
  | .panicf => 0
  | .errorf => 2
  | .fatalf => 1

/-- logger.go:22-31 `New`, at a time whose text is `now`. -/
def newLg {ν : Type} (now : Str) : Lg ν := ⟨none, [(kTimestamp, .str now)]⟩

/-- server.go:115-121 `Server.Debugf` and ctx.go:303-309 `Context.Debugf` for the configuration they use: a fresh
logger with a copy of the configuration. -/
def debugf {ν : Type} (enc : (Str → Option (FV ν)) → Option Str) (c : Cfg) (now msg : Str) : List (Nat × Str) :=
  if c.level ≥ 5 then (Lg.logf enc c.clone.clone (newLg (ν := ν) now) 5 msg).2 else []

/-! ### Sharing: configurations and loggers as objects -/

/-- A `*Logger`: its configuration is a pointer.  logger.go:14-20. -/
structure LgObj (ν : Type) where
  config : Nat
  lg : Lg ν

/-- All configurations (by address), the addresses the user holds, the loggers, and what was written so far.  config.go:21-27, logger.go:14-20. -/
structure LogHeap (ν : Type) where
  cfgs : List Cfg
  handles : List Nat
  logs : List (LgObj ν)
  out : List (Nat × Str)

/-- Calls.  Configurations and loggers are named by the order in which the user got them.  config.go:29-125, logger.go:22-155, out.go:11-73. -/
inductive LogOp (ν : Type) where
  | newConfig
  | cfgClone (c : Nat)
  | cfgSetLevel (c : Nat) (l : Int)
  | cfgSetWriter (c w : Nat)
  | cfgStdKeys (c : Nat) (key value : Str)
  | new (now : Str)
  | setConfig (l c : Nat)
  | config (l : Nat)
  | clone (l : Nat)
  | add (l : Nat) (k : Str) (v : FV ν)
  | addDebug (l : Nat) (k : Str) (v : FV ν)
  | merge (l : Nat) (m : List (Str × FV ν))
  | writer (l w : Nat)
  | setLevel (l : Nat) (lvl : Int)
  | stdKeys (l : Nat) (key value : Str)
  | error (l : Nat) (e : Option Str)
  | log (l : Nat) (lvl : Int)
  | logf (l : Nat) (lvl : Int) (msg : Str)

/-- The configuration at an address.  config.go:21-27, logger.go:14-20. -/
def LogHeap.cfgAt {ν : Type} (h : LogHeap ν) (a : Nat) : Cfg := (h.cfgs[a]?).getD newCfg

/-- Change the configuration a handle points to.  config.go:79-125. -/
def LogHeap.updHandle {ν : Type} (h : LogHeap ν) (c : Nat) (f : Cfg → Cfg) : LogHeap ν :=
  match h.handles[c]? with
  | none => h
  | some a => { h with cfgs := h.cfgs.modify a f }

/-- Change the configuration of a logger.  logger.go:93-96, 106-138. -/
def LogHeap.updCfg {ν : Type} (h : LogHeap ν) (l : Nat) (f : Cfg → Cfg) : LogHeap ν :=
  match h.logs[l]? with
  | none => h
  | some o => { h with cfgs := h.cfgs.modify o.config f }

/-- Change a logger's own contents, given its configuration.  logger.go:66-91, 111-155, out.go:11-41. -/
def LogHeap.updLg {ν : Type} (h : LogHeap ν) (l : Nat) (f : Cfg → Lg ν → Lg ν × List (Nat × Str)) : LogHeap ν :=
  match h.logs[l]? with
  | none => h
  | some o =>
    { h with logs := h.logs.set l { o with lg := (f (h.cfgAt o.config) o.lg).1 },
             out := h.out ++ (f (h.cfgAt o.config) o.lg).2 }

/-- One call.  config.go:29-125, logger.go:22-155, out.go:11-73. -/
def logStep {ν : Type} (enc : (Str → Option (FV ν)) → Option Str) (h : LogHeap ν) : LogOp ν → LogHeap ν
  | .newConfig => { h with cfgs := h.cfgs ++ [newCfg], handles := h.handles ++ [h.cfgs.length] }
  | .cfgClone c =>                                                     -- config.go:46-61
    match h.handles[c]? with
    | none => h
    | some a => { h with cfgs := h.cfgs ++ [(h.cfgAt a).clone], handles := h.handles ++ [h.cfgs.length] }
  | .cfgSetLevel c l => h.updHandle c fun x => { x with level := l }   -- config.go:119-125
  | .cfgSetWriter c w => h.updHandle c fun x => { x with writer := w } -- config.go:79-85
  | .cfgStdKeys c k v => h.updHandle c fun x => (x.stdKeys k v).1      -- config.go:87-117
  | .new now => { h with cfgs := h.cfgs ++ [newCfg], logs := h.logs ++ [⟨h.cfgs.length, newLg now⟩] }  -- logger.go:22-31
  | .setConfig l c =>                                                  -- logger.go:33-41: two clones, the second is kept
    match h.handles[c]?, h.logs[l]? with
    | some a, some o =>
      { h with cfgs := h.cfgs ++ [(h.cfgAt a).clone, (h.cfgAt a).clone.clone],
               logs := h.logs.set l { o with config := h.cfgs.length + 1 } }
    | _, _ => h
  | .config l =>                                                       -- logger.go:43-48
    match h.logs[l]? with
    | none => h
    | some o => { h with cfgs := h.cfgs ++ [(h.cfgAt o.config).clone], handles := h.handles ++ [h.cfgs.length] }
  | .clone l =>                                                        -- logger.go:50-64: err is not copied
    match h.logs[l]? with
    | none => h
    | some o =>
      { h with cfgs := h.cfgs ++ [(h.cfgAt o.config).clone],
               logs := h.logs ++ [⟨h.cfgs.length, ⟨none, mergeFields [] o.lg.fields⟩⟩] }
  | .add l k v => h.updLg l fun _ x => ({ x with fields := GoMap.set x.fields k v }, [])   -- logger.go:66-72
  | .addDebug l k v => h.updLg l fun c x => (x.addDebug c k v, [])     -- logger.go:74-83
  | .merge l m => h.updLg l fun _ x => ({ x with fields := mergeFields x.fields m }, [])   -- logger.go:85-91
  | .writer l w => h.updCfg l fun x => { x with writer := w }          -- logger.go:93-96
  | .setLevel l lvl => h.updCfg l fun x => { x with level := lvl }     -- logger.go:106-109
  | .stdKeys l k v =>                                                  -- logger.go:111-138
    (h.updLg l fun c x => (x.stdKeys (c.stdKeys k v).2 k v, [])).updCfg l fun x => (x.stdKeys k v).1
  | .error l e => h.updLg l fun _ x => (x.error e, [])                 -- logger.go:140-155
  | .log l lvl => h.updLg l fun c x => x.log enc c lvl
  | .logf l lvl msg => h.updLg l fun c x => x.logf enc c lvl msg

/-- The state after a history of calls.  config.go:29-125, logger.go:22-155, out.go:11-73. -/
def logRun {ν : Type} (enc : (Str → Option (FV ν)) → Option Str) (ops : List (LogOp ν)) : LogHeap ν :=
  ops.foldl (logStep enc) ⟨[], [], [], []⟩

end Verif
