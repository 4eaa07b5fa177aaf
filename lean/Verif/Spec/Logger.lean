import Verif.Model.Logger
/-
Independent vocabulary for the logger: level names, and configurations and loggers as plain values.
-/
namespace Verif.Spec

/-- The names Parse accepts. -/
def levelNames : List (Int × Str) :=
  [(0, b!"panic"), (1, b!"fatal"), (2, b!"error"), (3, b!"warn"), (3, b!"warning"), (4, b!"info"), (5, b!"debug"), (6, b!"trace")]

/-- `s` spells the lower-case word `w`, each letter in either case. -/
inductive Spells : Str → Str → Prop
  | nil : Spells [] []
  | same {s w : Str} (c : UInt8) : Spells s w → Spells (c :: s) (c :: w)
  | upper {s w : Str} (c : UInt8) : 65 ≤ c → c ≤ 90 → Spells s w → Spells (c :: s) ((c + 32) :: w)

/-- A configuration as a value: level, writer, and the key names in use (`none`: not a known key). -/
structure CfgVal where
  level : Int
  writer : Nat
  keys : Str → Option Str

/-- A logger as a value: its own configuration, its error and its fields. -/
structure LgVal (ν : Type) where
  cfg : CfgVal
  err : Option Str
  fields : Str → Option (FV ν)

/-- Everything the user can observe: the configurations and loggers obtained so far, and what was written. -/
structure LogVal (ν : Type) where
  cfgs : List CfgVal
  logs : List (LgVal ν)
  out : List (Nat × Str)

/-- The default configuration: level debug, standard output, the four keys under their own names. -/
def defaultCfg : CfgVal :=
  ⟨5, 0, fun k => if k ∈ [b!"message", b!"error.message", b!"@timestamp", b!"@level"] then some k else none⟩

/-- Point update. -/
def updAt {α β : Type} [DecidableEq α] (f : α → β) (a : α) (b : β) : α → β := fun x => if x = a then b else f x

/-- Rename a known key; empty names are ignored. -/
def CfgVal.rename (c : CfgVal) (key value : Str) : CfgVal :=
  if key = [] ∨ value = [] ∨ c.keys key = none then c else { c with keys := updAt c.keys key (some value) }

/-- The name in use for a key. -/
def CfgVal.key (c : CfgVal) (k : Str) : Str := (c.keys k).getD k

/-- Add several fields, the later entries winning. -/
def addAll {ν : Type} (f : Str → Option (FV ν)) (m : List (Str × FV ν)) : Str → Option (FV ν) :=
  m.foldl (fun f e => updAt f e.1 (some e.2)) f

/-- Renaming a key of a logger also moves the field stored under the name used so far, unless that is the original
name (as coded). -/
def LgVal.rename {ν : Type} (l : LgVal ν) (key value : Str) : LgVal ν :=
  if key = [] ∨ value = [] then l
  else
    match l.cfg.keys key with
    | none => l
    | some old =>
      { l with
        cfg := l.cfg.rename key value
        fields :=
          if old = [] ∨ old = key then l.fields
          else match l.fields old with
            | none => l.fields
            | some v => updAt (updAt l.fields value (some v)) old none }

/-- Attach an error: a second one becomes the context of the first. -/
def LgVal.attach {ν : Type} (l : LgVal ν) : Option Str → LgVal ν
  | none => l
  | some e => { l with err := some (match l.err with | none => e | some old => e ++ b!": " ++ old) }

/-- The fields after writing a record. -/
def LgVal.stamped {ν : Type} (l : LgVal ν) : LgVal ν :=
  { l with
    fields := updAt (updAt l.fields (l.cfg.key b!"@level") (some (.str (levelString l.cfg.level))))
      (l.cfg.key b!"error.message") (some (.str (l.err.getD []))) }

/-- One line of JSON, empty if the encoder fails. -/
def line {ν : Type} (enc : (Str → Option (FV ν)) → Option Str) (f : Str → Option (FV ν)) : Str :=
  match enc f with
  | none => []
  | some s => s ++ [10]

/-- Change the value number `i`. -/
def LogVal.onCfg {ν : Type} (v : LogVal ν) (i : Nat) (f : CfgVal → CfgVal) : LogVal ν := { v with cfgs := v.cfgs.modify i f }

def LogVal.onLog {ν : Type} (v : LogVal ν) (i : Nat) (f : LgVal ν → LgVal ν) : LogVal ν := { v with logs := v.logs.modify i f }

/-- Write the record of logger `i`, if it exists and lets the level pass; `msg` is the message to add. -/
def LogVal.write {ν : Type} (enc : (Str → Option (FV ν)) → Option Str) (v : LogVal ν) (i : Nat) (lvl : Int) (msg : Option Str) : LogVal ν :=
  match v.logs[i]? with
  | none => v
  | some l =>
    if lvl ≤ l.cfg.level then
      let l1 : LgVal ν := match msg with
        | none => l
        | some m => { l with fields := updAt l.fields b!"message" (some (.str m)) }
      { v with logs := v.logs.set i l1.stamped, out := v.out ++ [(l.cfg.writer, line enc l1.stamped.fields)] }
    else v

/-- The effect of a call when every configuration and every logger is its own value: only the named one changes. -/
def logValStep {ν : Type} (enc : (Str → Option (FV ν)) → Option Str) (v : LogVal ν) : LogOp ν → LogVal ν
  | .newConfig => { v with cfgs := v.cfgs ++ [defaultCfg] }
  | .cfgClone c => { v with cfgs := v.cfgs ++ (v.cfgs[c]?).toList }
  | .cfgSetLevel c l => v.onCfg c fun x => { x with level := l }
  | .cfgSetWriter c w => v.onCfg c fun x => { x with writer := w }
  | .cfgStdKeys c k n => v.onCfg c fun x => x.rename k n
  | .new now => { v with logs := v.logs ++ [⟨defaultCfg, none, updAt (fun _ => none) b!"@timestamp" (some (.str now))⟩] }
  | .setConfig l c =>
    match v.cfgs[c]? with
    | none => v
    | some x => v.onLog l fun y => { y with cfg := x }
  | .config l => { v with cfgs := v.cfgs ++ ((v.logs[l]?).map (·.cfg)).toList }
  | .clone l => { v with logs := v.logs ++ ((v.logs[l]?).map fun x => { x with err := none }).toList }
  | .add l k x => v.onLog l fun y => { y with fields := updAt y.fields k (some x) }
  | .addDebug l k x => v.onLog l fun y => if 5 ≤ y.cfg.level then { y with fields := updAt y.fields k (some x) } else y
  | .merge l m => v.onLog l fun y => { y with fields := addAll y.fields m }
  | .writer l w => v.onLog l fun y => { y with cfg := { y.cfg with writer := w } }
  | .setLevel l n => v.onLog l fun y => { y with cfg := { y.cfg with level := n } }
  | .stdKeys l k n => v.onLog l fun y => y.rename k n
  | .error l e => v.onLog l fun y => y.attach e
  | .log l lvl => v.write enc l lvl none
  | .logf l lvl msg => v.write enc l lvl (some msg)

/-- The values after a history of calls. -/
def logVals {ν : Type} (enc : (Str → Option (FV ν)) → Option Str) (ops : List (LogOp ν)) : LogVal ν :=
  ops.foldl (logValStep enc) ⟨[], [], []⟩

/-- The logger a call acts on, if any. -/
def actsOnLogger {ν : Type} : LogOp ν → Option Nat
  | .setConfig l _ | .add l _ _ | .addDebug l _ _ | .merge l _ | .writer l _ | .setLevel l _ | .stdKeys l _ _ | .error l _
  | .log l _ | .logf l _ _ => some l
  | _ => none

/-- The configuration a call acts on, if any. -/
def actsOnConfig {ν : Type} : LogOp ν → Option Nat
  | .cfgSetLevel c _ | .cfgSetWriter c _ | .cfgStdKeys c _ _ => some c
  | _ => none

end Verif.Spec
