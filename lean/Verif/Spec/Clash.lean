import Verif.Spec.Races
/-
Which pairs of calls get into each other's way: what a call reads and writes, and which mutexes it holds meanwhile.
-/
namespace Verif.Spec

/-- A read or a write of a location, with the mutexes held (and whether for writing). -/
structure Use where
  loc : Loc
  write : Bool
  locks : List (Mtx × Bool)
  deriving DecidableEq, Repr

/-- The reads and writes of a list of events, with the mutexes held at each. -/
def uses : List (Mtx × Bool) → List Acc → List Use
  | _, [] => []
  | held, .lock m :: es => uses ((m, true) :: held) es
  | held, .rlock m :: es => uses ((m, false) :: held) es
  | held, .unlock m :: es => uses (held.erase (m, true)) es
  | held, .runlock m :: es => uses (held.erase (m, false)) es
  | held, .rd x :: es => ⟨x, false, held⟩ :: uses held es
  | held, .wr x :: es => ⟨x, true, held⟩ :: uses held es

/-- Two accesses of one location, one of them a write, and no mutex keeps them apart (a mutex held by both for reading does not). -/
def Use.Clash (a b : Use) : Prop :=
  a.loc = b.loc ∧ (a.write = true ∨ b.write = true) ∧
  ∀ x ∈ a.locks, ∀ y ∈ b.locks, x.1 = y.1 → x.2 = false ∧ y.2 = false

instance (a b : Use) : Decidable (a.Clash b) := by unfold Use.Clash; infer_instance

/-- Two lists of events with such accesses. -/
def Clash (p q : List Acc) : Prop := ∃ a ∈ uses [] p, ∃ b ∈ uses [] q, a.Clash b

instance (p q : List Acc) : Decidable (Clash p q) := by unfold Clash; infer_instance

/-- The methods of a logger. -/
inductive LogCall where
  | setConfig | config | clone | add | addDebug | merge | writer | level | setLevel | stdKeys | error | log | logf
  deriving DecidableEq, Repr

/-- The method, called on logger `l` with configuration `c` (`SetConfig` with another configuration, `src`). -/
def LogCall.call (l c src : Nat) : LogCall → Call
  | .setConfig => .logSetConfig l src | .config => .logConfig l c | .clone => .logClone l c | .add => .logAdd l
  | .addDebug => .logAddDebug l c | .merge => .logMerge l | .writer => .logWriter l c | .level => .logLevel l c
  | .setLevel => .logSetLevel l c | .stdKeys => .logStdKeys l c | .error => .logError l | .log => .logLog l c | .logf => .logLogf l c

/-- The methods that must not be called at the same time as the given one. -/
def LogCall.keepFrom : LogCall → List LogCall
  | .setConfig => [.clone, .writer, .level, .setLevel, .stdKeys, .log, .logf]
  | .config => []
  | .clone => [.setConfig, .logf]
  | .add => [.logf]
  | .addDebug => [.setLevel, .logf]
  | .merge => [.logf]
  | .writer => [.setConfig, .log, .logf]
  | .level => [.setConfig, .setLevel]
  | .setLevel => [.setConfig, .addDebug, .level, .log, .logf]
  | .stdKeys => [.setConfig, .log, .logf]
  | .error => []
  | .log => [.setConfig, .writer, .setLevel, .stdKeys, .logf]
  | .logf => [.setConfig, .clone, .add, .addDebug, .merge, .writer, .setLevel, .stdKeys, .log, .logf]

/-- What goroutines do with one context. -/
inductive CtxCall where
  | set | get | clone | stop | stopped
  deriving DecidableEq, Repr

/-- On context `x` with logger `l` and configuration `c`; `stop` is Stop, Abort or SkipMain, `stopped` asks whether one of them was called. -/
def CtxCall.call (x l c : Nat) : CtxCall → Call
  | .set => .ctxSet x | .get => .ctxGet x | .clone => .ctxClone x | .stop => .ctxStop x l c | .stopped => .ctxStopped x

def CtxCall.keepFrom : CtxCall → List CtxCall
  | .set => [.set, .get, .clone]
  | .get => [.set]
  | .clone => [.set]
  | .stop => [.stop, .stopped]
  | .stopped => [.stop]

/-- The methods of a router. -/
inductive RouterCall where
  | last | first | before | after | lastAfter | use (w : TreeWrite) | useReg | clone | getBefore | getAfter
  deriving DecidableEq, Repr

def RouterCall.call (r : Nat) : RouterCall → Call
  | .last => .routerLast r | .first => .routerFirst r | .before => .routerBefore r | .after => .routerAfter r
  | .lastAfter => .routerLastAfter r | .use w => .routerUse r w | .useReg => .routerUseReg r | .clone => .routerClone r
  | .getBefore => .routerGetBefore r | .getAfter => .routerGetAfter r

/-- Must the two methods not be called on one router at the same time? -/
def RouterCall.apart : RouterCall → RouterCall → Bool
  | .clone, b => [.last, .first, .before, .after, .lastAfter].contains b
  | b, .clone => [.last, .first, .before, .after, .lastAfter].contains b
  | .getBefore, b => [.first, .before].contains b
  | b, .getBefore => [.first, .before].contains b
  | .getAfter, b => [.after, .lastAfter].contains b
  | b, .getAfter => [.after, .lastAfter].contains b
  | _, _ => false

/-- The methods of a handler set. -/
inductive SetCall where
  | before | after | last | use | clone
  deriving DecidableEq, Repr

def SetCall.call (s : Nat) : SetCall → Call
  | .before => .setBefore s | .after => .setAfter s | .last => .setLast s | .use => .setUse s | .clone => .setClone s

/-- What goroutines do while routes are registered: calls on routers and handler sets, `Server.Add` and `Server.AddReg` with a handler set,
and lookups. -/
inductive RegCall where
  | router (r : Nat) (a : RouterCall) | set (s : Nat) (a : SetCall) | add (s : Nat) (w : TreeWrite) | addReg (s : Nat) | find (q : Lookup)
  deriving DecidableEq, Repr

def RegCall.call : RegCall → Call
  | .router r a => a.call r | .set s a => a.call s | .add s w => .serverAdd s w | .addReg s => .serverAddReg s | .find q => .find q

/-- The router whose method it is. -/
def RegCall.router? : RegCall → Option Nat
  | .router r _ => some r
  | _ => none

/-- Does the lookup go on to the regular expressions? -/
def Lookup.rx : Lookup → Bool
  | .rootThenRx | .deepThenRx _ | .lostThenRx => true
  | _ => false

/-- Does the call read (`false`) or change (`true`) the table of regular expressions? -/
def RegCall.table : RegCall → Option Bool
  | .router _ .useReg | .addReg _ => some true
  | .find q => if Lookup.rx q then some false else none
  | _ => none

/-- What the call does to the tree. -/
def RegCall.tree : RegCall → Option TreeWrite
  | .router _ (.use w) | .add _ w => some w
  | _ => none

/-- Does adding a route get into the way of a lookup? It does if the lookup walks down the tree and the route brings new nodes, or if they
end at the same node, other than the root. -/
def TreeWrite.disturbs : TreeWrite → Lookup → Bool
  | .root, _ => false
  | .deep _ _, .root | .deep _ _, .rootThenRx => false
  | .deep new ks, .deep k | .deep new ks, .deepThenRx k => new || (k != 0 && ks.contains k)
  | .deep new _, .lostThenRx => new

/-- Must the two calls not be made at the same time? -/
def RegCall.Apart (a b : RegCall) : Prop :=
  (∃ r x y, a = .router r x ∧ b = .router r y ∧ x.apart y = true) ∨
  (∃ x y, a.table = some x ∧ b.table = some y ∧ (x = true ∨ y = true) ∧ ¬ ∃ r, a.router? = some r ∧ b.router? = some r) ∨
  (∃ w q, a.tree = some w ∧ b = .find q ∧ TreeWrite.disturbs w q = true) ∨
  (∃ w q, b.tree = some w ∧ a = .find q ∧ TreeWrite.disturbs w q = true)

/-- The calls with which a handler of request `i` keeps to its request: its context (number `i`), its logger (number `i`) and that logger's
configuration (number `i + 1`). -/
def SelfCall (i : Nat) : Call → Prop
  | .cfgClone c | .cfgCurrentKey c | .cfgLevel c | .cfgWriter c | .cfgSetWriter c | .cfgSetLevel c | .cfgStdKeys c => c = i + 1
  | .logAdd l | .logMerge l | .logError l => l = i
  | .logSetConfig l c | .logConfig l c | .logClone l c | .logAddDebug l c | .logWriter l c | .logLevel l c | .logSetLevel l c | .logStdKeys l c
  | .logLog l c | .logLogf l c | .ctxDebugf l c => l = i ∧ c = i + 1
  | .ctxSet x | .ctxGet x | .ctxClone x | .ctxStopped x => x = i
  | .ctxStop x l c | .ctxHandleName x l c => x = i ∧ l = i ∧ c = i + 1
  | _ => False

/-- All handlers of a request do so. -/
def ReqAccess.Self (i : Nat) (q : ReqAccess) : Prop :=
  ∀ h ∈ [q.session, q.init, q.main, q.last] ++ q.before ++ q.after, ∀ c ∈ h, SelfCall i c

/-- What is done to a server: registration, `SetLogLevel`, `SetLoggerWriter`, `LogLevel`. -/
inductive AdminCall where
  | reg (a : RegCall) | setLevel | setWriter | level
  deriving DecidableEq, Repr

/-- The configuration of the server's log has number 0. -/
def AdminCall.call : AdminCall → Call
  | .reg a => a.call | .setLevel => .setLogLevel 0 | .setWriter => .setLoggerWriter 0 | .level => .cfgLevel 0

/-- Must the call not be made while the request is served? -/
def AdminCall.Disturbs (q : ReqAccess) : AdminCall → Prop
  | .reg a => a.Apart (.find q.lookup)
  | .setLevel => q.set ≠ none
  | .setWriter | .level => False

/-- Must the two calls not be made at the same time? -/
def AdminCall.Apart : AdminCall → AdminCall → Prop
  | .reg a, .reg b => a.Apart b
  | .setLevel, .level | .level, .setLevel => True
  | _, _ => False

end Verif.Spec
