import Verif.Model.Races
/-
What it means that goroutines get into each other's way.
-/
namespace Verif.Spec

/-- Goroutine `i` is about to write what goroutine `j` is about to read or write: a data race (for a map, the program
is ended by the Go runtime: "concurrent map writes", "concurrent map read and map write"). -/
def Racing (s : RaceSt) (i j : Nat) (x : Loc) : Prop :=
  i ≠ j ∧ (∃ es, s.rest[i]? = some (.wr x :: es)) ∧ ∃ es, s.rest[j]? = some (.wr x :: es) ∨ s.rest[j]? = some (.rd x :: es)

/-- No interleaving of these goroutines has a race. -/
def RaceFree (progs : List (List Acc)) : Prop := ∀ sched i j x, ¬ Racing (raceRun progs sched) i j x

/-- Goroutine `i` waits for nobody: it is not about to take a mutex that is held, for reading or writing, by anyone.
(Go's RWMutex makes readers wait behind a waiting writer too; if nobody holds the mutex, that writer can go on.) -/
def CanGo (s : RaceSt) (i : Nat) : Prop :=
  ∃ e es, s.rest[i]? = some (e :: es) ∧ ∀ m, e = .lock m ∨ e = .rlock m → s.writer m = none ∧ s.readers m = []

/-- However far these goroutines have come: if one is not at its end, some goroutine can go on without waiting, and the
interleaving can be continued until all are at their ends. -/
def NoDeadlock (progs : List (List Acc)) : Prop := ∀ sched : List Nat,
  (∀ (i : Nat) e es, (raceRun progs sched).rest[i]? = some (e :: es) → ∃ j, CanGo (raceRun progs sched) j) ∧
  ∃ more : List Nat, ∀ es ∈ (raceRun progs (sched ++ more)).rest, es = []

/-- What goroutine `i` may call while requests are served, if it is running (a handler of) the set `busy`: builder calls on
other sets and on routers, lookups, reading the configuration of the server's log (number 0), and everything on its own
context (number `i`), logger (number `i`) and logger configuration (number `i + 1`). -/
def OwnCall (i : Nat) (busy : Option Nat) : Call → Prop
  | .routerLast _ | .routerFirst _ | .routerBefore _ | .routerAfter _ | .routerLastAfter _ => True
  | .routerUse _ _ | .routerUseReg _ | .routerClone _ | .routerGetBefore _ | .routerGetAfter _ => False
  | .setBefore s | .setAfter s | .setLast s | .setUse s | .setClone s => busy ≠ some s
  | .serverAdd _ _ | .serverAddReg _ | .setLogLevel _ | .setLoggerWriter _ => False
  | .cfgClone c | .cfgCurrentKey c | .cfgLevel c | .cfgWriter c => c = 0 ∨ c = i + 1
  | .cfgSetWriter c | .cfgSetLevel c | .cfgStdKeys c => c = i + 1
  | .logSetConfig l src => l = i ∧ (src = 0 ∨ src = i + 1)
  | .logAdd l | .logMerge l | .logError l => l = i
  | .logConfig l c | .logClone l c | .logAddDebug l c | .logWriter l c | .logLevel l c | .logSetLevel l c | .logStdKeys l c
  | .logLog l c | .logLogf l c | .ctxDebugf l c => l = i ∧ c = i + 1
  | .ctxSet x | .ctxGet x | .ctxClone x | .ctxStopped x => x = i
  | .ctxStop x l c | .ctxHandleName x l c => x = i ∧ l = i ∧ c = i + 1
  | .find _ => True

/-- A request or another goroutine. -/
inductive RaceTask where
  | request (q : ReqAccess)
  | calls (cs : List Call)

def RaceTask.events (i : Nat) : RaceTask → List Acc
  | .request q => q.events i
  | .calls cs => callsEvents cs

/-- The goroutine makes such calls only; its handlers do so while its set runs. -/
def RaceTask.Own (i : Nat) : RaceTask → Prop
  | .calls cs => ∀ c ∈ cs, OwnCall i none c
  | .request q => (∀ c ∈ q.session, OwnCall i none c) ∧
      ∀ s, q.set = some s → ∀ h ∈ [q.init, q.main, q.last] ++ q.before ++ q.after, ∀ c ∈ h, OwnCall i (some s) c

/-- Calls that only fill a logger, clone it or write it out. -/
def LoggerUse : Call → Prop
  | .logAdd _ | .logAddDebug _ _ | .logMerge _ | .logError _ | .logLog _ _ | .logLevel _ _ | .logClone _ _ | .logConfig _ _
  | .ctxDebugf _ _ | .cfgClone _ | .cfgLevel _ | .cfgWriter _ | .cfgCurrentKey _ => True
  | _ => False

/-- Calls that fill a logger and give it a configuration. -/
def LoggerConfigure : Call → Prop
  | .logAdd _ | .logAddDebug _ _ | .logMerge _ | .logError _ | .logSetConfig _ _ | .logConfig _ _
  | .cfgClone _ | .cfgLevel _ | .cfgWriter _ | .cfgCurrentKey _ => True
  | _ => False

/-- Calls that fill and clone loggers and change the settings (level, writer, names of the standard keys) of configurations,
without writing records, reading one setting or giving a logger another configuration. -/
def LoggerTune : Call → Prop
  | .logAdd _ | .logMerge _ | .logError _ | .logClone _ _ | .logConfig _ _ | .logWriter _ _ | .logSetLevel _ _
  | .logStdKeys _ _ | .ctxDebugf _ _ | .cfgClone _ | .cfgSetWriter _ | .cfgSetLevel _ | .cfgStdKeys _ | .setLogLevel _
  | .setLoggerWriter _ => True
  | _ => False

/-- Goroutine `i` writes to its own clone (number `i + 1`) of the shared context (number 0). -/
def CloneUse (i : Nat) : Call → Prop
  | .ctxSet x => x = i + 1
  | .ctxGet x | .ctxClone x | .ctxStopped x => x = 0 ∨ x = i + 1
  | _ => False

/-- Building and registering routes, except with regular expressions, without looking into or cloning a router. -/
def Registration : Call → Prop
  | .routerLast _ | .routerFirst _ | .routerBefore _ | .routerAfter _ | .routerLastAfter _ | .routerUse _ _
  | .setBefore _ | .setAfter _ | .setLast _ | .setUse _ | .setClone _ | .serverAdd _ _ => True
  | .find .root => True
  | _ => False

/-- The calls that lock a handler set. -/
def LocksSet : Call → Prop
  | .setBefore _ | .setAfter _ | .setLast _ | .setUse _ | .setClone _ | .serverAdd _ _ | .serverAddReg _ => True
  | _ => False

/-- The handlers of a request lock no handler set. -/
def RaceTask.NoSetLock : RaceTask → Prop
  | .calls _ => True
  | .request q => ∀ h ∈ [q.init, q.main, q.last] ++ q.before ++ q.after, ∀ c ∈ h, ¬ LocksSet c

end Verif.Spec
