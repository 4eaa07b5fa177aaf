/-
Model of the locking of /repo/top_handler.go: requests running the chain of a handler set while other goroutines (or
the handlers themselves) call its builder methods.  Run (24-26) and RunLast (73-74) hold the set's read lock, the
builder methods and Clone (84, 92, 100, 108, 116) its write lock.

`sync.RWMutex` (standard library): Lock first keeps other writers out and announces itself, which makes every later
RLock wait, and then waits until the goroutines that hold the read lock have released it.

Simplifications: all lock calls are on one set; its main handler is not nil; a handler makes at most one builder call
on the set (it will turn out that it never gets past the first); whether a handler lets the chain go on (no error, no
Stop, no Abort) is decided by the scheduler; SkipMain is left out; the slices are values, that is the backing arrays
are not shared with other sets (Model/Heap.lean treats sharing).
-/
namespace Verif

/-- The contents of a handler set: top_handler.go:5-14. -/
structure SetVal (η : Type) where
  before : List η
  after : List η
  last : Option η
  main : η
  deriving DecidableEq, Repr

/-- The calls that take the write lock: top_handler.go:83-126. -/
inductive SetCall (η : Type) where
  | before (hs : List η)
  | after (hs : List η)
  | last (h : Option η)
  | use (h : η)
  | clone
  deriving DecidableEq, Repr

/-- Their effect.  top_handler.go:83-126. -/
def SetVal.apply {η : Type} (v : SetVal η) : SetCall η → SetVal η
  | .before hs => { v with before := v.before ++ hs }          -- top_handler.go:91-97
  | .after hs => { v with after := v.after ++ hs }             -- top_handler.go:99-105
  | .last h => { v with last := h }                            -- top_handler.go:83-89
  | .use h => { v with main := h }                             -- top_handler.go:107-113
  | .clone => v                                                -- top_handler.go:115-126

/-- A call of a handler of the chain.  top_handler.go:30, 37, 48, 60. -/
inductive ChainCall (η : Type) where
  | init (h : η)
  | run (h : η)
  deriving DecidableEq, Repr

/-- The handler itself.  top_handler.go:30, 37, 48, 60. -/
def ChainCall.handler {η : Type} : ChainCall η → η
  | .init h => h
  | .run h => h

/-- The calls `Run` makes, in order: top_handler.go:29-67. -/
def SetVal.chain {η : Type} (v : SetVal η) : List (ChainCall η) :=
  [.init v.main] ++ v.before.map .run ++ [.run v.main] ++ v.after.map .run

/-- What a goroutine does: process a request on the set (server_run.go:153-164), or call a builder method. -/
inductive SetTask (η : Type) where
  | request
  | build (c : SetCall η)
  deriving DecidableEq, Repr

/-- Where it is.  `ran`, `n`, `full` are bookkeeping of the model: the handlers run so far, the number of completed
builder calls when the lock was taken, and whether the chain ended by itself.  top_handler.go:24-126. -/
inductive SPc (η : Type) where
  | idle
  /-- Run: read lock held, handlers `ran` have run -/
  | running (n : Nat) (ran : List (ChainCall η))
  /-- Run: inside a handler that is about to make the builder call `c` -/
  | calling (n : Nat) (ran : List (ChainCall η)) (c : SetCall η)
  /-- the same, after the announcement in Lock -/
  | waiting (n : Nat) (ran : List (ChainCall η)) (c : SetCall η)
  /-- Run has returned, RunLast has not begun -/
  | between (n : Nat) (ran : List (ChainCall η)) (full : Bool)
  /-- RunLast: read lock held -/
  | lasting (n : Nat) (ran : List (ChainCall η)) (full : Bool) (m : Nat)
  /-- RunLast: inside a last handler that is about to make the builder call `c` -/
  | lastCalling (n : Nat) (ran : List (ChainCall η)) (full : Bool) (m : Nat) (c : SetCall η)
  /-- the same, after the announcement in Lock -/
  | lastWaiting (n : Nat) (ran : List (ChainCall η)) (full : Bool) (m : Nat) (c : SetCall η)
  /-- the request is over; `last` is the last handler run -/
  | finished (n : Nat) (ran : List (ChainCall η)) (full : Bool) (m : Nat) (last : Option η)
  /-- builder call: announced -/
  | announced
  /-- builder call: write lock held, change made -/
  | written
  | built
  deriving DecidableEq, Repr

/-- The read lock is held here.  top_handler.go:24-126. -/
def SPc.holdsRead {η : Type} : SPc η → Bool
  | .running .. => true
  | .calling .. => true
  | .waiting .. => true
  | .lasting .. => true
  | .lastCalling .. => true
  | .lastWaiting .. => true
  | _ => false

/-- A writer that has announced itself or holds the lock.  top_handler.go:24-126. -/
def SPc.isWriter {η : Type} : SPc η → Bool
  | .waiting .. => true
  | .lastWaiting .. => true
  | .announced => true
  | .written => true
  | _ => false

/-- The shared state; `hist` is bookkeeping: the builder calls completed so far.  top_handler.go:5-14, 24-126. -/
structure SetLockSt (η : Type) where
  set : SetVal η
  pcs : List (SPc η)
  hist : List (SetCall η)

/-- RLock and the first half of Lock go on: no writer is announced.  External (sync.RWMutex): top_handler.go:25, 73, 84, 92, 100, 108, 116. -/
def SetLockSt.noWriter {η : Type} (s : SetLockSt η) : Bool := s.pcs.all fun p => ! p.isWriter

/-- The second half of Lock goes on: nobody holds the read lock.  External (sync.RWMutex): top_handler.go:84, 92, 100, 108, 116. -/
def SetLockSt.noReader {η : Type} (s : SetLockSt η) : Bool := s.pcs.all fun p => ! p.holdsRead

/-- top_handler.go:5-14, 24-126. -/
def SetLockSt.goto {η : Type} (s : SetLockSt η) (i : Nat) (p : SPc η) : SetLockSt η := { s with pcs := s.pcs.set i p }

/-- The change itself, under the write lock.  top_handler.go:87, 95, 103, 111, 119-125. -/
def SetLockSt.change {η : Type} (s : SetLockSt η) (c : SetCall η) : SetLockSt η :=
  { s with set := s.set.apply c, hist := s.hist ++ [c] }

/-- One step of goroutine `i`; `stop`: if a handler is run in this step, it ends the chain.  `none`: blocked or over.
`own h` is the builder call handler `h` makes on the set it is running in.  top_handler.go:5-14, 24-126. -/
def setLockStep {η : Type} (own : η → Option (SetCall η)) (tasks : List (SetTask η)) (s : SetLockSt η) (i : Nat)
    (stop : Bool) : Option (SetLockSt η) :=
  match tasks[i]?, s.pcs[i]? with
  | some .request, some .idle =>                                       -- top_handler.go:25
    if s.noWriter then some (s.goto i (.running s.hist.length [])) else none
  | some .request, some (.running n ran) =>
    match s.set.chain[ran.length]? with
    | none => some (s.goto i (.between n ran true))                    -- top_handler.go:69, 26
    | some h =>
      match own h.handler with
      | some c => some (s.goto i (.calling n (ran ++ [h]) c))
      | none => if stop then some (s.goto i (.between n (ran ++ [h]) false)) else some (s.goto i (.running n (ran ++ [h])))
  | some .request, some (.calling n ran c) =>                          -- top_handler.go:84, 92, 100, 108, 116
    if s.noWriter then some (s.goto i (.waiting n ran c)) else none
  | some .request, some (.waiting n ran c) =>
    if s.noReader then some ((s.change c).goto i (.running n ran)) else none
  | some .request, some (.between n ran full) =>                       -- top_handler.go:73
    if s.noWriter then some (s.goto i (.lasting n ran full s.hist.length)) else none
  | some .request, some (.lasting n ran full m) =>                     -- top_handler.go:76-80
    match s.set.last.bind own with
    | some c => some (s.goto i (.lastCalling n ran full m c))
    | none => some (s.goto i (.finished n ran full m s.set.last))
  | some .request, some (.lastCalling n ran full m c) =>               -- top_handler.go:84, 92, 100, 108, 116
    if s.noWriter then some (s.goto i (.lastWaiting n ran full m c)) else none
  | some .request, some (.lastWaiting n ran full m c) =>
    if s.noReader then some ((s.change c).goto i (.finished n ran full m s.set.last)) else none
  | some (.build _), some .idle =>                                     -- Lock, first half
    if s.noWriter then some (s.goto i .announced) else none
  | some (.build c), some .announced =>                                -- Lock, second half, and the change
    if s.noReader then some ((s.change c).goto i .written) else none
  | some (.build _), some .written => some (s.goto i .built)           -- Unlock
  | _, _ => none

/-- No goroutine has moved yet.  top_handler.go:5-14, 24-126. -/
def setLockInit {η : Type} (v : SetVal η) (tasks : List (SetTask η)) : SetLockSt η := ⟨v, tasks.map fun _ => .idle, []⟩

/-- Continue with an interleaving; goroutines scheduled while blocked do nothing.  top_handler.go:5-14, 24-126. -/
def setLockFrom {η : Type} (own : η → Option (SetCall η)) (tasks : List (SetTask η)) (s : SetLockSt η)
    (sched : List (Nat × Bool)) : SetLockSt η :=
  sched.foldl (fun s x => (setLockStep own tasks s x.1 x.2).getD s) s

/-- The state after an interleaving.  top_handler.go:5-14, 24-126. -/
def setLockRun {η : Type} (own : η → Option (SetCall η)) (v : SetVal η) (tasks : List (SetTask η))
    (sched : List (Nat × Bool)) : SetLockSt η :=
  setLockFrom own tasks (setLockInit v tasks) sched

end Verif
