import Verif.Model.Tree
/-
Model of the locking of /repo/tree.go: lookups and registrations running concurrently, with `sync.RWMutex`.
Add (tree.go:178-190) holds the write lock of the root node while it changes the tree; Find holds the root's read
lock while it looks up the root route (tree.go:90-103); for every other path it walks the tree without that lock
(tree.go:105-165; line 136 read-locks only the final node, whose lock Add never takes).
-/
namespace Verif

/-- What a goroutine does.  tree.go:86-103 (Find of the root path) or 178-190 (Add). -/
inductive Task (σ : Type) where
  | add (r : Reg σ)
  /-- a lookup of the root path -/
  | findRoot (m : Method)
  /-- a lookup of any other path -/
  | findDeep (m : Method) (path : Str)

/-- Where it is.  `n` is bookkeeping of the model: how many registrations were complete when the lock was taken.  tree.go:86-103 (Find of the root path) or 178-190 (Add). -/
inductive LPc (σ : Type) where
  | idle
  /-- Add: lock held, changing the tree -/
  | writing
  /-- Add: change complete, lock still held -/
  | written
  /-- Find: reading the tree -/
  | reading (n : Nat)
  /-- Find: result computed, lock still held (root) -/
  | hasRead (n : Nat) (res : Outcome (FindResult σ))
  | done (n : Nat) (res : Option (Outcome (FindResult σ)))

/-- The shared state: the tree, the root's RWMutex, the goroutines, and the registrations completed so far.  tree.go:14-22, 90-103, 178-190. -/
structure LockSt (σ : Type) where
  tree : Node σ
  writer : Option Nat
  readers : List Nat
  pcs : List (LPc σ)
  hist : List (Reg σ)

/-- tree.go:14-22, 90-103, 178-190. -/
def lockInit {σ : Type} (tasks : List (Task σ)) : LockSt σ :=
  ⟨newTree, none, [], tasks.map fun _ => .idle, []⟩

/-- One step of goroutine `i`; `none` if it is blocked or finished.
`sync.RWMutex` (standard library): Lock waits until there is no writer and no reader, RLock until there is no
writer.  (The real RLock also waits behind a waiting writer: fewer interleavings than here.).  tree.go:14-22, 90-103, 178-190. -/
def lockStep {σ : Type} (tasks : List (Task σ)) (s : LockSt σ) (i : Nat) : Option (LockSt σ) :=
  match tasks[i]?, s.pcs[i]? with
  | some (.add _), some .idle =>                                       -- tree.go:179
    if s.writer = none ∧ s.readers = [] then some { s with writer := some i, pcs := s.pcs.set i .writing } else none
  | some (.add r), some .writing =>                                    -- tree.go:182-189
    some { s with tree := treeAdd s.tree r.method r.route (some r.set), pcs := s.pcs.set i .written, hist := s.hist ++ [r] }
  | some (.add _), some .written =>                                    -- tree.go:180
    some { s with writer := none, pcs := s.pcs.set i (.done s.hist.length none) }
  | some (.findRoot _), some .idle =>                                  -- tree.go:91
    if s.writer = none then
      some { s with readers := i :: s.readers, pcs := s.pcs.set i (.reading s.hist.length) }
    else none
  | some (.findRoot m), some (.reading n) =>                           -- tree.go:95-102
    some { s with pcs := s.pcs.set i (.hasRead n (treeFind s.tree m b!"/" [])) }
  | some (.findRoot _), some (.hasRead n r) =>                         -- tree.go:92
    some { s with readers := s.readers.erase i, pcs := s.pcs.set i (.done n (some r)) }
  | some (.findDeep _ _), some .idle => some { s with pcs := s.pcs.set i (.reading s.hist.length) }
  | some (.findDeep m p), some (.reading n) =>
    some { s with pcs := s.pcs.set i (.done n (some (treeFind s.tree m p []))) }
  | _, _ => none

/-- The state after an interleaving; goroutines scheduled while blocked do nothing.  tree.go:14-22, 90-103, 178-190. -/
def lockRun {σ : Type} (tasks : List (Task σ)) (sched : List Nat) : LockSt σ :=
  sched.foldl (fun s i => (lockStep tasks s i).getD s) (lockInit tasks)

end Verif
