import Verif.Model.RegTree
/-
The pool of parameter buffers (fasthttp.AcquireArgs, ReleaseArgs: a sync.Pool) under concurrent requests:
/repo/server_run.go:123-133 (the buffer of a request), tree.go:86-176 (the buffers of a lookup).

Buffers are objects with an address.  `Get` returns an object of the pool or a new one, which is up to the pool;
`ReleaseArgs` resets the object and puts it back.  Each request is a goroutine; steps of different requests interleave
arbitrarily.  A step may do several things to objects that only the goroutine itself can reach (that it has acquired and
not released), but at most one operation on the pool.  The routes do not change meanwhile (see Model/Locks for that).
-/
namespace Verif
variable {σ ρ : Type} [DecidableEq ρ]

/-- The objects ever allocated, by address; those in the pool; those acquired by other users of the pool (handlers,
fasthttp itself).  The objects of server_run.go:124 and tree.go:108, 169. -/
structure Mem where
  heap : List Args
  free : List Nat
  other : List Nat
  deriving DecidableEq, Repr

/-- The contents of an object.  The objects of server_run.go:124 and tree.go:108, 169. -/
def Mem.at (mem : Mem) (a : Nat) : Args := mem.heap.getD a []

/-- The objects of server_run.go:124 and tree.go:108, 169. -/
def Mem.write (mem : Mem) (a : Nat) (v : Args) : Mem := { mem with heap := mem.heap.set a v }

/-- `&fasthttp.Args{}`: the new object's address is `mem.heap.length`.  tree.go:108. -/
def Mem.alloc (mem : Mem) : Mem := { mem with heap := mem.heap ++ [[]] }

/-- fasthttp `AcquireArgs`: `argsPool.Get()`.  Called in server_run.go:124, tree.go:169. -/
inductive Acquire (mem : Mem) : Nat → Mem → Prop where
  | pooled {a : Nat} : a ∈ mem.free → Acquire mem a { mem with free := mem.free.erase a }
  | fresh : Acquire mem mem.heap.length mem.alloc

/-- fasthttp `ReleaseArgs`: `a.Reset(); argsPool.Put(a)`.  Called in server_run.go:125, tree.go:114. -/
def Mem.release (mem : Mem) (a : Nat) : Mem := { mem.write a (argsReset (mem.at a)) with free := a :: mem.free }

/-- Where a request is.  `io` is its own buffer (server_run.go:124), `q` the part of `nodes` still to be visited
(tree.go:105-109) with the addresses of the items' buffers, `all` is `allArgs` (tree.go:111). -/
inductive Pc (σ : Type) where
  | start
  | acquired (io : Nat)
  | looking (io : Nat) (q : List (Node σ × List Str × Nat)) (all : List Nat)
  /-- in the loop of tree.go:155-164: the children `todo` are left; `src` is `urlArgs` -/
  | cloning (io src : Nat) (ps : List Str) (todo : List (Node σ)) (q : List (Node σ × List Str × Nat)) (all : List Nat)
  | copying (io src : Nat) (s : σ) (all : List Nat)
  /-- the deferred loop of tree.go:112-116 -/
  | cleanup (io : Nat) (todo : List Nat) (s : Option σ)
  | regs (io : Nat)
  | serving (io : Nat) (s : Option σ)
  | failed (io : Nat)
  | done

/-- A request; `visit` is the order in which it happens to see a map's entries.  server_run.go:123-133, server.go:131-141, tree.go:86-176. -/
structure PReq (ρ σ : Type) where
  method : Method
  path : Str
  visit : GoMap ρ (Option σ) → List (ρ × Option σ)

/-- tree.go:129-131: `urlArgs.Add(node.UrlId, paths[0])`. -/
def addUrlId (n : Node σ) (p : Str) (a : Args) : Args := if n.urlId ≠ [] then a ++ [(n.urlId, p)] else a

/-- One step of a request.  server_run.go:123-133, server.go:131-141, tree.go:86-176. -/
inductive PStep (t : Node σ) (rxMatch : ρ → Str → Bool) (regs : RegTable ρ σ) (r : PReq ρ σ) : Mem → Pc σ → Mem → Pc σ → Prop where
  /-- server_run.go:124 -/
  | acquire {mem mem' : Mem} {io : Nat} : Acquire mem io mem' → PStep t rxMatch regs r mem .start mem' (.acquired io)
  /-- tree.go:87-103: the root; nothing was acquired -/
  | root {mem : Mem} {io : Nat} : (splitPath r.path).length = 1 → PStep t rxMatch regs r mem (.acquired io)
      (mem.write io (argsReset (mem.at io)))
      (.cleanup io [] (match t.handlers.get? r.method with | some (some s) => some s | _ => none))
  /-- tree.go:87, 105-111: one new object, not from the pool -/
  | begin {mem : Mem} {io : Nat} : (splitPath r.path).length ≠ 1 → PStep t rxMatch regs r mem (.acquired io)
      (mem.write io (argsReset (mem.at io))).alloc (.looking io [(t, splitPath r.path, mem.heap.length)] [mem.heap.length])
  /-- tree.go:120-122 -/
  | exhausted {mem : Mem} {io : Nat} {all : List Nat} : PStep t rxMatch regs r mem (.looking io [] all) mem (.cleanup io all none)
  /-- tree.go:131-133 -/
  | mismatch {mem : Mem} {io a : Nat} {n : Node σ} {p : Str} {ps : List Str} {q : List (Node σ × List Str × Nat)} {all : List Nat} :
      n.urlId = [] ∧ n.path ≠ p →
      PStep t rxMatch regs r mem (.looking io ((n, p :: ps, a) :: q) all) mem (.cleanup io all none)
  /-- tree.go:135-150, with a handler set -/
  | found {mem : Mem} {io a : Nat} {n : Node σ} {p : Str} {s : σ} {q : List (Node σ × List Str × Nat)} {all : List Nat} :
      ¬ (n.urlId = [] ∧ n.path ≠ p) → n.handlers.get? r.method = some (some s) →
      PStep t rxMatch regs r mem (.looking io ((n, [p], a) :: q) all) (mem.write a (addUrlId n p (mem.at a))) (.copying io a s all)
  /-- tree.go:152: without -/
  | missing {mem : Mem} {io a : Nat} {n : Node σ} {p : Str} {q : List (Node σ × List Str × Nat)} {all : List Nat} :
      ¬ (n.urlId = [] ∧ n.path ≠ p) → (∀ s, n.handlers.get? r.method ≠ some (some s)) →
      PStep t rxMatch regs r mem (.looking io ((n, [p], a) :: q) all) (mem.write a (addUrlId n p (mem.at a))) (.cleanup io all none)
  /-- tree.go:155: on to the children -/
  | expand {mem : Mem} {io a : Nat} {n : Node σ} {p p' : Str} {ps : List Str} {q : List (Node σ × List Str × Nat)} {all : List Nat} :
      ¬ (n.urlId = [] ∧ n.path ≠ p) →
      PStep t rxMatch regs r mem (.looking io ((n, p :: p' :: ps, a) :: q) all) (mem.write a (addUrlId n p (mem.at a)))
        (.cloning io a (p' :: ps) n.children q all)
  /-- tree.go:156: the child does not match -/
  | skip {mem : Mem} {io src : Nat} {p : Str} {ps : List Str} {c : Node σ} {cs : List (Node σ)}
      {q : List (Node σ × List Str × Nat)} {all : List Nat} : ¬ (c.path = p ∨ c.urlId ≠ []) →
      PStep t rxMatch regs r mem (.cloning io src (p :: ps) (c :: cs) q all) mem (.cloning io src (p :: ps) cs q all)
  /-- tree.go:157-162, 168-176: `cloneArgs`; the acquired object is not reset -/
  | clone {mem mem' : Mem} {io src b : Nat} {p : Str} {ps : List Str} {c : Node σ} {cs : List (Node σ)}
      {q : List (Node σ × List Str × Nat)} {all : List Nat} : (c.path = p ∨ c.urlId ≠ []) → Acquire mem b mem' →
      PStep t rxMatch regs r mem (.cloning io src (p :: ps) (c :: cs) q all) (mem'.write b (mem'.at b ++ mem'.at src))
        (.cloning io src (p :: ps) cs (q ++ [(c, p :: ps, b)]) (all ++ [b]))
  | iterate {mem : Mem} {io src : Nat} {ps : List Str} {q : List (Node σ × List Str × Nat)} {all : List Nat} :
      PStep t rxMatch regs r mem (.cloning io src ps [] q all) mem (.looking io q all)
  /-- tree.go:142-144 -/
  | copy {mem : Mem} {io src : Nat} {s : σ} {all : List Nat} :
      PStep t rxMatch regs r mem (.copying io src s all) (mem.write io (mem.at io ++ mem.at src)) (.cleanup io all (some s))
  /-- tree.go:113-115 -/
  | giveBack {mem : Mem} {io a : Nat} {todo : List Nat} {s : Option σ} :
      PStep t rxMatch regs r mem (.cleanup io (a :: todo) s) (mem.release a) (.cleanup io todo s)
  /-- server.go:132-134 -/
  | hit {mem : Mem} {io : Nat} {s : σ} : PStep t rxMatch regs r mem (.cleanup io [] (some s)) mem (.serving io (some s))
  | miss {mem : Mem} {io : Nat} : PStep t rxMatch regs r mem (.cleanup io [] none) mem (.regs io)
  /-- server.go:136-138, reg_tree.go:42-56 -/
  | rxHit {mem : Mem} {io : Nat} : (regFind rxMatch r.visit regs r.method r.path (mem.at io)).found = true →
      PStep t rxMatch regs r mem (.regs io) (mem.write io (regFind rxMatch r.visit regs r.method r.path (mem.at io)).args)
        (.serving io (regFind rxMatch r.visit regs r.method r.path (mem.at io)).set)
  | rxMiss {mem : Mem} {io : Nat} : (regFind rxMatch r.visit regs r.method r.path (mem.at io)).found = false →
      PStep t rxMatch regs r mem (.regs io) (mem.write io (regFind rxMatch r.visit regs r.method r.path (mem.at io)).args) (.failed io)
  /-- server_run.go:125: the deferred release, after the handlers -/
  | finish {mem : Mem} {io : Nat} {s : Option σ} : PStep t rxMatch regs r mem (.serving io s) (mem.release io) .done
  /-- server_run.go:125, 129-133: not found -/
  | reject {mem : Mem} {io : Nat} : PStep t rxMatch regs r mem (.failed io) (mem.release io) .done

/-- The requests being processed.  Many requests of server_run.go:123-167 at once. -/
structure PoolSt (σ : Type) where
  mem : Mem
  pcs : List (Pc σ)

/-- Steps of the requests, of other users of the pool (who release what they acquired, once, and write only to that), and
of the pool itself (which may drop objects at any time).  Many requests of server_run.go:123-167 at once. -/
inductive PoolStep (t : Node σ) (rxMatch : ρ → Str → Bool) (regs : RegTable ρ σ) (reqs : List (PReq ρ σ)) :
    PoolSt σ → PoolSt σ → Prop where
  | request {s : PoolSt σ} {i : Nat} {r : PReq ρ σ} {pc pc' : Pc σ} {mem' : Mem} : reqs[i]? = some r → s.pcs[i]? = some pc →
      PStep t rxMatch regs r s.mem pc mem' pc' → PoolStep t rxMatch regs reqs s ⟨mem', s.pcs.set i pc'⟩
  | otherAcquire {s : PoolSt σ} {a : Nat} {mem' : Mem} : Acquire s.mem a mem' →
      PoolStep t rxMatch regs reqs s ⟨{ mem' with other := a :: mem'.other }, s.pcs⟩
  | otherWrite {s : PoolSt σ} {a : Nat} {v : Args} : a ∈ s.mem.other → PoolStep t rxMatch regs reqs s ⟨s.mem.write a v, s.pcs⟩
  | otherRelease {s : PoolSt σ} {a : Nat} : a ∈ s.mem.other →
      PoolStep t rxMatch regs reqs s ⟨{ s.mem.release a with other := s.mem.other.erase a }, s.pcs⟩
  | drop {s : PoolSt σ} {a : Nat} : a ∈ s.mem.free →
      PoolStep t rxMatch regs reqs s ⟨{ s.mem with free := s.mem.free.erase a }, s.pcs⟩

/-- Before the first request.  Many requests of server_run.go:123-167 at once. -/
def poolInit (n : Nat) : PoolSt σ := ⟨⟨[], [], []⟩, List.replicate n .start⟩

/-- Many requests of server_run.go:123-167 at once. -/
inductive PoolReach (t : Node σ) (rxMatch : ρ → Str → Bool) (regs : RegTable ρ σ) (reqs : List (PReq ρ σ)) : PoolSt σ → Prop where
  | init : PoolReach t rxMatch regs reqs (poolInit reqs.length)
  | step {s s' : PoolSt σ} : PoolReach t rxMatch regs reqs s → PoolStep t rxMatch regs reqs s s' → PoolReach t rxMatch regs reqs s'

end Verif
