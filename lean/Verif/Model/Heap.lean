import Verif.Model.RegTree
/-
Model of handler sets and routers as the program's user sees them: /repo/top_handler.go (builders),
/repo/gorouter.go, and the registration part of /repo/server.go, over an explicit heap so that the
sharing of Go slices is visible.

* A Go slice is a window `⟨arr, off, len, cap⟩` into an array of the heap `World.arrs`.
* `append` writes in place when the capacity suffices and otherwise copies to a fresh array; how much
  spare capacity the fresh array gets is the parameter `grow` (unspecified by Go).
* `η` stands for handler interface values (main, before/after and last handlers); `default` is the nil
  interface.
* A program is a list of API calls `Op`; a call that panics is one the program recovered from.
* The mutexes of Router and HandlerSet serialise the calls, so interleaved calls are a list.
* Not modelled: `HandlerSet.ID` (top_handler.go:8, debug only); fetching a registered set back with
  `Server.Find` and modifying it.
-/
namespace Verif
variable {η ρ : Type} [Inhabited η] [DecidableEq ρ]

/-- A Go slice header.  Go slices, as in top_handler.go:19-20, 95, 103, 121-122 and gorouter.go:20-21, 47, 56, 65, 74, 163-164. -/
structure Slice where
  arr : Nat
  off : Nat
  len : Nat
  cap : Nat
  deriving DecidableEq, Repr

/-- The arrays of the heap.  Go slices, as in top_handler.go:19-20, 95, 103, 121-122 and gorouter.go:20-21, 47, 56, 65, 74, 163-164. -/
abbrev Arrs (η : Type) := List (List η)

/-- The elements of a slice.  Go slices, as in top_handler.go:19-20, 95, 103, 121-122 and gorouter.go:20-21, 47, 56, 65, 74, 163-164. -/
def cells (A : Arrs η) (s : Slice) : List η := (((A[s.arr]?).getD []).drop s.off).take s.len

/-- Overwrite the elements of an array from position `i` on.  Go slices, as in top_handler.go:19-20, 95, 103, 121-122 and gorouter.go:20-21, 47, 56, 65, 74, 163-164. -/
def writeAt (l : List η) (i : Nat) (xs : List η) : List η :=
  l.mapIdx fun k c => if i ≤ k then (xs[k - i]?).getD c else c

/-- A fresh array with exactly the given elements, and the slice over it (`[]T{...}`, a literal
variadic argument list, or `make([]T, 0)`).  Go slices, as in top_handler.go:19-20, 95, 103, 121-122 and gorouter.go:20-21, 47, 56, 65, 74, 163-164. -/
def allocSlice (A : Arrs η) (xs : List η) : Arrs η × Slice :=
  (A ++ [xs], ⟨A.length, 0, xs.length, xs.length⟩)

/-- Go's built-in `append(s, xs...)`.  Go slices, as in top_handler.go:19-20, 95, 103, 121-122 and gorouter.go:20-21, 47, 56, 65, 74, 163-164. -/
def appendSlice (grow : Nat → Nat → Nat) (A : Arrs η) (s : Slice) (xs : List η) : Arrs η × Slice :=
  let n := s.len + xs.length
  if n ≤ s.cap then
    (A.modify s.arr fun l => writeAt l (s.off + s.len) xs, { s with len := n })
  else
    let c := max n (grow s.cap n)
    (A ++ [cells A s ++ xs ++ List.replicate (c - n) default], ⟨A.length, 0, n, c⟩)

/-- top_handler.go:5-14 `type HandlerSet struct`. -/
structure HSet (η : Type) where
  before : Slice
  after : Slice
  last : Option η
  handler : Option η
  deriving DecidableEq, Repr

/-- gorouter.go:8-15 `type Router struct` (the server pointer is the one server). -/
structure RouterRec (η : Type) where
  before : Slice
  after : Slice
  last : Option η
  deriving DecidableEq, Repr

/-- The program state reachable by the user: heap, user variables (sets, routers, slices), and the
server's tables (server.go:27-29).  `log` and `rxLog` are ghost: the registrations made so far. -/
structure World (η ρ : Type) where
  arrs : Arrs η
  sets : List (HSet η)
  setVars : List Nat
  routers : List (RouterRec η)
  slices : List Slice
  tree : Node Nat
  regs : RegTable ρ Nat
  log : List (Reg Nat)
  rxLog : List (RxReg ρ Nat)

/-- server.go:44-52 `New` (routing part). -/
def World.init : World η ρ := ⟨[], [], [], [], [], newTree, newRegTree, [], []⟩

/-- A variadic argument list: written out, or the spread `v...` of a slice variable.  For top_handler.go:91, 99 and gorouter.go:52, 61, 83. -/
inductive Arg (η : Type) where
  | lit (xs : List η)
  | spread (v : Nat)

/-- The slice a callee receives for a variadic argument.  For top_handler.go:91, 99 and gorouter.go:52, 61, 83. -/
def evalArg (w : World η ρ) : Arg η → Option (World η ρ × Slice)
  | .lit xs => let (A, s) := allocSlice w.arrs xs; some ({ w with arrs := A }, s)
  | .spread v => (w.slices[v]?).map fun s => (w, s)

/-- The calls of the API (and the user's own operations on slices).  top_handler.go:16-22, 83-126; gorouter.go:17-168; server.go:123-125, 157-235. -/
inductive Op (η ρ : Type) where
  | newSet
  | setBefore (j : Nat) (a : Arg η)
  | setAfter (j : Nat) (a : Arg η)
  | setLast (j : Nat) (h : Option η)
  | setUse (j : Nat) (h : Option η)
  | setClone (j : Nat)
  | newRouter
  | rFirst (r : Nat) (h : η)
  | rBefore (r : Nat) (a : Arg η)
  | rAfter (r : Nat) (a : Arg η)
  | rLastAfter (r : Nat) (h : η)
  | rLast (r : Nat) (h : Option η)
  | rUse (r : Nat) (m : Method) (route : Str) (h : Option η)
  | rUseReg (r : Nat) (m : Method) (rx : ρ) (h : Option η)
  | rClone (r : Nat)
  | rGetBefore (r : Nat)
  | rGetAfter (r : Nat)
  | sAdd (m : Method) (route : Str) (h : Option η) (set : Option Nat)
  | sAddReg (m : Method) (rx : ρ) (h : Option η) (set : Option Nat)
  | sConv (m : Method) (route : Str) (h : Option η) (sets : List (Option Nat))
  | mkSlice (xs : List η) (spare : Nat)
  | slSet (v i : Nat) (x : η)
  | slAppend (v : Nat) (xs : List η)
  | slSub (v lo hi mx : Nat)

/-- top_handler.go:16-22 `Set`: a new set in the heap; its address. -/
def opNewSet (w : World η ρ) : World η ρ × Nat :=
  let (A, b) := allocSlice w.arrs []
  let (A, a) := allocSlice A []
  ({ w with arrs := A, sets := w.sets ++ [⟨b, a, none, none⟩] }, w.sets.length)

/-- top_handler.go:91-97 `HandlerSet.Before` on the set at an address. -/
def opBefore (grow : Nat → Nat → Nat) (w : World η ρ) (addr : Nat) (xs : List η) : World η ρ :=
  match w.sets[addr]? with
  | none => w
  | some s =>
    let (A, b) := appendSlice grow w.arrs s.before xs
    { w with arrs := A, sets := w.sets.set addr { s with before := b } }

/-- top_handler.go:99-105 `HandlerSet.After`. -/
def opAfter (grow : Nat → Nat → Nat) (w : World η ρ) (addr : Nat) (xs : List η) : World η ρ :=
  match w.sets[addr]? with
  | none => w
  | some s =>
    let (A, b) := appendSlice grow w.arrs s.after xs
    { w with arrs := A, sets := w.sets.set addr { s with after := b } }

/-- top_handler.go:83-89 `HandlerSet.Last`. -/
def opLast (w : World η ρ) (addr : Nat) (h : Option η) : World η ρ :=
  { w with sets := w.sets.modify addr fun s => { s with last := h } }

/-- top_handler.go:107-113 `HandlerSet.Use`. -/
def opUse (w : World η ρ) (addr : Nat) (h : Option η) : World η ρ :=
  { w with sets := w.sets.modify addr fun s => { s with handler := h } }

/-- top_handler.go:115-126 `HandlerSet.Clone`: the slices `before[:]`, `after[:]` share their arrays
with the original. -/
def opClone (w : World η ρ) (addr : Nat) : World η ρ × Nat :=
  match w.sets[addr]? with
  | none => (w, w.sets.length)
  | some s => ({ w with sets := w.sets ++ [s] }, w.sets.length)

/-- tree.go:178-190 `Tree.Add`, called at server.go:158 and gorouter.go:84. -/
def opTreeAdd (w : World η ρ) (m : Method) (route : Str) (addr : Nat) : World η ρ × Bool :=
  ({ w with tree := treeAdd w.tree m route (some addr), log := w.log ++ [⟨m, route, addr⟩] }, false)

/-- reg_tree.go:29-40 `RegTree.Add`, called at server.go:164 and gorouter.go:94. -/
def opRegAdd (w : World η ρ) (m : Method) (rx : ρ) (addr : Nat) : World η ρ × Bool :=
  match regAdd w.regs m rx (some addr) with
  | (t, true) => ({ w with regs := t }, true)
  | (t, false) => ({ w with regs := t, rxLog := w.rxLog ++ [⟨m, rx, addr⟩] }, false)

/-- gorouter.go:83 (and 93): `Set("").After(router.after...).Before(router.before...).
Last(router.last).Use(handler)`. -/
def opSnapshot (grow : Nat → Nat → Nat) (w : World η ρ) (rt : RouterRec η) (h : Option η) :
    World η ρ × Nat :=
  let (w, addr) := opNewSet w
  let w := opAfter grow w addr (cells w.arrs rt.after)
  let w := opBefore grow w addr (cells w.arrs rt.before)
  let w := opLast w addr rt.last
  let w := opUse w addr h
  (w, addr)

/-- server.go:157-161 `Server.Add` / 163-167 `AddReg` up to the registration: `set.Clone().Use(handler)`
on the user's set variable; `none` if the set pointer is nil (the call panics). -/
def opCopySet (w : World η ρ) (set : Option Nat) (h : Option η) : Option (World η ρ × Nat) :=
  match set with
  | none => none
  | some j =>
    match w.setVars[j]? with
    | none => none
    | some addr =>
      let (w, a) := opClone w addr
      some (opUse w a h, a)

/-- server.go:157-161 `Server.Add`. -/
def opAdd (w : World η ρ) (m : Method) (route : Str) (h : Option η) (set : Option Nat) :
    World η ρ × Bool :=
  match opCopySet w set h with
  | none => (w, true)
  | some (w, a) => opTreeAdd w m route a

/-- server.go:163-167 `Server.AddReg`. -/
def opAddReg (w : World η ρ) (m : Method) (rx : ρ) (h : Option η) (set : Option Nat) :
    World η ρ × Bool :=
  match opCopySet w set h with
  | none => (w, true)
  | some (w, a) => opRegAdd w m rx a

/-- server.go:169-175 `nonEmptySet`. -/
def nonEmptySet (sets : List (Option Nat)) : Option Nat :=
  match sets with
  | s :: _ => s
  | [] => none

/-- One call: the state afterwards, and whether the call panicked.  top_handler.go:16-22, 83-126; gorouter.go:17-168; server.go:123-125, 157-235 (the line of each call is given beside it). -/
def step (grow : Nat → Nat → Nat) (w : World η ρ) : Op η ρ → World η ρ × Bool
  | .newSet =>                                                        -- top_handler.go:16-22
    let (w, a) := opNewSet w
    ({ w with setVars := w.setVars ++ [a] }, false)
  | .setBefore j arg =>                                               -- top_handler.go:91-97
    match w.setVars[j]? with
    | none => (w, true)
    | some addr =>
      match evalArg w arg with
      | none => (w, true)
      | some (w, s) => (opBefore grow w addr (cells w.arrs s), false)
  | .setAfter j arg =>                                                -- top_handler.go:99-105
    match w.setVars[j]? with
    | none => (w, true)
    | some addr =>
      match evalArg w arg with
      | none => (w, true)
      | some (w, s) => (opAfter grow w addr (cells w.arrs s), false)
  | .setLast j h =>                                                   -- top_handler.go:83-89
    match w.setVars[j]? with
    | none => (w, true)
    | some addr => (opLast w addr h, false)
  | .setUse j h =>                                                    -- top_handler.go:107-113
    match w.setVars[j]? with
    | none => (w, true)
    | some addr => (opUse w addr h, false)
  | .setClone j =>                                                    -- top_handler.go:115-126
    match w.setVars[j]? with
    | none => (w, true)
    | some addr =>
      let (w, a) := opClone w addr
      ({ w with setVars := w.setVars ++ [a] }, false)
  | .newRouter =>                                                     -- gorouter.go:17-25
    let (A, b) := allocSlice w.arrs []
    let (A, a) := allocSlice A []
    ({ w with arrs := A, routers := w.routers ++ [⟨b, a, none⟩] }, false)
  | .rFirst r h =>                                                    -- gorouter.go:43-50
    match w.routers[r]? with
    | none => (w, true)
    | some rt =>
      let (A, s) := allocSlice w.arrs [h]
      let (A, s) := appendSlice grow A s (cells A rt.before)
      ({ w with arrs := A, routers := w.routers.set r { rt with before := s } }, false)
  | .rBefore r arg =>                                                 -- gorouter.go:52-59
    match w.routers[r]? with
    | none => (w, true)
    | some rt =>
      match evalArg w arg with
      | none => (w, true)
      | some (w, s) => ({ w with routers := w.routers.set r { rt with before := s } }, false)
  | .rAfter r arg =>                                                  -- gorouter.go:61-68
    match w.routers[r]? with
    | none => (w, true)
    | some rt =>
      match evalArg w arg with
      | none => (w, true)
      | some (w, s) => ({ w with routers := w.routers.set r { rt with after := s } }, false)
  | .rLastAfter r h =>                                                -- gorouter.go:70-77
    match w.routers[r]? with
    | none => (w, true)
    | some rt =>
      let (A, s) := appendSlice grow w.arrs rt.after [h]
      ({ w with arrs := A, routers := w.routers.set r { rt with after := s } }, false)
  | .rLast r h =>                                                     -- gorouter.go:27-33
    match w.routers[r]? with
    | none => (w, true)
    | some rt => ({ w with routers := w.routers.set r { rt with last := h } }, false)
  | .rUse r m route h =>                                              -- gorouter.go:79-87, 99-157
    match w.routers[r]? with
    | none => (w, true)
    | some rt =>
      let (w, a) := opSnapshot grow w rt h
      opTreeAdd w m route a
  | .rUseReg r m rx h =>                                              -- gorouter.go:89-97
    match w.routers[r]? with
    | none => (w, true)
    | some rt =>
      let (w, a) := opSnapshot grow w rt h
      opRegAdd w m rx a
  | .rClone r =>                                                      -- gorouter.go:159-168
    match w.routers[r]? with
    | none => (w, true)
    | some rt => ({ w with routers := w.routers ++ [rt] }, false)
  | .rGetBefore r =>                                                  -- gorouter.go:35-37
    match w.routers[r]? with
    | none => (w, true)
    | some rt => ({ w with slices := w.slices ++ [rt.before] }, false)
  | .rGetAfter r =>                                                   -- gorouter.go:39-41
    match w.routers[r]? with
    | none => (w, true)
    | some rt => ({ w with slices := w.slices ++ [rt.after] }, false)
  | .sAdd m route h set => opAdd w m route h set                      -- server.go:157-161
  | .sAddReg m rx h set => opAddReg w m rx h set                      -- server.go:163-167
  | .sConv m route h sets => opAdd w m route h (nonEmptySet sets)     -- server.go:177-235
  | .mkSlice xs spare =>                                              -- user code: make + fill
    ({ w with arrs := w.arrs ++ [xs ++ List.replicate spare default],
              slices := w.slices ++ [⟨w.arrs.length, 0, xs.length, xs.length + spare⟩] }, false)
  | .slSet v i x =>                                                   -- user code: s[i] = x
    match w.slices[v]? with
    | none => (w, true)
    | some s =>
      if i < s.len then
        ({ w with arrs := w.arrs.modify s.arr fun l => writeAt l (s.off + i) [x] }, false)
      else (w, true)
  | .slAppend v xs =>                                                 -- user code: append(s, xs...)
    match w.slices[v]? with
    | none => (w, true)
    | some s =>
      let (A, s') := appendSlice grow w.arrs s xs
      ({ w with arrs := A, slices := w.slices ++ [s'] }, false)
  | .slSub v lo hi mx =>                                              -- user code: s[lo:hi:mx]
    match w.slices[v]? with
    | none => (w, true)
    | some s =>
      if lo ≤ hi ∧ hi ≤ mx ∧ mx ≤ s.cap then
        ({ w with slices := w.slices ++ [⟨s.arr, s.off + lo, hi - lo, mx - lo⟩] }, false)
      else (w, true)

/-- A program run from a state.  top_handler.go:16-22, 83-126; gorouter.go:17-168; server.go:123-125, 157-235 (the line of each call is given beside it). -/
def runOps (grow : Nat → Nat → Nat) (w : World η ρ) (ops : List (Op η ρ)) : World η ρ :=
  ops.foldl (fun w o => (step grow w o).1) w

/-! ### What can be observed -/

/-- The handlers of a handler set, as `HandlerSet.Run` and `RunLast` see them.  top_handler.go:24-81. -/
structure HView (η : Type) where
  before : List η
  after : List η
  last : Option η
  main : Option η
  deriving DecidableEq, Repr

/-- The handlers of the registered set at an address.  top_handler.go:24-81. -/
def setHandlers (w : World η ρ) (addr : Nat) : Option (HView η) :=
  (w.sets[addr]?).map fun s => ⟨cells w.arrs s.before, cells w.arrs s.after, s.last, s.handler⟩

/-- The handlers of the user's set variable `j`.  top_handler.go:24-81. -/
def setView (w : World η ρ) (j : Nat) : Option (HView η) := (w.setVars[j]?).bind (setHandlers w)

/-- What is configured on a router.  gorouter.go:8-15. -/
structure RView (η : Type) where
  before : List η
  after : List η
  last : Option η
  deriving DecidableEq, Repr

/-- What is configured on the user's router `r`.  gorouter.go:8-15. -/
def routerView (w : World η ρ) (r : Nat) : Option (RView η) :=
  (w.routers[r]?).map fun x => ⟨cells w.arrs x.before, cells w.arrs x.after, x.last⟩

end Verif
