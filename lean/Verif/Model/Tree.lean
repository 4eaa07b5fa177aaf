import Verif.Base.Str
import Verif.Base.GoMap
/-
Model of /repo/tree.go and /repo/methods.go: the segment tree behind the router.

`σ` stands for `HandlerSet` values; a `*HandlerSet` is `Option σ` (`none` = nil).  Each `*Node` is
created by exactly one `append` (tree.go:206, 230) and stored in exactly one `Children` slice, so the
pointer structure is a tree and in-place mutation is modelled by functional update.  The RWMutex
fields are not part of this sequential model (see Model/Locks.lean).
-/
namespace Verif

/-- methods.go:9 `type Method string`. -/
abbrev Method := Str

/-! methods.go:11-23: the method constants. -/
/-- methods.go:12. -/
def mGet : Method := b!"GET"
/-- methods.go:13. -/
def mHead : Method := b!"HEAD"
/-- methods.go:14. -/
def mPost : Method := b!"POST"
/-- methods.go:15. -/
def mPut : Method := b!"PUT"
/-- methods.go:16. -/
def mPatch : Method := b!"PATCH"
/-- methods.go:17. -/
def mDelete : Method := b!"DELETE"
/-- methods.go:18. -/
def mConnect : Method := b!"CONNECT"
/-- methods.go:19. -/
def mOptions : Method := b!"OPTIONS"
/-- methods.go:20. -/
def mTrace : Method := b!"TRACE"
/-- methods.go:21 `MethodGetPost = fasthttp.MethodGet + http.MethodPost`. -/
def mGetPost : Method := mGet ++ mPost
/-- methods.go:22 `MethodGetHead = fasthttp.MethodGet + http.MethodHead`. -/
def mGetHead : Method := mGet ++ mHead

/-- `fasthttp.Args` (external): an ordered list of key/value pairs; `Add`/`AddBytesKV` append,
`VisitAll` visits in order, `Reset` empties.  As in tree.go:86, 130, 143. -/
abbrev Args := List (Str × Str)

/-- tree.go:21 `Handlers map[Method]*HandlerSet`. -/
abbrev Handlers (σ : Type) := GoMap Method (Option σ)

/-- tree.go:14-22 `type Node struct`. -/
inductive Node (σ : Type) where
  | mk (path urlId : Str) (handlers : Handlers σ) (children : List (Node σ))

namespace Node
variable {σ : Type}
/-- tree.go:19. -/
def path : Node σ → Str | mk p _ _ _ => p
/-- tree.go:20. -/
def urlId : Node σ → Str | mk _ u _ _ => u
/-- tree.go:21. -/
def handlers : Node σ → Handlers σ | mk _ _ h _ => h
/-- tree.go:17. -/
def children : Node σ → List (Node σ) | mk _ _ _ c => c
end Node

/-- tree.go:24-32 `newTree` (a `Tree` is its `Top` node, tree.go:10-12). -/
def newTree {σ : Type} : Node σ := .mk b!"/" [] [] []

/-- tree.go:34-46 `nextNodes`: the returned node pointers, as indices into `children`. -/
def nextNodes {σ : Type} (path urlId : Str) (children : List (Node σ)) : List Nat :=
  if urlId ≠ [] then List.range children.length
  else
    match children.findIdx? (fun c => c.path = path) with
    | some j => [j]
    | none => []

/-- tree.go:53-63 `splitPath`. -/
def splitPath (path : Str) : List Str :=
  let path := trimSpace (47 :: trimByte 47 (trimSpace path))
  if path = [47] ∨ path = [] then [[47]]
  else
    match splitByte 47 path with
    | [] => []                       -- strings.Split never returns an empty slice
    | _ :: t => [47] :: t            -- out[0] = "/"

/-- The segments of a path below the root: `splitPath(path)[1:]` (tree.go:53-63, used at 182-189). -/
def segs (path : Str) : List Str := (splitPath path).tail

/-- tree.go:65-78 `addMethod`. -/
def addMethod {σ : Type} (method : Method) (handlers : Handlers σ) (set : Option σ) : Handlers σ :=
  if method = mGetPost then (handlers.set mPost set).set mGet set
  else if method = mGetHead then (handlers.set mGet set).set mHead set
  else handlers.set method set

/-- tree.go:192-197 `getUrlID`. -/
def getUrlID (p : Str) : Str × Str :=
  if hasPrefix p b!":" then ([], trimLeftByte 58 p) else (p, [])

/-- tree.go:222-235 (and 205-211 for a single segment): the chain of fresh nodes for the segments
`p :: ps`, the handler being put on the last one. -/
def newChain {σ : Type} (method : Method) (set : Option σ) : Str → List Str → Node σ
  | p, [] => .mk (getUrlID p).1 (getUrlID p).2 (addMethod method [] set) []
  | p, q :: qs => .mk (getUrlID p).1 (getUrlID p).2 [] [newChain method set q qs]

/-- tree.go:199-241 `Tree._add` on the non-empty slice `paths = p :: ps`; returns the node after the
mutation.  `mapIdx` with a test on `next` is the in-place update of the pointed-to children. -/
def addRec {σ : Type} (method : Method) (set : Option σ) : Str → List Str → Node σ → Node σ
  | p, [], .mk np nu nh nc =>
    let next := nextNodes p nu nc
    if next.length = 0 then
      .mk np nu nh (nc ++ [newChain method set p []])
    else
      .mk np nu nh (nc.mapIdx fun j c =>
        if j ∈ next then .mk c.path c.urlId (addMethod method c.handlers set) c.children else c)
  | p, q :: qs, .mk np nu nh nc =>
    let next := nextNodes p nu nc
    if next.length = 0 then
      .mk np nu nh (nc ++ [newChain method set p (q :: qs)])
    else
      .mk np nu nh (nc.mapIdx fun j c => if j ∈ next then addRec method set q qs c else c)

/-- tree.go:178-190 `Tree.Add`. -/
def treeAdd {σ : Type} (t : Node σ) (method : Method) (path : Str) (set : Option σ) : Node σ :=
  match splitPath path with
  | _ :: p :: ps => addRec method set p ps t
  | _ => .mk t.path t.urlId (addMethod method t.handlers set) t.children   -- last == 0

/-- tree.go:48-51 `TreeResult`, together with the contents of `inOutArgs` after the call. -/
structure FindResult (σ : Type) where
  /-- tree.go:49 `HandlerSet *HandlerSet`. -/
  set : Option σ
  /-- tree.go:50 `Find bool`. -/
  found : Bool
  /-- The caller's `inOutArgs` after the call. -/
  args : Args
  deriving DecidableEq, Repr

/-- tree.go:102, 121, 132, 152 `return TreeResult{}`; the buffer keeps what it holds. -/
def FindResult.notFound {σ : Type} (inOut : Args) : FindResult σ := ⟨none, false, inOut⟩

/-- tree.go:80-84 `type nextNode struct`. -/
structure Item (σ : Type) where
  node : Node σ
  path : List Str
  args : Args

/-- tree.go:119-165: the loop of `Tree.Find` over the work list `nodes[nodeId:]`.  `urlArgs.Add` at
line 130 mutates the item's own copy (each item gets a fresh clone at line 157, `cloneArgs`,
tree.go:168-176). `inOut` is the caller's buffer, appended to at lines 142-144.  One unit of fuel is
one iteration of the loop. -/
def findLoop {σ : Type} (method : Method) (inOut : Args) :
    Nat → List (Item σ) → Outcome (FindResult σ)
  | 0, _ => .outOfFuel
  | _ + 1, [] => .ret (.notFound inOut)                               -- lines 120-122
  | fuel + 1, it :: rest =>
    match it.path with
    | [] => .panic                                                    -- paths[0] out of range
    | p :: ps =>
      if it.node.urlId = [] ∧ it.node.path ≠ p then .ret (.notFound inOut)   -- lines 131-133
      else
        let args := if it.node.urlId ≠ [] then it.args ++ [(it.node.urlId, p)] else it.args
        match ps with
        | [] =>                                                       -- lines 135-153
          match it.node.handlers.get? method with
          | some (some s) => .ret ⟨some s, true, inOut ++ args⟩
          | _ => .ret (.notFound inOut)
        | q :: _ =>                                                   -- lines 155-164
          findLoop method inOut fuel
            (rest ++ (it.node.children.filter fun c => c.path = q ∨ c.urlId ≠ []).map
              fun c => ⟨c, ps, args⟩)

/-- Number of nodes of a tree (used only as fuel for the loop, and to state its cost).  For tree.go:119-165. -/
def Node.size {σ : Type} : Node σ → Nat
  | .mk _ _ _ cs => 1 + sizes cs
where
  /-- total size of a list of nodes -/
  sizes : List (Node σ) → Nat
    | [] => 0
    | c :: cs => c.size + sizes cs

/-- `fasthttp.Args.Reset`.  Called in tree.go:87. -/
def argsReset (_ : Args) : Args := []

/-- tree.go:86-166 `Tree.Find` with an explicit bound on the number of loop iterations; `inArgs` is
what the caller's buffer held before. -/
def treeFindFuel {σ : Type} (fuel : Nat) (t : Node σ) (method : Method) (path : Str)
    (inArgs : Args) : Outcome (FindResult σ) :=
  let inOut := argsReset inArgs                                       -- line 87
  let pathsIn := splitPath path
  if pathsIn.length = 1 then                                          -- lines 90-103
    match t.handlers.get? method with
    | some (some s) => .ret ⟨some s, true, inOut⟩
    | _ => .ret (.notFound inOut)
  else
    findLoop method inOut fuel [⟨t, pathsIn, []⟩]

/-- tree.go:86-166 `Tree.Find`: the Go loop is unbounded; `size + 1` iterations are proved to be
always enough (`C11_find_returns`). -/
def treeFind {σ : Type} (t : Node σ) (method : Method) (path : Str) (inArgs : Args) :
    Outcome (FindResult σ) :=
  treeFindFuel (t.size + 1) t method path inArgs

/-- One registration: arguments of `Tree.Add` with a non-nil set.  tree.go:178-190. -/
structure Reg (σ : Type) where
  method : Method
  route : Str
  set : σ

/-- The tree after a sequence of registrations (oldest first).  tree.go:178-190. -/
def treeOf {σ : Type} (hist : List (Reg σ)) : Node σ :=
  hist.foldl (fun t r => treeAdd t r.method r.route (some r.set)) newTree

end Verif
