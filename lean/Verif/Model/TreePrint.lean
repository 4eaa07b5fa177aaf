import Verif.Model.Tree
/-
Model of the listing of a tree: /repo/tree.go:243-260 (`Tree.String`, `Node.print`).
-/
namespace Verif
variable {σ : Type}

/-- tree.go:248-251: the handlers of a node, in the order in which Go visits the map.  `idOf` is `HandlerSet.ID`
(top_handler.go:8); a nil set has none and the read panics. -/
def printHandlers (idOf : σ → Str) : List (Method × Option σ) → Outcome Str
  | [] => .ret []
  | (_, none) :: _ => .panic
  | (m, some s) :: t => (printHandlers idOf t).bind fun r => .ret (b!"/" ++ m ++ b!"[" ++ idOf s ++ b!"]" ++ r)

/-- tree.go:247-260 `Node.print`; `visit` is the order in which Go visits a map. -/
def printNode (idOf : σ → Str) (visit : Handlers σ → List (Method × Option σ)) (tab : Str) : Node σ → Outcome Str
  | .mk p u h cs =>
    (printHandlers idOf (visit h)).bind fun hs =>
      (printList (tab ++ [9]) cs).bind fun rest =>
        .ret (tab ++ b!"Path: " ++ p ++ b!", UrlId: " ++ u ++ b!" => " ++ hs ++ [10] ++ rest)
where
  /-- tree.go:255-257: the loop over the children -/
  printList (tab : Str) : List (Node σ) → Outcome Str
    | [] => .ret []
    | c :: cs => (printNode idOf visit tab c).bind fun a => (printList tab cs).bind fun b => .ret (a ++ b)

/-- tree.go:243-245 `Tree.String`. -/
def treeString (idOf : σ → Str) (visit : Handlers σ → List (Method × Option σ)) (t : Node σ) : Outcome Str :=
  printNode idOf visit [] t

end Verif
