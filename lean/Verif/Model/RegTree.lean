import Verif.Model.Tree
/-
Model of /repo/reg_tree.go and the lookup part of /repo/server.go.

`ρ` stands for `*regexp.Regexp` pointers (compared by identity, as map keys are); which strings an
expression matches is the parameter `rxMatch` (package regexp is not modelled).  Go visits a map in an
unspecified order: `visit` is that order, and theorems quantify over every `visit` that returns a
permutation of the entries.
-/
namespace Verif
variable {σ ρ : Type} [DecidableEq ρ]

/-- reg_tree.go:9-11 `RegTree.Handlers`. -/
abbrev RegTable (ρ σ : Type) := GoMap Method (GoMap ρ (Option σ))

/-- reg_tree.go:13-27 `newRegTree`. -/
def newRegTree : RegTable ρ σ :=
  [(mGet, []), (mHead, []), (mPost, []), (mPut, []), (mPatch, []), (mDelete, []), (mConnect, []),
   (mOptions, []), (mTrace, [])]

/-- `rt.Handlers[method][path] = set`: the state after the statement, and whether it panicked
(assignment to an entry of a nil map).  reg_tree.go:32-38. -/
def regAssign (t : RegTable ρ σ) (m : Method) (rx : ρ) (set : Option σ) : RegTable ρ σ × Bool :=
  match t.get? m with
  | none => (t, true)
  | some inner => (t.set m (inner.set rx set), false)

/-- reg_tree.go:29-40 `RegTree.Add`: the table afterwards and whether the call panicked. -/
def regAdd (t : RegTable ρ σ) (m : Method) (rx : ρ) (set : Option σ) : RegTable ρ σ × Bool :=
  if m = mGetPost then
    match regAssign t mGet rx set with
    | (t', true) => (t', true)
    | (t', false) => regAssign t' mPost rx set
  else if m = mGetHead then
    match regAssign t mGet rx set with
    | (t', true) => (t', true)
    | (t', false) => regAssign t' mHead rx set
  else regAssign t m rx set

/-- reg_tree.go:42-56 `RegTree.Find`. -/
def regFind (rxMatch : ρ → Str → Bool) (visit : GoMap ρ (Option σ) → List (ρ × Option σ))
    (t : RegTable ρ σ) (m : Method) (path : Str) (inArgs : Args) : FindResult σ :=
  let inOut := argsReset inArgs                                     -- line 43
  match t.get? m with
  | none => .notFound inOut
  | some inner =>
    match (visit inner).find? fun e => rxMatch e.1 path with
    | some e => ⟨e.2, true, inOut⟩
    | none => .notFound inOut

/-- server.go:131-141 `Server.Find`. -/
def serverFind (rxMatch : ρ → Str → Bool) (visit : GoMap ρ (Option σ) → List (ρ × Option σ))
    (tree : Node σ) (regs : RegTable ρ σ) (m : Method) (path : Str) (inArgs : Args) :
    Outcome (FindResult σ) :=
  (treeFind tree m path inArgs).bind fun res =>
    if res.found then .ret res
    else
      let res' := regFind rxMatch visit regs m path res.args
      if res'.found then .ret res' else .ret (.notFound res'.args)

/-- One registration of a regular expression (non-nil set).  reg_tree.go:29-40. -/
structure RxReg (ρ σ : Type) where
  method : Method
  rx : ρ
  set : σ

/-- The table after a sequence of `RegTree.Add` calls (a panicking call is one the program recovered
from).  reg_tree.go:29-40. -/
def regOf (hist : List (RxReg ρ σ)) : RegTable ρ σ :=
  hist.foldl (fun t r => (regAdd t r.method r.rx (some r.set)).1) newRegTree

end Verif
