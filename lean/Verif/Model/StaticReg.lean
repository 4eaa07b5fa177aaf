import Verif.Base.Rx
import Verif.Model.EndToEnd
/-
Registration of static files: /repo/static.go:42-65, static_embed.go:43-72, static_embed_fix.go:37-60, as the calls of
the API (Model/Heap) they make.  The handler values they build are in Model/Static; here the handler is a value `h`.
`fs.Sub(emfs, ".")` never fails (io/fs: "." is returned as it is), Debugf only logs.
-/
namespace Verif
variable {η ρ : Type}

/-- A `*regexp.Regexp`: its address (RegTree's maps are keyed by it, reg_tree.go:10) and what it points to. -/
structure RxPtr where
  addr : Nat
  rx : List RxPart
  deriving DecidableEq, Repr

/-- `rg.MatchString(path)` (reg_tree.go:46). -/
def RxPtr.matches (p : RxPtr) (s : Str) : Bool := rxMatchString p.rx s

/-- static.go:51, static_embed.go:58: the expression of a static prefix. -/
def staticExpr (urlPath : Str) : Str := b!"^" ++ urlPath ++ b!"/.*"

/-- static.go:56-61, static_embed.go:63-68, static_embed_fix.go:50-55: the calls that make the set (`n` set variables
exist already), and the set used. -/
def staticSet (n : Nat) (sets : List (Option Nat)) : List (Op η ρ) × Option Nat :=
  match sets with
  | s :: _ => ([], s)
  | [] => ([.newSet], some n)

/-- static.go:42-65 `StaticFile` and static_embed.go:43-72 `StaticFileFS`: the calls made; `none` if the expression does
not compile (the method returns the error).  `compile` is `regexp.Compile`. -/
def staticCalls (compile : Str → Option ρ) (n : Nat) (urlPath : Str) (h : Option η) (sets : List (Option Nat)) :
    Option (List (Op η ρ)) :=
  match compile (staticExpr urlPath) with
  | none => none
  | some rx => some ((staticSet n sets).1 ++ [.sAddReg b!"GETHEAD" rx h (staticSet (η := η) (ρ := ρ) n sets).2])

/-- static_embed_fix.go:37-60 `FixStaticFileFS`: the calls made. -/
def fixStaticCalls (n : Nat) (urlPath : Str) (h : Option η) (sets : List (Option Nat)) : List (Op η ρ) :=
  (staticSet n sets).1 ++ [.sAdd b!"GETPOST" urlPath h (staticSet (η := η) (ρ := ρ) n sets).2]

/-- `regexp.Compile` on the fragment of Base/Rx: a new object at address `a`.  Called in static.go:51 and static_embed.go:58. -/
def rxCompileAt (a : Nat) (expr : Str) : Option RxPtr := (rxCompile expr).map (RxPtr.mk a)

end Verif
