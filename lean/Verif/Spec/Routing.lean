import Verif.Base.Str
/-
Independent specification of routing: what a route is, when it matches a path, which parameters it
binds, and which of several matching routes is served.  Nothing here mentions the tree.
-/
namespace Verif.Spec

/-- A segment of a route: fixed text, or a named parameter. -/
inductive Pat where
  | lit (text : Str)
  | par (name : Str)
  deriving DecidableEq, Repr

/-- How a segment of a route is read: `:name` is a parameter, anything else is literal. -/
def segPat (s : Str) : Pat :=
  match s with
  | 58 :: _ => .par (s.dropWhile (· == 58))
  | _ => .lit s

/-- Does a route segment accept a path segment? -/
def Pat.accepts : Pat → Str → Bool
  | .lit t, s => t = s
  | .par _, _ => true

/-- The bindings made by matching a route against a path of the same length; `none` if it does not
match. -/
def matchRoute : List Pat → List Str → Option (List (Str × Str))
  | [], [] => some []
  | .lit t :: ps, s :: ss => if t = s then matchRoute ps ss else none
  | .par n :: ps, s :: ss => (matchRoute ps ss).map ((n, s) :: ·)
  | _, _ => none

/-- The parameters of a path, position by position: one `(name, segment)` pair for each parameter of the route. -/
def params (route : List Pat) (path : List Str) : List (Str × Str) :=
  (route.zip path).filterMap fun
    | (.par n, s) => some (n, s)
    | (.lit _, _) => none

/-- Which request methods a registration answers. -/
def covers (registered request : Str) : Bool :=
  if registered = b!"GETPOST" then request = b!"GET" || request = b!"POST"
  else if registered = b!"GETHEAD" then request = b!"GET" || request = b!"HEAD"
  else request = registered

/-- A registered route. -/
structure Route (σ : Type) where
  pats : List Pat
  method : Str
  set : σ

/-- The ways to continue after a common prefix of routes: all routes continuing with the same literal
text share one branch; every route continuing with a parameter has a branch of its own. -/
inductive Branch (σ : Type) where
  | lit (text : Str) (routes : List (Route σ))
  | par (name : Str) (route : Route σ)

/-- Add one more route (already cut at the common prefix) to the branches: to the existing branch for
its literal text if there is one, otherwise as a new branch at the end.  Routes that end here add
no branch. -/
def addBranch {σ : Type} : List (Branch σ) → Route σ → List (Branch σ)
  | [], r =>
    match r.pats with
    | [] => []
    | .lit t :: ps => [.lit t [{ r with pats := ps }]]
    | .par n :: ps => [.par n { r with pats := ps }]
  | .lit t rs :: bs, r =>
    match r.pats with
    | .lit t' :: ps =>
      if t = t' then .lit t (rs ++ [{ r with pats := ps }]) :: bs else .lit t rs :: addBranch bs r
    | _ => .lit t rs :: addBranch bs r
  | .par n r' :: bs, r => .par n r' :: addBranch bs r

/-- The branches of a list of routes (oldest registration first). -/
def branches {σ : Type} (regs : List (Route σ)) : List (Branch σ) := regs.foldl addBranch []

/-- The candidates for a path, best first: branches in order of creation, depth first.  A candidate is
the list of routes that end on that branch (possibly none), with the bindings. -/
def candidates {σ : Type} : List (Route σ) → List Str → List (List (Route σ) × List (Str × Str))
  | regs, [] => [(regs.filter fun r => r.pats = [], [])]
  | regs, s :: ss =>
    (branches regs).flatMap fun
      | .lit t rs => if t = s then candidates rs ss else []
      | .par n r => (candidates [r] ss).map fun c => (c.1, (n, s) :: c.2)

/-- The route served: the latest registration covering the method on the FIRST candidate; later
candidates are never considered. -/
def serve {σ : Type} (regs : List (Route σ)) (method : Str) (path : List Str) :
    Option (Route σ × List (Str × Str)) :=
  match candidates regs path with
  | [] => none
  | (rs, b) :: _ => (rs.reverse.find? fun r => covers r.method method).map fun r => (r, b)

/-- A route competes for a path if it, cut to the length of the path, matches the path. -/
def competes (pats : List Pat) (path : List Str) : Bool :=
  path.length ≤ pats.length && (matchRoute (pats.take path.length) path).isSome

/-! ### Arbitration by age of the branch, stated on positions in the registration history -/

/-- No parameter among the segments. -/
def allLit (ps : List Pat) : Bool := ps.all fun | .lit _ => true | .par _ => false

/-- The age of the branch of depth `k` used by the `i`-th route: the position of the first
registration with the same first `k` segments if these are all literal (such branches are shared);
its own position once there is a parameter among them (such branches are never shared). -/
def birth (routes : List (List Pat)) (i k : Nat) : Nat :=
  match routes[i]? with
  | none => i
  | some p => if allLit (p.take k) then routes.findIdx fun q => q.take k = p.take k else i

/-- The `i`-th route uses the same branches as the `j`-th down to depth `n`. -/
def sameBranch (routes : List (List Pat)) (n i j : Nat) : Prop :=
  ∀ k ≤ n, birth routes i k = birth routes j k

/-- At the first depth (≤ n) where their branches differ, the branch of the `i`-th route is older. -/
def outranks (routes : List (List Pat)) (n i j : Nat) : Prop :=
  ∃ k ≤ n, birth routes i k < birth routes j k ∧ ∀ l < k, birth routes i l = birth routes j l

end Verif.Spec
