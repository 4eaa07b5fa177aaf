import Verif.Model.Contexts
/-
When the contexts of a request are to be cancelled, and which values they have, in terms of the history of calls.
-/
namespace Verif.Spec
open Verif

/-- The calls that make a context, a run, a request. -/
def makesCx : CxOp → Bool
  | .background | .child _ | .value .. => true
  | _ => false
def makesRun : CxOp → Bool
  | .run _ => true
  | _ => false
def makesReq : CxOp → Bool
  | .request _ => true
  | _ => false

/-- `o` is the call that makes the context (run, request) number `i`; `after` are the calls made after it. -/
def Made (makes : CxOp → Bool) (h : List CxOp) (i : Nat) (o : CxOp) (before after : List CxOp) : Prop :=
  h = before ++ o :: after ∧ makes o = true ∧ before.countP makes = i

/-- A context is derived from one that was made before. -/
def Sound (h : List CxOp) : Prop :=
  ∀ before after o p, h = before ++ o :: after → (o = .child p ∨ (∃ k v, o = .value p k v) ∨ o = .run p) →
    p < before.countP makesCx

/-- The program's context `i` is cancelled: by its cancel function, or because it is derived from one that is. -/
inductive CxCancelled (h : List CxOp) : Nat → Prop where
  | own {i o b a} : Made makesCx h i o b a → .cancel i ∈ a → CxCancelled h i
  | child {i p b a} : Made makesCx h i (.child p) b a → CxCancelled h p → CxCancelled h i
  | value {i p k v b a} : Made makesCx h i (.value p k v) b a → CxCancelled h p → CxCancelled h i

/-- The program's context `i` has the value: its own, or else that of the one it is derived from. -/
inductive CxHas (h : List CxOp) (k : Str) : Nat → Str → Prop where
  | own {i p v b a} : Made makesCx h i (.value p k v) b a → CxHas h k i v
  | child {i p b a v} : Made makesCx h i (.child p) b a → CxHas h k p v → CxHas h k i v
  | other {i p k' v' b a v} : Made makesCx h i (.value p k' v') b a → k' ≠ k → CxHas h k p v → CxHas h k i v

/-- The context of run `i` is cancelled: a goroutine of the run failed, or it is over, or the context given to it is cancelled. -/
def RunCancelled (h : List CxOp) (i : Nat) : Prop :=
  ∃ c b a, Made makesRun h i (.run c) b a ∧ (.runOver i ∈ a ∨ CxCancelled h c)

/-- Whether fasthttp is serving, or shutting down. -/
inductive Phase where
  | down | up | closing
  deriving DecidableEq

def Phase.next : Phase → CxOp → Phase
  | .down, .serve => .up
  | .up, .shut => .closing
  | .closing, .shutEnd => .down
  | p, _ => p

def phase (h : List CxOp) : Phase := h.foldl Phase.next .down

/-- The calls that concern request `r` and cancel its context. -/
def endsReq (r : Nat) : List CxOp := [.abort r, .groupErr r, .wait r, .finish r]

/-- The context of request `r` is cancelled: the request was aborted or is over, a goroutine of its group failed or the group was
waited for, or fasthttp began to shut down the server the request came from, before or after it came. -/
def ReqCancelled (h : List CxOp) (r : Nat) : Prop :=
  ∃ vals b a, Made makesReq h r (.request vals) b a ∧
    ((∃ o ∈ a, o ∈ endsReq r) ∨ phase b = .closing ∨ (phase b = .up ∧ .shut ∈ a))

/-- `f v` is the last of the calls `f _` among `a`. -/
def LastOf (f : Str → CxOp) (a : List CxOp) (v : Str) : Prop := ∃ b c, a = b ++ f v :: c ∧ ∀ v', f v' ∉ c

/-- The calls made by request `r` on its own contexts. -/
def Concerns (r : Nat) : CxOp → Prop
  | .setUser r' .. | .set r' .. | .abort r' | .groupErr r' | .wait r' | .finish r' => r' = r
  | _ => False

end Verif.Spec
