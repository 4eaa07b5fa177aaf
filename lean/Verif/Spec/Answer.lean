import Verif.Spec.Pipeline
/-
Vocabulary for C87: who changed the response, and how the changes follow each other.
-/
namespace Verif.Spec

/-- The changes of the response in a trace (before, after), each with the handler running at that moment. -/
def changes : Option HId → List Ev → List (Option HId × Resp × Resp)
  | _, [] => []
  | _, .start h _ :: t => changes (some h) t
  | _, .ret _ _ :: t => changes none t
  | cur, .resp a b :: t => (cur, a, b) :: changes cur t
  | cur, _ :: t => changes cur t

/-- Each change begins with what the previous one left. -/
inductive Leads : Resp → List (Resp × Resp) → Resp → Prop
  | nil (r : Resp) : Leads r [] r
  | step {r r1 r2 : Resp} {l : List (Resp × Resp)} : Leads r1 l r2 → Leads r ((r, r1) :: l) r2

/-- A change that appends a text to the body: `Write` and `WriteString`. -/
def appends (r r1 : Resp) (p : Str) : Prop := r1 = { r with body := r.body ++ p }

/-- `ps` are the texts appended by the changes `l`, in order. -/
inductive Written : List (Resp × Resp) → List Str → Prop
  | nil : Written [] []
  | cons {r r1 : Resp} {l : List (Resp × Resp)} {p : Str} {ps : List Str} : appends r r1 p → Written l ps →
      Written ((r, r1) :: l) (p :: ps)

end Verif.Spec
