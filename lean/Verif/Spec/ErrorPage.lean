import Verif.Spec.Pipeline
/-
Vocabulary for C134: a last handler that answers failed requests with an error page.
-/
namespace Verif.Spec
variable {υ : Type}

/-- A last handler that, given an error, replaces the response by the page for that error
(`ctx.FastCtx().Error(...)`), and given none leaves the response alone.  What it returns itself is up to it. -/
def AnswersErrors (page : GoErr → Resp) (l : LastH υ) : Prop :=
  ∀ c, (∃ o, l.run none c = .ret o) ∧
    ∀ e, ∃ o, l.run (some e) c = .call (.resp fun _ => page e) fun _ => .ret o

/-- Something failed: a handler returned an error, or a request goroutine did. -/
def Failed (t : List Ev) : Prop := (∃ e, HOut.err e ∈ rets t) ∨ ∃ e, e ∈ goErrs t

end Verif.Spec
