import Verif.Props.RegTree
/-
Specification of C122: which registrations of regular expressions can answer for a method and a path.
-/
namespace Verif.Spec
variable {σ ρ : Type} [DecidableEq ρ]

/-- `r` is the latest registration of its expression for the method, and the expression matches the path. -/
def Answers (rxMatch : ρ → Str → Bool) (rxs : List (RxReg ρ σ)) (m : Method) (path : Str) (r : RxReg ρ σ) : Prop :=
  rxMatch r.rx path = true ∧ covers r.method m = true ∧
    ∃ before after, rxs = before ++ r :: after ∧ ∀ o ∈ after, ¬ (o.rx = r.rx ∧ covers o.method m = true)

end Verif.Spec
