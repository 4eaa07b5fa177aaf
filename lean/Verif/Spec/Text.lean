import Verif.Base.Str
/-
White space and trimming.
-/
namespace Verif.Spec

/-- ASCII white space as HTTP headers know it: tab, line feed, carriage return, space. -/
def Space (c : UInt8) : Prop := c ∈ b!"\t\n\r "

/-- `t` is `s` without the white space around it. -/
def Trimmed (s t : Str) : Prop :=
  ∃ l r, s = l ++ t ++ r ∧ (∀ c ∈ l, Space c) ∧ (∀ c ∈ r, Space c) ∧
    (∀ c, t.head? = some c → ¬ Space c) ∧ (∀ c, t.getLast? = some c → ¬ Space c)

end Verif.Spec
