import Verif.Spec.Routing
/-
Two tables of routes that differ in the names of their parameters and in the spelling of their literal segments only.
-/
namespace Verif.Spec

/-- The two lists are equally long, and their elements at the same position are related. -/
inductive All2 {α β : Type} (R : α → β → Prop) : List α → List β → Prop
  | nil : All2 R [] []
  | cons {a : α} {b : β} {as : List α} {bs : List β} : R a b → All2 R as bs → All2 R (a :: as) (b :: bs)

/-- One spelling of literal segments for another: different segments stay different, and no text stays no text. -/
def Spelling (f : Str → Str) : Prop := (∀ a b, f a = f b → a = b) ∧ f [] = []

/-- One name of a parameter for another: a name stays a name. -/
def Naming (N : Str → Str → Prop) : Prop := ∀ n n', N n n' → (n = [] ↔ n' = [])

/-- The second segment is the first one respelled: a literal spelled with `f`, or a parameter under another name. -/
inductive Respelled (f : Str → Str) (N : Str → Str → Prop) : Pat → Pat → Prop
  | lit (t : Str) : Respelled f N (.lit t) (.lit (f t))
  | par (n n' : Str) : N n n' → Respelled f N (.par n) (.par n')

/-- The second parameters are the first ones respelled. -/
def SameParams (f : Str → Str) (N : Str → Str → Prop) : List (Str × Str) → List (Str × Str) → Prop :=
  All2 fun a a' => N a.1 a'.1 ∧ a'.2 = f a.2

end Verif.Spec
