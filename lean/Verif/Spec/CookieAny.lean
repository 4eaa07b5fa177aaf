import Verif.Base.Str
/-
What a Cookie header says, for every header, well-formed or not (C83).
-/
namespace Verif.Spec

/-- `t` is `s` without the spaces around it. -/
def Trims (s t : Str) : Prop :=
  (∃ m n, s = List.replicate m 32 ++ t ++ List.replicate n 32) ∧ t.head? ≠ some 32 ∧ t.getLast? ≠ some 32

/-- One pair of double quotes around a text is not part of the value; one quote alone is. -/
inductive Unquotes : Str → Str → Prop
  | quoted (v : Str) : Unquotes (b!"\"" ++ v ++ b!"\"") v
  | plain (v : Str) (h : ∀ w, v ≠ b!"\"" ++ w ++ b!"\"") : Unquotes v v

/-- The name and the value in what stands between two semicolons: the first '=' ends the name, without one all is value.
Spaces around either do not count. -/
inductive PieceSays : Str → Str → Str → Prop
  | named {a b name v value : Str} (h : 61 ∉ a) (ha : Trims a name) (hb : Trims b v) (hv : Unquotes v value) :
      PieceSays (a ++ b!"=" ++ b) name value
  | bare {a v value : Str} (h : 61 ∉ a) (ha : Trims a v) (hv : Unquotes v value) : PieceSays a [] value

/-- The texts between the semicolons of a header. -/
inductive Between : Str → List Str → Prop
  | last {s : Str} (h : 59 ∉ s) : Between s [s]
  | more {s t : Str} {l : List Str} (h : 59 ∉ s) (ht : Between t l) : Between (s ++ b!";" ++ t) (s :: l)

/-- Name and value of what stands between the semicolons, in order. -/
inductive AllSay : List Str → List (Str × Str) → Prop
  | nil : AllSay [] []
  | cons {s name value : Str} {l : List Str} {cs : List (Str × Str)} (h : PieceSays s name value) (t : AllSay l cs) :
      AllSay (s :: l) ((name, value) :: cs)

/-- What the Cookie headers of a request say, in order. -/
inductive HeadersSay : List Str → List (Str × Str) → Prop
  | nil : HeadersSay [] []
  | cons {h : Str} {l hs : List Str} {cs ds : List (Str × Str)} (hb : Between h l) (ha : AllSay l cs) (t : HeadersSay hs ds) :
      HeadersSay (h :: hs) (cs ++ ds)

/-- The value of the first cookie with a name.  Something with neither name nor value is no cookie. -/
inductive FirstOf (name : Str) : List (Str × Str) → Str → Prop
  | here {v : Str} {l : List (Str × Str)} (h : name ≠ [] ∨ v ≠ []) : FirstOf name ((name, v) :: l) v
  | later {k v w : Str} {l : List (Str × Str)} (h : k ≠ name ∨ (k = [] ∧ w = [])) (t : FirstOf name l v) : FirstOf name ((k, w) :: l) v

end Verif.Spec
