import Verif.Spec.Static
/-
How a client writes a request: each byte as itself where that is allowed, or escaped, as it likes.
-/
namespace Verif.Spec

/-- A visible byte. -/
def Visible (c : UInt8) : Prop := 33 ≤ c ∧ c ≠ 127

/-- What may stand for itself in a segment of the path, in the name and in the value of a parameter. -/
def PathByte (c : UInt8) : Prop := Visible c ∧ c ∉ b!"%/?#"
def NameByte (c : UInt8) : Prop := Visible c ∧ c ∉ b!"%+&=#"
def ValueByte (c : UInt8) : Prop := Visible c ∧ c ∉ b!"%+&#"

instance (c : UInt8) : Decidable (PathByte c) := by unfold PathByte Visible; infer_instance
instance (c : UInt8) : Decidable (NameByte c) := by unfold NameByte Visible; infer_instance
instance (c : UInt8) : Decidable (ValueByte c) := by unfold ValueByte Visible; infer_instance

/-- `w` is a way to write the segment `s`. -/
inductive WrittenSeg : Str → Str → Prop where
  | nil : WrittenSeg [] []
  | plain {c w s} : PathByte c → WrittenSeg w s → WrittenSeg (c :: w) (c :: s)
  | escaped {x y w s} : HexDigit x → HexDigit y → WrittenSeg w s →
      WrittenSeg (37 :: x :: y :: w) (UInt8.ofNat (16 * hexValue x + hexValue y) :: s)

/-- `w` is a way to write the path with the segments. -/
inductive WrittenPath : Str → List Str → Prop where
  | one {w s} : WrittenSeg w s → WrittenPath (47 :: w) [s]
  | cons {w s t ss} : WrittenSeg w s → WrittenPath t ss → WrittenPath (47 :: w ++ t) (s :: ss)

/-- `w` is a way to write a name or a value; `plain` are the bytes that may stand for themselves. -/
inductive WrittenText (plain : UInt8 → Prop) : Str → Str → Prop where
  | nil : WrittenText plain [] []
  | plain {c w s} : plain c → WrittenText plain w s → WrittenText plain (c :: w) (c :: s)
  | space {w s} : WrittenText plain w s → WrittenText plain (43 :: w) (32 :: s)
  | escaped {x y w s} : HexDigit x → HexDigit y → WrittenText plain w s →
      WrittenText plain (37 :: x :: y :: w) (UInt8.ofNat (16 * hexValue x + hexValue y) :: s)

/-- `name=value`, or just the name if the value is empty. -/
inductive WrittenPair : Str → Str × Str → Prop where
  | full {wn n wv v} : WrittenText NameByte wn n → WrittenText ValueByte wv v → WrittenPair (wn ++ 61 :: wv) (n, v)
  | bare {wn n} : WrittenText NameByte wn n → WrittenPair wn (n, [])

/-- Pairs with '&' between them. -/
inductive WrittenPairs : Str → List (Str × Str) → Prop where
  | nil : WrittenPairs [] []
  | one {w e} : WrittenPair w e → WrittenPairs w [e]
  | cons {w e t es} : WrittenPair w e → WrittenPairs t es → WrittenPairs (w ++ 38 :: t) (e :: es)

/-- The target of a request for the path with these segments and these query parameters, without a fragment. -/
inductive WrittenBare : Str → List Str → List (Str × Str) → Prop where
  | path {p ss} : WrittenPath p ss → WrittenBare p ss []
  | query {p ss q ps} : WrittenPath p ss → WrittenPairs q ps → WrittenBare (p ++ 63 :: q) ss ps

/-- The same; some clients send the fragment, too. -/
inductive WrittenTarget : Str → List Str → List (Str × Str) → Prop where
  | bare {t ss ps} : WrittenBare t ss ps → WrittenTarget t ss ps
  | fragment {t ss ps f} : WrittenBare t ss ps → WrittenTarget (t ++ 35 :: f) ss ps

/-- The form parameters a request carries: those in its body, if it is declared to be a form. -/
inductive FormOf (contentType body : Str) : List (Str × Str) → Prop where
  | form {fs more} : contentType = b!"application/x-www-form-urlencoded" ++ more → WrittenPairs body fs → FormOf contentType body fs
  | other : ¬ b!"application/x-www-form-urlencoded" <+: contentType → FormOf contentType body []

/-- White space (Unicode, in UTF-8) at the end. -/
def EndsInSpace (s : Str) : Prop := ∃ x ∈ spaceSeqs, x <:+ s

/-- The segments that can be sent: none is empty, none is "..", none contains a slash, "." is nowhere but at the end, and
the last does not end with white space. -/
structure Intact (ss : List Str) : Prop where
  elem : ∀ s ∈ ss, s ≠ [] ∧ s ≠ b!".." ∧ (47 : UInt8) ∉ s
  dot : ∀ s ∈ ss.dropLast, s ≠ b!"."
  space : ∀ s, ss.getLast? = some s → ¬ EndsInSpace s

end Verif.Spec
