import Verif.Spec.Text
/-
Range headers (RFC 7233, section 2.1) as the code reads them.
-/
namespace Verif.Spec

/-- One or more decimal digits. -/
def Digits (s : Str) : Prop := s ≠ [] ∧ ∀ c ∈ s, 48 ≤ c ∧ c ≤ 57

/-- The value of a string of digits. -/
def decVal : Str → Nat
  | [] => 0
  | c :: t => (c.toNat - 48) * 10 ^ t.length + decVal t

/-- A decimal number with an optional sign, in the range of a 64-bit integer. -/
inductive IntText : Str → Int → Prop
  | plain {s : Str} : Digits s → decVal s < 2 ^ 63 → IntText s (decVal s)
  | plus {s : Str} : Digits s → decVal s < 2 ^ 63 → IntText (43 :: s) (decVal s)
  | minus {s : Str} : Digits s → decVal s ≤ 2 ^ 63 → IntText (45 :: s) (-(decVal s : Int))

/-- The text consists of two parts, without the white space around them, separated by the first '-'. -/
def Parts (t start stop : Str) : Prop :=
  ∃ a b, t = a ++ 45 :: b ∧ 45 ∉ a ∧ Trimmed a start ∧ Trimmed b stop

/-- What an element of the list means: nothing, bytes beyond the content, or `length` bytes from `start`. -/
inductive Effect where
  | nothing
  | beyond
  | bytes (start length : Int)
  deriving DecidableEq, Repr

/-- The meaning of one element for content of the given size. -/
inductive Means (size : Int) (t : Str) : Effect → Prop
  /-- an empty element -/
  | blank : Trimmed t [] → Means size t .nothing
  /-- `-n`: the last `n` bytes, all of them if there are fewer -/
  | suffix {stop : Str} {n : Int} : Parts t [] stop → stop.head? ≠ some 45 → IntText stop n →
      Means size t (.bytes (size - min n size) (min n size))
  /-- `a-…` past the end of the content (whatever follows) -/
  | past {start stop : Str} {a : Int} : Parts t start stop → IntText start a → size ≤ a → Means size t .beyond
  /-- `a-`: from `a` to the end -/
  | from {start : Str} {a : Int} : Parts t start [] → IntText start a → a < size → Means size t (.bytes a (size - a))
  /-- `a-b`: from `a` to `b` or to the end -/
  | fromTo {start stop : Str} {a b : Int} : Parts t start stop → IntText start a → IntText stop b → a < size → a ≤ b →
      Means size t (.bytes a (min b (size - 1) - a + 1))

/-- The ranges among the effects. -/
def selected : List Effect → List (Int × Int)
  | [] => []
  | .bytes a n :: t => (a, n) :: selected t
  | _ :: t => selected t

/-- The elements and their effects, one by one. -/
inductive AllMean (size : Int) : List Str → List Effect → Prop
  | nil : AllMean size [] []
  | cons {t : Str} {e : Effect} {ts : List Str} {es : List Effect} : Means size t e → AllMean size ts es →
      AllMean size (t :: ts) (e :: es)

/-- A byte range specification of RFC 7233. -/
inductive ByteSpec where
  | fromTo (a b : Nat)
  | from (a : Nat)
  | last (n : Nat)

/-- Its text: numbers are decimal, spaces may surround them. -/
def ByteSpec.Text : ByteSpec → Str → Prop
  | .fromTo a b, t => ∃ x y, Parts t x y ∧ Digits x ∧ Digits y ∧ decVal x = a ∧ decVal y = b
  | .from a, t => ∃ x, Parts t x [] ∧ Digits x ∧ decVal x = a
  | .last n, t => ∃ y, Parts t [] y ∧ Digits y ∧ decVal y = n

/-- The numbers fit into 63 bits, and the range is not empty. -/
def ByteSpec.Valid : ByteSpec → Prop
  | .fromTo a b => a ≤ b ∧ b < 2 ^ 63
  | .from a => a < 2 ^ 63
  | .last n => 0 < n ∧ n < 2 ^ 63

/-- The bytes of content of size `n` a specification selects (RFC 7233, 2.1): the positions `i`. -/
def ByteSpec.Selects (size : Nat) (i : Nat) : ByteSpec → Prop
  | .fromTo a b => a ≤ i ∧ i ≤ b ∧ i < size
  | .from a => a ≤ i ∧ i < size
  | .last n => size - n ≤ i ∧ i < size

/-- The (offset, length) pairs are those of the specifications that select anything, in order. -/
inductive Covers (size : Nat) : List ByteSpec → List (Int × Int) → Prop
  | nil : Covers size [] []
  | drop {b : ByteSpec} {bs : List ByteSpec} {rs : List (Int × Int)} : (∀ i, ¬ b.Selects size i) → Covers size bs rs →
      Covers size (b :: bs) rs
  | take {b : ByteSpec} {bs : List ByteSpec} {rs : List (Int × Int)} {a n : Int} : (∃ i, b.Selects size i) →
      (∀ i : Nat, b.Selects size i ↔ a ≤ i ∧ (i : Int) < a + n) → 0 ≤ a → 0 < n → Covers size bs rs →
      Covers size (b :: bs) ((a, n) :: rs)

/-- The texts and the specifications they write, one by one. -/
inductive Texts : List Str → List ByteSpec → Prop
  | nil : Texts [] []
  | cons {t : Str} {b : ByteSpec} {ts : List Str} {bs : List ByteSpec} : b.Text t → b.Valid → Texts ts bs →
      Texts (t :: ts) (b :: bs)

end Verif.Spec
