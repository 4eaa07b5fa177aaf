import Verif.Base.Str
/-
When two texts have the same CRC-64/ISO: their difference is a sum of shifted copies of one fixed pattern of 65 bits.
-/
namespace Verif.Spec
open Verif

/-- Bit `i` of a text, the lowest bit of its first byte first. -/
def bitAt (s : Str) (i : Nat) : Bool := (s.getD (i / 8) 0).toNat.testBit (i % 8)

/-- `q` at `k` places before `i`. -/
def back (q : Nat → Bool) (i k : Nat) : Bool := decide (k ≤ i) && q (i - k)

/-- The first `n` bits of `d` are the sum (exclusive or) of copies of the pattern with ones at 0, 60, 61, 63 and 64 (the
generator x⁶⁴ + x⁴ + x³ + x + 1 of CRC-64/ISO), which begin where `q` says and lie within the `n` bits. -/
def PatternSum (n : Nat) (d : Nat → Bool) : Prop :=
  ∃ q : Nat → Bool, (∀ i, n ≤ i + 64 → q i = false) ∧
    ∀ i, i < n → d i = (q i ^^ back q i 60 ^^ back q i 61 ^^ back q i 63 ^^ back q i 64)

/-- The eight bytes that stand for CRC-64's initial value: a text is preceded by them, and by zeros up to the length `n`. -/
def crcLead : Str := [11, 189, 208, 11, 189, 208, 11, 237]
def framed (n : Nat) (s : Str) : Str := List.replicate (n - s.length) 0 ++ crcLead ++ s

/-- The texts are indistinguishable for CRC-64/ISO. -/
def Collide (a b : Str) : Prop :=
  PatternSum (8 * (max a.length b.length + 8)) fun i =>
    bitAt (framed (max a.length b.length) a) i ^^ bitAt (framed (max a.length b.length) b) i

end Verif.Spec
