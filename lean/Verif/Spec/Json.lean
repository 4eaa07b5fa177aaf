import Verif.Model.Json
import Verif.Spec.Range
/-
Reading JSON (RFC 8259), and what becomes of text that is not valid UTF-8.  The type of values is that of Model/Json.
-/
namespace Verif.Spec

/-- Unicode scalar values. -/
def scalar (c : Nat) : Prop := c < 0xD800 ∨ (0xE000 ≤ c ∧ c < 0x110000)

instance (c : Nat) : Decidable (scalar c) := inferInstanceAs (Decidable (_ ∨ _))

/-- UTF-8 (RFC 3629). -/
def utf8 (c : Nat) : Str :=
  if c < 0x80 then [UInt8.ofNat c]
  else if c < 0x800 then [UInt8.ofNat (0xC0 + c / 64), UInt8.ofNat (0x80 + c % 64)]
  else if c < 0x10000 then [UInt8.ofNat (0xE0 + c / 4096), UInt8.ofNat (0x80 + c / 64 % 64), UInt8.ofNat (0x80 + c % 64)]
  else [UInt8.ofNat (0xF0 + c / 262144), UInt8.ofNat (0x80 + c / 4096 % 64), UInt8.ofNat (0x80 + c / 64 % 64),
    UInt8.ofNat (0x80 + c % 64)]

/-- `t` is `s` with every byte that does not belong to a character replaced by U+FFFD. -/
inductive Repaired : Str → Str → Prop
  | nil : Repaired [] []
  | char {c : Nat} {s t : Str} (h : scalar c) (r : Repaired s t) : Repaired (utf8 c ++ s) (utf8 c ++ t)
  | bad {b : UInt8} {s t : Str} (h : ∀ c s', scalar c → b :: s ≠ utf8 c ++ s') (r : Repaired s t) :
      Repaired (b :: s) (utf8 0xFFFD ++ t)

/-- A hexadecimal digit. -/
def hexVal (b : UInt8) : Option Nat :=
  if 48 ≤ b ∧ b ≤ 57 then some (b.toNat - 48)
  else if 97 ≤ b ∧ b ≤ 102 then some (b.toNat - 87)
  else if 65 ≤ b ∧ b ≤ 70 then some (b.toNat - 55)
  else none

/-- The character named by four hexadecimal digits. -/
def hex4 (a b c d : UInt8) : Option Nat :=
  match hexVal a, hexVal b, hexVal c, hexVal d with
  | some a, some b, some c, some d => some (a * 4096 + b * 256 + c * 16 + d)
  | _, _, _, _ => none

/-- The two-character escapes. -/
def escChar (b : UInt8) : Option UInt8 :=
  if b = 34 ∨ b = 92 ∨ b = 47 then some b
  else if b = 98 then some 8
  else if b = 102 then some 12
  else if b = 110 then some 10
  else if b = 114 then some 13
  else if b = 116 then some 9
  else none

/-- A string, after the opening quote: its text and what follows the closing quote.  Control characters are not allowed.
(Escaped surrogate pairs are not read.) -/
def readString : Str → Option (Str × Str)
  | [] => none
  | 34 :: r => some ([], r)
  | 92 :: 117 :: a :: b :: c :: d :: r =>
    match hex4 a b c d with
    | some n => if scalar n then (readString r).map fun p => (utf8 n ++ p.1, p.2) else none
    | none => none
  | 92 :: e :: r =>
    match escChar e with
    | some x => (readString r).map fun p => (x :: p.1, p.2)
    | none => none
  | [92] => none
  | b :: r => if b < 32 then none else (readString r).map fun p => (b :: p.1, p.2)

def isDigit (b : UInt8) : Bool := 48 ≤ b && b ≤ 57

/-- An optional minus sign. -/
def readSign : Str → Bool × Str
  | 45 :: r => (true, r)
  | s => (false, s)

/-- An integer without leading zeros, and what follows.  (Fractions and exponents are not read.) -/
def readInt (s : Str) : Option (Int × Str) :=
  let p := readSign s
  let d := p.2.takeWhile isDigit
  if d = [] ∨ (d.head? = some 48 ∧ d.length > 1) then none
  else some (if p.1 then -(decVal d : Int) else decVal d, p.2.dropWhile isDigit)

mutual
/-- A value, without white space, and what follows. -/
def readVal : Nat → Str → Option (JVal × Str)
  | 0, _ => none
  | n + 1, s =>
    match s with
    | 34 :: r => (readString r).map fun p => (.str p.1, p.2)
    | 91 :: 93 :: r => some (.arr [], r)
    | 91 :: r => (readElems n r).map fun p => (.arr p.1, p.2)
    | 123 :: 125 :: r => some (.obj [], r)
    | 123 :: r => (readMembers n r).map fun p => (.obj p.1, p.2)
    | _ =>
      if hasPrefix s b!"null" then some (.null, s.drop 4)
      else if hasPrefix s b!"true" then some (.bool true, s.drop 4)
      else if hasPrefix s b!"false" then some (.bool false, s.drop 5)
      else (readInt s).map fun p => (.num p.1, p.2)

/-- The rest of an array that is not empty. -/
def readElems : Nat → Str → Option (List JVal × Str)
  | 0, _ => none
  | n + 1, s =>
    match readVal n s with
    | some (v, 93 :: r) => some ([v], r)
    | some (v, 44 :: r) => (readElems n r).map fun p => (v :: p.1, p.2)
    | _ => none

/-- The rest of an object that is not empty. -/
def readMembers : Nat → Str → Option (List (Str × JVal) × Str)
  | 0, _ => none
  | n + 1, s =>
    match s with
    | 34 :: r =>
      match readString r with
      | some (k, 58 :: r) =>
        match readVal n r with
        | some (v, 125 :: r) => some ([(k, v)], r)
        | some (v, 44 :: r) => (readMembers n r).map fun p => ((k, v) :: p.1, p.2)
        | _ => none
      | _ => none
    | _ => none
end

/-- Read a text as one JSON value. -/
def readJson (s : Str) : Option JVal :=
  match readVal (s.length + 1) s with
  | some (v, []) => some v
  | _ => none

mutual
/-- Change all texts in a value. -/
def JVal.mapStr (f : Str → Str) : JVal → JVal
  | .null => .null
  | .bool b => .bool b
  | .num n => .num n
  | .str s => .str (f s)
  | .arr l => .arr (mapStrs f l)
  | .obj m => .obj (mapMembers f m)
def JVal.mapStrs (f : Str → Str) : List JVal → List JVal
  | [] => []
  | v :: l => JVal.mapStr f v :: mapStrs f l
def JVal.mapMembers (f : Str → Str) : List (Str × JVal) → List (Str × JVal)
  | [] => []
  | (k, v) :: m => (f k, JVal.mapStr f v) :: mapMembers f m
end

/-- What a field of a record stands for: a text itself, any other value itself. -/
def fieldValue : FV JVal → JVal
  | .str s => .str s
  | .val v => v

end Verif.Spec
