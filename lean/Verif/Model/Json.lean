import Verif.Model.Logger
import Verif.Model.Range
/-
The encoding of log records: logger/fields.go:13-21 calls json-iterator v1.1.12 (`ConfigCompatibleWithStandardLibrary`: sorted
keys, HTML escaping); external code, trusted reading.  Values are nil, booleans, integers, strings, and slices and string
maps of such; floating point numbers, structs and custom marshalers are not modelled.
-/
namespace Verif

/-- unicode/utf8 `DecodeRuneInString`: rune and size.  (65533, 1) is (RuneError, 1).  External: behind fields.go:14. -/
def decodeRune : Str → Nat × Nat
  | [] => (65533, 0)
  | s0 :: rest =>
    if s0 < 0x80 then (s0.toNat, 1)
    else if s0 < 0xC2 ∨ 0xF4 < s0 then (65533, 1)
    else if s0 < 0xE0 then
      match rest with
      | s1 :: _ => if s1 < 0x80 ∨ 0xBF < s1 then (65533, 1) else ((s0.toNat % 32) * 64 + s1.toNat % 64, 2)
      | _ => (65533, 1)
    else if s0 < 0xF0 then
      match rest with
      | s1 :: s2 :: _ =>
        if s1 < (if s0 = 0xE0 then 0xA0 else 0x80) ∨ (if s0 = 0xED then 0x9F else 0xBF) < s1 then (65533, 1)
        else if s2 < 0x80 ∨ 0xBF < s2 then (65533, 1)
        else ((s0.toNat % 16) * 4096 + (s1.toNat % 64) * 64 + s2.toNat % 64, 3)
      | _ => (65533, 1)
    else
      match rest with
      | s1 :: s2 :: s3 :: _ =>
        if s1 < (if s0 = 0xF0 then 0x90 else 0x80) ∨ (if s0 = 0xF4 then 0x8F else 0xBF) < s1 then (65533, 1)
        else if s2 < 0x80 ∨ 0xBF < s2 then (65533, 1)
        else if s3 < 0x80 ∨ 0xBF < s3 then (65533, 1)
        else ((s0.toNat % 8) * 262144 + (s1.toNat % 64) * 4096 + (s2.toNat % 64) * 64 + s3.toNat % 64, 4)
      | _ => (65533, 1)

/-- A lower-case hexadecimal digit.  External: behind fields.go:14. -/
def hexLower (n : Nat) : UInt8 := if n < 10 then UInt8.ofNat (48 + n) else UInt8.ofNat (87 + n)

/-- json-iterator `htmlSafeSet`.  External: behind fields.go:14. -/
def htmlSafe (b : UInt8) : Bool := 0x20 ≤ b && b != 34 && b != 38 && b != 60 && b != 62 && b != 92

/-- json-iterator `writeStringSlowPathWithHTMLEscaped`, one byte below 0x80.  External: behind fields.go:14. -/
def jsonByte (b : UInt8) : Str :=
  if htmlSafe b then [b]
  else if b = 92 ∨ b = 34 then [92, b]
  else if b = 10 then b!"\\n"
  else if b = 13 then b!"\\r"
  else if b = 9 then b!"\\t"
  else b!"\\u00" ++ [hexLower (b.toNat / 16), hexLower (b.toNat % 16)]

/-- json-iterator `writeStringSlowPathWithHTMLEscaped`: the loop (`i += size` drops at least one byte, so the length of the
text bounds the number of rounds).  External: behind fields.go:14. -/
def jsonEscape : Nat → Str → Str
  | 0, _ => []
  | _ + 1, [] => []
  | fuel + 1, b :: t =>
    if b < 0x80 then jsonByte b ++ jsonEscape fuel t
    else
      let (c, size) := decodeRune (b :: t)
      if c = 65533 ∧ size = 1 then b!"\\ufffd" ++ jsonEscape fuel t
      else if c = 0x2028 ∨ c = 0x2029 then b!"\\u202" ++ [hexLower (c % 16)] ++ jsonEscape fuel ((b :: t).drop size)
      else (b :: t).take size ++ jsonEscape fuel ((b :: t).drop size)

/-- json-iterator `WriteStringWithHTMLEscaped`.  External: behind fields.go:14. -/
def jsonString (s : Str) : Str := 34 :: jsonEscape s.length s ++ [34]

/-- The values modelled.  The members of a map are listed in the order in which they are written.  The values of fields.go:11, written by fields.go:14. -/
inductive JVal where
  | null
  | bool (b : Bool)
  | num (n : Int)
  | str (s : Str)
  | arr (l : List JVal)
  | obj (m : List (Str × JVal))

mutual
/-- json-iterator `WriteVal`.  External: behind fields.go:14. -/
def jsonVal : JVal → Str
  | .null => b!"null"
  | .bool b => if b then b!"true" else b!"false"
  | .num n => formatInt n
  | .str s => jsonString s
  | .arr l => 91 :: jsonElems l ++ [93]
  | .obj m => 123 :: jsonMembers m ++ [125]

/-- json-iterator `sliceEncoder`.  External: behind fields.go:14. -/
def jsonElems : List JVal → Str
  | [] => []
  | [v] => jsonVal v
  | v :: w :: l => jsonVal v ++ 44 :: jsonElems (w :: l)

/-- json-iterator `sortKeysMapEncoder`.  External: behind fields.go:14. -/
def jsonMembers : List (Str × JVal) → Str
  | [] => []
  | [(k, v)] => jsonString k ++ 58 :: jsonVal v
  | (k, v) :: e :: m => jsonString k ++ 58 :: jsonVal v ++ 44 :: jsonMembers (e :: m)
end

/-- A value in a record, as JSON.  The values of fields.go:11, written by fields.go:14. -/
def FV.toJ : FV JVal → JVal
  | .str s => .str s
  | .val v => v

/-- The encoder writes the fields in some order (json-iterator sorts them by key).  External: behind fields.go:14. -/
def JsonEncoder (enc : (Str → Option (FV JVal)) → Option Str) : Prop :=
  ∀ f : Fields JVal, (f.map (·.1)).Nodup → ∃ g : Fields JVal, g.Perm f ∧
    enc (GoMap.get? f) = some (jsonVal (.obj (g.map fun e => (e.1, e.2.toJ))))

example : jsonVal (.obj [(b!"k\n", .arr [.str b!"a\"<", .num (-7), .null]), (b!"b", .bool true)]) =
    b!"{\"k\\n\":[\"a\\\"\\u003c\",-7,null],\"b\":true}" := by decide +kernel
example : jsonString [0xE2, 0x80, 0xA8, 0xC3, 0xA4, 0xFF, 0xC3] = b!"\"\\u2028" ++ [0xC3, 0xA4] ++ b!"\\ufffd\\ufffd\"" := by
  decide +kernel

end Verif
