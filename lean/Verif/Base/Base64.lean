import Verif.Base.Str
/-
encoding/base64 `StdEncoding.DecodeString` and `bytes.EqualFold` against "basic" (Go standard library;
trusted base, called in /repo/baseauth.go:119-126).
-/
namespace Verif

/-- The standard alphabet (RFC 4648, table 1).  External: called in baseauth.go:123. -/
def b64Alphabet : Str := b!"ABCDEFGHIJKLMNOPQRSTUVWXYZabcdefghijklmnopqrstuvwxyz0123456789+/"

/-- The value of an alphabet character.  External: called in baseauth.go:123. -/
def b64Val (c : UInt8) : Option Nat := b64Alphabet.findIdx? (· == c)

/-- Decoding of text without line breaks: groups of four characters, the last possibly padded.
`StdEncoding` is not strict: unused bits of the last character are ignored.  External: called in baseauth.go:123. -/
def b64Groups : Str → Option Str
  | [] => some []
  | a :: b :: c :: d :: t =>
    match b64Val a, b64Val b with
    | some x, some y =>
      match b64Val c, b64Val d with
      | some z, some w =>
        match b64Groups t with
        | some r => some (UInt8.ofNat (x * 4 + y / 16) :: UInt8.ofNat (y % 16 * 16 + z / 4) ::
            UInt8.ofNat (z % 4 * 64 + w) :: r)
        | none => none
      | some z, none =>
        if d = 61 ∧ t = [] then some [UInt8.ofNat (x * 4 + y / 16), UInt8.ofNat (y % 16 * 16 + z / 4)] else none
      | none, _ => if c = 61 ∧ d = 61 ∧ t = [] then some [UInt8.ofNat (x * 4 + y / 16)] else none
    | _, _ => none
  | _ => none

/-- `base64.StdEncoding.DecodeString`; `none` is an error.  The decoder skips CR and LF everywhere.  External: called in baseauth.go:123. -/
def b64Decode (s : Str) : Option Str := b64Groups (s.filter fun c => c ≠ 10 ∧ c ≠ 13)

/-- `bytes.EqualFold(s, pat)` for a lower-case ASCII letter pattern without 'k': simple case folding maps
only 's' to something outside ASCII, U+017F (encoded C5 BF).  External: called in baseauth.go:119. -/
def equalFold : Str → Str → Bool
  | [], [] => true
  | 0xC5 :: 0xBF :: s, p :: ps => p == 115 && equalFold s ps
  | c :: s, p :: ps => lowerByte c == p && equalFold s ps
  | _, _ => false

end Verif
