/-
Byte strings and the parts of Go's `strings`/`bytes` packages that gorouter calls.
A Go `string` or `[]byte` is modelled as its list of bytes.

Everything in this file models the Go standard library (trusted base), not /repo; each definition
names the Go function and the place in /repo where it is called.
-/
namespace Verif

/-- A Go `string` / `[]byte`: its bytes.  All of /repo: e.g. tree.go:19-20, ctx.go:178. -/
abbrev Str := List UInt8

/-- `b!"abc"` is the byte-string literal of the Go string "abc" (expanded to an explicit list). -/
syntax:max "b!" noWs str : term

open Lean in
macro_rules
  | `(b!$s:str) => do
    let xs := s.getString.toUTF8.toList.map fun b => Syntax.mkNumLit (toString b.toNat)
    let arr := xs.toArray
    `(([$[$arr],*] : List UInt8))

/-- What a Go call can do: return, panic, or (model artefact, proved unreachable wherever it is
used) run out of the fuel given to a loop.  Used wherever /repo can panic: e.g. server.go:153, 158, reg_tree.go:38, fs.go:655. -/
inductive Outcome (α : Type _) where
  | ret (a : α)
  | panic
  | outOfFuel
  deriving DecidableEq, Repr

namespace Outcome
/-- Sequencing of Go statements: a panic in the first part skips the second.  Used wherever /repo can panic: e.g. server.go:153, 158, reg_tree.go:38, fs.go:655. -/
def bind {α β} (x : Outcome α) (f : α → Outcome β) : Outcome β :=
  match x with
  | ret a => f a
  | panic => panic
  | outOfFuel => outOfFuel

@[simp] theorem bind_ret {α β} (a : α) (f : α → Outcome β) : (ret a).bind f = f a := rfl
@[simp] theorem bind_panic {α β} (f : α → Outcome β) : (panic : Outcome α).bind f = panic := rfl
@[simp] theorem bind_outOfFuel {α β} (f : α → Outcome β) :
    (outOfFuel : Outcome α).bind f = outOfFuel := rfl
end Outcome

/-! ### Prefixes, suffixes, trimming -/

/-- `strings.HasPrefix(s, p)` / `bytes.HasPrefix`.  External: called in tree.go:193, ctx.go:321, fs.go:373, 899, sniff.go:201, static/static.go:42. -/
def hasPrefix (s p : Str) : Bool := p.isPrefixOf s

/-- `strings.HasSuffix(s, p)` / `bytes.HasSuffix`.  External: called in ctx.go:321, fs.go:622. -/
def hasSuffix (s p : Str) : Bool := p.isSuffixOf s

/-- `strings.TrimPrefix(s, p)`.  External: called in static.go:32-33, 44-45, static_embed.go:31-32, 50-51, fs.go:404, 804. -/
def trimPrefix (s p : Str) : Str := if hasPrefix s p then s.drop p.length else s

/-- `strings.TrimSuffix(s, p)`.  External: called in fs.go:677. -/
def trimSuffix (s p : Str) : Str := if hasSuffix s p then s.take (s.length - p.length) else s

/-- Drop from the right while the predicate holds.  Helper for tree.go:54. -/
def rdropWhile (p : UInt8 → Bool) (s : Str) : Str := (s.reverse.dropWhile p).reverse

/-- `strings.TrimLeft(s, c)` for a one-byte cutset.  External: called in tree.go:194. -/
def trimLeftByte (c : UInt8) (s : Str) : Str := s.dropWhile (· == c)

/-- `strings.Trim(s, c)` for a one-byte cutset.  External: called in tree.go:54. -/
def trimByte (c : UInt8) (s : Str) : Str := rdropWhile (· == c) (trimLeftByte c s)

/-- The UTF-8 encodings of exactly the runes for which Go's `unicode.IsSpace` is true:
U+0009–U+000D, U+0020, U+0085, U+00A0, U+1680, U+2000–U+200A, U+2028, U+2029, U+202F, U+205F,
U+3000.  External: for strings.TrimSpace, called in tree.go:54. -/
def spaceSeqs : List Str :=
  [[9], [10], [11], [12], [13], [32],
   [0xC2, 0x85], [0xC2, 0xA0], [0xE1, 0x9A, 0x80],
   [0xE2, 0x80, 0x80], [0xE2, 0x80, 0x81], [0xE2, 0x80, 0x82], [0xE2, 0x80, 0x83],
   [0xE2, 0x80, 0x84], [0xE2, 0x80, 0x85], [0xE2, 0x80, 0x86], [0xE2, 0x80, 0x87],
   [0xE2, 0x80, 0x88], [0xE2, 0x80, 0x89], [0xE2, 0x80, 0x8A],
   [0xE2, 0x80, 0xA8], [0xE2, 0x80, 0xA9], [0xE2, 0x80, 0xAF], [0xE2, 0x81, 0x9F],
   [0xE3, 0x80, 0x80]]

/-- If `s` starts with one of `seqs`, the rest of `s` after it.  External: for strings.TrimSpace, called in tree.go:54. -/
def stripOne (seqs : List Str) (s : Str) : Option Str :=
  (seqs.find? (·.isPrefixOf s)).map fun w => s.drop w.length

/-- Strip prefixes from `seqs` until none is left (fuel: the length of the string suffices).  External: for strings.TrimSpace, called in tree.go:54. -/
def strip (seqs : List Str) : Nat → Str → Str
  | 0, s => s
  | n + 1, s =>
    match stripOne seqs s with
    | some r => strip seqs n r
    | none => s

/-- `strings.TrimLeftFunc(s, unicode.IsSpace)`.  External: for strings.TrimSpace, called in tree.go:54. -/
def trimLeftSpace (s : Str) : Str := strip spaceSeqs s.length s

/-- `strings.TrimRightFunc(s, unicode.IsSpace)`: `utf8.DecodeLastRune` yields a space rune exactly
when the string ends in its encoding, so this is stripping reversed encodings of the reversal.  External: for strings.TrimSpace, called in tree.go:54. -/
def trimRightSpace (s : Str) : Str :=
  (strip (spaceSeqs.map List.reverse) s.length s.reverse).reverse

/-- `strings.TrimSpace`.  External: for strings.TrimSpace, called in tree.go:54. -/
def trimSpace (s : Str) : Str := trimRightSpace (trimLeftSpace s)

/-! ### Splitting and searching -/

/-- `strings.Split(s, c)` for a one-byte separator.  External: called in tree.go:59, fs.go:56, 905, baseauth.go:128. -/
def splitByte (c : UInt8) : Str → List Str
  | [] => [[]]
  | x :: xs =>
    if x = c then [] :: splitByte c xs
    else
      match splitByte c xs with
      | [] => [[x]]
      | h :: t => (x :: h) :: t

/-- `strings.Join(l, c)` for a one-byte separator.  External: called in fs.go:61. -/
def joinByte (c : UInt8) : List Str → Str
  | [] => []
  | [x] => x
  | x :: y :: t => x ++ c :: joinByte c (y :: t)

/-- `strings.Cut(s, c)` for a one-byte separator: `none` when the separator is absent.  External: called in fs.go:911. -/
def cutByte (c : UInt8) : Str → Option (Str × Str)
  | [] => none
  | x :: xs =>
    if x = c then some ([], xs)
    else
      match cutByte c xs with
      | none => none
      | some (a, b) => some (x :: a, b)

/-- `bytes.IndexByte(s, c)`; `none` is Go's -1.  External: called in baseauth.go:114. -/
def indexByte (c : UInt8) (s : Str) : Option Nat := s.findIdx? (· == c)

/-- `bytes.LastIndexByte(s, c)`; `none` is Go's -1.  External: called in ctx.go:317. -/
def lastIndexByte (c : UInt8) (s : Str) : Option Nat :=
  match indexByte c s.reverse with
  | none => none
  | some i => some (s.length - 1 - i)

/-! ### Letter case -/

/-- Lower-case one ASCII byte.  External: for strings.ToLower, called in ctx.go:217 and baseauth.go:133. -/
def lowerByte (b : UInt8) : UInt8 := if 65 ≤ b ∧ b ≤ 90 then b + 32 else b

/-- Every byte is ASCII (< 0x80).  External: for strings.ToLower, called in ctx.go:217 and baseauth.go:133. -/
def isAscii (s : Str) : Bool := s.all (· < 128)

/-- `strings.ToLower`: the exact ASCII mapping for ASCII strings; for strings with a non-ASCII byte
the Unicode mapping is the parameter `u` (theorems hold for every `u`).  External: for strings.ToLower, called in ctx.go:217 and baseauth.go:133. -/
def toLower (u : Str → Str) (s : Str) : Str := if isAscii s then s.map lowerByte else u s

end Verif
