import Verif.Base.Str
/-
Model of /repo/internal/text/text.go.  The same algorithm is net/textproto.TrimString (Go standard library), which
/repo/static/fs.go calls (lines 371, 423, 473, 906, 916).
-/
namespace Verif

/-- text.go:43-45 `isASCIISpace`. -/
def isASCIISpace (b : UInt8) : Bool := b == 10 || b == 13 || b == 32 || b == 9

/-- text.go:8-10: the first loop, `for i < j && isASCIISpace(s[i]) { i++ }`; `n` bounds the number of rounds, an
index out of range is a panic. -/
def trimFront (s : Str) (j : Nat) : Nat → Nat → Outcome Nat
  | 0, _ => .outOfFuel
  | n + 1, i =>
    if i < j then
      match s[i]? with
      | none => .panic
      | some b => if isASCIISpace b then trimFront s j n (i + 1) else .ret i
    else .ret i

/-- text.go:12-14: the second loop, `for j > i && isASCIISpace(s[j-1]) { j-- }`. -/
def trimBack (s : Str) (i : Nat) : Nat → Nat → Outcome Nat
  | 0, _ => .outOfFuel
  | n + 1, j =>
    if j > i then
      match s[j - 1]? with
      | none => .panic
      | some b => if isASCIISpace b then trimBack s i n (j - 1) else .ret j
    else .ret j

/-- text.go:4-21 `TrimString` (and 24-41 `TrimBytes`, the same code). -/
def goTrimString (s : Str) : Outcome Str :=
  (trimFront s s.length (s.length + 1) 0).bind fun i =>
    (trimBack s i (s.length + 1) s.length).bind fun j =>
      if i > 0 ∨ j ≠ s.length then
        if i ≤ j ∧ j ≤ s.length then .ret ((s.take j).drop i) else .panic
      else .ret s

/-- The value of `goTrimString` (it always returns: `goTrimString_ret`).  internal/text/text.go:4-21; the equal textproto.TrimString is called in fs.go:371, 423, 473, 906, 916. -/
def trimString (s : Str) : Str := rdropWhile isASCIISpace (s.dropWhile isASCIISpace)

end Verif
