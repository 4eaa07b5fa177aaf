import Verif.Model.Text
/-
Model of the range code of /repo/static: fs.go:864-974 and fs_utils.go:55-60.
int64 arithmetic wraps around.
-/
namespace Verif

/-- An int64 result.  fs.go:865-867, 894, fs_utils.go:55. -/
def i64 (x : Int) : Int := (x + 9223372036854775808) % 18446744073709551616 - 9223372036854775808

/-- The digits of a number in base 10, most significant first (Go's strconv.ParseUint loop); `none` is a syntax error.  External: behind fs.go:928, 938, 955. -/
def parseDigits : Nat → Str → Option Nat
  | acc, [] => some acc
  | acc, c :: t => if 48 ≤ c ∧ c ≤ 57 then parseDigits (acc * 10 + (c.toNat - 48)) t else none

/-- Go's strconv.ParseUint without the range check: at least one digit.  External: behind fs.go:928, 938, 955. -/
def parseNat (s : Str) : Option Nat := if s = [] then none else parseDigits 0 s

/-- Go's strconv.ParseInt(s, 10, 64) (standard library; fs.go:928, 938, 955); `none` is an error. -/
def parseInt64 (s : Str) : Option Int :=
  match s with
  | [] => none
  | c :: t =>
    if c = 45 then
      match parseNat t with
      | none => none
      | some n => if n ≤ 9223372036854775808 then some (-(n : Int)) else none
    else
      match parseNat (if c = 43 then t else c :: t) with
      | none => none
      | some n => if n < 9223372036854775808 then some n else none

/-- fs.go:865-867 `httpRange`. -/
structure HttpRange where
  start : Int
  length : Int
  deriving DecidableEq, Repr

/-- fs.go:227 `errNoOverlap`, 886 `errInvalidRange` (and the equal error of line 940). -/
inductive RangeErr where
  | noOverlap
  | invalid
  deriving DecidableEq, Repr

deriving instance DecidableEq for Except

/-- What one round of the loop of `parseRange` does.  fs.go:905-966. -/
inductive Round where
  | skip                       -- `continue` at 908
  | past                       -- noOverlap = true, `continue` at 947
  | range (r : HttpRange)      -- append at 965
  | err                        -- `return nil, errInvalidRange`
  deriving DecidableEq, Repr

/-- fs.go:916-965: one round, given the text before and after the '-'. -/
def rangeParts (size : Int) (start stop : Str) : Round :=
  if start = [] then
    if stop = [] ∨ stop.head? = some 45 then .err
    else
      match parseInt64 stop with
      | none => .err
      | some i =>
        if i < 0 then .err
        else
          let i := if i > size then size else i
          let start := i64 (size - i)
          .range ⟨start, i64 (size - start)⟩
  else
    match parseInt64 start with
    | none => .err
    | some i =>
      if i < 0 then .err
      else if i ≥ size then .past
      else if stop = [] then .range ⟨i, i64 (size - i)⟩
      else
        match parseInt64 stop with
        | none => .err
        | some e =>
          if i > e then .err
          else
            let e := if e ≥ size then i64 (size - 1) else e
            .range ⟨i, i64 (i64 (e - i) + 1)⟩

/-- fs.go:906-965: one round. -/
def rangeRound (size : Int) (ra : Str) : Round :=
  let ra := trimString ra
  if ra = [] then .skip
  else
    match cutByte 45 ra with
    | none => .err
    | some (start, stop) => rangeParts size (trimString start) (trimString stop)

/-- fs.go:905-973: the loop, with `noOverlap` and the ranges so far. -/
def rangeLoop (size : Int) : List Str → Bool → List HttpRange → Except RangeErr (List HttpRange)
  | [], noOverlap, ranges => if noOverlap ∧ ranges.length = 0 then .error .noOverlap else .ok ranges
  | ra :: t, noOverlap, ranges =>
    match rangeRound size ra with
    | .skip => rangeLoop size t noOverlap ranges
    | .past => rangeLoop size t true ranges
    | .range r => rangeLoop size t noOverlap (ranges ++ [r])
    | .err => .error .invalid

/-- fs.go:894-974 `parseRange`. -/
def parseRange (s : Str) (size : Int) : Except RangeErr (List HttpRange) :=
  if s = [] then .ok []
  else if hasPrefix s b!"bytes=" = false then .error .invalid
  else rangeLoop size (splitByte 44 (s.drop 6)) false []

/-- fs_utils.go:55-60 `sumRangesSize`. -/
def sumRangesSize (rs : List HttpRange) : Int := rs.foldl (fun s r => i64 (s + r.length)) 0

/-- Go's strconv.FormatInt(n, 10) (standard library).  External: behind fs.go:274, 349, 872-874. -/
def formatDigits : Nat → Nat → Str
  | 0, _ => []
  | fuel + 1, n => if n < 10 then [UInt8.ofNat (48 + n)] else formatDigits fuel (n / 10) ++ [UInt8.ofNat (48 + n % 10)]

/-- The same for a number that is not negative.  External: behind fs.go:274, 349, 872-874. -/
def formatNat (n : Nat) : Str := formatDigits (n + 1) n

/-- Go's strconv.FormatInt(n, 10): fs.go:274, 349, 872-874. -/
def formatInt (n : Int) : Str := if n < 0 then 45 :: formatNat n.natAbs else formatNat n.natAbs

/-- fs.go:869-875 `contentRange`. -/
def contentRange (r : HttpRange) (size : Int) : Str :=
  b!"bytes " ++ formatInt r.start ++ b!"-" ++ formatInt (i64 (i64 (r.start + r.length) - 1)) ++ b!"/" ++ formatInt size

example : parseRange b!"bytes=0-4, 7-,-2" 10 = .ok [⟨0, 5⟩, ⟨7, 3⟩, ⟨8, 2⟩] := by decide +kernel
example : contentRange ⟨7, 3⟩ 10 = b!"bytes 7-9/10" := by decide +kernel

end Verif
