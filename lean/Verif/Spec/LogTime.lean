import Verif.Spec.Dates
import Verif.Spec.Range
import Verif.Spec.Logger
import Verif.Model.LogTime
/-
Vocabulary for C115: times in the form of RFC 3339, in UTC.
-/
namespace Verif.Spec

/-- A fraction of a second: nothing, or a dot and at most three digits; `ms` is its value in milliseconds. -/
def Millis (frac : Str) (ms : Nat) : Prop :=
  (frac = [] ∧ ms = 0) ∨ ∃ d, frac = 46 :: d ∧ Digits d ∧ d.length ≤ 3 ∧ decVal d * 10 ^ (3 - d.length) = ms

/-- "1994-11-06T08:49:37" ++ frac ++ "Z" -/
def rfc3339 (x : Stamp) (frac : Str) : Str :=
  four x.date.year.toNat ++ b!"-" ++ two x.date.month ++ b!"-" ++ two x.date.day ++ b!"T" ++ two x.hour ++ b!":" ++ two x.minute ++ b!":" ++
    two x.second ++ frac ++ b!"Z"

/-- Read as RFC 3339, the text says: `ms` milliseconds after the second `s` (since 1970, UTC), in the years 0 to 9999. -/
def Says (text : Str) (s : Int) (ms : Nat) : Prop :=
  ∃ f g frac, Calendar f ∧ Week g ∧ 0 ≤ (f (s / 86400)).year ∧ (f (s / 86400)).year ≤ 9999 ∧ Millis frac ms ∧
    text = rfc3339 (stampOf f g s) frac

/-- Calls that leave the time stamp of logger `l` alone: calls on other loggers and on configurations, and on `l` all but SetConfig, StdKeys and
those that name the field. -/
def LeavesStamp {ν : Type} (l : Nat) : LogOp ν → Prop
  | .setConfig k _ | .stdKeys k _ _ => k ≠ l
  | .add k key _ | .addDebug k key _ => k = l → key ≠ b!"@timestamp"
  | .merge k m => k = l → ∀ e ∈ m, e.1 ≠ b!"@timestamp"
  | _ => True

end Verif.Spec
