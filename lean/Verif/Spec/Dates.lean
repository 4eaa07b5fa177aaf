import Verif.Model.Dates
/-
Vocabulary for C114: the Gregorian calendar and the three forms of dates of RFC 7231 section 7.1.1.1.
-/
namespace Verif.Spec

/-- Every fourth year, but not every hundredth, but every four hundredth. -/
def Leap (y : Int) : Prop := 4 ∣ y ∧ (¬ 100 ∣ y ∨ 400 ∣ y)

instance (y : Int) : Decidable (Leap y) := by unfold Leap; infer_instance

/-- The days of a month (1 to 12). -/
def monthLength (y : Int) (m : Nat) : Nat :=
  if m = 2 then (if Leap y then 29 else 28) else if m = 4 ∨ m = 6 ∨ m = 9 ∨ m = 11 then 30 else 31

/-- A date that exists. -/
def GoodDate (c : Civil) : Prop := 1 ≤ c.month ∧ c.month ≤ 12 ∧ 1 ≤ c.day ∧ c.day ≤ monthLength c.year c.month

instance (c : Civil) : Decidable (GoodDate c) := by unfold GoodDate; infer_instance

/-- The day after. -/
def tomorrow (c : Civil) : Civil :=
  if c.day < monthLength c.year c.month then ⟨c.year, c.month, c.day + 1⟩
  else if c.month < 12 then ⟨c.year, c.month + 1, 1⟩
  else ⟨c.year + 1, 1, 1⟩

/-- `f n` is the date of the day `n` days after 1 January 1970 (before it, if `n` is negative). -/
def Calendar (f : Int → Civil) : Prop := f 0 = ⟨1970, 1, 1⟩ ∧ (∀ n, GoodDate (f n)) ∧ ∀ n, f (n + 1) = tomorrow (f n)

/-- The day of the week, 0 for Sunday: 1 January 1970 was a Thursday, and the days go round. -/
def Week (g : Int → Nat) : Prop := g 0 = 4 ∧ (∀ n, g n < 7) ∧ ∀ n, g (n + 1) = (g n + 1) % 7

def dayName : Nat → Str
  | 0 => b!"Sun" | 1 => b!"Mon" | 2 => b!"Tue" | 3 => b!"Wed" | 4 => b!"Thu" | 5 => b!"Fri" | _ => b!"Sat"

def fullDayName : Nat → Str
  | 0 => b!"Sunday" | 1 => b!"Monday" | 2 => b!"Tuesday" | 3 => b!"Wednesday" | 4 => b!"Thursday" | 5 => b!"Friday" | _ => b!"Saturday"

def monthName : Nat → Str
  | 1 => b!"Jan" | 2 => b!"Feb" | 3 => b!"Mar" | 4 => b!"Apr" | 5 => b!"May" | 6 => b!"Jun" | 7 => b!"Jul" | 8 => b!"Aug" | 9 => b!"Sep"
  | 10 => b!"Oct" | 11 => b!"Nov" | _ => b!"Dec"

/-- A decimal digit. -/
def digitByte (n : Nat) : UInt8 := UInt8.ofNat (48 + n % 10)

/-- Two digits, four digits. -/
def two (n : Nat) : Str := [digitByte (n / 10), digitByte n]
def four (n : Nat) : Str := [digitByte (n / 1000), digitByte (n / 100), digitByte (n / 10), digitByte n]

/-- Two places, the first blank if it would be 0 (asctime). -/
def blankTwo (n : Nat) : Str := if n < 10 then [32, digitByte n] else two n

/-- A second of the calendar: the date, the day of the week, and the time of day. -/
structure Stamp where
  date : Civil
  weekday : Nat
  hour : Nat
  minute : Nat
  second : Nat

/-- The second `s` (since the beginning of 1970). -/
def stampOf (f : Int → Civil) (g : Int → Nat) (s : Int) : Stamp :=
  ⟨f (s / 86400), g (s / 86400), (s % 86400).toNat / 3600, (s % 86400).toNat % 3600 / 60, (s % 86400).toNat % 60⟩

/-- "Sun, 06 Nov 1994 08:49:37 GMT" -/
def imfDate (x : Stamp) : Str :=
  dayName x.weekday ++ b!", " ++ two x.date.day ++ b!" " ++ monthName x.date.month ++ b!" " ++ four x.date.year.toNat ++ b!" " ++
    two x.hour ++ b!":" ++ two x.minute ++ b!":" ++ two x.second ++ b!" GMT"

/-- "Sunday, 06-Nov-94 08:49:37 GMT" -/
def rfc850Date (x : Stamp) : Str :=
  fullDayName x.weekday ++ b!", " ++ two x.date.day ++ b!"-" ++ monthName x.date.month ++ b!"-" ++ two (x.date.year.toNat % 100) ++ b!" " ++
    two x.hour ++ b!":" ++ two x.minute ++ b!":" ++ two x.second ++ b!" GMT"

/-- "Sun Nov  6 08:49:37 1994" -/
def asctimeDate (x : Stamp) : Str :=
  dayName x.weekday ++ b!" " ++ monthName x.date.month ++ b!" " ++ blankTwo x.date.day ++ b!" " ++
    two x.hour ++ b!":" ++ two x.minute ++ b!":" ++ two x.second ++ b!" " ++ four x.date.year.toNat

end Verif.Spec
