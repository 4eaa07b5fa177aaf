import Verif.Spec.Dates
import Verif.Spec.Range
/-
The texts that are understood as dates (C114): the three forms of RFC 7231 with what Go's package time lets pass.
-/
namespace Verif.Spec

/-- The same byte, or the same letter in the other case. -/
def SameLetter (a b : UInt8) : Prop := a = b ∨ (65 ≤ a ∧ a ≤ 90 ∧ b = a + 32) ∨ (65 ≤ b ∧ b ≤ 90 ∧ a = b + 32)

/-- The same name, without regard to case. -/
inductive SameName : Str → Str → Prop
  | nil : SameName [] []
  | cons {a b : UInt8} {s t : Str} (h : SameLetter a b) (ht : SameName s t) : SameName (a :: s) (b :: t)

/-- One or more blanks. -/
def Blanks (s : Str) : Prop := ∃ k, s = List.replicate (k + 1) 32

/-- A number in one or two digits. -/
def OneTwo (s : Str) (n : Nat) : Prop := (n < 100 ∧ s = two n) ∨ (n < 10 ∧ s = [digitByte n])

/-- A fraction of a second: nothing, or a dot or comma and digits, of which nine count; its value in nanoseconds. -/
inductive Fraction : Str → Nat → Prop
  | none : Fraction [] 0
  | digits {c : UInt8} {d : Str} (hc : c = 46 ∨ c = 44) (hd : Digits d) :
      Fraction (c :: d) (decVal (d.take 9) * 10 ^ (9 - (d.take 9).length))

/-- A time of day: hour, minute, second, nanosecond. -/
inductive ClockText : Str → Nat → Nat → Nat → Nat → Prop
  | mk {hs fs : Str} {h m s ns : Nat} (hh : OneTwo hs h) (h1 : h < 24) (h2 : m < 60) (h3 : s < 60) (hf : Fraction fs ns) :
      ClockText (hs ++ b!":" ++ two m ++ b!":" ++ two s ++ fs) h m s ns

/-- A year in two places: 1969 to 2068, or a sign and a digit. -/
inductive ShortYear : Str → Int → Prop
  | digits {n : Nat} (h : n < 100) : ShortYear (two n) (if n ≥ 69 then 1900 + n else 2000 + n)
  | plus {n : Nat} (h : n < 10) : ShortYear [43, digitByte n] (2000 + n)
  | minus {n : Nat} (h : n < 10) : ShortYear [45, digitByte n] (2000 - n)

def Capital (c : UInt8) : Prop := 65 ≤ c ∧ c ≤ 90

/-- A sign and digits, at most 23. -/
def SmallOffset (s : Str) : Prop := ∃ c d, s = c :: d ∧ (c = 43 ∨ c = 45) ∧ Digits d ∧ decVal d ≤ 23

/-- The names of time zones. -/
inductive ZoneText : Str → Prop
  | three {s : Str} (hl : s.length = 3) (h : ∀ c ∈ s, Capital c) : ZoneText s
  | four {s : Str} (hl : s.length = 4) (h : ∀ c ∈ s, Capital c) (he : s.getLast? = some 84 ∨ s = b!"WITA")
      (hn : s.take 3 ≠ b!"GMT" ∧ s.take 3 ≠ b!"UTC") : ZoneText s
  | five {s : Str} (hl : s.length = 5) (h : ∀ c ∈ s, Capital c) (he : s.getLast? = some 84)
      (hn : s.take 3 ≠ b!"GMT" ∧ s.take 3 ≠ b!"UTC") : ZoneText s
  | mixed {s : Str} (h : s = b!"ChST" ∨ s = b!"MeST") : ZoneText s
  | gmt {s : Str} (h : SmallOffset s) : ZoneText (b!"GMT" ++ s)
  | offset {s : Str} (h : SmallOffset s) (hl : 3 ≤ s.length) : ZoneText s

/-- A text with a date: the date, hour, minute, second, nanosecond, and the name of the zone ("UTC" where the form has none).
The name of the day is not compared with the date. -/
inductive DateText : Str → Civil → Nat → Nat → Nat → Nat → Str → Prop
  | imf {w d mo y h m s ns : Nat} {wd mn cl b1 b2 b3 b4 b5 : Str} (hw : w < 7) (hwd : SameName wd (dayName w)) (hmn : SameName mn (monthName mo))
      (h1 : Blanks b1) (h2 : Blanks b2) (h3 : Blanks b3) (h4 : Blanks b4) (h5 : Blanks b5) (hy : y < 10000)
      (hg : GoodDate ⟨y, mo, d⟩) (hc : ClockText cl h m s ns) :
      DateText (wd ++ b!"," ++ b1 ++ two d ++ b2 ++ mn ++ b3 ++ four y ++ b4 ++ cl ++ b5 ++ b!"GMT") ⟨y, mo, d⟩ h m s ns b!"UTC"
  | rfc850 {w d mo h m s ns : Nat} {y : Int} {wd mn yr cl z b1 b2 b3 : Str} (hw : w < 7) (hwd : SameName wd (fullDayName w))
      (hmn : SameName mn (monthName mo)) (h1 : Blanks b1) (h2 : Blanks b2) (h3 : Blanks b3) (hy : ShortYear yr y)
      (hg : GoodDate ⟨y, mo, d⟩) (hc : ClockText cl h m s ns) (hz : ZoneText z) :
      DateText (wd ++ b!"," ++ b1 ++ two d ++ b!"-" ++ mn ++ b!"-" ++ yr ++ b2 ++ cl ++ b3 ++ z) ⟨y, mo, d⟩ h m s ns z
  | asctime {w d mo y h m s ns : Nat} {wd mn ds cl b1 b2 b3 b4 : Str} (hw : w < 7) (hwd : SameName wd (dayName w))
      (hmn : SameName mn (monthName mo)) (h1 : Blanks b1) (h2 : Blanks b2) (h3 : Blanks b3) (h4 : Blanks b4) (hy : y < 10000)
      (hd : OneTwo ds d) (hg : GoodDate ⟨y, mo, d⟩) (hc : ClockText cl h m s ns) :
      DateText (wd ++ b1 ++ mn ++ b2 ++ ds ++ b3 ++ cl ++ b4 ++ four y) ⟨y, mo, d⟩ h m s ns b!"UTC"

/-- How far a zone is from UTC, for a server: nothing for "UTC", and what the server's own time zone says for the other names
(nothing for those it does not have). -/
def zoneShift (local_ : Str → Int → Option Int) (zone : Str) (s : Int) : Int := if zone = b!"UTC" then 0 else (local_ zone s).getD 0

end Verif.Spec
