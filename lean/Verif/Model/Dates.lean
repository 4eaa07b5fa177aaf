import Verif.Model.Cond
import Verif.Model.Range
/-
Model of the dates in headers: /repo/static/fs_utils.go (TimeFormat, ParseTime) and the parts of Go's package time
(go1.23) that it and fs.go:561 use: Time.Format, Parse, Date and the calendar computation behind them.

Times are nanoseconds since 1 January 1970 UTC, as in Model/Cond.  Go keeps seconds in a 64 bit integer with an
offset; dates so far from now that this overflows are not described.
-/
namespace Verif

/-! ### The calendar (package time: absDate, Date) -/

/-- A day of the calendar; months count from 1.  External: behind `Format` in fs.go:561 and logger.go:25. -/
structure Civil where
  year : Int
  month : Nat
  day : Nat
  deriving DecidableEq, Repr

/-- package time: `isLeap`.  External: behind `Format` in fs.go:561 and logger.go:25. -/
def isLeapYear (y : Int) : Bool := y % 4 == 0 && (y % 100 != 0 || y % 400 == 0)

/-- package time: `daysBefore`, the days of a common year before month `m + 1`.  External: behind `Format` in fs.go:561 and logger.go:25. -/
def daysBefore : Nat → Nat
  | 0 => 0 | 1 => 31 | 2 => 59 | 3 => 90 | 4 => 120 | 5 => 151 | 6 => 181 | 7 => 212 | 8 => 243 | 9 => 273 | 10 => 304 | 11 => 334
  | _ => 365

/-- package time: `daysIn`.  External: behind `Format` in fs.go:561 and logger.go:25. -/
def daysInMonth (m : Nat) (y : Int) : Nat :=
  if m = 2 ∧ isLeapYear y = true then 29 else daysBefore m - daysBefore (m - 1)

/-- package time: `absDate`, the second half: month and day from the day of the year (from 0).  External: behind `Format` in fs.go:561 and logger.go:25. -/
def monthDay (leap : Bool) (yday : Nat) : Nat × Nat :=
  if leap = true ∧ yday = 59 then (2, 29)
  else
    let day := if leap = true ∧ yday > 59 then yday - 1 else yday
    let month := day / 31
    let stop := daysBefore (month + 1)
    if day ≥ stop then (month + 2, day - stop + 1) else (month + 1, day - daysBefore month + 1)

/-- package time: `absDate`, the first half: the year and the day of the year.  `d` counts from 1 January of the year 1; Go
starts 400-year cycles earlier, which changes nothing.  External: behind `Format` in fs.go:561 and logger.go:25. -/
def yearDay (d : Int) : Int × Nat :=
  let n4 := d / 146097
  let d := d - 146097 * n4
  let n1 := d / 36524
  let n1 := n1 - n1 / 4
  let d := d - 36524 * n1
  let n := d / 1461
  let d := d - 1461 * n
  let m := d / 365
  let m := m - m / 4
  let d := d - 365 * m
  (400 * n4 + 100 * n1 + 4 * n + m + 1, d.toNat)

/-- The date of a day, counted from 1 January 1970.  External: behind `Format` in fs.go:561 and logger.go:25. -/
def civilOf (n : Int) : Civil :=
  let y := yearDay (n + 719162)
  let m := monthDay (isLeapYear y.1) y.2
  ⟨y.1, m.1, m.2⟩

/-- package time: `Date` for a valid date: days since 1 January 1970 (`daysSinceEpoch` and the month table).  External: behind `time.Parse` in fs_utils.go:84. -/
def dayNumber (c : Civil) : Int :=
  let y := c.year - 1
  365 * y + y / 4 - y / 100 + y / 400 + daysBefore (c.month - 1) + (if isLeapYear c.year = true ∧ c.month ≥ 3 then 1 else 0) + c.day - 1 - 719162

/-- package time: `absWeekday`: 0 is Sunday.  External: behind `Format` in fs.go:561 and logger.go:25. -/
def weekdayOf (n : Int) : Nat := ((n + 4) % 7).toNat

/-! ### Writing (package time: appendFormat) -/

/-- External: behind `Format` in fs.go:561 and logger.go:25. -/
def shortDayNames : List Str := [b!"Sun", b!"Mon", b!"Tue", b!"Wed", b!"Thu", b!"Fri", b!"Sat"]
/-- External: behind `Format` in fs.go:561 and logger.go:25. -/
def longDayNames : List Str := [b!"Sunday", b!"Monday", b!"Tuesday", b!"Wednesday", b!"Thursday", b!"Friday", b!"Saturday"]
/-- External: behind `Format` in fs.go:561 and logger.go:25. -/
def shortMonthNames : List Str :=
  [b!"Jan", b!"Feb", b!"Mar", b!"Apr", b!"May", b!"Jun", b!"Jul", b!"Aug", b!"Sep", b!"Oct", b!"Nov", b!"Dec"]

/-- The decimal digits of `n`, at least `width` of them.  External: behind `Format` in fs.go:561 and logger.go:25. -/
def padNat (width n : Nat) : Str := List.replicate (width - (formatNat n).length) 48 ++ formatNat n

/-- package time: `appendInt(b, x, width)`.  External: behind `Format` in fs.go:561 and logger.go:25. -/
def appendInt (x : Int) (width : Nat) : Str := if x < 0 then 45 :: padNat width x.natAbs else padNat width x.natAbs

/-- fs.go:561 `modTime.UTC().Format(TimeFormat)` with fs_utils.go:18 TimeFormat = "Mon, 02 Jan 2006 15:04:05 GMT". -/
def formatHTTP (t : Int) : Str :=
  let s := t / 1000000000
  let n := s / 86400
  let c := civilOf n
  let r := (s % 86400).toNat
  (shortDayNames[weekdayOf n]?).getD [] ++ b!", " ++ padNat 2 c.day ++ b!" " ++ (shortMonthNames[c.month - 1]?).getD [] ++ b!" " ++
    appendInt c.year 4 ++ b!" " ++ padNat 2 (r / 3600) ++ b!":" ++ padNat 2 (r % 3600 / 60) ++ b!":" ++ padNat 2 (r % 60) ++ b!" GMT"

/-! ### Reading (package time: parse) -/

/-- The elements of the three layouts.  The layouts of fs_utils.go:18, 73-77. -/
inductive Std where
  | weekDay | longWeekDay | zeroDay | underDay | month | longYear | year | hour | zeroMinute | zeroSecond | tz
  deriving DecidableEq, Repr

/-- A layout as cut up by `nextStdChunk`: elements with the literal text before each, and the text at the end.  The layouts of fs_utils.go:18, 73-77. -/
structure Layout where
  chunks : List (Str × Std)
  tail : Str

/-- fs_utils.go:18 `TimeFormat` "Mon, 02 Jan 2006 15:04:05 GMT". -/
def layoutHTTP : Layout :=
  ⟨[([], .weekDay), (b!", ", .zeroDay), (b!" ", .month), (b!" ", .longYear), (b!" ", .hour), (b!":", .zeroMinute), (b!":", .zeroSecond)], b!" GMT"⟩

/-- package time: `RFC850` "Monday, 02-Jan-06 15:04:05 MST". -/
def layout850 : Layout :=
  ⟨[([], .longWeekDay), (b!", ", .zeroDay), (b!"-", .month), (b!"-", .year), (b!" ", .hour), (b!":", .zeroMinute), (b!":", .zeroSecond),
    (b!" ", .tz)], []⟩

/-- package time: `ANSIC` "Mon Jan _2 15:04:05 2006". -/
def layoutANSIC : Layout :=
  ⟨[([], .weekDay), (b!" ", .month), (b!" ", .underDay), (b!" ", .hour), (b!":", .zeroMinute), (b!":", .zeroSecond), (b!" ", .longYear)], []⟩

/-- package time: `cutspace`.  External: behind `time.Parse` in fs_utils.go:84. -/
def cutSpace (s : Str) : Str := s.dropWhile (· == 32)

/-- package time: `skip(value, prefix)`.  External: behind `time.Parse` in fs_utils.go:84. -/
def skipText : Str → Str → Option Str
  | value, [] => some value
  | value, p :: pre =>
    if p = 32 then
      match value with
      | [] => skipText [] pre
      | v :: t => if v ≠ 32 then none else skipText (cutSpace (v :: t)) pre
    else
      match value with
      | [] => none
      | v :: t => if v ≠ p then none else skipText t pre

/-- package time: `isDigit(s, i)`.  External: behind `time.Parse` in fs_utils.go:84. -/
def digitAt (s : Str) (i : Nat) : Bool :=
  match s[i]? with
  | none => false
  | some c => 48 ≤ c && c ≤ 57

/-- package time: `getnum(s, fixed)`.  External: behind `time.Parse` in fs_utils.go:84. -/
def getNum (s : Str) (fixed : Bool) : Option (Nat × Str) :=
  match s with
  | [] => none
  | a :: t =>
    if digitAt s 0 = false then none
    else if digitAt s 1 = false then (if fixed then none else some (a.toNat - 48, t))
    else
      match t with
      | [] => none
      | b :: u => some ((a.toNat - 48) * 10 + (b.toNat - 48), u)

/-- package time: `match`, for texts of the same length.  External: behind `time.Parse` in fs_utils.go:84. -/
def foldMatch : Str → Str → Bool
  | a :: s, b :: t => (a == b || (a ||| 32 == b ||| 32 && 97 ≤ (a ||| 32) && (a ||| 32) ≤ 122)) && foldMatch s t
  | _, _ => true

/-- package time: `lookup(tab, val)`; positions count from `i`.  External: behind `time.Parse` in fs_utils.go:84. -/
def lookupName (i : Nat) (tab : List Str) (val : Str) : Option (Nat × Str) :=
  match tab with
  | [] => none
  | v :: t =>
    if v.length ≤ val.length ∧ foldMatch (val.take v.length) v = true then some (i, val.drop v.length) else lookupName (i + 1) t val

/-- package time: `leadingInt` for numbers that do not overflow: the value of the leading digits and the rest.  External: behind `time.Parse` in fs_utils.go:84. -/
def leadingInt (acc : Nat) : Str → Nat × Str
  | [] => (acc, [])
  | c :: t => if 48 ≤ c ∧ c ≤ 57 then leadingInt (acc * 10 + (c.toNat - 48)) t else (acc, c :: t)

/-- package time: `atoi`.  External: behind `time.Parse` in fs_utils.go:84. -/
def atoiText (s : Str) : Option Int :=
  match s with
  | [] => some 0
  | c :: t =>
    let neg := c == 45
    let q := leadingInt 0 (if c = 45 ∨ c = 43 then t else s)
    if q.2 ≠ [] then none else some (if neg then - (q.1 : Int) else q.1)

/-- package time: `parseSignedOffset`.  External: behind `time.Parse` in fs_utils.go:84. -/
def signedOffset (value : Str) : Nat :=
  match value with
  | [] => 0
  | c :: t =>
    if c ≠ 45 ∧ c ≠ 43 then 0
    else
      let q := leadingInt 0 t
      if q.2 = t then 0 else if q.1 > 23 then 0 else value.length - q.2.length

/-- package time: the number of upper case letters at the start, at most 6 (`parseTimeZone`).  External: behind `time.Parse` in fs_utils.go:84. -/
def upperCount (s : Str) : Nat := ((s.take 6).takeWhile fun c => 65 ≤ c && c ≤ 90).length

/-- package time: `parseTimeZone`: the length of the zone's name.  External: behind `time.Parse` in fs_utils.go:84. -/
def zoneLength (value : Str) : Option Nat :=
  if value.length < 3 then none
  else if value.length ≥ 4 ∧ (value.take 4 = b!"ChST" ∨ value.take 4 = b!"MeST") then some 4
  else if value.take 3 = b!"GMT" then some (3 + signedOffset (value.drop 3))
  else if value.head? = some 43 ∨ value.head? = some 45 then (if signedOffset value > 0 then some (signedOffset value) else none)
  else
    match upperCount value with
    | 5 => if value[4]? = some 84 then some 5 else none
    | 4 => if value[3]? = some 84 ∨ value.take 4 = b!"WITA" then some 4 else none
    | 3 => some 3
    | _ => none

/-- What has been read so far; -1 and `none` are not yet set.  `zone` is the zone's name, "UTC" is recognised at once.  External: behind `time.Parse` in fs_utils.go:84. -/
structure DateFields where
  year : Int := 0
  month : Int := -1
  day : Int := -1
  hour : Nat := 0
  min : Nat := 0
  sec : Nat := 0
  nsec : Nat := 0
  zone : Str := []

/-- package time: `parseNanoseconds(value, n)` for a `value` that begins with ',' or '.' and `n - 1` digits.  External: behind `time.Parse` in fs_utils.go:84. -/
def fraction (value : Str) (n : Nat) : Nat :=
  let n := if n > 10 then 10 else n
  (leadingInt 0 ((value.take n).drop 1)).1 * 10 ^ (10 - n)

/-- package time: `parse`, one element.  External: behind `time.Parse` in fs_utils.go:84. -/
def readStd (std : Std) (value : Str) (f : DateFields) : Option (Str × DateFields) :=
  match std with
  | .year =>
    if value.length < 2 then none
    else (atoiText (value.take 2)).bind fun y => some (value.drop 2, { f with year := if y ≥ 69 then y + 1900 else y + 2000 })
  | .longYear =>
    if value.length < 4 ∨ digitAt value 0 = false then none
    else (atoiText (value.take 4)).bind fun y => some (value.drop 4, { f with year := y })
  | .month => (lookupName 0 shortMonthNames value).bind fun r => some (r.2, { f with month := r.1 + 1 })
  | .weekDay => (lookupName 0 shortDayNames value).bind fun r => some (r.2, f)
  | .longWeekDay => (lookupName 0 longDayNames value).bind fun r => some (r.2, f)
  | .zeroDay => (getNum value true).bind fun r => some (r.2, { f with day := r.1 })
  | .underDay =>
    (getNum (if value.head? = some 32 then value.drop 1 else value) false).bind fun r => some (r.2, { f with day := r.1 })
  | .hour => (getNum value false).bind fun r => if r.1 ≥ 24 then none else some (r.2, { f with hour := r.1 })
  | .zeroMinute => (getNum value true).bind fun r => if r.1 ≥ 60 then none else some (r.2, { f with min := r.1 })
  | .zeroSecond =>
    (getNum value true).bind fun r =>
      if r.1 ≥ 60 then none
      else
        let v := r.2
        if v.length ≥ 2 ∧ (v.head? = some 46 ∨ v.head? = some 44) ∧ digitAt v 1 = true then
          let n := 1 + ((v.drop 1).takeWhile fun c => 48 ≤ c && c ≤ 57).length
          some (v.drop n, { f with sec := r.1, nsec := fraction v n })
        else some (v, { f with sec := r.1 })
  | .tz =>
    if value.take 3 = b!"UTC" then some (value.drop 3, f)
    else (zoneLength value).bind fun n => some (value.drop n, { f with zone := value.take n })

/-- package time: `parse`, the loop over the layout.  External: behind `time.Parse` in fs_utils.go:84. -/
def readChunks : List (Str × Std) → Str → Str → DateFields → Option DateFields
  | [], tail, value, f =>
    match skipText value tail with
    | some [] => some f
    | _ => none
  | (pre, std) :: t, tail, value, f =>
    (skipText value pre).bind fun value => (readStd std value f).bind fun r => readChunks t tail r.1 r.2

/-- package time: `parse`, after the loop: the checks of the day and `Date`.  `local_` is `Local.lookupName`: the offset of
a named zone in the server's own time zone.  External: behind `time.Parse` in fs_utils.go:84. -/
def finishDate (local_ : Str → Int → Option Int) (f : DateFields) : Option Int :=
  let month : Nat := if f.month < 0 then 1 else f.month.toNat
  let day : Int := if f.day < 0 then 1 else f.day
  if day < 1 ∨ day > daysInMonth month f.year then none
  else
    let s := dayNumber ⟨f.year, month, day.toNat⟩ * 86400 + f.hour * 3600 + f.min * 60 + f.sec
    let s := if f.zone = [] then s else match local_ f.zone s with
      | some off => s - off
      | none => s
    some (s * 1000000000 + f.nsec)

/-- package time: `Parse(layout, value)`.  External: behind `time.Parse` in fs_utils.go:84. -/
def timeParse (local_ : Str → Int → Option Int) (l : Layout) (value : Str) : Option Int :=
  (readChunks l.chunks l.tail value {}).bind (finishDate local_)

/-- fs_utils.go:82-90 `ParseTime`. -/
def parseTime (local_ : Str → Int → Option Int) (text : Str) : Option Int :=
  match timeParse local_ layoutHTTP text with
  | some t => some t
  | none =>
    match timeParse local_ layout850 text with
    | some t => some t
    | none => timeParse local_ layoutANSIC text

/-- The date functions the static handlers use.  fs.go:561, fs_utils.go:82-90. -/
def goTime (local_ : Str → Int → Option Int) : TimeLib := ⟨parseTime local_, formatHTTP⟩

example : formatHTTP 784111777000000000 = b!"Sun, 06 Nov 1994 08:49:37 GMT" := by decide +kernel
example : parseTime (fun _ _ => none) b!"Sun, 06 Nov 1994 08:49:37 GMT" = some 784111777000000000 := by decide +kernel
example : parseTime (fun _ _ => none) b!"Sunday, 06-Nov-94 08:49:37 GMT" = some 784111777000000000 := by decide +kernel
example : parseTime (fun _ _ => none) b!"Sun Nov  6 08:49:37 1994" = some 784111777000000000 := by decide +kernel
example : parseTime (fun _ _ => none) b!"mon, 06 nov 1994 8:49:37.25 GMT" = some 784111777250000000 := by decide +kernel
example : parseTime (fun _ _ => none) b!"Sun, 31 Feb 1994 08:49:37 GMT" = none := by decide +kernel

end Verif
