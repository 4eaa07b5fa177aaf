import Verif.Model.Dates
import Verif.Model.Logger
/-
Model of the time stamps of log records: /repo/logger/logger.go:25 `time.Now().Format(config.DefaultTimestampFormat)` with
/repo/logger/config/config.go:13, and the parts of package time it uses.  The zone of the server is its offset from UTC at that
moment, in seconds (east is positive).
-/
namespace Verif

/-- Without the zeros at the end.  External: behind logger.go:25 with the layout of config.go:13. -/
def trimZeros (s : Str) : Str := (s.reverse.dropWhile (· == 48)).reverse

/-- package time: `appendNano` for ".999": nothing for no nanoseconds; else a dot and three of the nine digits, without the zeros
at the end, and without the dot if nothing is left.  External: behind logger.go:25 with the layout of config.go:13. -/
def milliText (nanos : Nat) : Str :=
  if nanos = 0 then []
  else
    let d := trimZeros ((padNat 9 nanos).take 3)
    if d = [] then [] else 46 :: d

/-- `time.Now().Format("2006-01-02T15:04:05.999Z")` at `t` (nanoseconds since 1970, UTC), `off` seconds east of UTC: time.Now is in
the server's own zone, and "Z" alone is not an element of a layout, so it is copied. -/
def clockText (off t : Int) : Str :=
  let s := t / 1000000000 + off
  let c := civilOf (s / 86400)
  let r := (s % 86400).toNat
  appendInt c.year 4 ++ b!"-" ++ padNat 2 c.month ++ b!"-" ++ padNat 2 c.day ++ b!"T" ++ padNat 2 (r / 3600) ++ b!":" ++
    padNat 2 (r % 3600 / 60) ++ b!":" ++ padNat 2 (r % 60) ++ milliText (t % 1000000000).toNat ++ b!"Z"

example : clockText 0 784111777250000000 = b!"1994-11-06T08:49:37.25Z" := by decide +kernel
example : clockText 3600 784111777000000000 = b!"1994-11-06T09:49:37Z" := by decide +kernel
example : clockText (-36000) 784111777000999999 = b!"1994-11-05T22:49:37Z" := by decide +kernel

end Verif
