import Verif.Spec.Download
/-
A cache that holds a file and asks again and again whether it is still the same (RFC 7232, 3.3 and RFC 7234, 4.3).
-/
namespace Verif.Spec

/-- What the cache holds: nothing, or the bytes of an answer and its Last-Modified, empty if it had none. -/
inductive Held where
  | nothing
  | kept (date data : Str)

/-- What it sends as If-Modified-Since. -/
def Held.date : Held → Str
  | .nothing => []
  | .kept date _ => date

/-- What it asks: for the file, if it was modified since the date it was told, if it was told one. -/
def Held.Asks (c : Held) (r : HttpReq) : Prop :=
  r.method = b!"GET" ∧ r.header b!"If-Match" = [] ∧ r.header b!"If-Unmodified-Since" = [] ∧ r.header b!"If-None-Match" = [] ∧
    r.header b!"Range" = [] ∧ r.header b!"If-Modified-Since" = c.date

/-- What it holds after the answer `w`: a 200 replaces what it held; after a 304 it keeps the bytes, and may take the date of the answer. -/
inductive Held.Takes (w : HttpResp) : Held → Held → Prop
  | replace {c : Held} : w.status = 200 → Takes w c (.kept (w.peek b!"Last-Modified") w.body)
  | keep {date data : Str} : w.status = 304 → Takes w (.kept date data) (.kept date data)
  | refresh {date data : Str} : w.status = 304 → Takes w (.kept date data) (.kept (w.peek b!"Last-Modified") data)

/-- A cache before a server: the versions of the file at the times of its requests, and what it holds then.  Some answers do not arrive. -/
inductive Cached (serves : FileVersion → HttpReq → HttpResp → Prop) : List FileVersion → Held → Prop
  | start : Cached serves [] .nothing
  | lost {vs : List FileVersion} {c : Held} {v : FileVersion} : Cached serves vs c → Cached serves (vs ++ [v]) c
  | ask {vs : List FileVersion} {c c' : Held} {v : FileVersion} {r : HttpReq} {w : HttpResp} :
      Cached serves vs c → c.Asks r → serves v r w → c.Takes w c' → Cached serves (vs ++ [v]) c'

/-- If the modification times of both are known, a version with other bytes is from a later second. -/
def FileVersion.Before (v v' : FileVersion) : Prop :=
  KnownTime v.time → KnownTime v'.time → v.data = v'.data ∨ v.time / 10 ^ 9 < v'.time / 10 ^ 9

end Verif.Spec
