import Verif.Model.Text
import Verif.Base.GoMap
/-
Model of the conditional request code: /repo/static/fs.go:367-613.

A fasthttp request is what the code reads of it: the method, the decoded path, the query string and the header lookup
(`Peek` of an absent header is empty). A response is its status, the headers set so far and the body written so far.
A `time.Time` is the number of nanoseconds since the Unix epoch (`time.Time` of year 1 is `goZeroTime`); `ParseTime`
(fs_utils.go:82-90, three `time.Parse` layouts) and `Format` are parameters.
-/
namespace Verif

/-- The parts of `fasthttp.RequestCtx.Request` that /repo/static reads. `path` is the path of the parsed URI, which
`URI.SetPath` replaces; `query` is the query string.  Read in fs.go:244, 354, 418, 448, 467, 497-500, 518-524, 594, 608, 622, 653, 729. -/
structure HttpReq where
  method : Str
  path : Str
  query : Str
  header : Str → Str

/-- The parts of `fasthttp.RequestCtx.Response` that /repo/static writes.  Written in fs.go:131-365, 559-578, 727-735 and fs_utils.go:66-71. -/
structure HttpResp where
  status : Nat
  headers : GoMap Str Str
  body : Str
  deriving DecidableEq, Repr

/-- A response before anything was written to it.  Written in fs.go:131-365, 559-578, 727-735 and fs_utils.go:66-71. -/
def HttpResp.fresh : HttpResp := ⟨200, [], []⟩

/-- `Response.Header.Peek`.  External: called in fs.go:348, 438, 488, 531, 574. -/
def HttpResp.peek (w : HttpResp) (k : Str) : Str := (GoMap.get? w.headers k).getD []

/-- `Response.Header.Set`.  External: called in fs.go:154, 258, 274, 306, 317, 347-349, 561, 733, fs_utils.go:67-68. -/
def HttpResp.set (w : HttpResp) (k v : Str) : HttpResp := { w with headers := GoMap.set w.headers k v }

/-- `Response.Header.Del`.  External: called in fs.go:571-575. -/
def HttpResp.del (w : HttpResp) (k : Str) : HttpResp := { w with headers := GoMap.erase w.headers k }

/-- `SetStatusCode`.  External: called in fs.go:353, 577, 589, 598, 734, fs_utils.go:69. -/
def HttpResp.code (w : HttpResp) (c : Nat) : HttpResp := { w with status := c }

/-- `WriteString` / `Write`.  External: called in fs.go:155, 168, 173, 359, fs_utils.go:70. -/
def HttpResp.write (w : HttpResp) (s : Str) : HttpResp := { w with body := w.body ++ s }

/-- Library behaviour that is not modelled further.  `format`: fs.go:561; `parse`: fs_utils.go:84. Model/Dates gives the functions themselves. -/
structure TimeLib where
  parse : Str → Option Int
  format : Int → Str

/-- `time.Time{}`: 1 January of year 1.  For `IsZero` in fs.go:539, 556. -/
def goZeroTime : Int := -62135596800000000000

/-- `time.Time.Truncate(time.Second)`: down to a whole second.  External: called in fs.go:459, 510. -/
def truncSecond (t : Int) : Int := t / 1000000000 * 1000000000

/-- `time.Time.Unix()`.  External: called in fs.go:546. -/
def unixSeconds (t : Int) : Int := t / 1000000000

/-- fs.go:555-557 `isZeroTime`. -/
def isZeroTime (t : Int) : Bool := t == goZeroTime || t == 0

/-- fs.go:385: the bytes allowed in an ETag. -/
def etagByte (c : UInt8) : Bool := c == 0x21 || (0x23 ≤ c && c ≤ 0x7E) || 0x80 ≤ c

/-- fs.go:381-392: the loop of `scanETag` from position `i`; the result is the position of the closing quote. -/
def scanLoop (s : Str) : Nat → Nat → Outcome (Option Nat)
  | 0, _ => .outOfFuel
  | fuel + 1, i =>
    if i < s.length then
      match s[i]? with
      | none => .panic
      | some c =>
        if etagByte c then scanLoop s fuel (i + 1)
        else if c = 34 then .ret (some i)
        else .ret none
    else .ret none

/-- fs.go:370-393 `scanETag`. -/
def scanETag (s : Str) : Outcome (Str × Str) :=
  let s := trimString s
  let start := if hasPrefix s b!"W/" then 2 else 0
  if (s.drop start).length < 2 then .ret ([], [])
  else
    match s[start]? with
    | none => .panic
    | some c =>
      if c ≠ 34 then .ret ([], [])
      else
        (scanLoop s (s.length + 1) (start + 1)).bind fun r =>
          match r with
          | some i => .ret (s.take (i + 1), s.drop (i + 1))
          | none => .ret ([], [])

/-- fs.go:397-399 `etagStrongMatch`. -/
def etagStrongMatch (a b : Str) : Bool := a == b && (match a with | [] => false | c :: _ => c == 34)

/-- fs.go:403-405 `etagWeakMatch`. -/
def etagWeakMatch (a b : Str) : Bool := trimPrefix a b!"W/" == trimPrefix b b!"W/"

/-- fs.go:409-415 `condResult`. -/
inductive CondResult where
  | none
  | true
  | false
  deriving DecidableEq, Repr

/-- fs.go:422-444 and 472-493: the loop over the list of entity tags of `checkIfMatch` and `checkIfNoneMatch`, which
differ only in the comparison and in what they return (`true` here: '*' or a matching tag was found). -/
def etagLoop (isMatch : Str → Bool) : Nat → Str → Outcome Bool
  | 0, _ => .outOfFuel
  | fuel + 1, im =>
    match trimString im with
    | [] => .ret Bool.false
    | c :: t =>
      if c = 44 then etagLoop isMatch fuel t
      else if c = 42 then .ret Bool.true
      else
        (scanETag (c :: t)).bind fun p =>
          if p.1 = [] then .ret Bool.false
          else if isMatch p.1 then .ret Bool.true
          else etagLoop isMatch fuel p.2

/-- fs.go:417-445 `checkIfMatch`. -/
def checkIfMatch (r : HttpReq) (w : HttpResp) : Outcome CondResult :=
  let im := r.header b!"If-Match"
  if im = [] then .ret .none
  else
    (etagLoop (fun e => etagStrongMatch e (w.peek b!"Etag")) (im.length + 1) im).bind fun b =>
      .ret (if b then .true else .false)

/-- fs.go:447-464 `checkIfUnmodifiedSince`. -/
def checkIfUnmodifiedSince (lib : TimeLib) (r : HttpReq) (modTime : Int) : CondResult :=
  let ius := r.header b!"If-Unmodified-Since"
  if ius = [] ∨ isZeroTime modTime then .none
  else
    match lib.parse ius with
    | .none => .none
    | some t =>
      let modTime := truncSecond modTime
      if modTime < t ∨ modTime = t then .true else .false

/-- fs.go:466-494 `checkIfNoneMatch`. -/
def checkIfNoneMatch (r : HttpReq) (w : HttpResp) : Outcome CondResult :=
  let inm := r.header b!"If-None-Match"
  if inm = [] then .ret .none
  else
    (etagLoop (fun e => etagWeakMatch e (w.peek b!"Etag")) (inm.length + 1) inm).bind fun b =>
      .ret (if b then .false else .true)

/-- fs.go:496-515 `checkIfModifiedSince`. -/
def checkIfModifiedSince (lib : TimeLib) (r : HttpReq) (modTime : Int) : CondResult :=
  if r.method ≠ b!"GET" ∧ r.method ≠ b!"HEAD" then .none
  else
    let ims := r.header b!"If-Modified-Since"
    if ims = [] ∨ isZeroTime modTime then .none
    else
      match lib.parse ims with
      | .none => .none
      | some t =>
        let modTime := truncSecond modTime
        if modTime < t ∨ modTime = t then .false else .true

/-- fs.go:517-550 `checkIfRange`. -/
def checkIfRange (lib : TimeLib) (r : HttpReq) (w : HttpResp) (modTime : Int) : Outcome CondResult :=
  if r.method = b!"GET" ∨ r.method = b!"HEAD" then
    let ir := r.header b!"If-Range"
    if ir = [] then .ret .none
    else
      (scanETag ir).bind fun p =>
        if p.1 ≠ [] then .ret (if etagStrongMatch p.1 (w.peek b!"Etag") then .true else .false)
        else if modTime = goZeroTime then .ret .false
        else
          match lib.parse ir with
          | .none => .ret .false
          | some t => .ret (if unixSeconds t = unixSeconds modTime then .true else .false)
  else .ret .none

/-- fs.go:559-563 `setLastModified`. -/
def setLastModified (lib : TimeLib) (w : HttpResp) (modTime : Int) : HttpResp :=
  if isZeroTime modTime then w else w.set b!"Last-Modified" (lib.format modTime)

/-- fs.go:565-578 `writeNotModified`. -/
def writeNotModified (w : HttpResp) : HttpResp :=
  let w := ((w.del b!"Content-Type").del b!"Content-Length").del b!"Content-Encoding"
  let w := if w.peek b!"Etag" ≠ [] then w.del b!"Last-Modified" else w
  w.code 304

/-- fs.go:608-612: the rest of `checkPreconditions` once the request was found to be answered normally. -/
def rangeHeader (lib : TimeLib) (r : HttpReq) (w : HttpResp) (modTime : Int) : Outcome (Option Str × HttpResp) :=
  let rng := r.header b!"Range"
  if rng ≠ [] then
    (checkIfRange lib r w modTime).bind fun c => .ret (some (if c = .false then [] else rng), w)
  else .ret (some rng, w)

/-- fs.go:592-612: what happens for each result of `checkIfNoneMatch`. -/
def noneResult (lib : TimeLib) (r : HttpReq) (w : HttpResp) (modTime : Int) : CondResult → Outcome (Option Str × HttpResp)
  | .false =>
    if r.method = b!"GET" ∨ r.method = b!"HEAD" then .ret (.none, writeNotModified w)
    else .ret (.none, w.code 412)
  | .none =>
    if checkIfModifiedSince lib r modTime = .false then .ret (.none, writeNotModified w)
    else rangeHeader lib r w modTime
  | .true => rangeHeader lib r w modTime

/-- fs.go:588-612: after If-Match and If-Unmodified-Since. -/
def checkNone (lib : TimeLib) (r : HttpReq) (w : HttpResp) (modTime : Int) : Outcome (Option Str × HttpResp) :=
  (checkIfNoneMatch r w).bind (noneResult lib r w modTime)

/-- fs.go:582-613 `checkPreconditions`: `none` is done = true, `some h` is done = false with the range header. -/
def checkPreconditions (lib : TimeLib) (r : HttpReq) (w : HttpResp) (modTime : Int) : Outcome (Option Str × HttpResp) :=
  (checkIfMatch r w).bind fun ch =>
    let ch := if ch = .none then checkIfUnmodifiedSince lib r modTime else ch
    if ch = .false then .ret (.none, w.code 412)
    else checkNone lib r w modTime

example : scanETag b!" W/\"a!\" , \"b\"" = .ret (b!"W/\"a!\"", b!" , \"b\"") := by decide +kernel
example : scanETag b!"\"a b\"" = .ret ([], []) := by decide +kernel

end Verif
