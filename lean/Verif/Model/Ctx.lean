import Verif.Base.Str
import Verif.Base.GoMap
import Verif.Base.FastPath
import Verif.Model.Tree
/-
Model of the request helpers of /repo/ctx.go and of /repo/params/params.go.  The handler flow control of
Context is in Model/Pipeline.lean.
-/
namespace Verif

/-! ### fasthttp.Args (external, v1.58.0) -/

/-- `Args.Peek`: the value of the first entry with the key; `none` is nil.  Called in ctx.go:179, 183, 187. -/
def argsPeek (a : Args) (key : Str) : Option Str := (a.find? fun e => e.1 = key).map (·.2)

/-- `Args.PeekMulti`: the values of all entries with the key, in order.  Called in ctx.go:191, 195, 199. -/
def argsPeekMulti (a : Args) (key : Str) : List Str := (a.filter fun e => e.1 = key).map (·.2)

/-- `len(b)` of a `[]byte` that may be nil.  As in ctx.go:179, 183. -/
def lenOpt (b : Option Str) : Nat :=
  match b with
  | none => 0
  | some s => s.length

/-! ### Parameters -/

/-- The three argument lists a Context reads: ctx.go:47 `urlIDs`, `fastCtx.QueryArgs()`, `fastCtx.PostArgs()`. -/
structure Sources where
  url : Args
  query : Args
  form : Args
  deriving DecidableEq, Repr

/-- ctx.go:178-188 `PeekParam`; `none` is a nil slice. -/
def peekParam (c : Sources) (key : Str) : Option Str :=
  if lenOpt (argsPeek c.url key) > 0 then argsPeek c.url key
  else if lenOpt (argsPeek c.query key) > 0 then argsPeek c.query key
  else argsPeek c.form key

/-- ctx.go:190-200 `PeekMultiParam`. -/
def peekMultiParam (c : Sources) (key : Str) : List Str :=
  if (argsPeekMulti c.url key).length > 0 then argsPeekMulti c.url key
  else if (argsPeekMulti c.query key).length > 0 then argsPeekMulti c.query key
  else argsPeekMulti c.form key

/-- ctx.go:202-210 `PeekMultiStringParam`: the loop appends each value (as a string). -/
def peekMultiStringParam (c : Sources) (key : Str) : List Str :=
  (peekMultiParam c key).foldl (fun out v => out ++ [v]) []

/-- ctx.go:212-214 `PeekStringParam`: `string(nil)` is "". -/
def peekStringParam (c : Sources) (key : Str) : Str := (peekParam c key).getD []

/-- ctx.go:216-223 `PeekBoolParam`; `u` is the non-ASCII part of strings.ToLower. -/
def peekBoolParam (u : Str → Str) (c : Sources) (key : Str) : Bool :=
  let s := toLower u (peekStringParam c key)
  if s = [] ∨ s = b!"0" ∨ s = b!"f" ∨ s = b!"false" then false else true

/-- The values SqueezeParams puts in its map: a `string` or a `[]string`.  ctx.go:233, 239, 241. -/
inductive Squeezed where
  | one (s : Str)
  | many (l : List Str)
  deriving DecidableEq, Repr

/-- ctx.go:228-243: the visitor. -/
def squeezeStep (out : GoMap Str Squeezed) (e : Str × Str) : GoMap Str Squeezed :=
  match out.get? e.1 with
  | none => out.set e.1 (.one e.2)
  | some (.one t) => out.set e.1 (.many [e.2, t])
  | some (.many t) => out.set e.1 (.many (t ++ [e.2]))

/-- ctx.go:225-246 `SqueezeParams`.  The slices are only reachable through the map being built, so `append` needs
no aliasing model. -/
def squeezeParams (c : Sources) : GoMap Str Squeezed := c.form.foldl squeezeStep []

/-! ### Context data and Clone -/

/-- What of a Context its own setters change: ctx.go:44 `sameSite`, 49 `data` (the address of the map), 51-55 flags,
57 `logger` and 61 `cancel` (nil or not). -/
structure CtxObj where
  sameSite : Nat
  data : Nat
  stopped : Bool
  aborted : Bool
  skipped : Bool
  hasLogger : Bool
  hasCancel : Bool
  deriving DecidableEq, Repr

/-- All contexts made so far, and all data maps; `ν` is `any`.  ctx.go:39-64; maps made in ctx.go:74 and 88. -/
structure CtxHeap (ν : Type) where
  ctxs : List CtxObj
  maps : List (GoMap Str ν)

/-- Calls on contexts; a context is named by its position in the order of creation.  ctx.go:66-100, 252-293. -/
inductive CtxOp (ν : Type) where
  | new
  | clone (i : Nat)
  | set (i : Nat) (key : Str) (v : ν)
  | setSameSite (i : Nat) (m : Nat)
  | stop (i : Nat)
  | abort (i : Nat)
  | skipMain (i : Nat)

/-- One call.  `panic` when a nil logger or cancel function is used; calls on contexts that do not exist cannot be
written in Go and are ignored.
ctx.go:66-85 NewContext, 87-100 Clone, 252-256 Set, 263-267 SetSameSite, 270-275 Stop, 278-283 SkipMain,
286-293 Abort.  Outcome and heap are returned separately: a panic keeps the writes made before it. -/
def ctxStep {ν : Type} (h : CtxHeap ν) : CtxOp ν → CtxHeap ν × Bool
  | .new => ({ ctxs := h.ctxs ++ [⟨0, h.maps.length, false, false, false, true, true⟩], maps := h.maps ++ [[]] }, true)
  | .clone i =>
    match h.ctxs[i]? with
    | none => (h, true)
    | some c =>
      let data := ((h.maps[c.data]?).getD []).foldl (fun d e => GoMap.set d e.1 e.2) []
      ({ ctxs := h.ctxs ++ [⟨c.sameSite, h.maps.length, false, false, false, false, false⟩],
         maps := h.maps ++ [data] }, true)
  | .set i k v =>
    match h.ctxs[i]? with
    | none => (h, true)
    | some c => ({ h with maps := h.maps.modify c.data fun m => GoMap.set m k v }, true)
  | .setSameSite i m => ({ h with ctxs := h.ctxs.modify i fun c => { c with sameSite := m } }, true)
  | .stop i =>
    match h.ctxs[i]? with
    | none => (h, true)
    | some c => ({ h with ctxs := h.ctxs.modify i fun c => { c with stopped := true } }, c.hasLogger)
  | .abort i =>
    match h.ctxs[i]? with
    | none => (h, true)
    | some c => ({ h with ctxs := h.ctxs.modify i fun c => { c with aborted := true } }, c.hasCancel && c.hasLogger)
  | .skipMain i =>
    match h.ctxs[i]? with
    | none => (h, true)
    | some c => ({ h with ctxs := h.ctxs.modify i fun c => { c with skipped := true } }, c.hasLogger)

/-- The state after a history of calls (a panic is recovered by the caller and execution goes on).  ctx.go:66-100, 252-293. -/
def ctxRun {ν : Type} (ops : List (CtxOp ν)) : CtxHeap ν := ops.foldl (fun h o => (ctxStep h o).1) ⟨[], []⟩

/-- ctx.go:258-260 `Get`; `none` is the zero value (nil). -/
def ctxGet {ν : Type} (h : CtxHeap ν) (i : Nat) (key : Str) : Option ν :=
  match h.ctxs[i]? with
  | none => none
  | some c => GoMap.get? ((h.maps[c.data]?).getD []) key

/-- ctx.go:295-297 `Aborted`. -/
def ctxAborted {ν : Type} (h : CtxHeap ν) (i : Nat) : Bool :=
  match h.ctxs[i]? with
  | none => false
  | some c => c.aborted

/-- ctx.go:55 `isSkippedMain`, as `HandlerSet.Run` reads it (top_handler.go:46). -/
def ctxSkipped {ν : Type} (h : CtxHeap ν) (i : Nat) : Bool :=
  match h.ctxs[i]? with
  | none => false
  | some c => c.skipped

/-- ctx.go:299-301 `Stopped`. -/
def ctxStopped {ν : Type} (h : CtxHeap ν) (i : Nat) : Bool :=
  match h.ctxs[i]? with
  | none => false
  | some c => c.aborted || c.stopped

/-! ### Cookies -/

/-- ctx.go:330-346 `validOptionalPort`. -/
def validOptionalPort (port : Str) : Bool :=
  match port with
  | [] => true
  | p :: t => if p ≠ 58 then false else t.all fun b => ! (b < 48 || b > 57)

/-- `s[lo:hi]` with Go's bounds check.  As in ctx.go:317-322. -/
def goSlice (s : Str) (lo hi : Nat) : Outcome Str :=
  if lo ≤ hi ∧ hi ≤ s.length then .ret ((s.take hi).drop lo) else .panic

/-- ctx.go:317-319: drop the port. -/
def stripPort (host : Str) : Outcome Str :=
  match lastIndexByte 58 host with
  | none => .ret host
  | some colon =>
    (goSlice host colon host.length).bind fun port =>
      if validOptionalPort port then goSlice host 0 colon else .ret host

/-- ctx.go:314-326 `splitHost`. -/
def splitHost (hostPort : Str) : Outcome Str :=
  (stripPort hostPort).bind fun host =>
    if hasPrefix host b!"[" ∧ hasSuffix host b!"]" then
      if host.length = 0 then .panic            -- len(host)-1 is negative
      else goSlice host 1 (host.length - 1)
    else .ret host

/-- The upper-case hexadecimal digit.  External: called in ctx.go:365. -/
def hexDigit (n : UInt8) : UInt8 := if n < 10 then n + 48 else n + 55

/-- net/url `shouldEscape(c, encodeQueryComponent)`.  External: called in ctx.go:365. -/
def shouldEscape (c : UInt8) : Bool :=
  ! ((97 ≤ c && c ≤ 122) || (65 ≤ c && c ≤ 90) || (48 ≤ c && c ≤ 57) || c == 45 || c == 95 || c == 46 || c == 126)

/-- net/url `QueryEscape` (standard library).  External: called in ctx.go:365. -/
def queryEscape : Str → Str
  | [] => []
  | c :: t =>
    if c = 32 then 43 :: queryEscape t
    else if shouldEscape c then 37 :: hexDigit (c / 16) :: hexDigit (c % 16) :: queryEscape t
    else c :: queryEscape t

/-- fasthttp `Cookie` (external): the attributes SetCookie sets.  Made in ctx.go:358-370. -/
structure Cookie where
  key : Str
  value : Str
  domain : Str
  path : Str
  maxAge : Int
  secure : Bool
  httpOnly : Bool
  sameSite : Nat
  deriving DecidableEq, Repr

/-- fasthttp `CookieSameSiteNoneMode` (external constant).  As a value of ctx.go:44, 367. -/
def sameSiteNone : Nat := 4

/-- ctx.go:349-375 `SetCookie`: the cookie put into the response.  fasthttp's `SetPath` normalises the path and
`SetSameSite(None)` sets Secure.  `AcquireCookie` returns a cookie with empty attributes. -/
def setCookie (host : Str) (sameSite : Nat) (name value : Str) (maxAge : Int) (path domain : Str)
    (secure httpOnly : Bool) : Outcome Cookie :=
  let path := if path = [] then b!"/" else path
  (if domain = [] then splitHost host else .ret domain).bind fun domain =>
    .ret { key := name, value := queryEscape value, domain := domain, path := normalizePath path, maxAge := maxAge,
           secure := secure || sameSite == sameSiteNone, httpOnly := httpOnly, sameSite := sameSite }

/-- ctx.go:29-37 `Cookies.Get` on a slice of `*http.Cookie` (`none` is nil: reading `.Name` panics).  A cookie is its
name and its other contents. -/
def cookiesGet {ν : Type} : List (Option (Str × ν)) → Str → Outcome (Option (Str × ν))
  | [], _ => .ret none                              -- `&http.Cookie{}`
  | none :: _, _ => .panic
  | some c :: t, name => if c.1 = name then .ret (some c) else cookiesGet t name

/-- params.go:11-18 `Params.Get`: the second component is `find`. -/
def paramsGet : List (Str × List Str) → Str → List Str × Bool
  | [], _ => ([], false)
  | e :: t, name => if e.1 = name then (e.2, true) else paramsGet t name

/-- params.go:20-26 `Params.ByName`; `va[0]` panics on an empty slice. -/
def paramsByName (p : List (Str × List Str)) (name : Str) : Outcome Str :=
  if (paramsGet p name).2 then
    match (paramsGet p name).1 with
    | [] => .panic
    | v :: _ => .ret v
  else .ret []

end Verif
