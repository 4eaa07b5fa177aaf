import Verif.Model.Ctx
import Verif.Model.Range
/-
The Set-Cookie lines of a response: ctx.go:349-375 together with fasthttp v1.58.0 `Cookie.AppendBytes`,
`ResponseHeader.SetCookie` and `appendHeaderLine` (external code, trusted reading).
-/
namespace Verif

/-- fasthttp `appendCookiePart`.  External: behind ctx.go:370. -/
def cookiePart (key value : Str) : Str := b!"; " ++ key ++ b!"=" ++ value

/-- fasthttp `Cookie.AppendBytes`: Max-Age is written for positive values only (no expiry time is ever set by ctx.go). -/
def Cookie.line (c : Cookie) : Str :=
  (if c.key ≠ [] then c.key ++ b!"=" else []) ++ c.value ++
  (if c.maxAge > 0 then cookiePart b!"max-age" (formatNat c.maxAge.toNat) else []) ++
  (if c.domain ≠ [] then cookiePart b!"domain" c.domain else []) ++
  (if c.path ≠ [] then cookiePart b!"path" c.path else []) ++
  (if c.httpOnly then b!"; HttpOnly" else []) ++
  (if c.secure then b!"; secure" else []) ++
  (match c.sameSite with
   | 1 => b!"; SameSite"
   | 2 => cookiePart b!"SameSite" b!"Lax"
   | 3 => cookiePart b!"SameSite" b!"Strict"
   | 4 => cookiePart b!"SameSite" b!"None"
   | _ => [])

/-- fasthttp `setArg`: the entry with this key is replaced, otherwise one is appended.  External: behind ctx.go:370. -/
def setArg : List (Str × Str) → Str → Str → List (Str × Str)
  | [], k, v => [(k, v)]
  | e :: t, k, v => if e.1 = k then (k, v) :: t else e :: setArg t k v

/-- fasthttp `ResponseHeader.SetCookie` (ctx.go:370). -/
def headerSetCookie (cookies : List (Str × Str)) (c : Cookie) : List (Str × Str) := setArg cookies c.key c.line

/-- The arguments of one call of SetCookie, and the context's SameSite mode at that time (ctx.go:263-267). -/
structure CookieCall where
  name : Str
  value : Str
  maxAge : Int := 0
  path : Str := []
  domain : Str := []
  secure : Bool := false
  httpOnly : Bool := false
  sameSite : Nat := 0

/-- ctx.go:349-375 `SetCookie` on the response's cookies. -/
def setCookieCall (host : Str) (cookies : List (Str × Str)) (a : CookieCall) : Outcome (List (Str × Str)) :=
  (setCookie host a.sameSite a.name a.value a.maxAge a.path a.domain a.secure a.httpOnly).bind fun c =>
    .ret (headerSetCookie cookies c)

/-- The calls of one request, in order.  ctx.go:349-375. -/
def setCookieCalls (host : Str) (cookies : List (Str × Str)) : List CookieCall → Outcome (List (Str × Str))
  | [] => .ret cookies
  | a :: t => (setCookieCall host cookies a).bind fun cs => setCookieCalls host cs t

/-- The values of the Set-Cookie headers of the response.  ctx.go:349-375. -/
def setCookieLines (cookies : List (Str × Str)) : List Str := cookies.map (·.2)

end Verif
