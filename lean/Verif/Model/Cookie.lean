import Verif.Model.Ctx
/-
Reading cookies: ctx.go:168-176 and the functions of fasthttp v1.58.0 it calls (external code, trusted reading).
-/
namespace Verif

/-- fasthttp `decodeCookieArg`: spaces around the text go, then, with `quotes`, one pair of double quotes.  External: behind ctx.go:170. -/
def decodeCookieArg (quotes : Bool) (s : Str) : Str :=
  let s := trimByte 32 s
  if quotes ∧ s.length > 1 ∧ s.head? = some 34 ∧ s.getLast? = some 34 then (s.drop 1).dropLast else s

/-- fasthttp `cookieScanner.next` on the text before the next ';' (59): the first '=' (61) ends the key.  External: behind ctx.go:170. -/
def scanPair (s : Str) : Str × Str :=
  if 61 ∈ s then
    (decodeCookieArg false (s.takeWhile (· != 61)), decodeCookieArg true ((s.dropWhile (· != 61)).drop 1))
  else ([], decodeCookieArg true s)

/-- fasthttp `parseRequestCookies`: pairs with neither key nor value are dropped.  External: behind ctx.go:170. -/
def parseRequestCookies (header : Str) : List (Str × Str) :=
  ((splitByte 59 header).map scanPair).filter fun p => p.1 ≠ [] ∨ p.2 ≠ []

/-- fasthttp `RequestHeader.collectCookies`: all Cookie headers of the request, in order.  External: behind ctx.go:170. -/
def requestCookies (headers : List Str) : List (Str × Str) := headers.flatMap parseRequestCookies

/-- fasthttp `Cookie.ParseBytes`: key and value are those of the first pair (`none`: errNoCookies).  What follows a ';' would
be attributes; the values `cookieCall` passes have none (`requestCookies_no_semicolon`), so they are not modelled.  External: called in ctx.go:174. -/
def parseCookie (src : Str) : Option (Str × Str) := if src = [] then none else some (scanPair (src.takeWhile (· != 59)))

/-- ctx.go:168-176 `Cookie`: key and value of the cookie returned, `none` for NoCookiesFoundError. -/
def cookieCall (headers : List Str) (name : Str) : Option (Str × Str) :=
  match argsPeek (requestCookies headers) name with
  | none => none
  | some b => if b.length = 0 then none else parseCookie b

end Verif
