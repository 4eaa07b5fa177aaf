import Verif.Spec.Ctx
import Verif.Spec.Content
import Verif.Spec.Cookie
import Verif.Model.SetCookie
/-
A client that follows RFC 6265 (section 5): how it reads Set-Cookie headers, what it stores, and what it sends back.
Left out: expiry dates and the passing of time (no attribute "expires" is ever written), public suffixes; requests are
made over a secure channel.
-/
namespace Verif.Spec

/-- WSP. -/
def wsp (b : UInt8) : Bool := b == 32 || b == 9

def trimWsp (s : Str) : Str := rdropWhile wsp (s.dropWhile wsp)

/-- The text before and after the first `b`. -/
def cut (b : UInt8) (s : Str) : Option (Str × Str) :=
  if b ∈ s then some (s.takeWhile (· != b), (s.dropWhile (· != b)).drop 1) else none

/-- One cookie-av. -/
def readAttr (s : Str) : Str × Str :=
  match cut 61 s with
  | some x => (trimWsp x.1, trimWsp x.2)
  | none => (trimWsp s, [])

/-- What a Set-Cookie header says. -/
structure Said where
  name : Str
  value : Str
  attrs : List (Str × Str)
  deriving DecidableEq, Repr

/-- RFC 6265, 5.2. -/
def readSetCookie (line : Str) : Option Said :=
  match splitByte 59 line with
  | [] => none
  | pair :: avs =>
    match cut 61 pair with
    | none => none
    | some x => if trimWsp x.1 = [] then none else some ⟨trimWsp x.1, trimWsp x.2, avs.map readAttr⟩

/-- The last attribute with a name; names in any case. -/
def Said.attr (s : Said) (name : Str) : Option Str :=
  (s.attrs.reverse.find? fun a => decide (a.1.map lowerByte = name)).map (·.2)

/-- A cookie in the client's store. -/
structure Stored where
  name : Str
  value : Str
  domain : Str
  hostOnly : Bool
  path : Str
  deriving DecidableEq, Repr

/-- RFC 6265, 5.1.3. -/
def domainMatch (host domain : Str) : Bool := decide (host = domain) || hasSuffix host (b!"." ++ domain)

/-- RFC 6265, 5.1.4. -/
def pathMatch (req cpath : Str) : Bool :=
  decide (req = cpath) || (hasPrefix req cpath && (hasSuffix cpath b!"/" || decide ((req.drop cpath.length).head? = some 47)))

/-- RFC 6265, 5.1.4: the default path of a request. -/
def defaultPath (req : Str) : Str :=
  match req with
  | 47 :: _ => match (rdropWhile (· != 47) req).dropLast with
    | [] => b!"/"
    | p => p
  | _ => b!"/"

/-- RFC 6265, 5.2.2: a lifetime of zero or less. -/
def over (maxAge : Str) : Bool :=
  match maxAge with
  | 45 :: ds => ds.all fun d => 48 ≤ d && d ≤ 57
  | [] => false
  | ds => ds.all (· == 48)

/-- The same cookie for the store. -/
def Stored.same (a b : Stored) : Bool := decide (a.name = b.name) && decide (a.domain = b.domain) && decide (a.path = b.path)

/-- RFC 6265, 5.3: a cookie takes the place of the one with the same name, domain and path. -/
def put (jar : List Stored) (s : Stored) : List Stored :=
  if jar.any s.same then jar.map fun t => if s.same t then s else t else jar ++ [s]

/-- The domain of the cookie: `none` if the host may not set it; the second component says whether it is for this host only. -/
def Said.domain (s : Said) (host : Str) : Option (Str × Bool) :=
  match s.attr b!"domain" with
  | none | some [] => some (host, true)
  | some d =>
    let d := (trimPrefix d b!".").map lowerByte
    if domainMatch host d then some (d, false) else none

/-- RFC 6265, 5.2.4. -/
def Said.path (s : Said) (req : Str) : Str :=
  match s.attr b!"path" with
  | some (47 :: p) => 47 :: p
  | _ => defaultPath req

/-- RFC 6265, 5.3: the store after one header of the answer to a request for `host` and `req`. -/
def receive (host req : Str) (jar : List Stored) (line : Str) : List Stored :=
  match readSetCookie line with
  | none => jar
  | some s =>
    match s.domain host with
    | none => jar
    | some d =>
      let c : Stored := ⟨s.name, s.value, d.1, d.2, s.path req⟩
      match s.attr b!"max-age" with
      | some a => if over a then jar.filter fun t => ! c.same t else put jar c
      | none => put jar c

/-- The store after an answer. -/
def receiveAll (host req : Str) (jar : List Stored) (lines : List Str) : List Stored := lines.foldl (receive host req) jar

/-- RFC 6265, 5.4: which cookies go with a request. -/
def Stored.applies (c : Stored) (host req : Str) : Bool :=
  (if c.hostOnly then decide (host = c.domain) else domainMatch host c.domain) && pathMatch req c.path

/-- RFC 6265, 5.4: the cookies are sent in some order (longer paths should come first). -/
def SentWith (jar : List Stored) (host req : Str) (sent : List SentCookie) : Prop :=
  sent.Perm ((jar.filter fun c => c.applies host req).map fun c => ⟨c.name, c.value, false⟩)

/-- Texts that can be written as values: without ';', and with no space or tab at the ends. -/
def GoodText (s : Str) : Prop := 59 ∉ s ∧ ∀ b, s.head? = some b ∨ s.getLast? = some b → wsp b = false

/-- Names that can be written: such a text, not empty and without '='. -/
def GoodName (s : Str) : Prop := s ≠ [] ∧ 61 ∉ s ∧ GoodText s

/-- The domain written: the one given, otherwise the host. -/
def askedDomain (host : Str) (a : CookieCall) : Str := if a.domain = [] then host else a.domain

/-- The path written: the one given as fasthttp normalises it, otherwise "/". -/
def askedPath (a : CookieCall) : Str := if a.path = [] then b!"/" else normalizePath a.path

/-- What a client may be told by a call: the texts written contain no separators. -/
structure Writable (host : Str) (a : CookieCall) : Prop where
  name : GoodName a.name
  domain : GoodText (askedDomain host a)
  path : GoodText (askedPath a)

/-- A header says what was asked for in a call: the name, a value from which unescaping gives the value, the lifetime
if it is positive, the domain or the host, the path or "/", the flags, and nothing else. -/
structure SaysAsked (host : Str) (a : CookieCall) (said : Said) : Prop where
  name : said.name = a.name
  value : queryUnescape said.value = some a.value
  session : a.maxAge ≤ 0 → said.attr b!"max-age" = none
  lifetime : a.maxAge > 0 → ∃ t, said.attr b!"max-age" = some t ∧ Number a.maxAge.toNat t
  domain : askedDomain host a ≠ [] → said.attr b!"domain" = some (askedDomain host a)
  path : said.attr b!"path" = some (askedPath a)
  httpOnly : (said.attr b!"httponly").isSome = true ↔ a.httpOnly = true
  secure : (said.attr b!"secure").isSome = true ↔ a.secure = true ∨ said.attr b!"samesite" = some b!"None"
  site0 : a.sameSite = 0 → said.attr b!"samesite" = none
  site1 : a.sameSite = 1 → said.attr b!"samesite" = some []
  site2 : a.sameSite = 2 → said.attr b!"samesite" = some b!"Lax"
  site3 : a.sameSite = 3 → said.attr b!"samesite" = some b!"Strict"
  site4 : a.sameSite = 4 → said.attr b!"samesite" = some b!"None"
  only : ∀ x ∈ said.attrs, x.1.map lowerByte ∈ [b!"max-age", b!"domain", b!"path", b!"httponly", b!"secure", b!"samesite"]

/-- The domain of the stored cookie. -/
def storedDomain (host : Str) (a : CookieCall) : Str := (trimPrefix (askedDomain host a) b!".").map lowerByte

end Verif.Spec
