import Verif.Model.Ctx
import Verif.Model.RegTree
/-
From the bytes of a request to what /repo/server_run.go:127-128 and /repo/ctx.go:178-246 read: `fastCtx.Path()`,
`fastCtx.QueryArgs()` and `fastCtx.PostArgs()` (fasthttp v1.58.0, written from its published source: trusted base).
Modelled for a request target in origin form (it begins with a slash, and there is another slash-free byte after it or no
"//" in it at all, so that `splitHostURI` returns it unchanged) without control characters, and a body that has been
read completely.
-/
namespace Verif

/-- '+' stands for a space.  External: behind `QueryArgs()` and `PostArgs()` in ctx.go:183, 187, 195, 199, 228. -/
def plusByte (c : UInt8) : UInt8 := if c = 43 then 32 else c

/-- `decodeArgAppend`: '+' is a space, '%XX' a byte; a '%' that is not followed by two hex digits is kept; a '%' with
less than two bytes after it ends the decoding, the rest is kept as it is.  External: behind `QueryArgs()` and `PostArgs()` in ctx.go:183, 187, 195, 199, 228. -/
def decodeArg : Str → Str
  | [] => []
  | [a] => [plusByte a]
  | [a, b] => if a = 37 then [a, b] else [plusByte a, plusByte b]
  | c :: x :: y :: t =>
    if c = 37 then
      match hexVal x, hexVal y with
      | some h, some l => (h * 16 + l) :: decodeArg t
      | _, _ => c :: decodeArg (x :: y :: t)
    else plusByte c :: decodeArg (x :: y :: t)

/-- `argsScanner.next` on the text up to the next '&': the first '=' ends the key; without one there is no value.  External: behind `QueryArgs()` and `PostArgs()` in ctx.go:183, 187, 195, 199, 228. -/
def argPair (s : Str) : Str × Str :=
  match cutByte 61 s with
  | none => (decodeArg s, [])
  | some (k, v) => (decodeArg k, decodeArg v)

/-- `Args.ParseBytes`: entries with neither key nor value are dropped.  External: behind `QueryArgs()` and `PostArgs()` in ctx.go:183, 187, 195, 199, 228. -/
def parseArgs (b : Str) : Args :=
  ((splitByte 38 b).map argPair).filter fun e => !(e.1.isEmpty && e.2.isEmpty)

/-- `URI.parse` from "b := uri" on: the raw path and the query string.  External: behind server_run.go:127 and ctx.go:183. -/
def parseURI (b : Str) : Str × Str :=
  let frag := indexByte 35 b
  let query := match indexByte 63 b, frag with
    | some q, some h => if q > h then none else some q
    | q, _ => q
  match query, frag with
  | none, none => (b, [])
  | some q, none => (b.take q, b.drop (q + 1))
  | some q, some h => (b.take q, (b.take h).drop (q + 1))
  | none, some h => (b.take h, [])

/-- What arrives: the request line's target, the Content-Type header and the body.  The request of server_run.go:109, as far as server_run.go:127-128 and ctx.go:178-246 read it. -/
structure WireReq where
  target : Str
  contentType : Str
  body : Str

/-- `fastCtx.Path()`: what server_run.go:127 looks up. -/
def wirePath (r : WireReq) : Str := normalizePath (parseURI r.target).1

/-- `fastCtx.QueryArgs()`.  Called in ctx.go:183, 195. -/
def wireQuery (r : WireReq) : Args := parseArgs (parseURI r.target).2

/-- `fastCtx.PostArgs()`: `Request.parsePostArgs`.  Called in ctx.go:187, 199, 228. -/
def wireForm (r : WireReq) : Args :=
  if hasPrefix r.contentType b!"application/x-www-form-urlencoded" then parseArgs r.body else []

/-- The argument lists of a Context (ctx.go:47, 178-246) whose URL parameters are `url`. -/
def wireSources (r : WireReq) (url : Args) : Sources := ⟨url, wireQuery r, wireForm r⟩

example : wirePath ⟨b!"/a%2Fb/c%20d?x=1&y=a+b%26#top", [], []⟩ = b!"/a/b/c d" ∧
    wireQuery ⟨b!"/a?x=1&y=a+b%26&&=&z#top", [], []⟩ = [(b!"x", b!"1"), (b!"y", b!"a b&"), (b!"z", [])] := by decide +kernel

end Verif
