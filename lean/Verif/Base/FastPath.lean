import Verif.Base.Str
/-
fasthttp v1.58.0: `normalizePath` (uri.go), `decodeArgAppendNoPlus` and `addLeadingSlash`, which every
`URI.SetPath` and `Cookie.SetPath` call goes through (trusted base: the library is not in /repo; written from its
published source, for a non-Windows build).
-/
namespace Verif

/-- `hex2intTable`: `none` is the table's 16.  External (fasthttp): behind `fastCtx.Path()` in server_run.go:127 and `URI().SetPath` in static.go:29, 34, static_embed.go:28, 34, static_embed_fix.go:25, 28, static/static.go:44. -/
def hexVal (c : UInt8) : Option UInt8 :=
  if 48 ≤ c ∧ c ≤ 57 then some (c - 48)
  else if 65 ≤ c ∧ c ≤ 70 then some (c - 55)
  else if 97 ≤ c ∧ c ≤ 102 then some (c - 87)
  else none

/-- `decodeArgAppendNoPlus`: percent-decoding; a '%' that is not followed by two hex digits is kept.  External (fasthttp): behind `fastCtx.Path()` in server_run.go:127 and `URI().SetPath` in static.go:29, 34, static_embed.go:28, 34, static_embed_fix.go:25, 28, static/static.go:44. -/
def percentDecode : Str → Str
  | [] => []
  | [a] => [a]
  | [a, b] => [a, b]
  | c :: x :: y :: t =>
    if c = 37 then
      match hexVal x, hexVal y with
      | some h, some l => (h * 16 + l) :: percentDecode t
      | _, _ => c :: percentDecode (x :: y :: t)
    else c :: percentDecode (x :: y :: t)

/-- `addLeadingSlash`.  External (fasthttp): behind `fastCtx.Path()` in server_run.go:127 and `URI().SetPath` in static.go:29, 34, static_embed.go:28, 34, static_embed_fix.go:25, 28, static/static.go:44. -/
def addLeadingSlash (src : Str) : Str := if hasPrefix src b!"/" then [] else b!"/"

/-- "remove duplicate slashes".  External (fasthttp): behind `fastCtx.Path()` in server_run.go:127 and `URI().SetPath` in static.go:29, 34, static_embed.go:28, 34, static_embed_fix.go:25, 28, static/static.go:44. -/
def dedupSlash : Str → Str
  | [] => []
  | c :: t =>
    match t with
    | [] => [c]
    | d :: _ => if c = 47 ∧ d = 47 then dedupSlash t else c :: dedupSlash t

/-- `bytes.Index(s, sub)`.  External (fasthttp): behind `fastCtx.Path()` in server_run.go:127 and `URI().SetPath` in static.go:29, 34, static_embed.go:28, 34, static_embed_fix.go:25, 28, static/static.go:44. -/
def indexOf (sub : Str) : Str → Option Nat
  | [] => if sub.isPrefixOf [] then some 0 else none
  | c :: t => if sub.isPrefixOf (c :: t) then some 0 else (indexOf sub t).map (· + 1)

/-- "remove /./ parts": the loop removes the first occurrence until there is none; each round shortens the
path, so the length is enough fuel.  External (fasthttp): behind `fastCtx.Path()` in server_run.go:127 and `URI().SetPath` in static.go:29, 34, static_embed.go:28, 34, static_embed_fix.go:25, 28, static/static.go:44. -/
def removeDot : Nat → Str → Str
  | 0, b => b
  | fuel + 1, b =>
    match indexOf b!"/./" b with
    | none => b
    | some n => removeDot fuel (b.take n ++ b.drop (n + 2))

/-- Index of the last slash before position `n`, 0 if there is none.  External (fasthttp): behind `fastCtx.Path()` in server_run.go:127 and `URI().SetPath` in static.go:29, 34, static_embed.go:28, 34, static_embed_fix.go:25, 28, static/static.go:44. -/
def lastSlash (b : Str) (n : Nat) : Nat := (lastIndexByte 47 (b.take n)).getD 0

/-- "remove /foo/../ parts".  External (fasthttp): behind `fastCtx.Path()` in server_run.go:127 and `URI().SetPath` in static.go:29, 34, static_embed.go:28, 34, static_embed_fix.go:25, 28, static/static.go:44. -/
def removeDotDot : Nat → Str → Str
  | 0, b => b
  | fuel + 1, b =>
    match indexOf b!"/../" b with
    | none => b
    | some n => removeDotDot fuel (b.take (lastSlash b n) ++ b.drop (n + 3))

/-- "remove trailing /foo/..".  External (fasthttp): behind `fastCtx.Path()` in server_run.go:127 and `URI().SetPath` in static.go:29, 34, static_embed.go:28, 34, static_embed_fix.go:25, 28, static/static.go:44. -/
def trailingDotDot (b : Str) : Str :=
  if hasSuffix b b!"/.." then
    match lastIndexByte 47 (b.take (b.length - 3)) with
    | none => b!"/"
    | some nn => b.take (nn + 1)
  else b

/-- `normalizePath`.  External (fasthttp): behind `fastCtx.Path()` in server_run.go:127 and `URI().SetPath` in static.go:29, 34, static_embed.go:28, 34, static_embed_fix.go:25, 28, static/static.go:44. -/
def normalizePath (src : Str) : Str :=
  let d := dedupSlash (addLeadingSlash src ++ percentDecode src)
  let d := removeDot d.length d
  let d := removeDotDot d.length d
  trailingDotDot d

example : normalizePath b!"/a/./b/../%63//d" = b!"/a/c/d" := by decide +kernel
example : normalizePath b!"/a/%252e%252e/b" = b!"/a/%2e%2e/b" := by decide +kernel
example : normalizePath b!"a/b/.." = b!"/a/" ∧ normalizePath [] = b!"/" ∧ normalizePath b!"/../../x" = b!"/x" := by
  decide +kernel

end Verif
