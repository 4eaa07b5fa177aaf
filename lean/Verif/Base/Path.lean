import Verif.Base.Str
/-
Go's `path` package and, for Unix, `path/filepath` (trusted base: standard library, not in /repo).
-/
namespace Verif

/-- One round of `path.Clean`: `out` is the output so far, last element first. Empty elements and "." are skipped,
".." removes the element before it; at the front of a path that is not rooted it is kept.  External: called in static/static.go:48 and fs.go:82. -/
def cleanStep (rooted : Bool) (out : List Str) (s : Str) : List Str :=
  if s = [] ∨ s = b!"." then out
  else if s = b!".." then
    match out with
    | [] => if rooted then [] else [b!".."]
    | h :: t => if h = b!".." then b!".." :: out else t
  else s :: out

/-- The elements of `path.Clean(p)`.  External: called in static/static.go:48 and fs.go:82. -/
def cleanSegs (rooted : Bool) (p : Str) : List Str := ((splitByte 47 p).foldl (cleanStep rooted) []).reverse

/-- `path.Clean` (and `filepath.Clean` on Unix).  External: called in static/static.go:48 and fs.go:82. -/
def pathClean (p : Str) : Str :=
  if p = [] then b!"."
  else if hasPrefix p b!"/" then 47 :: joinByte 47 (cleanSegs true p)
  else if cleanSegs false p = [] then b!"."
  else joinByte 47 (cleanSegs false p)

/-- `path.Join(a, b)` (and `filepath.Join` on Unix).  External: called in static_embed.go:33 and fs.go:82. -/
def pathJoin (a b : Str) : Str :=
  if a = [] then (if b = [] then [] else pathClean b) else pathClean (a ++ 47 :: b)

/-- `filepath.Split` on Unix: everything up to the last slash, and the rest.  External: called in fs.go:770. -/
def pathSplit (p : Str) : Str × Str :=
  match lastIndexByte 47 p with
  | none => ([], p)
  | some i => (p.take (i + 1), p.drop (i + 1))

/-- `path.Base`.  External: called in fs.go:656, 661, 672. -/
def pathBase (p : Str) : Str :=
  if p = [] then b!"."
  else
    let q := rdropWhile (· == 47) p
    let q := (pathSplit q).2
    if q = [] then b!"/" else q

example : pathClean b!"/a//./b/../c/" = b!"/a/c" ∧ pathClean b!"/../.." = b!"/" ∧ pathClean b!"a/../../b" = b!"../b" ∧
    pathClean b!"../../a" = b!"../../a" ∧ pathClean b!"./" = b!"." ∧ pathClean [] = b!"." := by decide +kernel
example : pathJoin b!"a" b!"../b" = b!"b" ∧ pathJoin [] b!"/x/" = b!"/x" ∧ pathJoin b!"." b!"/" = b!"." := by
  decide +kernel
example : pathSplit b!"/a/b" = (b!"/a/", b!"b") ∧ pathSplit b!"b" = ([], b!"b") := by decide +kernel
example : pathBase b!"/a/b//" = b!"b" ∧ pathBase b!"//" = b!"/" ∧ pathBase b!"a" = b!"a" := by decide +kernel

end Verif
