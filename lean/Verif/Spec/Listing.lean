import Verif.Spec.Routing
/-
How a listing of routes is read: each line shows a segment, its indentation says below which line it belongs.
-/
namespace Verif.Spec

/-- A line: its indentation, the segment (fixed text, or the name of a parameter), and the handlers that end here, as method
and id. -/
structure Line where
  depth : Nat
  path : Str
  urlId : Str
  entries : List (Str × Str)

def Line.text (l : Line) : Str :=
  List.replicate l.depth 9 ++ b!"Path: " ++ l.path ++ b!", UrlId: " ++ l.urlId ++ b!" => " ++
    l.entries.flatMap (fun e => b!"/" ++ e.1 ++ b!"[" ++ e.2 ++ b!"]") ++ [10]

/-- Each line with the segments from the outermost line to it; `above` are those of the line before. -/
def indented (above : List (Str × Str)) : List Line → List (List (Str × Str) × List (Str × Str))
  | [] => []
  | l :: t =>
    (above.take l.depth ++ [(l.path, l.urlId)], l.entries) :: indented (above.take l.depth ++ [(l.path, l.urlId)]) t

/-- How a segment is shown. -/
def Pat.shown : Pat → Str × Str
  | .lit t => (t, [])
  | .par n => ([], n)

/-- How a route is shown: below the root. -/
def shownRoute (pats : List Pat) : List (Str × Str) := (b!"/", []) :: pats.map Pat.shown

end Verif.Spec
