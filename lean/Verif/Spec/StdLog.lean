import Verif.Spec.Pipeline
/-
C88: the reason why a request failed, read off its trace.
-/
namespace Verif.Spec

/-- The error of a session initialiser. -/
def sessErr (t : List Ev) : Option GoErr :=
  match (starts t).head?, (rets t).head? with
  | some .sess, some (.err e) => some e
  | _, _ => none

/-- The last handler. -/
def isLast : HId → Bool
  | .last _ => true
  | _ => false

/-- Whether the last handler ran. -/
def lastRan (t : List Ev) : Bool := (starts t).any isLast

/-- Why a request failed; `none`: it did not.  `routed`: a route was found. -/
def reasonOf (routed : Bool) (path : Str) (t : List Ev) : Option Str :=
  if routed = false then some (b!"path '" ++ path ++ b!"' not found")
  else
    match sessErr t with
    | some e => some (b!"path '" ++ path ++ b!"': " ++ e.error)
    | none =>
      if lastRan t then (((rets t).getLast?).bind errOf).map (·.error)
      else if called .abort t then (chainErr t).map (·.error)
      else (combine (chainErr t) (goErrs t).head?).map (·.error)

/-- The number of lines of a text in which every line ends with a newline. -/
def lineCount (s : Str) : Nat := s.count 10

end Verif.Spec
