import Verif.Spec.Range
/-
What is sent for a piece of content.
-/
namespace Verif.Spec

/-- `t` is the decimal text of `n`, without leading zeros. -/
def Number (n : Nat) (t : Str) : Prop := Digits t ∧ decVal t = n ∧ (t.head? = some 48 → t = b!"0")

/-- The bytes of the content from position `a` to `b - 1`. -/
def slice (data : Str) (a b : Nat) : Str := (data.take b).drop a

/-- The value of a Content-Range header for the positions `a` to `b - 1` of content of the given size. -/
def ContentRange (a b size : Nat) (t : Str) : Prop :=
  ∃ x y z, Number a x ∧ Number (b - 1) y ∧ Number size z ∧ t = b!"bytes " ++ x ++ b!"-" ++ y ++ b!"/" ++ z

/-- A part of a multipart body: its headers and its content. -/
structure Part where
  headers : List (Str × Str)
  data : Str

/-- The header lines. -/
def headerLines : List (Str × Str) → Str
  | [] => []
  | (k, v) :: t => k ++ b!": " ++ v ++ b!"\r\n" ++ headerLines t

/-- The parts, each preceded by a line with the boundary. -/
def partLines (boundary : Str) : List Part → Str
  | [] => []
  | p :: t => b!"\r\n--" ++ boundary ++ b!"\r\n" ++ headerLines p.headers ++ b!"\r\n" ++ p.data ++ partLines boundary t

/-- A multipart body (RFC 2046, 5.1.1): the first boundary needs no line break before it. -/
def multipart (boundary : Str) (parts : List Part) : Str :=
  (partLines boundary parts).drop 2 ++ b!"\r\n--" ++ boundary ++ b!"--\r\n"

/-- The part for the bytes `a` to `a + n - 1`. -/
def IsPart (data type : Str) (a n : Nat) (p : Part) : Prop :=
  p.data = slice data a (a + n) ∧ ∃ cr, p.headers = [(b!"Content-Range", cr), (b!"Content-Type", type)] ∧
    (0 < n → ContentRange a (a + n) data.length cr)

/-- The parts for a list of ranges. -/
inductive AreParts (data type : Str) : List (Nat × Nat) → List Part → Prop
  | nil : AreParts data type [] []
  | cons {a n : Nat} {rs : List (Nat × Nat)} {p : Part} {ps : List Part} : IsPart data type a n p → AreParts data type rs ps →
      AreParts data type ((a, n) :: rs) (p :: ps)

end Verif.Spec
