import Verif.Base.Str
/-
Names of files, for the file server properties.
-/
namespace Verif.Spec

/-- A path element that names something in a directory: not empty, not "." or "..", without a slash. -/
def Elem (s : Str) : Prop := s ≠ [] ∧ s ≠ b!"." ∧ s ≠ b!".." ∧ (47 : UInt8) ∉ s

/-- The name of what is reached from the root of a file system through the given elements ("." is the root). -/
def fileName : List Str → Str
  | [] => b!"."
  | [a] => a
  | a :: b :: t => a ++ b!"/" ++ fileName (b :: t)

/-- `n` names the root of the file system or something below it. -/
def InsideRoot (n : Str) : Prop := ∃ l, (∀ s ∈ l, Elem s) ∧ n = fileName l

/-- `n` names the directory with the elements `dir` or something below it. -/
def InsideDir (dir : List Str) (n : Str) : Prop := ∃ l, (∀ s ∈ l, Elem s) ∧ n = fileName (dir ++ l)

/-- A percent sign followed by two hex digits. -/
def HexDigit (c : UInt8) : Prop := (48 ≤ c ∧ c ≤ 57) ∨ (65 ≤ c ∧ c ≤ 70) ∨ (97 ≤ c ∧ c ≤ 102)

def HasEscape (p : Str) : Prop := ∃ a x y b, p = a ++ b!"%" ++ [x, y] ++ b ∧ HexDigit x ∧ HexDigit y

/-- A slash or a backslash. -/
def Sep (c : UInt8) : Prop := c = 47 ∨ c = 92

/-- Some element of the path is "..", the elements being separated by slashes and backslashes. -/
def HasDotDot (p : Str) : Prop :=
  ∃ a b, p = a ++ b!".." ++ b ∧ (∀ c, a.getLast? = some c → Sep c) ∧ (∀ c, b.head? = some c → Sep c)

/-- `n` is the name of the directory `dir` (a cleaned operating system path) or of something below it. -/
def BelowDir (dir n : Str) : Prop :=
  n = dir ∨ ∃ l, l ≠ [] ∧ (∀ s ∈ l, Elem s) ∧
    n = (if dir = b!"." then [] else if dir = b!"/" then b!"/" else dir ++ b!"/") ++ fileName l

instance (c : UInt8) : Decidable (HexDigit c) := by unfold HexDigit; infer_instance

/-- What a hex digit stands for. -/
def hexValue (c : UInt8) : Nat := if c ≤ 57 then c.toNat - 48 else if c ≤ 70 then c.toNat - 55 else c.toNat - 87

/-- Every percent sign followed by two hex digits is replaced by the byte they stand for. -/
def unescape : Str → Str
  | [] => []
  | [c] => [c]
  | [c, x] => [c, x]
  | c :: x :: y :: t =>
    if c = 37 ∧ HexDigit x ∧ HexDigit y then UInt8.ofNat (16 * hexValue x + hexValue y) :: unescape t
    else c :: unescape (x :: y :: t)

/-- Where one gets from the root through the given elements: "" and "." stay, ".." goes up (not above the root). -/
def walk (l : List Str) : List Str :=
  l.foldl (fun here s => if s = [] ∨ s = b!"." then here else if s = b!".." then here.dropLast else here ++ [s]) []

/-- The elements of a path. -/
def elements (p : Str) : List Str := splitByte 47 p

example : walk (elements (unescape b!"static/%2e%2E/./a%41.txt")) = [b!"aA.txt"] := by decide +kernel

end Verif.Spec
