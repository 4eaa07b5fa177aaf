import Verif.Model.Ctx
/-
Independent vocabulary for the request helpers.
-/
namespace Verif.Spec

/-- `v` is the value of the first entry named `k`. -/
def FirstVal (src : List (Str × Str)) (k v : Str) : Prop :=
  ∃ pre post, src = pre ++ (k, v) :: post ∧ ∀ e ∈ pre, e.1 ≠ k

/-- No entry is named `k`. -/
def Absent (src : List (Str × Str)) (k : Str) : Prop := ∀ e ∈ src, e.1 ≠ k

/-- The source has a non-empty first value for `k`. -/
def HasVal (src : List (Str × Str)) (k : Str) : Prop := ∃ v, FirstVal src k v ∧ v ≠ []

/-- All values of the entries named `k`, in order. -/
def valuesOf : List (Str × Str) → Str → List Str
  | [], _ => []
  | (n, v) :: t, k => if n = k then v :: valuesOf t k else valuesOf t k

/-- Equal up to the case of ASCII letters. -/
def sameLetter (c d : UInt8) : Prop := c = d ∨ (65 ≤ c ∧ c ≤ 90 ∧ d = c + 32) ∨ (65 ≤ d ∧ d ≤ 90 ∧ c = d + 32)

inductive EqIgnoreCase : Str → Str → Prop where
  | nil : EqIgnoreCase [] []
  | cons {c d s t} : sameLetter c d → EqIgnoreCase s t → EqIgnoreCase (c :: s) (d :: t)

/-- The data of all contexts as values: creating a context appends an empty map, cloning appends a copy, setting
changes one map. -/
def dataStep {ν : Type} (s : List (Str → Option ν)) : CtxOp ν → List (Str → Option ν)
  | .new => s ++ [fun (_ : Str) => none]
  | .clone i =>
    match s[i]? with
    | none => s
    | some m => s ++ [m]
  | .set i k v => s.modify i fun (m : Str → Option ν) (x : Str) => if x = k then some v else m x
  | .setSameSite _ _ => s
  | .stop _ => s
  | .abort _ => s
  | .skipMain _ => s

def dataOf {ν : Type} (ops : List (CtxOp ν)) : List (Str → Option ν) := ops.foldl dataStep []

/-- For each context, whether it was made by Clone. -/
def clonedStep {ν : Type} (s : List Bool) : CtxOp ν → List Bool
  | .new => s ++ [false]
  | .clone i => if i < s.length then s ++ [true] else s
  | _ => s

def clonedOf {ν : Type} (ops : List (CtxOp ν)) : List Bool := ops.foldl clonedStep []

/-- The SameSite mode of all contexts: none (0) at first, that of the original on a clone, and what SetSameSite set. -/
def siteStep {ν : Type} (s : List Nat) : CtxOp ν → List Nat
  | .new => s ++ [0]
  | .clone i =>
    match s[i]? with
    | none => s
    | some m => s ++ [m]
  | .setSameSite i m => s.modify i fun _ => m
  | _ => s

def siteOf {ν : Type} (ops : List (CtxOp ν)) : List Nat := ops.foldl siteStep []

/-- The call was made on context `j`, after that was made. -/
def Called {ν : Type} (o : CtxOp ν) (j : Nat) (ops : List (CtxOp ν)) : Prop :=
  ∃ before after, ops = before ++ o :: after ∧ j < (clonedOf before).length

/-- The text is `base ++ ":" ++ digits`. -/
def EndsInPort (s base : Str) : Prop := ∃ d, s = base ++ 58 :: d ∧ ∀ c ∈ d, 48 ≤ c ∧ c ≤ 57

/-- `h` is the host of `hp`: drop a trailing ':digits', then one pair of enclosing brackets. -/
def HostOf (hp h : Str) : Prop :=
  ∃ base, (EndsInPort hp base ∨ (base = hp ∧ ∀ b, ¬ EndsInPort hp b)) ∧
    (base = 91 :: h ++ [93] ∨ (h = base ∧ ∀ x, base ≠ 91 :: x ++ [93]))

/-- Letters, digits, '-', '_', '.', '~'. -/
def unreserved (c : UInt8) : Prop :=
  (97 ≤ c ∧ c ≤ 122) ∨ (65 ≤ c ∧ c ≤ 90) ∨ (48 ≤ c ∧ c ≤ 57) ∨ c ∈ b!"-_.~"

/-- Escaped text. -/
inductive EscText : Str → Prop where
  | nil : EscText []
  | plain {c t} : unreserved c → EscText t → EscText (c :: t)
  | plus {t} : EscText t → EscText (43 :: t)
  | pct {x y t} : x ∈ b!"0123456789ABCDEF" → y ∈ b!"0123456789ABCDEF" → EscText t → EscText (37 :: x :: y :: t)

/-- Query unescaping (what a client library or url.QueryUnescape does): '+' is a space, '%XX' a byte. -/
def queryUnescape : Str → Option Str
  | [] => some []
  | c :: t =>
    if c = 43 then (queryUnescape t).map (32 :: ·)
    else if c = 37 then
      match t with
      | x :: y :: t' =>
        match hexVal x, hexVal y with
        | some h, some l => (queryUnescape t').map ((h * 16 + l) :: ·)
        | _, _ => none
      | _ => none
    else (queryUnescape t).map (c :: ·)

end Verif.Spec
