import Verif.Spec.Routing
import Verif.Spec.Auth
/-
How a client reads the challenge of a WWW-Authenticate header (RFC 7235: scheme and parameters, each `name="quoted"`; within
quotes a backslash stands before a character that is meant literally).
-/
namespace Verif.Spec

/-- The text of a quoted string, after the opening quote, and what follows the closing one. -/
def readQuoted : Str → Option (Str × Str)
  | [] => none
  | c :: t =>
    if c = 34 then some ([], t)
    else if c = 92 then
      match t with
      | [] => none
      | d :: t' => (readQuoted t').map fun r => (d :: r.1, r.2)
    else (readQuoted t).map fun r => (c :: r.1, r.2)

/-- One parameter. -/
def readParam (s : Str) : Option ((Str × Str) × Str) :=
  match s.dropWhile (· != 61) with
  | 61 :: 34 :: q => (readQuoted q).map fun r => ((s.takeWhile (· != 61), r.1), r.2)
  | _ => none

/-- Parameters with commas between them. -/
def readParams : Nat → Str → Option (List (Str × Str))
  | 0, _ => none
  | n + 1, s =>
    match readParam s with
    | none => none
    | some (p, rest) =>
      match rest with
      | [] => some [p]
      | 44 :: more => (readParams n (more.dropWhile (· == 32))).map (p :: ·)
      | _ => none

/-- The scheme and the parameters of a challenge. -/
def readChallenge (s : Str) : Option (Str × List (Str × Str)) :=
  (readParams s.length (s.dropWhile (· != 32) |>.drop 1)).map fun ps => (s.takeWhile (· != 32), ps)

/-- The text of the last `SetMessage` (or of NewBaseAuth). -/
def lastMessage : List AuthOp → Str × Str → Str × Str
  | [], d => d
  | .setMessage m c :: t, _ => lastMessage t (m, c)
  | _ :: t, d => lastMessage t d

/-- A text that can stand between quotes as it is. -/
def Quotable (m : Str) : Prop := 34 ∉ m ∧ 92 ∉ m ∧ 10 ∉ m ∧ 13 ∉ m

/-- The route lies below the literal segments. -/
def Below (L : List Str) (route : Str) : Prop := L.map Pat.lit <+: (segs route).map segPat

example : readChallenge b!"Basic realm=\"say \\\"friend\\\"\", charset=\"UTF-8\"" =
    some (b!"Basic", [(b!"realm", b!"say \"friend\""), (b!"charset", b!"UTF-8")]) := by decide +kernel

end Verif.Spec
