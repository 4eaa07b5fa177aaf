import Verif.Spec.Download
/-
A client that asks for the size of a file and then fetches it in pieces, in any order, overlapping or not.
-/
namespace Verif.Spec

/-- What the client has: nothing, the bytes at some positions of a file of a date and a size, or a file. -/
inductive Pieces where
  | nothing
  | some (date : Str) (size : Nat) (at_ : Nat → Option UInt8)
  | whole (got : Str)

/-- HEAD, to learn the size and the date. -/
def AsksSize (r : HttpReq) : Prop := r.method = b!"HEAD" ∧ Unconditional r ∧ r.header b!"Range" = [] ∧ r.header b!"If-Range" = []

/-- The bytes from `a` to `b`, if the file is still that of the date. -/
def AsksPiece (date : Str) (a b : Nat) (r : HttpReq) : Prop :=
  r.method = b!"GET" ∧ Unconditional r ∧ r.header b!"If-Range" = date ∧
    ∃ x y, Digits x ∧ Digits y ∧ decVal x = a ∧ decVal y = b ∧ r.header b!"Range" = b!"bytes=" ++ (x ++ b!"-" ++ y)

/-- The bytes `p` are put at the positions from `a`. -/
def putAt (at_ : Nat → Option UInt8) (a : Nat) (p : Str) : Nat → Option UInt8 := fun i => if a ≤ i ∧ i < a + p.length then p[i - a]? else at_ i

/-- What it has when `p`, the beginning of the body of the answer for the bytes from `a`, has arrived: a 206 is put where it belongs, a 200 is another file: it is
taken if it arrives completely, and otherwise the client starts again. -/
def takesPiece (date : Str) (size : Nat) (at_ : Nat → Option UInt8) (a : Nat) (w : HttpResp) (p : Str) : Pieces :=
  if w.status = 206 then .some date size (putAt at_ a p)
  else if w.status = 200 then if p = w.body then .whole p else .nothing
  else .some date size at_

/-- A download in pieces: the versions of the file at the times of the requests, and what the client has then. -/
inductive Segmented (serves : FileVersion → HttpReq → HttpResp → Prop) : List FileVersion → Pieces → Prop
  | start : Segmented serves [] .nothing
  | size {vs : List FileVersion} {c : Pieces} {v : FileVersion} {r : HttpReq} {w : HttpResp} {n : Nat} :
      Segmented serves vs c → AsksSize r → serves v r w → w.status = 200 → Number n (w.peek b!"Content-Length") →
      Segmented serves (vs ++ [v]) (.some (w.peek b!"Last-Modified") n fun _ => none)
  | piece {vs : List FileVersion} {date : Str} {n a b : Nat} {at_ : Nat → Option UInt8} {v : FileVersion} {r : HttpReq} {w : HttpResp} {p : Str} :
      Segmented serves vs (.some date n at_) → a ≤ b → b < n → AsksPiece date a b r → serves v r w → p <+: w.body →
      Segmented serves (vs ++ [v]) (takesPiece date n at_ a w p)
  | finish {vs : List FileVersion} {date : Str} {n : Nat} {at_ : Nat → Option UInt8} {got : Str} :
      Segmented serves vs (.some date n at_) → got.length = n → (∀ i, i < n → at_ i = got[i]?) → Segmented serves vs (.whole got)

end Verif.Spec
