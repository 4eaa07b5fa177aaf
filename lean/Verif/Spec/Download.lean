import Verif.Spec.Seek
/-
A client that downloads a file, is interrupted again and again, and goes on where it was (RFC 7233, 3.2).
-/
namespace Verif.Spec

/-- A version of the file: its bytes and its modification time. -/
structure FileVersion where
  data : Str
  time : Int

/-- What the client has: nothing, the beginning of an answer of some date, or all of it. -/
inductive Copy where
  | nothing
  | part (date got : Str)
  | whole (got : Str)

/-- What it asks for next: the file, or the rest of it if it is still that of the date. -/
def Copy.Asks : Copy → HttpReq → Prop
  | .nothing, r => r.method = b!"GET" ∧ Unconditional r ∧ r.header b!"Range" = [] ∧ r.header b!"If-Range" = []
  | .part date got, r => r.method = b!"GET" ∧ Unconditional r ∧ r.header b!"If-Range" = date ∧
      ∃ x, Digits x ∧ decVal x = got.length ∧ r.header b!"Range" = b!"bytes=" ++ (x ++ b!"-")
  | .whole _, _ => False

/-- What it has when `p`, the beginning of the body of the answer, has arrived: a 206 goes on, a 200 starts again. -/
def Copy.takes (c : Copy) (w : HttpResp) (p : Str) : Copy :=
  if w.status = 206 then
    match c with
    | .part date got => if p = w.body then .whole (got ++ p) else .part date (got ++ p)
    | c => c
  else if w.status = 200 then
    if p = w.body then .whole p else if p = [] then .nothing else .part (w.peek b!"Last-Modified") p
  else c

/-- A download from a server: the versions of the file at the times of the requests, and what the client has then.  `serves v r w`: the answer to
the request `r`, while the file is `v`, is `w`. -/
inductive Download (serves : FileVersion → HttpReq → HttpResp → Prop) : List FileVersion → Copy → Prop
  | start : Download serves [] .nothing
  | ask {vs : List FileVersion} {c : Copy} {v : FileVersion} {r : HttpReq} {w : HttpResp} {p : Str} :
      Download serves vs c → c.Asks r → serves v r w → p <+: w.body → Download serves (vs ++ [v]) (c.takes w p)

end Verif.Spec
