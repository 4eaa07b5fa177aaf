import Verif.Base.Str
/-
The Cookie header a client sends (RFC 6265, 4.2.1): "name=value; name=value", values plain or in double quotes.
-/
namespace Verif.Spec

structure SentCookie where
  name : Str
  value : Str
  quoted : Bool := false
  deriving DecidableEq, Repr

/-- Names are tokens and values cookie octets; of what RFC 6265 forbids only the bytes that matter are named here:
'=', ';', '"', space in names, ';', '"', space in values. -/
structure SentCookie.Valid (c : SentCookie) : Prop where
  name_ne : c.name ≠ []
  name_ok : ∀ b ∈ c.name, b ∉ b!"=;\" "
  value_ok : ∀ b ∈ c.value, b ∉ b!";\" "

def SentCookie.text (c : SentCookie) : Str :=
  c.name ++ b!"=" ++ (if c.quoted then b!"\"" ++ c.value ++ b!"\"" else c.value)

/-- One Cookie header. -/
def cookieHeader : List SentCookie → Str
  | [] => []
  | [c] => c.text
  | c :: d :: t => c.text ++ b!"; " ++ cookieHeader (d :: t)

/-- The value of the first cookie with a name. -/
def firstValue (name : Str) : List SentCookie → Option Str
  | [] => none
  | c :: t => if c.name = name then some c.value else firstValue name t

end Verif.Spec
