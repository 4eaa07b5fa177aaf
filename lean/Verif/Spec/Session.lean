import Verif.Spec.SetCookie
/-
A client that visits a server again and again and keeps its cookies (RFC 6265).
-/
namespace Verif.Spec

/-- One visit: the Host header and the host and path the client meant, and the SetCookie calls the handlers made. -/
structure Visit where
  hostHeader : Str
  host : Str
  path : Str
  calls : List CookieCall

/-- The store of a client after some visits. -/
inductive Visited : List Stored → List Visit → List Stored → Prop
  | start (jar) : Visited jar [] jar
  | visit {jar : List Stored} {v : Visit} {cs : List (Str × Str)} {rest : List Visit} {jar' : List Stored} :
      setCookieCalls v.hostHeader [] v.calls = .ret cs →
      Visited (receiveAll v.host v.path jar (setCookieLines cs)) rest jar' → Visited jar (v :: rest) jar'

/-- The texts of all calls can be written, and the calls for `name` are for one domain, which the host may set, and one path. -/
structure KeepsTo (name domain path : Str) (v : Visit) : Prop where
  host : HostOf v.hostHeader v.host
  writable : ∀ b ∈ v.calls, Writable v.host b ∧ ∀ x ∈ b.name, x ∉ b!"\" "
  domain : ∀ b ∈ v.calls, b.name = name → askedDomain v.host b ≠ [] ∧ storedDomain v.host b = domain ∧ domainMatch v.host domain = true
  path : ∀ b ∈ v.calls, b.name = name → askedPath b = path

/-- `value` was set last for `name`. -/
def SetLast (name : Str) (calls : List CookieCall) (value : Str) : Prop :=
  ∃ pre a post, calls = pre ++ a :: post ∧ a.name = name ∧ a.value = value ∧ ∀ b ∈ post, b.name ≠ name

end Verif.Spec
