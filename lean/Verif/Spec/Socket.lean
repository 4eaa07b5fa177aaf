import Verif.Model.Life
/-
Which socket is beneath a listener, and which one a server is about to use.
-/
namespace Verif.Spec

/-- The listener is the socket, or TLS over a listener on the socket. -/
inductive OnSocket : Ln → Nat → Prop
  | sock (n : Nat) : OnSocket (.sock n) n
  | tls {l : Ln} {n : Nat} : OnSocket l n → OnSocket (.tls l) n

/-- The socket that Run will use: the one beneath the listener of the server, or the next one made. -/
def Uses (s : LifeSt) (n : Nat) : Prop := (∃ l, s.listener = some l ∧ OnSocket l n) ∨ (s.listener = none ∧ s.next = n)

end Verif.Spec
