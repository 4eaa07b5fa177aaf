import Verif.Spec.Seek
/-
Files that do not keep what was said about them: files without a Seek method, and files whose size is not, or no longer, the
one their file information gives.
-/
namespace Verif.Spec

/-- The file system opens the name; the file information says a regular file with this base name, size and modification time;
what can be read from the file is `c`, which need not have that size, and may be unable to seek. -/
def OpensAs (fSys : RawFS) (name : List Str) (base : Str) (size : Nat) (modTime : Int) (c : Content) : Prop :=
  size < 2 ^ 63 ∧ ∃ f, fSys.opens (fileName name) = .ok f ∧ f.stat = .ok ⟨base, size, false, modTime⟩ ∧ f.content = c

/-- The type of the file need not be found out from its bytes. -/
def TypeKnown (lib : Lib) (r : HttpReq) (base : Str) : Prop := r.header b!"Content-Type" ≠ [] ∨ lib.typeByName base ≠ []

/-- An answer that is successful, announces `n` bytes and carries `x`. -/
def Announces (w : HttpResp) (s : StaticRun) (status n : Nat) (x : Str) : Prop :=
  s.err = none ∧ s.resp.status = status ∧ Number n (s.resp.peek b!"Content-Length") ∧ s.resp.body = w.body ++ x

/-- An answer that is an error: the status, the message as text, and an error is returned. -/
def Fails (w : HttpResp) (s : StaticRun) (status : Nat) (message : Str) : Prop :=
  s.err = some .seek ∧ s.resp.status = status ∧ s.resp.body = w.body ++ message ∧
    s.resp.peek b!"Content-Type" = b!"text/plain; charset=utf-8"

end Verif.Spec
