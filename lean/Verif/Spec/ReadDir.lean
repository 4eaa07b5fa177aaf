import Verif.Model.ReadDir
/-
Specification of C119: what `fs.ReadDirFile` promises, and what a caller gets who reads a directory in pieces.
-/
namespace Verif.Spec

/-- The promise of `fs.ReadDirFile.ReadDir`: `left` are the entries that were not read yet. A call returns the next of them;
if n > 0 at most n, and with no error at least one; `io.EOF` only at the end. If n ≤ 0 and there is no error, all of them. -/
def ReadsDir {σ : Type} (rd : DirRead σ) (left : σ → List DirEnt) : Prop :=
  ∀ s n, let out := rd s n
    left s = out.1.1 ++ left out.2 ∧
    (0 < n → (out.1.1.length : Int) ≤ n ∧ (out.1.2 = none → out.1.1 ≠ [])) ∧
    (out.1.2 = some .eof → left out.2 = []) ∧
    (n ≤ 0 → out.1.2 = none → left out.2 = [])

/-- It never fails but for the end. -/
def OnlyEof {σ : Type} (rd : DirRead σ) : Prop := ∀ s n e, (rd s n).1.2 = some e → e = .eof

/-- It gives no entries along with an error, as `os.File` does. -/
def ErrsEmpty {σ : Type} (rd : DirRead σ) : Prop := ∀ s n, (rd s n).1.2 ≠ none → (rd s n).1.1 = []

/-- The entries that exist, that is whose information can be had. -/
def existing (es : List DirEnt) : List FileInfo := es.filterMap (·.info)

/-- A caller who calls again and again until `io.EOF` and keeps what each call returns, also the last one. -/
inductive Collected {σ : Type} (call : σ → (List FileInfo × Option DirErr) → σ → Prop) : σ → List FileInfo → Prop
  | last {s s' : σ} {l : List FileInfo} : call s (l, some .eof) s' → Collected call s l
  | more {s s' : σ} {l m : List FileInfo} : call s (l, none) s' → Collected call s' m → Collected call s (l ++ m)

/-- The directory of an operating system: n > 0 gives up to n entries, and `io.EOF` once there are none. -/
def plainDir : DirRead (List DirEnt) := fun s n =>
  if n ≤ 0 then ((s, none), [])
  else if s = [] then (([], some .eof), [])
  else ((s.take n.toNat, none), s.drop n.toNat)

end Verif.Spec
