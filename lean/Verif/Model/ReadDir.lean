import Verif.Model.Static
/-
Model of the directory reading of a file of `FS(fSys)`: /repo/static/fs.go:800-862 (`ioFile.ReadDir`, `ioFile.Readdir`).

A directory that can be read is a state and a function `ReadDir(n)` on it (`fs.ReadDirFile`); an entry is its name and what
`Info()` gives for it (nothing: an error). Go's `count - len(list)` cannot overflow where it is computed: the list is empty or
shorter than `count`.
-/
namespace Verif

/-- `fs.DirEntry`; `info` is `none` if `Info()` returns an error.  fs.go:846-852. -/
structure DirEnt where
  name : Str
  info : Option FileInfo
  deriving DecidableEq, Repr

/-- The errors of reading a directory: `io.EOF`, `errMissingReadDir` (fs.go:820), others. -/
inductive DirErr where
  | eof
  | missing
  | fs (e : FsErr)
  deriving DecidableEq, Repr

/-- `fs.ReadDirFile.ReadDir` of a directory in some state.  Called in fs.go:835, 845. -/
abbrev DirRead (σ : Type) := σ → Int → (List DirEnt × Option DirErr) × σ

/-- fs.go:843-862: the loop of `Readdir`. -/
def readdirLoop {σ : Type} (rd : DirRead σ) (count : Int) : Nat → σ → List FileInfo → Outcome ((List FileInfo × Option DirErr) × σ)
  | 0, _, _ => .outOfFuel
  | fuel + 1, s, list =>
    let r := rd s (count - list.length)
    let list := list ++ r.1.1.filterMap (·.info)
    if r.1.2 ≠ none then .ret ((list, r.1.2), r.2)
    else if count < 0 ∨ (list.length : Int) ≥ count then .ret ((list, none), r.2)
    else readdirLoop rd count fuel r.2 list

/-- fs.go:838-862 `ioFile.Readdir`; the file is not a `fs.ReadDirFile` if there is no `rd`. -/
def ioReaddir {σ : Type} (rd : Option (DirRead σ)) (count : Int) (fuel : Nat) (s : σ) : Outcome ((List FileInfo × Option DirErr) × σ) :=
  match rd with
  | none => .ret (([], some .missing), s)
  | some rd => readdirLoop rd count fuel s []

/-- fs.go:830-836 `ioFile.ReadDir`. -/
def ioReadDir {σ : Type} (rd : Option (DirRead σ)) (count : Int) (s : σ) : (List DirEnt × Option DirErr) × σ :=
  match rd with
  | none => (([], some .missing), s)
  | some rd => rd s count

end Verif
