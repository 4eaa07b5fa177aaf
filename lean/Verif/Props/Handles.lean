import Verif.Spec.Handles
import Verif.Model.StaticMain
/-
C121: files are closed.
-/
namespace Verif
open Spec

section
variable (lib : Lib) (href : Str → Str) (r : HttpReq) (w : HttpResp)

theorem serveDirEv_same (fi : FileInfo) (f : FsFile) (n : Nat) (log : List Access) :
    (serveDirEv lib href r w fi f n log).1 = serveDir lib href r w fi f log := by
  unfold serveDirEv serveDir
  split <;> rfl

theorem serveOpenEv_same (fi : FileInfo) (c : Content) (n : Nat) (log : List Access) :
    (serveOpenEv lib r w fi c n log).1 = serveOpen lib r w fi c log := rfl

theorem serveIndexEv_same (fsm : FileSys) (name : Str) (fi : FileInfo) (f : FsFile) (log : List Access) :
    (serveIndexEv lib href fsm name r w fi f log).1 = serveIndex lib href fsm name r w fi f log := by
  unfold serveIndexEv serveIndex
  dsimp only
  generalize fsm (trimSuffix name b!"/" ++ b!"/index.html") = o
  obtain ⟨x, l⟩ := o
  cases x with
  | error e => exact serveDirEv_same lib href r w _ _ _ _
  | ok ff =>
    dsimp only
    generalize hst : ff.stat = st
    cases st with
    | error e => exact serveDirEv_same lib href r w _ _ _ _
    | ok dd =>
      dsimp only
      split
      · exact serveDirEv_same lib href r w _ _ _ _
      · rfl

theorem serveStatEv_same (fsm : FileSys) (name : Str) (fi : FileInfo) (f : FsFile) (log : List Access) :
    (serveStatEv lib href fsm name r w fi f log).1 = serveStat lib href fsm name r w fi f log := by
  unfold serveStatEv serveStat
  split
  · split
    · rfl
    · exact serveIndexEv_same lib href r w _ _ _ _ _
  · rfl

theorem serveFileEv_same (fsm : FileSys) (name : Str) (showDir redirect : Bool) :
    (serveFileEv lib href fsm name showDir redirect r w).1 = serveFile lib href fsm name showDir redirect r w := by
  unfold serveFileEv serveFile
  split
  · rfl
  · dsimp only
    generalize fsm name = o
    obtain ⟨x, l⟩ := o
    cases x with
    | error e => rfl
    | ok f =>
      dsimp only
      unfold serveOpenedEv
      generalize hst : f.stat = st
      cases st with
      | error e => rfl
      | ok fi =>
        dsimp only
        split
        · rfl
        · split
          · cases canonicalRedirect lib r w fi.isDir with
            | ret y =>
              cases y with
              | some w' => rfl
              | none => exact serveStatEv_same lib href r w _ _ _ _ _
            | panic => rfl
            | outOfFuel => rfl
          · exact serveStatEv_same lib href r w _ _ _ _ _

/-- C121: the events are those of the functions of Model/Static: what they answer is the same. -/
theorem C121_same (root : FileSys) (os : RawFS) (name : Str) :
    (fileServeEv lib href root r w).1 = fileServe lib href root r w ∧ (ServeFileEv lib href os name r w).1 = ServeFile lib href os name r w := by
  constructor
  · unfold fileServeEv fileServe
    split <;> exact serveFileEv_same lib href _ w _ _ _ _
  · unfold ServeFileEv ServeFile
    split
    · rfl
    · exact serveFileEv_same lib href r w _ _ _ _

/-- Files that are not directories, or refused as such: at most number 0, which is closed. -/
theorem serveFileEv_tidy (fsm : FileSys) (name : Str) (redirect : Bool) : Tidy (serveFileEv lib href fsm name false redirect r w).2 := by
  unfold serveFileEv
  split
  · rfl
  · dsimp only
    split
    · rfl
    · dsimp only
      unfold serveOpenedEv
      split
      · rfl
      · rename_i fi _
        split
        · rfl
        · rename_i hd
          have hdir : fi.isDir = false := by
            cases h : fi.isDir with
            | false => rfl
            | true => exact absurd ⟨rfl, h⟩ hd
          have hstat : ∀ f log, (serveStatEv lib href fsm name r w fi f log).2 = ([.used 0], 0) := by
            intro f log
            unfold serveStatEv
            rw [hdir]
            rfl
          split
          · split
            · rfl
            · dsimp only; rw [hstat]; rfl
            · rfl
            · rfl
          · dsimp only; rw [hstat]; rfl

/-- C121: whatever is asked for and whatever the file system answers, also with errors, every file that a static route or
`ServeFile` opens is closed once, after its last use. -/
theorem C121_closed (root : FileSys) (os : RawFS) (name : Str) :
    Tidy (fileServeEv lib href root r w).2 ∧ Tidy (ServeFileEv lib href os name r w).2 := by
  constructor
  · unfold fileServeEv
    split <;> exact serveFileEv_tidy lib href _ w _ _ _
  · unfold ServeFileEv
    split
    · rfl
    · exact serveFileEv_tidy lib href r w _ _ _

/-- At most one file is open at a time. -/
theorem C121_one (root : FileSys) : (fileServeEv lib href root r w).2.count (.opened 0) ≤ 1 ∧
    ∀ n, .opened n ∈ (fileServeEv lib href root r w).2 → n = 0 := by
  have go : ∀ (fsm : FileSys) (name : Str) (r : HttpReq),
      (serveFileEv lib href fsm name false false r w).2.count (.opened 0) ≤ 1 ∧
      ∀ n, .opened n ∈ (serveFileEv lib href fsm name false false r w).2 → n = 0 := by
    intro fsm name r
    unfold serveFileEv
    split
    · simp
    · dsimp only
      split
      · simp
      · dsimp only
        unfold serveOpenedEv
        split
        · exact ⟨by dsimp only; decide, by simp⟩
        · rename_i fi _
          split
          · exact ⟨by dsimp only; decide, by simp⟩
          · rename_i hd
            have hdir : fi.isDir = false := by
              cases h : fi.isDir with
              | false => rfl
              | true => exact absurd ⟨rfl, h⟩ hd
            have hstat : ∀ f log, (serveStatEv lib href fsm name r w fi f log).2 = ([.used 0], 0) := by
              intro f log
              unfold serveStatEv
              rw [hdir]
              rfl
            simp only [Bool.false_eq_true, if_false]
            rw [hstat]
            exact ⟨by decide, by simp⟩
  unfold fileServeEv
  split <;> exact go _ _ _

/-- A file counts as opened when the file system gave it. -/
theorem serveFileEv_opened (fsm : FileSys) (name : Str) (showDir redirect : Bool) (r : HttpReq) :
    .opened 0 ∈ (serveFileEv lib href fsm name showDir redirect r w).2 ↔
      hasSuffix r.path b!"/index.html" = false ∧ ∃ f, (fsm name).1 = .ok f := by
  unfold serveFileEv
  split
  · rename_i h; simp [h]
  · rename_i h
    dsimp only
    split
    · rename_i e he; simp [he]
    · rename_i f hf; simp [h, hf]

/-- C121: no file is left out: of a request with a path from "/" on, number 0 is opened just when the path does not end in
"/index.html" and the root of the static route opens the cleaned path. -/
theorem C121_opened (root : FileSys) (hp : hasPrefix r.path b!"/" = true) :
    .opened 0 ∈ (fileServeEv lib href root r w).2 ↔
      hasSuffix r.path b!"/index.html" = false ∧ ∃ f, (root (pathClean r.path)).1 = .ok f := by
  unfold fileServeEv
  rw [if_pos hp]
  exact serveFileEv_opened lib href w root _ false false r

end

/-- The listing mode, which no exported function uses, would not be tidy: of a directory with an index page the directory
stays open, and the page is used after it was closed and closed twice. -/
theorem listing_untidy (lib : Lib) (href : Str → Str) (r : HttpReq) (w : HttpResp) (fsm : FileSys) (name : Str)
    (hi : hasSuffix r.path b!"/index.html" = false) (f ff : FsFile) (fi dd : FileInfo) (log log' : List Access)
    (h1 : fsm name = (.ok f, log)) (h2 : f.stat = .ok fi) (h3 : fi.isDir = true) (h4 : r.path.getLast? = some 47)
    (h5 : fsm (trimSuffix name b!"/" ++ b!"/index.html") = (.ok ff, log')) (h6 : ff.stat = .ok dd) (h7 : dd.isDir = false) :
    (serveFileEv lib href fsm name true false r w).2 =
      [.opened 0, .used 0, .opened 1, .used 1, .closed 1, .used 1, .closed 1] := by
  unfold serveFileEv
  rw [hi]
  simp only [Bool.false_eq_true, if_false]
  rw [h1]
  simp only
  unfold serveOpenedEv
  rw [h2]
  simp only [Bool.true_eq_false, false_and, if_false, Bool.false_eq_true]
  unfold serveStatEv
  rw [h3]
  simp only [if_true]
  rw [h4]
  simp only [ne_eq, not_true, if_false]
  unfold serveIndexEv
  simp only
  rw [h5]
  simp only
  rw [h6]
  simp only
  rw [h7]
  rfl

section Examples
/-- A file system with one file and one directory with an index page. -/
def tidyFS : FileSys := fun n =>
  if n = b!"/a" then (.ok ⟨.ok ⟨b!"a", 2, false, 0⟩, ⟨b!"hi", true⟩, ⟨[], true⟩, .error .notExist⟩, [.open n])
  else if n = b!"/d" then (.ok ⟨.ok ⟨b!"d", 0, true, 0⟩, ⟨[], true⟩, ⟨[], true⟩, .ok []⟩, [.open n])
  else if n = b!"/d/index.html" then (.ok ⟨.ok ⟨b!"index.html", 2, false, 0⟩, ⟨b!"in", true⟩, ⟨[], true⟩, .error .notExist⟩, [.open n])
  else (.error .notExist, [.open n])

def tidyLib : Lib := ⟨⟨fun _ => none, fun _ => []⟩, fun _ => b!"t/t", [], [], id⟩

example : (fileServeEv tidyLib id tidyFS ⟨b!"GET", b!"/a", [], fun _ => []⟩ .fresh).2 = [.opened 0, .used 0, .used 0, .closed 0] := by
  decide +kernel
example : (fileServeEv tidyLib id tidyFS ⟨b!"GET", b!"/d/", [], fun _ => []⟩ .fresh).2 = [.opened 0, .used 0, .closed 0] := by
  decide +kernel
example : (fileServeEv tidyLib id tidyFS ⟨b!"GET", b!"/none", [], fun _ => []⟩ .fresh).2 = [] := by decide +kernel
example : ¬ Tidy (serveFileEv tidyLib id tidyFS b!"/d" true false ⟨b!"GET", b!"/d/", [], fun _ => []⟩ .fresh).2 := by
  unfold Tidy; decide +kernel
end Examples

end Verif
