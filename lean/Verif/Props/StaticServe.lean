import Verif.Props.Static
/-
C77 (and C70): files served by StaticFile and FixStaticFileFS routes.
-/
namespace Verif
open Spec

section
variable (lib : Lib) (href : Str → Str) (fSys : RawFS) (filePath urlPath : Str) (r : HttpReq) (w : HttpResp)

/-- A file that can be opened is sent whole. -/
theorem serveFile_plain (root : FileSys) (name : Str) (hi : ¬ (hasSuffix r.path b!"/index.html" = true))
    (f : FsFile) (fi : FileInfo) (log : List Access) (ho : root name = (.ok f, log)) (hs : f.stat = .ok fi)
    (hd : fi.isDir = false) (hsize : fi.size = f.content.data.length) (hlen : f.content.data.length < 2 ^ 63)
    (hseek : f.content.seekable = true) (hmethod : r.method = b!"GET") (hplain : PlainRequest r) :
    ∃ s, serveFile lib href root name false false r w = .ret s ∧ s.resp.status = 200 ∧
      s.resp.body = w.body ++ f.content.data ∧ s.err = none ∧ s.log = log := by
  unfold serveFile
  simp only
  rw [if_neg hi, ho]
  simp only
  rw [hs]
  simp only
  rw [if_neg (by simp [hd])]
  simp only [Bool.false_eq_true, if_false]
  unfold serveStat
  rw [hd]
  simp only [Bool.false_eq_true, if_false]
  unfold serveOpen
  rw [hsize]
  obtain ⟨w', k1, k2, k3, -⟩ := C56_whole lib r w fi.name fi.modTime
    f.content [] hseek hlen (plain_preconditions lib _ _ _ hplain) [] rfl (Or.inl rfl)
  rw [k1, Outcome.bind_ret]
  exact ⟨_, rfl, k2, k3 (by rw [hmethod]; decide), rfl, rfl⟩

/-- The path of a clean name, normalised and as it is asked of the file system. -/
theorem clean_name (l : List Str) (hne : l ≠ []) (hl : ∀ s ∈ l, Elem s ∧ ¬ HasEscape s) (hi : l.getLast? ≠ some b!"index.html") :
    normalizePath (47 :: joinByte 47 l) = 47 :: joinByte 47 l ∧
    hasPrefix (47 :: joinByte 47 l) b!"/" = true ∧
    ¬ (hasSuffix (47 :: joinByte 47 l) b!"/index.html" = true) ∧
    ioOpen fSys (pathClean (47 :: joinByte 47 l)) = openMapped fSys (fileName l) := by
  have hn : Normal l := normal_good l hne (fun s hs => (hl s hs).1)
  have hl' : ∀ s ∈ l, Elem s ∧ ¬ HasEsc s := fun s hs => ⟨(hl s hs).1, fun h => (hl s hs).2 ((hasEsc_iff s).mp h)⟩
  refine ⟨?_, by simp [hasPrefix], ?_, ?_⟩
  · rw [← ofSegs_join l hne]
    exact normalizePath_id l hn (fun h => by
      obtain ⟨s, hs, h⟩ := hasEsc_segs l h
      exact (hl' s hs).2 h)
  · rw [← ofSegs_join l hne]
    obtain ⟨A, x, rfl⟩ : ∃ A x, l = A ++ [x] := by
      rcases List.eq_nil_or_concat l with h | ⟨A, x, h⟩
      · exact absurd h hne
      · exact ⟨A, x, by simp [h]⟩
    intro h
    have := (suffix_segs b!"index.html" (by decide) A x (hl x (by simp)).1.2.2.2).mp h
    exact hi (by rw [this]; simp)
  · have hcl : pathClean (47 :: joinByte 47 l) = 47 :: joinByte 47 l := by
      rw [← ofSegs_join _ hne, pathClean_plain _ hne (fun s hs => (hl s hs).1.2.2.2) (fun h => (hl _ h).1.2.2.1 rfl),
        filter_good _ (fun s hs => (hl s hs).1), ofSegs_join _ hne]
    rw [hcl]
    unfold ioOpen
    rw [io_name _ (fun s hs => (hl s hs).1)]

/-- **C77** A GET request without conditions and ranges to a StaticFile route, for a file that exists in the configured
directory (whose file system is `fSys`), is answered 200 with exactly the bytes of that file, and nothing else is
opened. -/
theorem C77_serves (U : Str) (hurl : urlPath = b!"/" ++ U) (rest : List Str) (hrne : rest ≠ [])
    (hrest : ∀ s ∈ rest, Elem s ∧ ¬ HasEscape s)
    (hpath : r.path = b!"/" ++ U ++ b!"/" ++ fileName rest) (hi : rest.getLast? ≠ some b!"index.html")
    (hmethod : r.method = b!"GET") (hplain : PlainRequest r)
    (f : FsFile) (fi : FileInfo) (ho : fSys.opens (fileName rest) = .ok f) (hs : f.stat = .ok fi)
    (hd : fi.isDir = false) (hsize : fi.size = f.content.data.length) (hlen : f.content.data.length < 2 ^ 63)
    (hseek : f.content.seekable = true) :
    ∃ s, (staticFileRun lib href fSys urlPath r w).result = .ret s ∧ s.resp.status = 200 ∧
      s.resp.body = w.body ++ f.content.data ∧ s.err = none ∧ s.log = [.open (fileName rest)] := by
  have hU : trimPrefix urlPath b!"/" = U := by rw [hurl]; simp [trimPrefix, hasPrefix]
  have hu : trimPrefix (trimPrefix r.path b!"/") U = 47 :: joinByte 47 rest := by
    have h1 : trimPrefix r.path b!"/" = U ++ 47 :: joinByte 47 rest := by
      rw [hpath, fileName_eq rest hrne]; simp [trimPrefix, hasPrefix]
    rw [h1]
    unfold trimPrefix hasPrefix
    rw [if_pos (by rw [List.isPrefixOf_iff_prefix]; exact ⟨_, rfl⟩)]
    simp
  obtain ⟨k1, k2, k3, k4⟩ := clean_name fSys rest hrne hrest hi
  unfold staticFileRun runWith
  simp only
  rw [hU, hu, k1]
  unfold fileServe
  simp only
  rw [if_pos k2]
  have hopen : openMapped fSys (fileName rest) = (.ok f, [.open (fileName rest)]) := by
    unfold openMapped; rw [ho]
  exact serveFile_plain lib href { r with path := 47 :: joinByte 47 rest } w (ioOpen fSys) _ k3 f fi _ (by rw [k4, hopen]) hs hd
    hsize hlen hseek hmethod hplain

/-- **C70 (partial)** and a GET request to a FixStaticFileFS route gets exactly the bytes of that file, whatever the path
of the request. -/
theorem C70_serves_partial (l : List Str) (hne : l ≠ []) (hl : ∀ s ∈ l, Elem s ∧ ¬ HasEscape s)
    (hfile : filePath = b!"/" ++ fileName l) (hi : l.getLast? ≠ some b!"index.html")
    (hmethod : r.method = b!"GET") (hplain : PlainRequest r)
    (f : FsFile) (fi : FileInfo) (ho : fSys.opens (fileName l) = .ok f) (hs : f.stat = .ok fi)
    (hd : fi.isDir = false) (hsize : fi.size = f.content.data.length) (hlen : f.content.data.length < 2 ^ 63)
    (hseek : f.content.seekable = true) :
    ∃ s, (fixStaticRun lib href fSys filePath r w).result = .ret s ∧ s.resp.status = 200 ∧
      s.resp.body = w.body ++ f.content.data ∧ s.err = none ∧ s.log = [.open (fileName l)] := by
  obtain ⟨k1, k2, k3, k4⟩ := clean_name fSys l hne hl hi
  unfold fixStaticRun runWith
  simp only
  have : filePath = 47 :: joinByte 47 l := by rw [hfile, fileName_eq l hne]; rfl
  rw [this, k1]
  unfold fileServe
  simp only
  rw [if_pos k2]
  have hopen : openMapped fSys (fileName l) = (.ok f, [.open (fileName l)]) := by
    unfold openMapped; rw [ho]
  exact serveFile_plain lib href { r with path := 47 :: joinByte 47 l } w (ioOpen fSys) _ k3 f fi _ (by rw [k4, hopen]) hs hd
    hsize hlen hseek hmethod hplain

end

section Examples

theorem no_escape (s : Str) (h : (37 : UInt8) ∉ s) : ¬ HasEscape s := by
  rintro ⟨a, x, y, b, rfl, -⟩
  exact h (by simp)

example : ∃ s, (staticFileRun exLib id exFS b!"/files" (exGet b!"/files/static/a.txt") HttpResp.fresh).result = .ret s ∧
    s.resp.status = 200 ∧ s.resp.body = HttpResp.fresh.body ++ b!"hello" ∧ s.err = none ∧
    s.log = [.open (fileName [b!"static", b!"a.txt"])] := by
  refine C77_serves exLib id exFS b!"/files" (exGet b!"/files/static/a.txt") HttpResp.fresh
    b!"files" rfl [b!"static", b!"a.txt"] (by simp) ?_
    (by decide +kernel) (by decide) rfl ⟨rfl, rfl, rfl, rfl, rfl⟩ (exFile b!"a.txt" b!"hello") (exInfo b!"a.txt" b!"hello")
    rfl rfl rfl rfl (by decide) rfl
  intro s hs
  simp only [List.mem_cons, List.not_mem_nil, or_false] at hs
  rcases hs with rfl | rfl <;> exact ⟨⟨by decide, by decide, by decide, by decide⟩, no_escape _ (by decide)⟩

example : ∃ s, (fixStaticRun exLib id exFS b!"/static/a.txt" (exGet b!"/any/thing") HttpResp.fresh).result = .ret s ∧
    s.resp.status = 200 ∧ s.resp.body = HttpResp.fresh.body ++ b!"hello" ∧ s.err = none ∧
    s.log = [.open (fileName [b!"static", b!"a.txt"])] := by
  refine C70_serves_partial exLib id exFS b!"/static/a.txt" (exGet b!"/any/thing") HttpResp.fresh
    [b!"static", b!"a.txt"] (by simp) ?_ rfl
    (by decide) rfl ⟨rfl, rfl, rfl, rfl, rfl⟩ (exFile b!"a.txt" b!"hello") (exInfo b!"a.txt" b!"hello")
    rfl rfl rfl rfl (by decide) rfl
  intro s hs
  simp only [List.mem_cons, List.not_mem_nil, or_false] at hs
  rcases hs with rfl | rfl <;> exact ⟨⟨by decide, by decide, by decide, by decide⟩, no_escape _ (by decide)⟩

end Examples

end Verif
