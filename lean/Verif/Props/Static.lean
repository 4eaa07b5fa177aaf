import Verif.Lemmas.Static
/-
C51, C52, C53, C61, C62, C69, C70, C71, C72: the file servers.
-/
namespace Verif
open Spec

section
variable (lib : Lib) (href : Str → Str) (fSys : RawFS) (filePath urlPath : Str) (r : HttpReq) (w : HttpResp)

/-! ### C51 -/

theorem serveHTTP_inside : ∃ s, fileServe lib href (ioOpen fSys) r w = .ret s ∧ ∀ a ∈ s.log, InsideRoot a.name := by
  have key : ∀ (p : Str) (r : HttpReq), hasPrefix p b!"/" = true → ∃ s, serveFile lib href (ioOpen fSys) (pathClean p) false false r w = .ret s ∧
      ∀ a ∈ s.log, InsideRoot a.name := by
    intro p r hp
    obtain ⟨s, h1, h2⟩ := serveFile_ret lib href (ioOpen fSys) (pathClean p) r w
    refine ⟨s, h1, ?_⟩
    rw [h2]
    intro a ha
    split at ha
    · simp at ha
    · have hc : pathClean p = 47 :: joinByte 47 (cleanSegs true p) := by
        unfold pathClean
        rw [if_neg (by intro h; subst h; simp [hasPrefix] at hp), if_pos hp]
      unfold ioOpen at ha
      rw [hc, io_name _ (cleanSegs_good p)] at ha
      exact openMapped_inside fSys _ (cleanSegs_good p) a ha
  unfold fileServe
  by_cases h : hasPrefix r.path b!"/"
  · rw [if_pos h]; exact key r.path r h
  · rw [if_neg h]; exact key (47 :: r.path) _ (by simp [hasPrefix])

theorem runWith_inside (newU : Str) :
    ∃ s, (runWith lib href (ioOpen fSys) newU r w).result = .ret s ∧ ∀ a ∈ s.log, InsideRoot a.name :=
  serveHTTP_inside lib href fSys { r with path := normalizePath newU } w

/-- C51: whatever the request path (any bytes), the file server and the three kinds of static routes answer without a
panic and ask the file system only for names inside its root. -/
theorem C51_inside :
    (∃ s, fileServe lib href (ioOpen fSys) r w = .ret s ∧ ∀ a ∈ s.log, InsideRoot a.name) ∧
    (∃ s, (staticFileRun lib href fSys urlPath r w).result = .ret s ∧ ∀ a ∈ s.log, InsideRoot a.name) ∧
    (∃ s, (staticFSRun lib href fSys filePath urlPath r w).result = .ret s ∧ ∀ a ∈ s.log, InsideRoot a.name) ∧
    (∃ s, (fixStaticRun lib href fSys filePath r w).result = .ret s ∧ ∀ a ∈ s.log, InsideRoot a.name) :=
  ⟨serveHTTP_inside lib href fSys r w, runWith_inside lib href fSys r w _, runWith_inside lib href fSys r w _,
    runWith_inside lib href fSys r w _⟩

/-! ### C52 -/

/-- The path of a request, as the HTTP library gives it, and its segments. -/
theorem request_path (raw : Str) : ∃ l t, Normal l ∧ normalizePath raw = 47 :: t ∧ splitByte 47 t = l := by
  obtain ⟨l, hl, h⟩ := normalizePath_normal raw
  refine ⟨l, joinByte 47 l, hl, ?_, splitByte_join 47 l hl.1 hl.2.1⟩
  rw [h, ofSegs_join l hl.1]

/-- What is left of a request path without its prefix has no ".." and no escapes. -/
theorem rest_segs (raw U : Str) (hesc : ¬ HasEsc (normalizePath raw))
    (hroute : (∃ rest, normalizePath raw = b!"/" ++ U ++ b!"/" ++ rest) ∨ ¬ ∃ rest, normalizePath raw = b!"/" ++ U ++ rest) :
    ∀ s ∈ splitByte 47 (trimPrefix (trimPrefix (normalizePath raw) b!"/") U), s ≠ b!".." ∧ ¬ HasEsc s := by
  obtain ⟨l, t, hl, hp, hs⟩ := request_path raw
  have hfacts : ∀ s ∈ l, s ≠ b!".." ∧ ¬ HasEsc s := by
    intro s hm
    refine ⟨fun h => hl.2.2.2 (h ▸ hm), fun h => hesc ?_⟩
    rw [hp]
    have : ofSegs l = 47 :: t := by rw [← hs, ofSegs_split]
    rw [← this]
    exact hasEsc_of_seg hm h
  have ht : trimPrefix (normalizePath raw) b!"/" = t := by rw [hp]; simp [trimPrefix, hasPrefix]
  rw [ht]
  rcases hroute with ⟨rest, hr⟩ | hr
  · have htu : t = U ++ 47 :: rest := by
      rw [hp] at hr
      simpa using hr
    have : trimPrefix t U = 47 :: rest := by
      unfold trimPrefix hasPrefix
      rw [htu, if_pos (by rw [List.isPrefixOf_iff_prefix]; exact ⟨47 :: rest, rfl⟩)]
      simp
    rw [this]
    have hsp : splitByte 47 (47 :: rest) = [] :: splitByte 47 rest := by rw [splitByte, if_pos rfl]
    rw [hsp]
    intro s hm
    simp only [List.mem_cons] at hm
    rcases hm with rfl | hm
    · refine ⟨by decide, ?_⟩
      rintro ⟨a, x, y, b, h, _⟩
      exact absurd (congrArg List.length h) (by simp)
    · apply hfacts
      rw [← hs, htu, splitByte_append_gen]
      simp [hm]
  · have : trimPrefix t U = t := by
      unfold trimPrefix hasPrefix
      rw [if_neg]
      intro h
      rw [List.isPrefixOf_iff_prefix] at h
      obtain ⟨rest, h⟩ := h
      exact hr ⟨rest, by rw [hp, ← h]; simp⟩
    rw [this, hs]
    exact hfacts

/-- The name a StaticFileFS route opens. -/
theorem staticFS_name (dir : List Str) (hdir : ∀ s ∈ dir, Elem s ∧ ¬ HasEscape s)
    (hF : trimPrefix filePath b!"/" = joinByte 47 dir)
    (u : Str) (hu : ∀ s ∈ splitByte 47 u, s ≠ b!".." ∧ ¬ HasEsc s) (r' : HttpReq)
    (hr' : r' = { r with path := normalizePath (pathJoin (trimPrefix filePath b!"/") u) }) :
    fileServe lib href (ioOpen fSys) r' w =
      serveFile lib href (fun _ => openMapped fSys (fileName (dir ++ (splitByte 47 u).filter keepSeg))) [] false false r' w := by
  have hdir' : ∀ s ∈ dir, Elem s ∧ ¬ HasEsc s := fun s hs => ⟨(hdir s hs).1, fun h => (hdir s hs).2 ((hasEsc_iff s).mp h)⟩
  obtain ⟨h1, h2, h3⟩ := joined_path dir hdir' u hu _ hF
  have hgood : ∀ s ∈ dir ++ (splitByte 47 u).filter keepSeg, Elem s := by
    intro s hs
    rw [List.mem_append, List.mem_filter] at hs
    rcases hs with hs | ⟨hs, hk⟩
    · exact (hdir s hs).1
    · exact keepSeg_good hk (hu s hs).1 (splitByte_not_mem 47 u s hs)
  have hpath : r'.path = normalizePath (pathJoin (trimPrefix filePath b!"/") u) := by rw [hr']
  unfold fileServe
  rw [hpath, if_pos h1, h2]
  have : ioOpen fSys (47 :: joinByte 47 (dir ++ (splitByte 47 u).filter keepSeg)) =
      openMapped fSys (fileName (dir ++ (splitByte 47 u).filter keepSeg)) := by
    unfold ioOpen
    rw [io_name _ hgood]
  unfold serveFile
  simp only
  rw [this]
  split
  · rfl
  · split
    · rfl
    · split
      · rfl
      · split
        · rfl
        · rename_i fi _ hd
          unfold serveStat
          cases hfi : fi.isDir
          · rfl
          · exact absurd (by simp [hfi]) hd

/-- C52 (partial): a request to a StaticFileFS route opens only files in the configured directory, if the path the
request was routed by contains no percent escape (then it would be decoded a second time) and either starts with the
route's prefix followed by a slash or not with the prefix at all. Missing: paths with escapes, for which it is false. -/
theorem C52_inside_partial (dir : List Str) (hdir : ∀ s ∈ dir, Elem s ∧ ¬ HasEscape s)
    (hfile : ∃ f, (f = [] ∧ dir = [] ∨ f = fileName dir ∧ dir ≠ []) ∧ (filePath = f ∨ filePath = b!"/" ++ f))
    (raw U : Str) (hpath : r.path = normalizePath raw) (hurl : urlPath = b!"/" ++ U) (hesc : ¬ HasEscape r.path)
    (hroute : (∃ rest, r.path = b!"/" ++ U ++ b!"/" ++ rest) ∨ ¬ ∃ rest, r.path = b!"/" ++ U ++ rest) :
    ∃ s, (staticFSRun lib href fSys filePath urlPath r w).result = .ret s ∧ ∀ n, .open n ∈ s.log → InsideDir dir n := by
  have hF : trimPrefix filePath b!"/" = joinByte 47 dir := by
    obtain ⟨f, hf, hfp⟩ := hfile
    have hj : f = joinByte 47 dir := by
      rcases hf with ⟨rfl, rfl⟩ | ⟨rfl, hd⟩
      · rfl
      · exact fileName_eq dir hd
    subst hj
    rcases hfp with rfl | rfl
    · unfold trimPrefix
      rcases hf with ⟨h, hd⟩ | ⟨h, hd⟩
      · rw [h]; rfl
      · rw [joinByte_head_ne dir hd (fun s hs => (hdir s hs).1)]; rfl
    · simp [trimPrefix, hasPrefix]
  have hU : trimPrefix urlPath b!"/" = U := by rw [hurl]; simp [trimPrefix, hasPrefix]
  rw [hpath] at hesc hroute
  have hu := rest_segs raw U (fun h => hesc ((hasEsc_iff _).mp h)) hroute
  rw [← hpath] at hu
  unfold staticFSRun runWith
  simp only
  rw [hU]
  generalize trimPrefix (trimPrefix r.path b!"/") U = u at hu ⊢
  rw [staticFS_name lib href fSys filePath r w dir hdir hF u hu _ rfl]
  obtain ⟨s, h1, h2⟩ := serveFile_ret lib href
    (fun _ => openMapped fSys (fileName (dir ++ (splitByte 47 u).filter keepSeg))) []
    { r with path := normalizePath (pathJoin (trimPrefix filePath b!"/") u) } w
  refine ⟨s, h1, fun n hn => ?_⟩
  rw [h2] at hn
  split at hn
  · simp at hn
  · rw [openMapped_open] at hn
    refine ⟨(splitByte 47 u).filter keepSeg, fun s hs => ?_, hn⟩
    rw [List.mem_filter] at hs
    exact keepSeg_good hs.2 (hu s hs.1).1 (splitByte_not_mem 47 u s hs.1)

/-! ### C53 -/

/-- C53, directories: a request for a directory is answered 403 with a fixed text, and no error is returned. -/
theorem C53_directory (root : FileSys) (hp : hasPrefix r.path b!"/" = true) (hi : ¬ ∃ pre, r.path = pre ++ b!"/index.html")
    (f : FsFile) (log : List Access) (fi : FileInfo) (ho : root (pathClean r.path) = (.ok f, log)) (hs : f.stat = .ok fi)
    (hd : fi.isDir = true) :
    ∃ s, fileServe lib href root r w = .ret s ∧ s.resp.status = 403 ∧ s.resp.body = w.body ++ b!"403 Forbidden" ∧
      s.err = none ∧ s.log = log := by
  have hi' : hasSuffix r.path b!"/index.html" = false := by
    unfold hasSuffix
    rw [Bool.eq_false_iff]
    intro h
    rw [List.isSuffixOf_iff_suffix] at h
    obtain ⟨pre, h⟩ := h
    exact hi ⟨pre, h.symm⟩
  unfold fileServe serveFile
  rw [if_pos hp, hi']
  simp only [Bool.false_eq_true, if_false]
  rw [ho]
  simp only
  rw [hs]
  simp only
  rw [if_pos (by simp [hd])]
  exact ⟨_, rfl, rfl, rfl, rfl, rfl⟩

/-- The same files with other directory entries. -/
def withEntries (root : FileSys) (e : Str → Except FsErr (List (Str × Bool))) : FileSys := fun n =>
  match root n with
  | (.ok f, log) => (.ok { f with entries := e n }, log)
  | (.error x, log) => (.error x, log)

theorem withEntries_cases (root : FileSys) (e : Str → Except FsErr (List (Str × Bool))) (n : Str) :
    (∃ f, (root n).1 = .ok f ∧ withEntries root e n = (.ok { f with entries := e n }, (root n).2)) ∨
    ∃ x, (root n).1 = .error x ∧ withEntries root e n = (.error x, (root n).2) := by
  unfold withEntries
  cases h : root n with
  | mk a b =>
    cases a with
    | ok f => exact Or.inl ⟨f, rfl, rfl⟩
    | error x => exact Or.inr ⟨x, rfl, rfl⟩

/-- C53, no listing: nothing in the answer depends on the entries of any directory (nor on how they would be
displayed). -/
theorem C53_no_listing (root : FileSys) (e : Str → Except FsErr (List (Str × Bool))) (href' : Str → Str) :
    fileServe lib href' (withEntries root e) r w = fileServe lib href root r w := by
  have key : ∀ (n : Str) (r : HttpReq), serveFile lib href' (withEntries root e) n false false r w =
      serveFile lib href root n false false r w := by
    intro n r
    unfold serveFile
    split
    · rfl
    · simp only
      rcases withEntries_cases root e n with ⟨f, h1, h2⟩ | ⟨x, h1, h2⟩
      · rw [h2, h1]
        simp only
        split
        · rfl
        · split
          · rfl
          · rename_i fi _ hd
            unfold serveStat
            cases hfi : fi.isDir
            · rfl
            · exact absurd (by simp [hfi]) hd
      · rw [h2, h1]
  unfold fileServe
  split
  · exact key _ _
  · exact key _ _

/-- C53, index pages: a request whose path ends in "/index.html" is answered 301 and opens nothing. -/
theorem C53_redirect (root : FileSys) (hp : hasPrefix r.path b!"/" = true) (pre : Str) (hi : r.path = pre ++ b!"/index.html") :
    ∃ s, fileServe lib href root r w = .ret s ∧ s.resp.status = 301 ∧ s.resp.body = w.body ∧ s.err = none ∧ s.log = [] := by
  have hi' : hasSuffix r.path b!"/index.html" = true := by
    unfold hasSuffix
    rw [List.isSuffixOf_iff_suffix]
    exact ⟨pre, hi.symm⟩
  unfold fileServe serveFile
  rw [if_pos hp, if_pos hi']
  exact ⟨_, rfl, rfl, rfl, rfl, rfl⟩

/-! ### C61 -/

/-- C61, exactly: after a static handler ran, whatever it did, the path of the request is what it was before if and
only if that path contains no percent escape. -/
theorem C61_exact (raw : Str) (hpath : r.path = normalizePath raw) :
    ((staticFileRun lib href fSys urlPath r w).path = r.path ↔ ¬ HasEscape r.path) ∧
    ((staticFSRun lib href fSys filePath urlPath r w).path = r.path ↔ ¬ HasEscape r.path) ∧
    ((fixStaticRun lib href fSys filePath r w).path = r.path ↔ ¬ HasEscape r.path) := by
  have key : normalizePath r.path = r.path ↔ ¬ HasEscape r.path := by
    obtain ⟨l, hl, h⟩ := normalizePath_normal raw
    rw [hpath, h, normalizePath_stable l hl, hasEsc_iff]
  exact ⟨key, key, key⟩

/-! ### C62 -/

/-- The three answers to file system errors. -/
def errorAnswer : FsErr → Str × Nat
  | .notExist => (b!"404 page not found", 404)
  | .permission => (b!"403 Forbidden", 403)
  | .other _ => (b!"500 Internal Server Error", 500)

/-- C62, fixed answers: when a file cannot be opened or its data cannot be read, the status and the text added to the
body depend on nothing but the class of the error. -/
theorem C62_answer (root : FileSys) (hp : hasPrefix r.path b!"/" = true) (hi : ¬ ∃ pre, r.path = pre ++ b!"/index.html")
    (e : FsErr)
    (ho : (root (pathClean r.path)).1 = .error e ∨ ∃ f, (root (pathClean r.path)).1 = .ok f ∧ f.stat = .error e) :
    ∃ s, fileServe lib href root r w = .ret s ∧ s.resp.body = w.body ++ (errorAnswer e).1 ∧
      s.resp.status = (errorAnswer e).2 ∧ s.resp.peek b!"Content-Type" = b!"text/plain; charset=utf-8" ∧
      s.err = some (.fs e) := by
  have hi' : hasSuffix r.path b!"/index.html" = false := by
    unfold hasSuffix
    rw [Bool.eq_false_iff]
    intro h
    rw [List.isSuffixOf_iff_suffix] at h
    obtain ⟨pre, h⟩ := h
    exact hi ⟨pre, h.symm⟩
  have hans : toHTTPError e = errorAnswer e := by cases e <;> rfl
  have hct : ∀ (m : Str) (c : Nat), (httpError w m c).peek b!"Content-Type" = b!"text/plain; charset=utf-8" := by
    intro m c
    show ((w.set b!"Content-Type" b!"text/plain; charset=utf-8").set b!"X-Content-Type-Options" b!"nosniff").peek _ = _
    rw [peek_set, if_neg (by decide), peek_set, if_pos rfl]
  unfold fileServe serveFile
  rw [if_pos hp, hi']
  simp only [Bool.false_eq_true, if_false]
  rcases ho with ho | ⟨f, ho, hs⟩
  · rw [ho]
    exact ⟨_, rfl, by rw [← hans]; rfl, by rw [← hans]; rfl, hct _ _, rfl⟩
  · rw [ho]
    simp only
    rw [hs]
    exact ⟨_, rfl, by rw [← hans]; rfl, by rw [← hans]; rfl, hct _ _, rfl⟩

/-- Going down the elements `l` from the root, everything is a directory until something else is met. -/
def BelowFile (stats : Str → Except FsErr FileInfo) (l : List Str) : Prop :=
  ∃ a x b fi, l = a ++ x :: b ∧ stats (fileName (a ++ [x])) = .ok fi ∧ fi.isDir = false ∧
    ∀ a' b', a' ≠ [] → a = a' ++ b' → ∃ d, stats (fileName a') = .ok d ∧ d.isDir = true

theorem mapLoop_below (stat : Str → Except FsErr FileInfo) (orig : FsErr) (rest : List Str) :
    ∀ (done : List Str), (∀ s ∈ rest, Elem s) →
      (∀ a' b', a' ≠ [] → done = a' ++ b' → ∃ d, stat (fileName a') = .ok d ∧ d.isDir = true) →
      (BelowFile stat (done ++ rest) → (mapLoop stat orig done rest).1 = .notExist) ∧
      (¬ BelowFile stat (done ++ rest) → (mapLoop stat orig done rest).1 = orig) := by
  induction rest with
  | nil =>
    intro done _ hd
    refine ⟨?_, fun _ => rfl⟩
    rintro ⟨a, x, b, fi, h1, h2, h3, -⟩
    rw [List.append_nil] at h1
    obtain ⟨d, h4, h5⟩ := hd (a ++ [x]) b (by simp) (by rw [h1]; simp)
    rw [h4] at h2
    have := Except.ok.inj h2
    rw [this] at h5
    rw [h5] at h3; cases h3
  | cons p t ih =>
    intro done hg hd
    have hp := hg p (by simp)
    have hn : joinByte 47 (done ++ [p]) = fileName (done ++ [p]) := (fileName_eq _ (by simp)).symm
    rw [mapLoop, if_neg hp.1]
    simp only
    rw [hn]
    cases hst : stat (fileName (done ++ [p])) with
    | error e =>
      refine ⟨?_, fun _ => rfl⟩
      rintro ⟨a, x, b, fi, h1, h2, h3, h4⟩
      exfalso
      -- a is a prefix of done, or longer
      have hcase : (∃ m, done = a ++ x :: m) ∨ (a = done ∧ x = p) ∨ ∃ m, a = done ++ p :: m := by
        rw [List.append_eq_append_iff] at h1
        obtain ⟨m, m1, m2⟩ | ⟨m, m1, m2⟩ := h1
        · cases m with
          | nil => simp at m1 m2; exact Or.inr (Or.inl ⟨m1, m2.1.symm⟩)
          | cons c m => simp at m2; exact Or.inr (Or.inr ⟨m, by rw [m1, m2.1]⟩)
        · cases m with
          | nil => simp at m1 m2; exact Or.inr (Or.inl ⟨m1.symm, m2.1⟩)
          | cons c m => simp at m2; exact Or.inl ⟨m, by rw [m1, m2.1]⟩
      rcases hcase with ⟨m, hm⟩ | ⟨rfl, rfl⟩ | ⟨m, hm⟩
      · obtain ⟨d, h5, h6⟩ := hd (a ++ [x]) m (by simp) (by rw [hm]; simp)
        rw [h5] at h2
        have := Except.ok.inj h2
        rw [this] at h6
        rw [h6] at h3; cases h3
      · rw [hst] at h2; cases h2
      · obtain ⟨d, h5, -⟩ := h4 (done ++ [p]) m (by simp) (by rw [hm]; simp)
        rw [hst] at h5; cases h5
    | ok fi =>
      simp only
      by_cases hdir : fi.isDir = false
      · rw [if_pos hdir]
        exact ⟨fun _ => rfl, fun h => absurd ⟨done, p, t, fi, rfl, hst, hdir, hd⟩ h⟩
      · rw [if_neg hdir]
        simp only
        have hdir' : fi.isDir = true := by cases h : fi.isDir <;> simp_all
        have := ih (done ++ [p]) (fun s hs => hg s (by simp [hs])) (by
          intro a' b' ha' hab
          rcases List.eq_nil_or_concat b' with rfl | ⟨b'', c, rfl⟩
          · rw [List.append_nil] at hab; subst hab; exact ⟨fi, hst, hdir'⟩
          · have hab' : done ++ [p] = (a' ++ b'') ++ [c] := by rw [hab]; simp
            have := List.append_inj' hab' rfl
            exact hd a' b'' ha' this.1)
        rw [List.append_assoc] at this
        exact this

/-- C62, below a file: the error for a name of the file system is the one it gave, except that any error other than
"not exist" and "permission" becomes "not exist" exactly when a directory on the way is none. -/
theorem C62_below (l : List Str) (hne : l ≠ []) (hg : ∀ s ∈ l, Elem s) (e : FsErr)
    (ho : fSys.opens (fileName l) = .error e) :
    (e = .notExist ∨ e = .permission → (ioOpen fSys (b!"/" ++ fileName l)).1 = .error e) ∧
    (∀ c, e = .other c →
      (BelowFile fSys.stats l → (ioOpen fSys (b!"/" ++ fileName l)).1 = .error .notExist) ∧
      (¬ BelowFile fSys.stats l → (ioOpen fSys (b!"/" ++ fileName l)).1 = .error e)) := by
  have hname : (if b!"/" ++ fileName l = b!"/" then b!"." else trimPrefix (b!"/" ++ fileName l) b!"/") = fileName l := by
    have := io_name l hg
    rw [← fileName_eq l hne] at this
    exact this
  have hio : (ioOpen fSys (b!"/" ++ fileName l)).1 = .error (mapOpenError e (fileName l) fSys.stats).1 := by
    unfold ioOpen
    rw [hname]
    unfold openMapped
    rw [ho]
  rw [hio]
  constructor
  · intro h
    unfold mapOpenError
    rw [if_pos h]
  · rintro c rfl
    unfold mapOpenError
    rw [if_neg (by simp), fileName_eq l hne, splitByte_join 47 l hne (fun s hs => (hg s hs).2.2.2)]
    have := mapLoop_below fSys.stats (.other c) l [] hg (by
      intro a' b' ha' hab
      have : a' = [] := by
        cases a' with
        | nil => rfl
        | cons x y => simp at hab
      exact absurd this ha')
    rw [List.nil_append] at this
    exact ⟨fun h => by rw [this.1 h], fun h => by rw [this.2 h]⟩

/-! ### C71 -/

/-- C71, exactly: an index page redirect is permanent (301) and points to "./?" followed by the path of the request as the file server sees it
and its query. -/
theorem C71_location (root : FileSys) (hp : hasPrefix r.path b!"/" = true) (pre : Str) (hi : r.path = pre ++ b!"/index.html")
    (hq : lib.quotePath r.path ≠ []) :
    ∃ s, fileServe lib href root r w = .ret s ∧ s.resp.status = 301 ∧ s.resp.peek b!"Location" =
      b!"./?" ++ lib.quotePath r.path ++ (if r.query = [] then [] else b!"?" ++ r.query) := by
  have hi' : hasSuffix r.path b!"/index.html" = true := by
    unfold hasSuffix
    rw [List.isSuffixOf_iff_suffix]
    exact ⟨pre, hi.symm⟩
  unfold fileServe serveFile
  rw [if_pos hp, if_pos hi']
  refine ⟨_, rfl, rfl, ?_⟩
  unfold localRedirect
  simp only
  have hlen : (requestURI lib r).length > 0 := by
    unfold requestURI
    cases h : lib.quotePath r.path with
    | nil => exact absurd h hq
    | cons a t => simp
  rw [if_pos hlen]
  show (HttpResp.set _ _ _).peek _ = _
  rw [peek_set, if_pos rfl]
  unfold requestURI
  simp

/-! ### C69 -/

/-- C69, `Dir`: whatever the name, opening it in a directory asks the operating system to open something in it. -/
theorem C69_dir (os : RawFS) (d name n : Str) (h : .open n ∈ (dirOpen os d name).2) :
    BelowDir (pathClean (if d = [] then b!"." else d)) n := by
  unfold dirOpen at h
  simp only at h
  rw [openMapped_open] at h
  have hc : pathClean (47 :: name) = 47 :: joinByte 47 (cleanSegs true (47 :: name)) := by
    unfold pathClean
    rw [if_neg (by simp), if_pos (by simp [hasPrefix])]
  rw [h, hc]
  refine dirName_below _ ?_ _ (cleanSegs_good _)
  split
  · simp
  · assumption

theorem pathSplit_cases (name : Str) :
    ((pathSplit name).1 = [] ∧ (pathSplit name).2 = name ∧ (47 : UInt8) ∉ name) ∨
    ∃ d, (pathSplit name).1 = d ++ b!"/" ∧ name = d ++ 47 :: (pathSplit name).2 ∧ (47 : UInt8) ∉ (pathSplit name).2 := by
  obtain ⟨x, y, h1, h2, h3⟩ := split_last 47 name
  rcases h3 with rfl | h3
  · left
    rw [List.nil_append] at h1
    subst h1
    unfold pathSplit
    rw [lastIndexByte_eq_none _ h2]
    exact ⟨rfl, rfl, h2⟩
  · right
    rcases List.eq_nil_or_concat x with rfl | ⟨d, c, rfl⟩
    · simp at h3
    · simp at h3
      subst h3
      have hn : name = d ++ 47 :: y := by rw [h1]; simp
      have hl := lastIndexByte_split d y h2
      rw [← hn] at hl
      unfold pathSplit
      rw [hl]
      simp only
      have h4 : name.take (d.length + 1) = d ++ b!"/" := by
        have : name = (d ++ b!"/") ++ y := by rw [hn]; simp
        rw [this]
        have h5 : d.length + 1 = (d ++ b!"/").length := by simp
        rw [h5, take_append_len]
      have h5 : name.drop (d.length + 1) = y := by
        rw [hn, drop_append_len]; rfl
      rw [h4, h5]
      exact ⟨d, rfl, hn, h2⟩

/-- The name `ServeFile` asks for. -/
theorem serveFile_name (name : Str) (hn : name ≠ []) (hb : (pathSplit name).2 ≠ b!"..") :
    pathJoin (if (pathSplit name).1 = [] then b!"." else (pathSplit name).1) (pathClean (47 :: (pathSplit name).2)) =
      pathClean name := by
  have hbase : ∀ y : Str, (47 : UInt8) ∉ y → y ≠ b!".." → cleanSegs true (47 :: y) = [y].filter keepSeg := by
    intro y hy hyd
    unfold cleanSegs
    have : splitByte 47 (47 :: y) = [[], y] := by rw [splitByte, if_pos rfl, splitByte_single 47 y hy]
    rw [this, foldl_clean_plain true [[], y] [] (by simp [Ne.symm hyd])]
    rw [List.filter_cons_of_neg (by decide)]
    simp
  have hclean : ∀ y : Str, pathClean (47 :: y) = 47 :: joinByte 47 (cleanSegs true (47 :: y)) := by
    intro y
    unfold pathClean
    rw [if_neg (by simp), if_pos (by simp [hasPrefix])]
  rcases pathSplit_cases name with ⟨h1, h2, h3⟩ | ⟨d, h1, h2, h3⟩
  · rw [h1, if_pos rfl, h2, hclean, hbase name h3 (h2 ▸ hb)]
    have hg : ∀ s ∈ [name].filter keepSeg, Elem s := by
      intro s hs
      rw [List.mem_filter] at hs
      obtain ⟨hs, hk⟩ := hs
      simp at hs; subst hs
      exact keepSeg_good hk (h2 ▸ hb) h3
    have hcs : cleanSegs false name = [name].filter keepSeg := by
      unfold cleanSegs
      rw [splitByte_single 47 name h3, foldl_clean_plain false [name] [] (by
        intro hm; simp at hm; rw [h2] at hb; exact hb hm.symm)]
      simp
    have hnp : hasPrefix name b!"/" = false := by
      cases name with
      | nil => rfl
      | cons c t => simp at h3; simp [hasPrefix, List.isPrefixOf, h3.1]
    unfold pathJoin
    rw [if_neg (by decide)]
    unfold pathClean
    rw [if_neg (by simp), hasPrefix_append (by decide), if_neg (by decide), cleanSegs_join false b!"." _ hg, if_neg hn,
      if_neg (show ¬ (hasPrefix name b!"/" = true) by rw [hnp]; decide), hcs]
    have : cleanSegs false b!"." = [] := by decide
    rw [this, List.nil_append]
  · have hne : (pathSplit name).1 ≠ [] := by rw [h1]; simp
    rw [if_neg hne, h1, hclean, hbase _ h3 hb]
    generalize (pathSplit name).2 = y at *
    have hg : ∀ s ∈ [y].filter keepSeg, Elem s := by
      intro s hs
      rw [List.mem_filter] at hs
      obtain ⟨hs, hk⟩ := hs
      simp at hs; subst hs
      exact keepSeg_good hk hb h3
    have hcs : ∀ r, cleanSegs r (d ++ b!"/") ++ [y].filter keepSeg = cleanSegs r name := by
      intro r
      unfold cleanSegs
      have e1 : splitByte 47 (d ++ b!"/") = splitByte 47 d ++ [[]] := by
        have := splitByte_append_gen 47 d []
        simpa [splitByte] using this
      have e2 : splitByte 47 name = splitByte 47 d ++ [y] := by
        rw [h2, splitByte_append_gen, splitByte_single 47 y h3]
      rw [e1, e2, List.foldl_append, List.foldl_append, foldl_clean_plain r [y] _ (by simp [Ne.symm hb])]
      have : (List.foldl (cleanStep r) [] (splitByte 47 d)) = List.foldl (cleanStep r) (List.foldl (cleanStep r) [] (splitByte 47 d)) [[]] := by
        simp [cleanStep]
      rw [← this]
      simp
    have hpre : hasPrefix (d ++ b!"/") b!"/" = hasPrefix name b!"/" := by
      rw [h2]
      cases d with
      | nil => rfl
      | cons c d => simp [hasPrefix, List.isPrefixOf]
    unfold pathJoin
    rw [if_neg (by simp)]
    unfold pathClean
    rw [if_neg (by simp), hasPrefix_append (by simp), hpre, cleanSegs_join _ _ _ hg, cleanSegs_join _ _ _ hg, if_neg hn,
      hcs, hcs]

/-- C69, `ServeFile`: a request whose path has a ".." element is answered 400 without touching the file system; one for
an index page is redirected without touching it; any other asks the operating system to open exactly the cleaned name the
program gave (only in the directory part of the name if the last element is ".."). -/
theorem C69_serveFile (os : RawFS) (name : Str) (hn : name ≠ []) :
    (HasDotDot r.path → ∃ s, ServeFile lib href os name r w = .ret s ∧ s.resp.status = 400 ∧
      s.resp.body = w.body ++ b!"invalid URL path" ∧ s.err = some .badPath ∧ s.log = []) ∧
    (¬ HasDotDot r.path → ∃ s, ServeFile lib href os name r w = .ret s ∧
      ((∃ pre, r.path = pre ++ b!"/index.html") → s.resp.status = 301 ∧ s.err = none ∧ s.log = []) ∧
      ((¬ ∃ pre, r.path = pre ++ b!"/index.html") → (¬ ∃ d, name = d ++ b!"/.." ∨ name = b!"..") →
        ∀ n, .open n ∈ s.log ↔ n = pathClean name) ∧
      ∀ d b, name = d ++ b → (47 : UInt8) ∉ b → (d = [] ∨ ∃ d', d = d' ++ b!"/") →
        ∀ n, .open n ∈ s.log → BelowDir (pathClean (if d = [] then b!"." else d)) n) := by
  constructor
  · intro h
    unfold ServeFile
    rw [if_pos ((containsDotDot_iff _).mpr h)]
    exact ⟨_, rfl, rfl, rfl, rfl, rfl⟩
  · intro h
    unfold ServeFile
    rw [if_neg (fun hh => h ((containsDotDot_iff _).mp hh))]
    simp only
    have hsuf : hasSuffix r.path b!"/index.html" = true ↔ ∃ pre, r.path = pre ++ b!"/index.html" := by
      unfold hasSuffix
      rw [List.isSuffixOf_iff_suffix]
      exact ⟨fun ⟨p, hp⟩ => ⟨p, hp.symm⟩, fun ⟨p, hp⟩ => ⟨p, hp.symm⟩⟩
    obtain ⟨s, h1, h2⟩ := serveFile_ret lib href (dirOpen os (pathSplit name).1) (pathSplit name).2 r w
    refine ⟨s, h1, fun hi => ?_, fun hi hb n => ?_, fun d b hd hnb hd' n hin => ?_⟩
    · unfold serveFile at h1
      rw [if_pos (hsuf.2 hi)] at h1
      cases h1
      exact ⟨rfl, rfl, rfl⟩
    · have hb' : (pathSplit name).2 ≠ b!".." := by
        intro h0
        rcases pathSplit_cases name with ⟨h1, h2, h3⟩ | ⟨d, h1, h2, h3⟩
        · exact hb ⟨[], Or.inr (by rw [← h2, h0])⟩
        · exact hb ⟨d, Or.inl (by rw [h2, h0])⟩
      rw [h2, if_neg (fun hs => hi (hsuf.1 hs))]
      unfold dirOpen
      simp only
      rw [openMapped_open, serveFile_name name hn hb']
    · rw [h2] at hin
      split at hin
      · simp at hin
      · have hd1 : d = (pathSplit name).1 := by
          rcases pathSplit_cases name with ⟨h1, h2, h3⟩ | ⟨e, h1, h2, h3⟩
          · rcases hd' with rfl | ⟨d', rfl⟩
            · rw [h1]
            · exact absurd (by rw [hd]; simp) h3
          · rw [h1]
            generalize (pathSplit name).2 = y at h2 h3
            rw [h2] at hd
            rcases hd' with rfl | ⟨d', rfl⟩
            · exact absurd (by rw [← List.nil_append b, ← hd]; simp) hnb
            · have : e ++ 47 :: y = d' ++ 47 :: b := by rw [hd]; simp
              rw [List.append_eq_append_iff] at this
              rcases this with ⟨a, ha, hb⟩ | ⟨a, ha, hb⟩
              · cases a with
                | nil => rw [ha]; simp
                | cons x t =>
                  simp at hb
                  exact absurd (by rw [hb.2]; simp) h3
              · cases a with
                | nil => rw [ha]; simp
                | cons x t =>
                  simp at hb
                  exact absurd (by rw [hb.2]; simp) hnb
        rw [hd1]
        exact C69_dir os _ _ n hin

/-! ### C70 -/

theorem fix_log : ∃ s, (fixStaticRun lib href fSys filePath r w).result = .ret s ∧
    s.log = (if hasSuffix (normalizePath filePath) b!"/index.html" then [] else (ioOpen fSys (pathClean (normalizePath filePath))).2) := by
  have hp : hasPrefix (normalizePath filePath) b!"/" = true := by
    obtain ⟨l, t, hl, hp, hs⟩ := request_path filePath
    rw [hp]; simp [hasPrefix]
  unfold fixStaticRun runWith fileServe
  simp only
  rw [if_pos hp]
  exact serveFile_ret lib href (ioOpen fSys) (pathClean (normalizePath filePath)) { r with path := normalizePath filePath } w

/-- C70, one file: what a FixStaticFileFS route asks of its file system is the same for every request. -/
theorem C70_fixed (r' : HttpReq) (w' : HttpResp) : ∃ s s', (fixStaticRun lib href fSys filePath r w).result = .ret s ∧
    (fixStaticRun lib href fSys filePath r' w').result = .ret s' ∧ s.log = s'.log := by
  obtain ⟨s, h1, h2⟩ := fix_log lib href fSys filePath r w
  obtain ⟨s', h3, h4⟩ := fix_log lib href fSys filePath r' w'
  exact ⟨s, s', h1, h3, by rw [h2, h4]⟩

/-- C70 (partial): and it is the configured file, if that is given by a clean name without percent escapes whose last
element is not "index.html". Missing: the other names. An index page can never be served this way. -/
theorem C70_opens_partial (l : List Str) (hne : l ≠ []) (hl : ∀ s ∈ l, Elem s ∧ ¬ HasEscape s)
    (hfile : filePath = fileName l ∨ filePath = b!"/" ++ fileName l) (hi : l.getLast? ≠ some b!"index.html") :
    ∃ s, (fixStaticRun lib href fSys filePath r w).result = .ret s ∧ ∀ n, .open n ∈ s.log ↔ n = fileName l := by
  obtain ⟨s, h1, h2⟩ := fix_log lib href fSys filePath r w
  have hl' : ∀ s ∈ l, GoodSeg s ∧ ¬ HasEsc s := fun s hs => ⟨(hl s hs).1, fun h => (hl s hs).2 ((hasEsc_iff s).mp h)⟩
  have hj := joined_path l hl' [] (by
    intro s hs
    simp [splitByte] at hs
    subst hs
    refine ⟨by decide, ?_⟩
    rintro ⟨a, x, y, b, h, _⟩
    exact absurd (congrArg List.length h) (by simp)) _ rfl
  have hfil : (splitByte 47 []).filter keepSeg = [] := by decide
  rw [hfil, List.append_nil] at hj
  have hpj : pathJoin (joinByte 47 l) [] = joinByte 47 l := by
    unfold pathJoin
    have h0 := joinByte_ne l hne (fun s hs => (hl s hs).1)
    rw [if_neg h0]
    unfold pathClean
    rw [if_neg (by simp), hasPrefix_append h0, if_neg (by rw [joinByte_head_ne l hne (fun s hs => (hl s hs).1)]; decide)]
    have : cleanSegs false (joinByte 47 l ++ [47]) = l := by
      unfold cleanSegs
      have e1 : splitByte 47 (joinByte 47 l ++ [47]) = l ++ [[]] := by
        have := splitByte_append_gen 47 (joinByte 47 l) []
        rw [splitByte_join 47 l hne (fun s hs => (hl s hs).1.2.2.2)] at this
        simpa [splitByte] using this
      rw [e1, foldl_clean_plain false _ [] (by
        intro hm
        simp at hm
        exact (hl _ hm).1.2.2.1 rfl)]
      rw [List.filter_append, filter_good l (fun s hs => (hl s hs).1)]
      simp [keepSeg]
    rw [this, if_neg hne]
  have hnorm : normalizePath filePath = 47 :: joinByte 47 l := by
    have hn : Normal l := normal_good l hne (fun s hs => (hl s hs).1)
    rcases hfile with rfl | rfl
    · rw [fileName_eq l hne, ← hpj]
      rw [hj.2.2 hne, hpj]
    · rw [fileName_eq l hne]
      show normalizePath (47 :: joinByte 47 l) = _
      rw [← ofSegs_join l hne]
      exact normalizePath_id l hn (fun h => by
        obtain ⟨s, hs, h⟩ := hasEsc_segs l h
        exact (hl' s hs).2 h)
  refine ⟨s, h1, fun n => ?_⟩
  obtain ⟨A, x, rfl⟩ : ∃ A x, l = A ++ [x] := by
    rcases List.eq_nil_or_concat l with h | ⟨A, x, h⟩
    · exact absurd h hne
    · exact ⟨A, x, by simp [h]⟩
  have hsuf : ¬ (hasSuffix (normalizePath filePath) b!"/index.html" = true) := by
    rw [hnorm, ← ofSegs_join _ hne]
    intro h
    have := (suffix_segs b!"index.html" (by decide) A x (hl x (by simp)).1.2.2.2).mp h
    exact hi (by rw [this]; simp)
  have hcl : pathClean (normalizePath filePath) = 47 :: joinByte 47 (A ++ [x]) := by
    rw [hnorm, ← ofSegs_join _ hne, pathClean_plain _ hne (fun s hs => (hl s hs).1.2.2.2) (fun h => (hl _ h).1.2.2.1 rfl),
      filter_good _ (fun s hs => (hl s hs).1), ofSegs_join _ hne]
  rw [h2, if_neg hsuf, hcl]
  unfold ioOpen
  rw [io_name _ (fun s hs => (hl s hs).1), openMapped_open]

/-! ### C72 -/

/-- A request without conditions and ranges. -/
def PlainRequest (r : HttpReq) : Prop :=
  r.header b!"If-Match" = [] ∧ r.header b!"If-Unmodified-Since" = [] ∧ r.header b!"If-None-Match" = [] ∧
    r.header b!"If-Modified-Since" = [] ∧ r.header b!"Range" = []

theorem plain_preconditions (r : HttpReq) (w : HttpResp) (t : Int) (h : PlainRequest r) :
    checkPreconditions lib.toTimeLib r w t = .ret (some [], w) := by
  obtain ⟨h1, h2, h3, h4, h5⟩ := h
  unfold checkPreconditions checkIfMatch
  simp only
  rw [if_pos h1, Outcome.bind_ret]
  simp only [if_true]
  have hu : checkIfUnmodifiedSince lib.toTimeLib r t = .none := by
    unfold checkIfUnmodifiedSince
    simp only
    rw [if_pos (Or.inl h2)]
  rw [hu, if_neg (by decide)]
  unfold checkNone checkIfNoneMatch
  simp only
  rw [if_pos h3, Outcome.bind_ret]
  have hm : checkIfModifiedSince lib.toTimeLib r t = .none := by
    unfold checkIfModifiedSince
    split
    · rfl
    · simp only
      rw [if_pos (Or.inl h4)]
  unfold noneResult
  rw [hm]
  simp only
  rw [if_neg (by decide)]
  unfold rangeHeader
  simp only
  rw [h5]
  rfl

/-- C72: a GET request without conditions and ranges to a StaticFileFS route, for a file that exists in the configured
directory, is answered with exactly the bytes of that file. -/
theorem C72_serves (dir : List Str) (hdir : ∀ s ∈ dir, Elem s ∧ ¬ HasEscape s) (hdne : dir ≠ [])
    (hfile : filePath = fileName dir ∨ filePath = b!"/" ++ fileName dir)
    (U : Str) (hurl : urlPath = b!"/" ++ U) (rest : List Str) (hrne : rest ≠ []) (hrest : ∀ s ∈ rest, Elem s ∧ ¬ HasEscape s)
    (hpath : r.path = b!"/" ++ U ++ b!"/" ++ fileName rest) (hi : rest.getLast? ≠ some b!"index.html")
    (hmethod : r.method = b!"GET") (hplain : PlainRequest r)
    (f : FsFile) (fi : FileInfo) (ho : fSys.opens (fileName (dir ++ rest)) = .ok f) (hs : f.stat = .ok fi)
    (hd : fi.isDir = false) (hsize : fi.size = f.content.data.length) (hlen : f.content.data.length < 2 ^ 63)
    (hseek : f.content.seekable = true) :
    ∃ s, (staticFSRun lib href fSys filePath urlPath r w).result = .ret s ∧ s.resp.status = 200 ∧
      s.resp.body = w.body ++ f.content.data ∧ s.err = none ∧ s.log = [.open (fileName (dir ++ rest))] := by
  have hF : trimPrefix filePath b!"/" = joinByte 47 dir := by
    rcases hfile with rfl | rfl
    · unfold trimPrefix
      rw [fileName_eq dir hdne, joinByte_head_ne dir hdne (fun s hs => (hdir s hs).1)]; rfl
    · rw [fileName_eq dir hdne]; simp [trimPrefix, hasPrefix]
  have hU : trimPrefix urlPath b!"/" = U := by rw [hurl]; simp [trimPrefix, hasPrefix]
  have hu : trimPrefix (trimPrefix r.path b!"/") U = 47 :: joinByte 47 rest := by
    have h1 : trimPrefix r.path b!"/" = U ++ 47 :: joinByte 47 rest := by
      rw [hpath, fileName_eq rest hrne]; simp [trimPrefix, hasPrefix]
    rw [h1]
    unfold trimPrefix hasPrefix
    rw [if_pos (by rw [List.isPrefixOf_iff_prefix]; exact ⟨_, rfl⟩)]
    simp
  have hsp : splitByte 47 (47 :: joinByte 47 rest) = [] :: rest := by
    rw [splitByte, if_pos rfl, splitByte_join 47 rest hrne (fun s hs => (hrest s hs).1.2.2.2)]
  have husegs : ∀ s ∈ splitByte 47 (47 :: joinByte 47 rest), s ≠ b!".." ∧ ¬ HasEsc s := by
    rw [hsp]
    intro s hm
    simp only [List.mem_cons] at hm
    rcases hm with rfl | hm
    · refine ⟨by decide, ?_⟩
      rintro ⟨a, x, y, b, h, _⟩
      exact absurd (congrArg List.length h) (by simp)
    · exact ⟨(hrest s hm).1.2.2.1, fun h => (hrest s hm).2 ((hasEsc_iff s).mp h)⟩
  have hfil : (splitByte 47 (47 :: joinByte 47 rest)).filter keepSeg = rest := by
    rw [hsp, List.filter_cons_of_neg (by decide), filter_good rest (fun s hs => (hrest s hs).1)]
  have hdir' : ∀ s ∈ dir, Elem s ∧ ¬ HasEsc s := fun s hs => ⟨(hdir s hs).1, fun h => (hdir s hs).2 ((hasEsc_iff s).mp h)⟩
  obtain ⟨j1, j2, j3⟩ := joined_path dir hdir' (47 :: joinByte 47 rest) husegs _ hF
  rw [hfil] at j2 j3
  have hne : dir ++ rest ≠ [] := by simp [hdne]
  have j3 := j3 hne
  unfold staticFSRun runWith
  simp only
  rw [hU, hu, staticFS_name lib href fSys filePath r w dir hdir hF _ husegs _ rfl, hfil]
  have hsuf : ¬ (hasSuffix (normalizePath (pathJoin (trimPrefix filePath b!"/") (47 :: joinByte 47 rest))) b!"/index.html" = true) := by
    rw [j3, ← ofSegs_join _ hne]
    obtain ⟨A, x, rfl⟩ : ∃ A x, rest = A ++ [x] := by
      rcases List.eq_nil_or_concat rest with h | ⟨A, x, h⟩
      · exact absurd h hrne
      · exact ⟨A, x, by simp [h]⟩
    intro h
    rw [← List.append_assoc] at h
    have := (suffix_segs b!"index.html" (by decide) (dir ++ A) x (hrest x (by simp)).1.2.2.2).mp h
    exact hi (by rw [this]; simp)
  have hopen : openMapped fSys (fileName (dir ++ rest)) = (.ok f, [.open (fileName (dir ++ rest))]) := by
    unfold openMapped; rw [ho]
  unfold serveFile
  simp only
  rw [if_neg hsuf, hopen]
  simp only
  rw [hs]
  simp only
  rw [if_neg (by simp [hd])]
  simp only [Bool.false_eq_true, if_false]
  unfold serveStat
  rw [hd]
  simp only [Bool.false_eq_true, if_false]
  unfold serveOpen
  rw [hsize]
  obtain ⟨w', k1, k2, k3, -⟩ := C56_whole lib
    { r with path := normalizePath (pathJoin (trimPrefix filePath b!"/") (47 :: joinByte 47 rest)) } w fi.name fi.modTime
    f.content [] hseek hlen (plain_preconditions lib _ _ _ hplain) [] rfl (Or.inl rfl)
  rw [k1, Outcome.bind_ret]
  exact ⟨_, rfl, k2, k3 (by rw [hmethod]; decide), rfl, rfl⟩

end

/-! ### Witnesses and examples -/

section Examples

def exInfo (name data : Str) : FileInfo := ⟨name, data.length, false, 0⟩

def exFile (name data : Str) : FsFile := ⟨.ok (exInfo name data), ⟨data, true⟩, ⟨data, true⟩, .error .notExist⟩

def exDir (name : Str) (es : List (Str × Bool)) : FsFile := ⟨.ok ⟨name, 0, true, 0⟩, ⟨[], true⟩, ⟨[], true⟩, .ok es⟩

/-- An embedded file system with "static/a.txt", "secret.txt" and "index.html". -/
def exFS : RawFS where
  opens n :=
    if n = b!"static/a.txt" then .ok (exFile b!"a.txt" b!"hello")
    else if n = b!"secret.txt" then .ok (exFile b!"secret.txt" b!"top secret")
    else if n = b!"index.html" then .ok (exFile b!"index.html" b!"<p>")
    else if n = b!"static" then .ok (exDir b!"static" [(b!"a.txt", false)])
    else if n = b!"static/a.txt/x" then .error (.other 7)
    else .error .notExist
  stats n :=
    if n = b!"static/a.txt" then .ok (exInfo b!"a.txt" b!"hello")
    else if n = b!"static" then .ok ⟨b!"static", 0, true, 0⟩
    else .error .notExist

/-- A GET request for a path as it is written in the request line. -/
def exGet (raw : Str) : HttpReq := ⟨b!"GET", normalizePath raw, [], fun _ => []⟩

/-- Status, body and names of a result. -/
def shown (x : Outcome StaticRun) : Option (Nat × Str × List Access) :=
  match x with
  | .ret s => some (s.resp.status, s.resp.body, s.log)
  | _ => none

/-- C52 is violated: percent signs are decoded twice, so a request to the route "/files/" of the directory "static" gets
a file outside of it. -/
theorem C52_violated :
    shown (staticFSRun exLib id exFS b!"static" b!"/files" (exGet b!"/files/%252e%252e/secret.txt") HttpResp.fresh).result =
      some (200, b!"top secret", [.open b!"secret.txt"]) ∧
    (∃ rest, (exGet b!"/files/%252e%252e/secret.txt").path = b!"/files/" ++ rest) ∧
    ¬ InsideDir [b!"static"] b!"secret.txt" := by
  refine ⟨by decide +kernel, ⟨b!"%2e%2e/secret.txt", by decide +kernel⟩, ?_⟩
  rintro ⟨l, -, h⟩
  cases l with
  | nil => exact absurd h (by decide)
  | cons a t => simp [fileName] at h

example : ∃ s, (staticFSRun exLib id exFS b!"static" b!"/files" (exGet b!"/files/./a.txt") HttpResp.fresh).result = .ret s ∧
    ∀ n, .open n ∈ s.log → InsideDir [b!"static"] n := by
  refine C52_inside_partial exLib id exFS b!"static" b!"/files" (exGet b!"/files/./a.txt") HttpResp.fresh [b!"static"] ?_
    ⟨b!"static", Or.inr ⟨rfl, by simp⟩, Or.inl rfl⟩ b!"/files/./a.txt" b!"files" rfl rfl ?_ (Or.inl ⟨b!"a.txt", by decide +kernel⟩)
  · intro s hs
    simp at hs; subst hs
    refine ⟨⟨by decide, by decide, by decide, by decide⟩, ?_⟩
    rintro ⟨a, x, y, b, h, -⟩
    have : (37 : UInt8) ∈ b!"static" := by rw [h]; simp
    exact absurd this (by decide)
  · rintro ⟨a, x, y, b, h, -⟩
    have hp : (exGet b!"/files/./a.txt").path = b!"/files/a.txt" := by decide +kernel
    have : (37 : UInt8) ∈ b!"/files/a.txt" := by rw [← hp, h]; simp
    exact absurd this (by decide)

example : shown (staticFSRun exLib id exFS b!"static" b!"/files" (exGet b!"/files/./a.txt") HttpResp.fresh).result =
    some (200, b!"hello", [.open b!"static/a.txt"]) := by decide +kernel

/-- C51 on a hostile path. -/
example : shown (fileServe exLib id (ioOpen exFS) ⟨b!"GET", b!"/../../static/..//./secret.txt", [], fun _ => []⟩ HttpResp.fresh) =
    some (200, b!"top secret", [.open b!"secret.txt"]) := by decide +kernel

/-- C53: a directory; an index page. -/
example : shown (fileServe exLib id (ioOpen exFS) (exGet b!"/static") HttpResp.fresh) =
    some (403, b!"403 Forbidden", [.open b!"static"]) := by decide +kernel
example : shown (fileServe exLib id (ioOpen exFS) (exGet b!"/index.html") HttpResp.fresh) = some (301, [], []) := by
  decide +kernel

/-- C53's title is violated: with a slash after it the index page is served. -/
theorem C53_violated : shown (fileServe exLib id (ioOpen exFS) (exGet b!"/index.html/") HttpResp.fresh) =
    some (200, b!"<p>", [.open b!"index.html"]) := by decide +kernel

/-- C61 is violated: a request for "/files/a%25%34%31" (the file "a%41") is left with the path "/files/aA". -/
theorem C61_violated :
    (exGet b!"/files/a%25%34%31").path = b!"/files/a%41" ∧
    (staticFSRun exLib id exFS b!"static" b!"/files" (exGet b!"/files/a%25%34%31") HttpResp.fresh).path = b!"/files/aA" := by
  decide +kernel

example : (staticFSRun exLib id exFS b!"static" b!"/files" (exGet b!"/files/a%20b%") HttpResp.fresh).path =
    (exGet b!"/files/a%20b%").path := by decide +kernel

/-- C62: below a file; not there at all. -/
example : BelowFile exFS.stats [b!"static", b!"a.txt", b!"x"] := by
  refine ⟨[b!"static"], b!"a.txt", [b!"x"], exInfo b!"a.txt" b!"hello", rfl, rfl, rfl, ?_⟩
  intro a' b' ha h
  cases a' with
  | nil => exact absurd rfl ha
  | cons x t =>
    simp at h
    obtain ⟨rfl, rfl, -⟩ := h
    exact ⟨_, rfl, rfl⟩
example : shown (fileServe exLib id (ioOpen exFS) (exGet b!"/static/a.txt/x") HttpResp.fresh) =
    some (404, b!"404 page not found", [.open b!"static/a.txt/x", .stat b!"static", .stat b!"static/a.txt"]) := by
  decide +kernel

/-- C69. -/
example : shown (ServeFile exLib id exFS b!"static/a.txt" (exGet b!"/x/..%5csecret.txt") HttpResp.fresh) =
    some (400, b!"invalid URL path", []) := by decide +kernel
example : HasDotDot (exGet b!"/x/..%5csecret.txt").path :=
  ⟨b!"/x/", b!"\\secret.txt", by decide +kernel, by intro c h; cases h; left; rfl, by intro c h; cases h; right; rfl⟩
example : shown (ServeFile exLib id exFS b!"./static/a.txt" (exGet b!"/whatever") HttpResp.fresh) =
    some (200, b!"hello", [.open b!"static/a.txt"]) := by decide +kernel
example : (dirOpen exFS b!"/srv/www" b!"/../../etc/passwd").2 = [.open b!"/srv/www/etc/passwd"] := by decide +kernel
example : ¬ BelowDir b!"/srv/www" b!"/etc/passwd" := by
  rintro (h | ⟨l, hl, -, h⟩)
  · exact absurd h (by decide)
  · rw [if_neg (by decide), if_neg (by decide)] at h
    have := congrArg (List.take 2) h
    simp at this

/-- C70 is violated: an index page configured as the file of a route is never served, every request is redirected;
and a file with a percent escape in its name is not the one that is opened. -/
theorem C70_violated :
    (∀ r w, ∃ s, (fixStaticRun exLib id exFS b!"index.html" r w).result = .ret s ∧ s.resp.status = 301 ∧ s.log = []) ∧
    shown (fixStaticRun exLib id exFS b!"a%41.txt" (exGet b!"/x") HttpResp.fresh).result =
      some (404, b!"404 page not found", [.open b!"aA.txt"]) := by
  refine ⟨fun r w => ?_, by decide +kernel⟩
  have hpath : normalizePath b!"index.html" = b!"/index.html" := by decide +kernel
  obtain ⟨s, h1, h2, -, -, h3⟩ := C53_redirect exLib id { r with path := normalizePath b!"index.html" } w (ioOpen exFS)
    (by rw [hpath]; rfl) [] (by rw [hpath]; rfl)
  exact ⟨s, h1, h2, h3⟩

example : ∃ s, (fixStaticRun exLib id exFS b!"/static/a.txt" (exGet b!"/x") HttpResp.fresh).result = .ret s ∧
    ∀ n, .open n ∈ s.log ↔ n = b!"static/a.txt" := by
  refine C70_opens_partial exLib id exFS _ _ _ [b!"static", b!"a.txt"] (by simp) ?_ (Or.inr rfl) (by decide)
  intro s hs
  simp at hs
  have h37 : (37 : UInt8) ∉ s := by rcases hs with rfl | rfl <;> decide
  refine ⟨by rcases hs with rfl | rfl <;> exact ⟨by decide, by decide, by decide, by decide⟩, ?_⟩
  rintro ⟨a, x, y, b, h, -⟩
  exact h37 (by rw [h]; simp)

/-- C71 is violated: the redirect for "/docs/index.html?a=1" points to "./" with the whole request as its query, not to
"./?a=1". -/
theorem C71_violated :
    (match fileServe exLib id (ioOpen exFS) { exGet b!"/docs/index.html" with query := b!"a=1" } HttpResp.fresh with
     | .ret s => s.resp.peek b!"Location"
     | _ => []) = b!"./?/docs/index.html?a=1" := by decide +kernel

/-- C72. -/
example : ∃ s, (staticFSRun exLib id exFS b!"static" b!"/files" (exGet b!"/files/a.txt") HttpResp.fresh).result = .ret s ∧
    s.resp.status = 200 ∧ s.resp.body = HttpResp.fresh.body ++ b!"hello" ∧ s.err = none ∧
    s.log = [.open (fileName ([b!"static"] ++ [b!"a.txt"]))] := by
  have h37 : ∀ s : Str, (37 : UInt8) ∉ s → ¬ HasEscape s := by
    rintro s h ⟨a, x, y, b, rfl, -⟩
    exact h (by simp)
  exact C72_serves exLib id exFS b!"static" b!"/files" (exGet b!"/files/a.txt") HttpResp.fresh [b!"static"]
    (by intro s hs; simp at hs; subst hs; exact ⟨⟨by decide, by decide, by decide, by decide⟩, h37 _ (by decide)⟩) (by simp)
    (Or.inl rfl) b!"files" rfl [b!"a.txt"] (by simp)
    (by intro s hs; simp at hs; subst hs; exact ⟨⟨by decide, by decide, by decide, by decide⟩, h37 _ (by decide)⟩)
    (by decide +kernel) (by decide) rfl ⟨rfl, rfl, rfl, rfl, rfl⟩ (exFile b!"a.txt" b!"hello") (exInfo b!"a.txt" b!"hello")
    rfl rfl rfl rfl (by decide) rfl

end Examples

end Verif
