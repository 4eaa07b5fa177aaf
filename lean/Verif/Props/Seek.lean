import Verif.Props.StaticServe
import Verif.Spec.Seek
/-
C105-C107: ranges, revalidation and resumed downloads, for the three kinds of static routes.
-/
namespace Verif
open Spec

section
variable (lib : Lib) (href : Str → Str) (fSys : RawFS) (r : HttpReq) (w : HttpResp)

/-- A file that can be opened is served as content. -/
theorem serveFile_content (root : FileSys) (name path : Str) (hi : ¬ (hasSuffix path b!"/index.html" = true))
    (f : FsFile) (fi : FileInfo) (log : List Access) (ho : root name = (.ok f, log)) (hs : f.stat = .ok fi)
    (hd : fi.isDir = false) :
    serveFile lib href root name false false { r with path := path } w =
      (serveContent lib r w fi.name fi.modTime (some fi.size) f.content).bind fun p => .ret ⟨p.1, p.2, log⟩ := by
  unfold serveFile
  simp only
  rw [if_neg hi, ho]
  simp only
  rw [hs]
  simp only
  rw [if_neg (by simp [hd])]
  simp only [Bool.false_eq_true, if_false]
  unfold serveStat
  rw [hd]
  simp only [Bool.false_eq_true, if_false]
  rfl

theorem fs_content (filePath urlPath : Str) (dir : List Str) (hdir : ∀ s ∈ dir, Elem s ∧ ¬ HasEscape s) (hdne : dir ≠ [])
    (hfile : filePath = fileName dir ∨ filePath = b!"/" ++ fileName dir)
    (U : Str) (hurl : urlPath = b!"/" ++ U) (rest : List Str) (hrne : rest ≠ []) (hrest : ∀ s ∈ rest, Elem s ∧ ¬ HasEscape s)
    (hpath : r.path = b!"/" ++ U ++ b!"/" ++ fileName rest) (hi : rest.getLast? ≠ some b!"index.html")
    (f : FsFile) (fi : FileInfo) (ho : fSys.opens (fileName (dir ++ rest)) = .ok f) (hs : f.stat = .ok fi)
    (hd : fi.isDir = false) :
    (staticFSRun lib href fSys filePath urlPath r w).result =
      (serveContent lib r w fi.name fi.modTime (some fi.size) f.content).bind
        fun p => .ret ⟨p.1, p.2, [.open (fileName (dir ++ rest))]⟩ := by
  have hF : trimPrefix filePath b!"/" = joinByte 47 dir := by
    rcases hfile with rfl | rfl
    · unfold trimPrefix
      rw [fileName_eq dir hdne, joinByte_head_ne dir hdne (fun s hs => (hdir s hs).1)]; rfl
    · rw [fileName_eq dir hdne]; simp [trimPrefix, hasPrefix]
  have hU : trimPrefix urlPath b!"/" = U := by rw [hurl]; simp [trimPrefix, hasPrefix]
  have hu : trimPrefix (trimPrefix r.path b!"/") U = 47 :: joinByte 47 rest := by
    have h1 : trimPrefix r.path b!"/" = U ++ 47 :: joinByte 47 rest := by
      rw [hpath, fileName_eq rest hrne]; simp [trimPrefix, hasPrefix]
    rw [h1]
    unfold trimPrefix hasPrefix
    rw [if_pos (by rw [List.isPrefixOf_iff_prefix]; exact ⟨_, rfl⟩)]
    simp
  have hsp : splitByte 47 (47 :: joinByte 47 rest) = [] :: rest := by
    rw [splitByte, if_pos rfl, splitByte_join 47 rest hrne (fun s hs => (hrest s hs).1.2.2.2)]
  have husegs : ∀ s ∈ splitByte 47 (47 :: joinByte 47 rest), s ≠ b!".." ∧ ¬ HasEsc s := by
    rw [hsp]
    intro s hm
    simp only [List.mem_cons] at hm
    rcases hm with rfl | hm
    · refine ⟨by decide, ?_⟩
      rintro ⟨a, x, y, b, h, _⟩
      exact absurd (congrArg List.length h) (by simp)
    · exact ⟨(hrest s hm).1.2.2.1, fun h => (hrest s hm).2 ((hasEsc_iff s).mp h)⟩
  have hfil : (splitByte 47 (47 :: joinByte 47 rest)).filter keepSeg = rest := by
    rw [hsp, List.filter_cons_of_neg (by decide), filter_good rest (fun s hs => (hrest s hs).1)]
  have hdir' : ∀ s ∈ dir, Elem s ∧ ¬ HasEsc s := fun s hs => ⟨(hdir s hs).1, fun h => (hdir s hs).2 ((hasEsc_iff s).mp h)⟩
  obtain ⟨j1, j2, j3⟩ := joined_path dir hdir' (47 :: joinByte 47 rest) husegs _ hF
  rw [hfil] at j2 j3
  have hne : dir ++ rest ≠ [] := by simp [hdne]
  have j3 := j3 hne
  unfold staticFSRun runWith
  simp only
  rw [hU, hu, staticFS_name lib href fSys filePath r w dir hdir hF _ husegs _ rfl, hfil]
  have hsuf : ¬ (hasSuffix (normalizePath (pathJoin (trimPrefix filePath b!"/") (47 :: joinByte 47 rest))) b!"/index.html" = true) := by
    rw [j3, ← ofSegs_join _ hne]
    obtain ⟨A, x, rfl⟩ : ∃ A x, rest = A ++ [x] := by
      rcases List.eq_nil_or_concat rest with h | ⟨A, x, h⟩
      · exact absurd h hrne
      · exact ⟨A, x, by simp [h]⟩
    intro h
    rw [← List.append_assoc] at h
    have := (suffix_segs b!"index.html" (by decide) (dir ++ A) x (hrest x (by simp)).1.2.2.2).mp h
    exact hi (by rw [this]; simp)
  have hopen : openMapped fSys (fileName (dir ++ rest)) = (.ok f, [.open (fileName (dir ++ rest))]) := by
    unfold openMapped; rw [ho]
  exact serveFile_content lib href r w _ _ _ hsuf f fi _ (by rw [hopen]) hs hd

theorem named_content (l : List Str) (hne : l ≠ []) (hl : ∀ s ∈ l, Elem s ∧ ¬ HasEscape s)
    (hi : l.getLast? ≠ some b!"index.html") (f : FsFile) (fi : FileInfo) (ho : fSys.opens (fileName l) = .ok f)
    (hs : f.stat = .ok fi) (hd : fi.isDir = false) :
    (runWith lib href (ioOpen fSys) (47 :: joinByte 47 l) r w).result =
      (serveContent lib r w fi.name fi.modTime (some fi.size) f.content).bind
        fun p => .ret ⟨p.1, p.2, [.open (fileName l)]⟩ := by
  obtain ⟨k1, k2, k3, k4⟩ := clean_name fSys l hne hl hi
  unfold runWith
  simp only
  rw [k1]
  unfold fileServe
  simp only
  rw [if_pos k2]
  have hopen : openMapped fSys (fileName l) = (.ok f, [.open (fileName l)]) := by
    unfold openMapped; rw [ho]
  exact serveFile_content lib href r w (ioOpen fSys) _ _ k3 f fi _ (by rw [k4, hopen]) hs hd

/-- **C105** (static routes serve content).  For a request that names an existing file, each kind of static route answers
exactly as `serveContent` (C54-C58) does for the bytes and the modification time of that file, and opens nothing else.  So
everything proved about conditions, ranges and content types of content holds for the files of static routes. -/
theorem C105_content (route : StaticRoute) (name : List Str) (hn : route.Names r.path name) (base data : Str) (t : Int)
    (hf : HasFile fSys name base data t) :
    ∃ s, (route.run lib href fSys r w).result = .ret s ∧ s.log = [.open (fileName name)] ∧
      serveContent lib r w base t (some data.length) ⟨data, true⟩ = .ret (s.resp, s.err) := by
  obtain ⟨-, f, ho, hs, hc⟩ := hf
  obtain ⟨⟨w', e⟩, hw⟩ := serveContent_ret lib r w base t (some data.length) ⟨data, true⟩
  have key : (route.run lib href fSys r w).result =
      (serveContent lib r w base t (some data.length) f.content).bind
        fun p => .ret ⟨p.1, p.2, [.open (fileName name)]⟩ := by
    cases route with
    | fileFS filePath urlPath =>
      obtain ⟨dir, rest, U, ⟨h1, h2⟩, ⟨h3, h4⟩, h5, h6, h7, h8, rfl⟩ := hn
      have := fs_content lib href fSys r w filePath urlPath dir h2 h1 h6 U h7 rest h3 h4 h8 h5 f
        ⟨base, data.length, false, t⟩ ho hs rfl
      exact this
    | file urlPath =>
      obtain ⟨U, ⟨h1, h2⟩, h3, h4, h5⟩ := hn
      have hU : trimPrefix urlPath b!"/" = U := by rw [h4]; simp [trimPrefix, hasPrefix]
      have hu : trimPrefix (trimPrefix r.path b!"/") U = 47 :: joinByte 47 name := by
        have h1 : trimPrefix r.path b!"/" = U ++ 47 :: joinByte 47 name := by
          rw [h5, fileName_eq name h1]; simp [trimPrefix, hasPrefix]
        rw [h1]
        unfold trimPrefix hasPrefix
        rw [if_pos (by rw [List.isPrefixOf_iff_prefix]; exact ⟨_, rfl⟩)]
        simp
      show (staticFileRun lib href fSys urlPath r w).result = _
      unfold staticFileRun
      simp only
      rw [hU, hu]
      have := named_content lib href fSys r w name h1 h2 h3 f ⟨base, data.length, false, t⟩ ho hs rfl
      exact this
    | fixFS filePath =>
      obtain ⟨⟨h1, h2⟩, h3, h4⟩ := hn
      show (runWith lib href (ioOpen fSys) filePath r w).result = _
      have : filePath = 47 :: joinByte 47 name := by rw [h4, fileName_eq name h1]; rfl
      rw [this]
      have := named_content lib href fSys r w name h1 h2 h3 f ⟨base, data.length, false, t⟩ ho hs rfl
      exact this
  refine ⟨⟨w', e, [.open (fileName name)]⟩, ?_, rfl, hw⟩
  rw [key, hc, hw, Outcome.bind_ret]

/-! ### Preconditions -/

theorem setLM_peek (w : HttpResp) (t : Int) (k : Str) (hk : k ≠ b!"Last-Modified") :
    (setLastModified lib.toTimeLib w t).peek k = w.peek k := by
  unfold setLastModified
  split
  · rfl
  · rw [peek_set, if_neg hk]

/-- Without conditions on the whole answer the Range header counts, unless If-Range fails. -/
theorem uncond_pre (w : HttpResp) (t : Int) (hu : Unconditional r) :
    ((question lib.toTimeLib r w t).RangeFails → checkPreconditions lib.toTimeLib r w t = .ret (some [], w)) ∧
    (¬ (question lib.toTimeLib r w t).RangeFails →
      checkPreconditions lib.toTimeLib r w t = .ret (some (r.header b!"Range"), w)) := by
  obtain ⟨-, h1, h2, h3, h4⟩ := hu
  have hC := C57_conditions lib.toTimeLib r w t
  simp only at hC
  obtain ⟨-, hC⟩ := hC
  obtain ⟨-, -, -, h5, h6⟩ := hC (by
    rintro (⟨h, -⟩ | ⟨-, h, -⟩)
    · exact h h1
    · exact h h2)
  have hn : ¬ (question lib.toTimeLib r w t).NoneMatchFails := fun h => h.1 h3
  have hm : ¬ (question lib.toTimeLib r w t).NotModified := fun h => h.2.2.1 h4
  exact ⟨h5 hn hm, h6 hn hm⟩

theorem covers_nil_iff {size : Nat} {bs : List ByteSpec} {rs : List (Int × Int)} (h : Covers size bs rs) :
    rs = [] ↔ ∀ b ∈ bs, ∀ i, ¬ b.Selects size i := by
  induction h with
  | nil => simp
  | drop h1 _ ih =>
    rw [ih]
    constructor
    · intro hall b hb
      rcases List.mem_cons.mp hb with rfl | hb
      · exact h1
      · exact hall b hb
    · exact fun hall b hb => hall b (List.mem_cons_of_mem _ hb)
  | take h1 _ _ _ _ _ =>
    refine iff_of_false (by simp) fun hall => ?_
    obtain ⟨i, hi⟩ := h1
    exact hall _ (List.mem_cons_self ..) i hi

theorem covers_pos {size : Nat} {bs : List ByteSpec} {rs : List (Int × Int)} (h : Covers size bs rs) :
    ∀ p ∈ rs, 0 ≤ p.1 ∧ 0 < p.2 := by
  induction h with
  | nil => simp
  | drop _ _ ih => exact ih
  | take _ _ h1 h2 _ ih =>
    intro p hp
    rcases List.mem_cons.mp hp with rfl | hp
    · exact ⟨h1, h2⟩
    · exact ih p hp

/-- The body of a served answer. -/
theorem body_of {method body body' x : Str} (h1 : method ≠ b!"HEAD" → body' = body ++ x) (h2 : method = b!"HEAD" → body' = body) :
    body' = body ++ (if method = b!"HEAD" then [] else x) := by
  split
  · next h => rw [h2 h, List.append_nil]
  · next h => exact h1 h

theorem ranges_of_pre (route : StaticRoute) (name : List Str) (hn : route.Names r.path name) (base data : Str) (t : Int)
    (hf : HasFile fSys name base data t) (hdata : data ≠ []) 
    (hpre : checkPreconditions lib.toTimeLib r (setLastModified lib.toTimeLib w t) t =
      .ret (some (r.header b!"Range"), setLastModified lib.toTimeLib w t))
    (hw : NoEncoding w) (ts : List Str) (bs : List ByteSpec) (hr : r.header b!"Range" = b!"bytes=" ++ joinByte 44 ts)
    (htexts : Texts ts bs) (hbs : bs ≠ []) (hcomma : ∀ x ∈ ts, 44 ∉ x) :
    ∃ s rs, (route.run lib href fSys r w).result = .ret s ∧ s.log = [.open (fileName name)] ∧ Covers data.length bs rs ∧
      (rs = [] → s.resp.status = 416 ∧ s.err = some (.range .noOverlap) ∧
        ∃ z, Number data.length z ∧ s.resp.peek b!"Content-Range" = b!"bytes */" ++ z) ∧
      (∀ a n : Int, rs = [(a, n)] → PartAnswer r w data a.toNat n.toNat s) ∧
      (2 ≤ rs.length → (rs.map (·.2)).sum ≤ data.length → lib.boundary.length = lib.countBoundary.length →
        ∃ type parts, AreParts data type (rs.map fun p => (p.1.toNat, p.2.toNat)) parts ∧ s.err = none ∧
          s.resp.status = 206 ∧ s.resp.peek b!"Content-Type" = b!"multipart/byteranges; boundary=" ++ lib.boundary ∧
          ((multipart lib.boundary parts).length < 2 ^ 63 →
            Number (multipart lib.boundary parts).length (s.resp.peek b!"Content-Length") ∧
            s.resp.body = w.body ++ (if r.method = b!"HEAD" then [] else multipart lib.boundary parts))) ∧
      (data.length < (rs.map (·.2)).sum → (rs.map (·.2)).sum < 2 ^ 63 → WholeAnswer r w data s) := by
  obtain ⟨s, hs, hlog, hsc⟩ := C105_content lib href fSys r w route name hn base data t hf
  have hlen := hf.1
  rw [hr] at hpre
  have hsize : 0 < data.length := by cases data with
    | nil => exact absurd rfl hdata
    | cons _ _ => simp
  obtain ⟨p1, p2⟩ := C55_rfc data.length hsize hlen ts bs htexts hbs hcomma
  by_cases hany : ∃ b ∈ bs, ∃ i, b.Selects data.length i
  · obtain ⟨rs, hcov, hp⟩ := p2 hany
    refine ⟨s, rs, hs, hlog, hcov, ?_, ?_, ?_, ?_⟩
    · intro h0
      obtain ⟨b, hb, i, hi⟩ := hany
      exact absurd hi ((covers_nil_iff hcov).mp h0 b hb i)
    · intro a n hrs
      subst hrs
      have hpos := (covers_pos hcov _ (List.mem_cons_self ..)).2
      obtain ⟨a', n', w', rfl, rfl, k1, k2, k3, k4, k5, k6, k7, k8, k9⟩ :=
        C56_single lib r w base t ⟨data, true⟩ _ rfl hlen hpre a n hp
      rw [hsc] at k2
      injection k2 with k2
      injection k2 with e1 e2
      simp only at hpos
      subst e1
      exact ⟨e2, k3, k7 hw.1, k9 (by omega), body_of k4 k5⟩
    · intro h2 htot hb
      have hmap : ((rs.map fun p => (⟨p.1, p.2⟩ : HttpRange)).map fun ra => (ra.start.toNat, ra.length.toNat)) =
          rs.map fun p => (p.1.toNat, p.2.toNat) := by rw [List.map_map]; rfl
      obtain ⟨ct, w1, parts, w', -, k1, k2, k3, k4, k5, k6, k7⟩ := C56_multi lib r w base t ⟨data, true⟩ _ rfl hlen hpre hb
        _ hp (by simpa using h2) (by unfold totalLength; rw [List.map_map]; exact htot)
      rw [hmap] at k1
      rw [hsc] at k2
      injection k2 with k2
      injection k2 with e1 e2
      subst e1
      exact ⟨ct, parts, k1, e2, k3, k4, fun hl => ⟨(k7 hl).2 hw.1, body_of (k7 hl).1 k6⟩⟩
    · intro h1 h2
      obtain ⟨w', k1, k2, k3, k4, k5, -⟩ := C56_whole lib r w base t ⟨data, true⟩ _ rfl hlen hpre _ hp
        (Or.inr (by unfold totalLength; rw [List.map_map]; exact ⟨h1, h2⟩))
      rw [hsc] at k1
      injection k1 with k1
      injection k1 with e1 e2
      subst e1
      exact ⟨e2, k2, k5 hw.1, body_of k3 k4⟩
  · have hnone : ∀ b ∈ bs, ∀ i, ¬ b.Selects data.length i := fun b hb i hi => hany ⟨b, hb, i, hi⟩
    have hp := p1 hnone
    refine ⟨s, [], hs, hlog, ?_, ?_, (by intro a n h; cases h), (by intro h; simp at h),
      (by intro h; exfalso; simp at h; omega)⟩
    · clear hany p1 p2 hp hbs htexts
      induction bs with
      | nil => exact .nil
      | cons b bs ih => exact .drop (hnone b (List.mem_cons_self ..)) (ih fun b' hb' => hnone b' (List.mem_cons_of_mem _ hb'))
    · intro _
      obtain ⟨w', k1, k2, k3, k4, k5, -⟩ := C56_unsatisfiable lib r w base t ⟨data, true⟩ _ rfl hpre _ hp
      rw [hsc] at k1
      injection k1 with k1
      injection k1 with e1 e2
      subst e1
      exact ⟨k2, e2, k5 rfl⟩

/-- **C105** (ranges).  A GET or HEAD request without conditions for a non-empty file, with a Range header that is a list of
byte range specifications: if `rs` are the (offset, length) pairs of the specifications that select any bytes, then the
answer is 416 with the size if there are none; exactly those bytes if there is one; a multipart body with exactly those parts
if there are more, of together at most the size of the file; and the whole file if they are together longer than the file. -/
theorem C105_ranges (route : StaticRoute) (name : List Str) (hn : route.Names r.path name) (base data : Str) (t : Int)
    (hf : HasFile fSys name base data t) (hdata : data ≠ []) (hu : Unconditional r) (hir : r.header b!"If-Range" = [])
    (hw : NoEncoding w) (ts : List Str) (bs : List ByteSpec) (hr : r.header b!"Range" = b!"bytes=" ++ joinByte 44 ts)
    (htexts : Texts ts bs) (hbs : bs ≠ []) (hcomma : ∀ x ∈ ts, 44 ∉ x) :
    ∃ s rs, (route.run lib href fSys r w).result = .ret s ∧ s.log = [.open (fileName name)] ∧ Covers data.length bs rs ∧
      (rs = [] → s.resp.status = 416 ∧ s.err = some (.range .noOverlap) ∧
        ∃ z, Number data.length z ∧ s.resp.peek b!"Content-Range" = b!"bytes */" ++ z) ∧
      (∀ a n : Int, rs = [(a, n)] → PartAnswer r w data a.toNat n.toNat s) ∧
      (2 ≤ rs.length → (rs.map (·.2)).sum ≤ data.length → lib.boundary.length = lib.countBoundary.length →
        ∃ type parts, AreParts data type (rs.map fun p => (p.1.toNat, p.2.toNat)) parts ∧ s.err = none ∧
          s.resp.status = 206 ∧ s.resp.peek b!"Content-Type" = b!"multipart/byteranges; boundary=" ++ lib.boundary ∧
          ((multipart lib.boundary parts).length < 2 ^ 63 →
            Number (multipart lib.boundary parts).length (s.resp.peek b!"Content-Length") ∧
            s.resp.body = w.body ++ (if r.method = b!"HEAD" then [] else multipart lib.boundary parts))) ∧
      (data.length < (rs.map (·.2)).sum → (rs.map (·.2)).sum < 2 ^ 63 → WholeAnswer r w data s) := by
  exact ranges_of_pre lib href fSys r w route name hn base data t hf hdata
    ((uncond_pre lib r (setLastModified lib.toTimeLib w t) t hu).2 (fun h => h.2.1 hir)) hw ts bs hr htexts hbs hcomma

theorem one_of_pre (route : StaticRoute) (name : List Str) (hn : route.Names r.path name) (base data : Str) (t : Int)
    (hf : HasFile fSys name base data t) 
    (hpre : checkPreconditions lib.toTimeLib r (setLastModified lib.toTimeLib w t) t =
      .ret (some (r.header b!"Range"), setLastModified lib.toTimeLib w t))
    (hw : NoEncoding w) (x : Str) (b : ByteSpec) (hr : r.header b!"Range" = b!"bytes=" ++ x) (hx : b.Text x) (hv : b.Valid)
    (hcomma : 44 ∉ x) (hsel : ∃ i, b.Selects data.length i) :
    ∃ s a n, (route.run lib href fSys r w).result = .ret s ∧ 0 < n ∧ a + n ≤ data.length ∧
      (∀ i, b.Selects data.length i ↔ a ≤ i ∧ i < a + n) ∧ PartAnswer r w data a n s := by
  have hdata : data ≠ [] := by
    rintro rfl
    obtain ⟨i, hi⟩ := hsel
    cases b <;> simp only [ByteSpec.Selects, List.length_nil] at hi <;> omega
  obtain ⟨s, rs, h1, -, h2, -, h3, -⟩ := ranges_of_pre lib href fSys r w route name hn base data t hf hdata hpre hw [x] [b] hr
    (.cons hx hv .nil) (by simp) (by simpa using hcomma)
  cases h2 with
  | drop hno _ =>
    obtain ⟨i, hi⟩ := hsel
    exact absurd hi (hno i)
  | take h4 h5 h6 h7 h8 =>
    cases h8
    rename_i a n
    obtain ⟨a', rfl⟩ := Int.eq_ofNat_of_zero_le h6
    obtain ⟨n', rfl⟩ := Int.eq_ofNat_of_zero_le (Int.le_of_lt h7)
    have hiff : ∀ i, b.Selects data.length i ↔ a' ≤ i ∧ i < a' + n' := by
      intro i
      rw [h5 i]
      omega
    refine ⟨s, a', n', h1, by omega, ?_, hiff, h3 a' n' rfl⟩
    have hlast : b.Selects data.length (a' + n' - 1) := (hiff _).mpr ⟨by omega, by omega⟩
    have : a' + n' - 1 < data.length := by
      cases b <;> simp only [ByteSpec.Selects] at hlast <;> omega
    omega

/-- **C105** (one range).  Written with one specification: exactly the bytes at the positions it selects. -/
theorem C105_one (route : StaticRoute) (name : List Str) (hn : route.Names r.path name) (base data : Str) (t : Int)
    (hf : HasFile fSys name base data t) (hu : Unconditional r) (hir : r.header b!"If-Range" = [])
    (hw : NoEncoding w) (x : Str) (b : ByteSpec) (hr : r.header b!"Range" = b!"bytes=" ++ x) (hx : b.Text x) (hv : b.Valid)
    (hcomma : 44 ∉ x) (hsel : ∃ i, b.Selects data.length i) :
    ∃ s a n, (route.run lib href fSys r w).result = .ret s ∧ 0 < n ∧ a + n ≤ data.length ∧
      (∀ i, b.Selects data.length i ↔ a ≤ i ∧ i < a + n) ∧ PartAnswer r w data a n s := by
  exact one_of_pre lib href fSys r w route name hn base data t hf
    ((uncond_pre lib r (setLastModified lib.toTimeLib w t) t hu).2 (fun h => h.2.1 hir)) hw x b hr hx hv hcomma hsel

/-- **C105** (no bytes).  Written with one specification that selects nothing in a file that is not empty: 416, and the size of the file. -/
theorem C105_none (route : StaticRoute) (name : List Str) (hn : route.Names r.path name) (base data : Str) (t : Int)
    (hf : HasFile fSys name base data t) (hdata : data ≠ []) (hu : Unconditional r) (hir : r.header b!"If-Range" = [])
    (hw : NoEncoding w) (x : Str) (b : ByteSpec) (hr : r.header b!"Range" = b!"bytes=" ++ x) (hx : b.Text x) (hv : b.Valid)
    (hcomma : 44 ∉ x) (hsel : ∀ i, ¬ b.Selects data.length i) :
    ∃ s z, (route.run lib href fSys r w).result = .ret s ∧ s.resp.status = 416 ∧ s.err = some (.range .noOverlap) ∧
      Number data.length z ∧ s.resp.peek b!"Content-Range" = b!"bytes */" ++ z := by
  obtain ⟨s, rs, h1, -, h2, h3, -⟩ := C105_ranges lib href fSys r w route name hn base data t hf hdata hu hir hw [x] [b] hr
    (.cons hx hv .nil) (by simp) (by simpa using hcomma)
  cases h2 with
  | drop _ h =>
    cases h
    obtain ⟨k1, k2, z, k3, k4⟩ := h3 rfl
    exact ⟨s, z, h1, k1, k2, k3, k4⟩
  | take h => obtain ⟨i, hi⟩ := h; exact absurd hi (hsel i)

/-! ### Revalidation and resumed downloads -/

/-- The date an answer with content carries. -/
theorem answer_date (route : StaticRoute) (name : List Str) (hn : route.Names r.path name) (base data : Str) (t : Int)
    (hf : HasFile fSys name base data t) (ht : KnownTime t) (s : StaticRun)
    (hs : (route.run lib href fSys r w).result = .ret s) (he : s.err = none) (h3 : s.resp.status ≠ 304) :
    s.resp.peek b!"Last-Modified" = lib.format t := by
  obtain ⟨s', hs', -, hsc⟩ := C105_content lib href fSys r w route name hn base data t hf
  rw [hs] at hs'
  injection hs' with hs'
  subst hs'
  rw [he] at hsc
  exact C57_last_modified lib r w base t data.length ⟨data, true⟩ rfl ⟨ht.1, ht.2⟩ s.resp hsc h3

/-- A request with Range header `rng` in force. -/
theorem whole_answer (route : StaticRoute) (name : List Str) (hn : route.Names r.path name) (base data : Str) (t : Int)
    (hf : HasFile fSys name base data t) (hw : NoEncoding w)
    (hpre : checkPreconditions lib.toTimeLib r (setLastModified lib.toTimeLib w t) t =
      .ret (some [], setLastModified lib.toTimeLib w t)) :
    ∃ s, (route.run lib href fSys r w).result = .ret s ∧ WholeAnswer r w data s := by
  obtain ⟨s, hs, -, hsc⟩ := C105_content lib href fSys r w route name hn base data t hf
  refine ⟨s, hs, ?_⟩
  obtain ⟨w', k1, k2, k3, k4, k5, -⟩ := C56_whole lib r w base t ⟨data, true⟩ _ rfl hf.1 hpre [] rfl (Or.inl rfl)
  rw [hsc] at k1
  injection k1 with k1
  injection k1 with e1 e2
  subst e1
  exact ⟨e2, k2, k5 hw.1, body_of k3 k4⟩

/-- The answer to If-Modified-Since with a text that is read as the time `u`. -/
theorem since_answer (route : StaticRoute) (name : List Str) (fSys' : RawFS) (r' : HttpReq) (w' : HttpResp)
    (hn' : route.Names r'.path name) (base' data' : Str) (t' : Int)
    (hf' : HasFile fSys' name base' data' t') (ht' : KnownTime t') (hw' : NoEncoding w')
    (hsafe : r'.method = b!"GET" ∨ r'.method = b!"HEAD") (hm : r'.header b!"If-Match" = [])
    (hu : r'.header b!"If-Unmodified-Since" = []) (hnone : r'.header b!"If-None-Match" = [])
    (hrange : r'.header b!"Range" = []) (d1 : r'.header b!"If-Modified-Since" ≠ []) (u : Int)
    (d2 : lib.parse (r'.header b!"If-Modified-Since") = some u) :
    ∃ s', (route.run lib href fSys' r' w').result = .ret s' ∧
      (t' / 10 ^ 9 ≤ u / 10 ^ 9 → s'.resp.status = 304 ∧ s'.err = none ∧ s'.resp.body = w'.body ∧
        s'.resp.peek b!"Content-Length" = [] ∧ s'.resp.peek b!"Content-Type" = [] ∧
        s'.resp.peek b!"Last-Modified" = lib.format t') ∧
      (u / 10 ^ 9 < t' / 10 ^ 9 → WholeAnswer r' w' data' s' ∧ s'.resp.peek b!"Last-Modified" = lib.format t') := by
  obtain ⟨s', hs', -, hsc'⟩ := C105_content lib href fSys' r' w' route name hn' base' data' t' hf'
  refine ⟨s', hs', ?_⟩
  have hC := C57_conditions lib.toTimeLib r' (setLastModified lib.toTimeLib w' t') t'
  simp only at hC
  obtain ⟨-, hC⟩ := hC
  obtain ⟨-, -, c3, c4, c5⟩ := hC (by
    rintro (⟨h, -⟩ | ⟨-, h, -⟩)
    · exact h hm
    · exact h hu)
  have hnm : ¬ (question lib.toTimeLib r' (setLastModified lib.toTimeLib w' t') t').NoneMatchFails := fun h => h.1 hnone
  have hlm : (setLastModified lib.toTimeLib w' t').peek b!"Last-Modified" = lib.format t' := by
    unfold setLastModified
    rw [if_neg (fun h => (isZeroTime_iff lib.toTimeLib r' w' t').1 h ⟨ht'.1, ht'.2⟩), peek_set, if_pos rfl]
  constructor
  · intro hle
    have hq : (question lib.toTimeLib r' (setLastModified lib.toTimeLib w' t') t').NotModified := by
      refine ⟨hnone, hsafe, d1, ⟨ht'.1, ht'.2⟩, u, d2, ?_⟩
      · show t' / 10 ^ 9 * 10 ^ 9 ≤ _
        omega
    have hpre := c3 hnm hq
    have : serveContent lib r' w' base' t' (some data'.length) ⟨data', true⟩ =
        .ret (writeNotModified (setLastModified lib.toTimeLib w' t'), none) := by
      unfold serveContent
      simp only
      rw [hpre, Outcome.bind_ret]
    rw [hsc'] at this
    injection this with this
    injection this with e1 e2
    obtain ⟨n1, n2, n3, n4, n5, -⟩ := C57_not_modified (setLastModified lib.toTimeLib w' t')
    rw [e1]
    refine ⟨n1, e2, ?_, n3 _ (by simp), n3 _ (by simp), ?_⟩
    · rw [n2, setLastModified_body]
    · rw [n5 (by rw [setLM_peek lib w' t' _ (by decide)]; exact hw'.2), hlm]
  · intro hlt
    have hq : ¬ (question lib.toTimeLib r' (setLastModified lib.toTimeLib w' t') t').NotModified := by
      rintro ⟨-, -, -, -, u', h1, h2⟩
      have h1 : lib.parse (r'.header _) = some u' := h1
      rw [d2] at h1
      injection h1 with h1
      subst h1
      have h2 : t' / 10 ^ 9 * 10 ^ 9 ≤ u := h2
      omega
    have hpre : checkPreconditions lib.toTimeLib r' (setLastModified lib.toTimeLib w' t') t' =
        .ret (some [], setLastModified lib.toTimeLib w' t') := by
      by_cases hrf : (question lib.toTimeLib r' (setLastModified lib.toTimeLib w' t') t').RangeFails
      · exact c4 hnm hq hrf
      · rw [← hrange]; exact c5 hnm hq hrf
    obtain ⟨s'', k1, k2⟩ := whole_answer lib href fSys' r' w' route name hn' base' data' t' hf' hw' hpre
    rw [hs'] at k1
    injection k1 with k1
    subst k1
    refine ⟨k2, ?_⟩
    refine answer_date lib href fSys' r' w' route name hn' base' data' t' hf' ht' s' hs' k2.1 ?_
    rw [k2.2.1]; decide

/-- **C106** A client that has an answer with content from a static route and later asks for the same file, If-Modified-Since
the date of that answer, is told 304 without content if the file is not from a later second than before, and otherwise gets
the file as it is now, whole. -/
theorem C106_revalidate (route : StaticRoute) (name : List Str) (hn : route.Names r.path name) (base data : Str) (t : Int)
    (hf : HasFile fSys name base data t) (ht : KnownTime t) (hdate : DateLaw lib t) (s : StaticRun)
    (hs : (route.run lib href fSys r w).result = .ret s) (he : s.err = none) (h3 : s.resp.status ≠ 304)
    (fSys' : RawFS) (r' : HttpReq) (w' : HttpResp) (hn' : route.Names r'.path name) (base' data' : Str) (t' : Int)
    (hf' : HasFile fSys' name base' data' t') (ht' : KnownTime t') (hw' : NoEncoding w')
    (hsafe : r'.method = b!"GET" ∨ r'.method = b!"HEAD") (hm : r'.header b!"If-Match" = [])
    (hu : r'.header b!"If-Unmodified-Since" = []) (hnone : r'.header b!"If-None-Match" = [])
    (hrange : r'.header b!"Range" = []) (hims : r'.header b!"If-Modified-Since" = s.resp.peek b!"Last-Modified") :
    ∃ s', (route.run lib href fSys' r' w').result = .ret s' ∧
      (t' / 10 ^ 9 ≤ t / 10 ^ 9 → s'.resp.status = 304 ∧ s'.err = none ∧ s'.resp.body = w'.body ∧
        s'.resp.peek b!"Content-Length" = [] ∧ s'.resp.peek b!"Content-Type" = [] ∧
        s'.resp.peek b!"Last-Modified" = lib.format t') ∧
      (t / 10 ^ 9 < t' / 10 ^ 9 → WholeAnswer r' w' data' s' ∧ s'.resp.peek b!"Last-Modified" = lib.format t') := by
  rw [answer_date lib href fSys r w route name hn base data t hf ht s hs he h3] at hims
  obtain ⟨d1, d2, -⟩ := hdate
  have h := since_answer lib href route name fSys' r' w' hn' base' data' t' hf' ht' hw' hsafe hm hu hnone hrange
    (by rw [hims]; exact d1) (t / 10 ^ 9 * 10 ^ 9) (by rw [hims]; exact d2)
  rw [show t / 10 ^ 9 * 10 ^ 9 / 10 ^ 9 = t / 10 ^ 9 by omega] at h
  exact h

/-- The answer to If-Range with the date of `t`. -/
theorem resume_date (route : StaticRoute) (name : List Str) (t : Int) (hdate : DateLaw lib t)
    (fSys' : RawFS) (r' : HttpReq) (w' : HttpResp) (hn' : route.Names r'.path name) (base' data' : Str) (t' : Int)
    (hf' : HasFile fSys' name base' data' t') (ht' : KnownTime t') (hw' : NoEncoding w') (hu : Unconditional r')
    (k : Nat) (x : Str) (hx : Digits x) (hk : decVal x = k) (hrange : r'.header b!"Range" = b!"bytes=" ++ (x ++ b!"-"))
    (hir : r'.header b!"If-Range" = lib.format t) :
    ∃ s', (route.run lib href fSys' r' w').result = .ret s' ∧
      (t' / 10 ^ 9 = t / 10 ^ 9 → k < data'.length →
        PartAnswer r' w' data' k (data'.length - k) s' ∧
        (r'.method = b!"GET" → ∃ rest, s'.resp.body = w'.body ++ rest ∧ data'.take k ++ rest = data')) ∧
      (t' / 10 ^ 9 ≠ t / 10 ^ 9 → WholeAnswer r' w' data' s') := by
  obtain ⟨s', hs', -, hsc'⟩ := C105_content lib href fSys' r' w' route name hn' base' data' t' hf'
  refine ⟨s', hs', ?_⟩
  obtain ⟨d1, d2, d3⟩ := hdate
  obtain ⟨q1, q2⟩ := uncond_pre lib r' (setLastModified lib.toTimeLib w' t') t' hu
  constructor
  · intro heq hlt
    have hpre := q2 (by
      rintro ⟨-, -, -, h⟩
      apply h
      refine ⟨?_, ht'.2, t / 10 ^ 9 * 10 ^ 9, ?_, ?_⟩
      · intro e
        show ¬ Question.StartsWithTag (r'.header _) e
        rw [hir]; exact d3 e
      · show lib.parse (r'.header _) = _; rw [hir]; exact d2
      · show _ = t' / 10 ^ 9
        omega)
    have hlen := hf'.1
    have h45 : (45 : UInt8) ∉ x := fun h => by have := hx.2 _ h; revert this; decide
    have h44 : (44 : UInt8) ∉ x ++ b!"-" := by
      intro h
      rcases List.mem_append.mp h with h | h
      · have := hx.2 _ h; revert this; decide
      · revert h; decide
    have hsp : ∀ c ∈ x, ¬ Space c := by
      intro c hc hspace
      have := hx.2 c hc
      unfold Space at hspace
      revert hspace this
      revert c
      intro c _
      exact u8_all (P := fun c => 48 ≤ c ∧ c ≤ 57 → c ∈ b!"\t\n\r " → False) (by decide +kernel) c |> fun h a b => h b a
    have hparts : Parts (x ++ b!"-") x [] := by
      refine ⟨x, [], rfl, h45, ⟨[], [], by simp, by simp, by simp, ?_, ?_⟩, ⟨[], [], rfl, by simp, by simp, by simp, by simp⟩⟩
      · exact fun c hc => hsp c (List.mem_of_head? hc)
      · exact fun c hc => hsp c (List.mem_of_getLast? hc)
    obtain ⟨s'', a, n, k1, k2, k3, k4, k5⟩ := one_of_pre lib href fSys' r' w' route name hn' base' data' t' hf' hpre hw'
      (x ++ b!"-") (.from k) hrange ⟨x, hparts, hx, hk⟩ (by show k < 2 ^ 63; omega) h44 ⟨k, by show k ≤ k ∧ _; omega⟩
    rw [hs'] at k1
    injection k1 with k1
    subst k1
    have ha : a = k := by
      have h1 := (k4 k).mp (by show k ≤ k ∧ _; omega)
      have h2 : k ≤ a ∧ _ := (k4 a).mpr ⟨by omega, by omega⟩
      omega
    have hn : n = data'.length - k := by
      have h1 := (k4 (data'.length - 1)).mp (by show k ≤ _ ∧ _; omega)
      omega
    subst ha hn
    refine ⟨k5, fun hget => ⟨data'.drop a, ?_, List.take_append_drop ..⟩⟩
    rw [k5.2.2.2.2, if_neg (by rw [hget]; decide)]
    unfold slice
    rw [show a + (data'.length - a) = data'.length by omega, List.take_length]
  · intro hne
    have hpre := q1 ⟨hu.1, by show r'.header _ ≠ _; rw [hir]; exact d1, by
      rintro ⟨e, h, -⟩
      have h : Question.StartsWithTag (r'.header _) e := h
      rw [hir] at h
      exact d3 e h, by
      rintro ⟨-, -, u, h1, h2⟩
      have h1 : lib.parse (r'.header _) = some u := h1
      rw [hir, d2] at h1
      injection h1 with h1
      subst h1
      have h2 : t / 10 ^ 9 * 10 ^ 9 / 10 ^ 9 = t' / 10 ^ 9 := h2
      omega⟩
    obtain ⟨s'', k1, k2⟩ := whole_answer lib href fSys' r' w' route name hn' base' data' t' hf' hw' hpre
    rw [hs'] at k1
    injection k1 with k1
    subst k1
    exact k2

/-- **C107** A client that has the first `k` bytes of an answer with content from a static route, and asks for the bytes from
`k` on, If-Range the date of that answer: if the file is still from the same second and longer than `k`, the answer is 206
with exactly the missing bytes, which together with the first `k` are the file; if it is from another second, the answer is
the file as it is now, whole. -/
theorem C107_resume (route : StaticRoute) (name : List Str) (hn : route.Names r.path name) (base data : Str) (t : Int)
    (hf : HasFile fSys name base data t) (ht : KnownTime t) (hdate : DateLaw lib t) (s : StaticRun)
    (hs : (route.run lib href fSys r w).result = .ret s) (he : s.err = none) (h3 : s.resp.status ≠ 304)
    (fSys' : RawFS) (r' : HttpReq) (w' : HttpResp) (hn' : route.Names r'.path name) (base' data' : Str) (t' : Int)
    (hf' : HasFile fSys' name base' data' t') (ht' : KnownTime t') (hw' : NoEncoding w') (hu : Unconditional r')
    (k : Nat) (x : Str) (hx : Digits x) (hk : decVal x = k) (hrange : r'.header b!"Range" = b!"bytes=" ++ (x ++ b!"-"))
    (hir : r'.header b!"If-Range" = s.resp.peek b!"Last-Modified") :
    ∃ s', (route.run lib href fSys' r' w').result = .ret s' ∧
      (t' / 10 ^ 9 = t / 10 ^ 9 → k < data'.length →
        PartAnswer r' w' data' k (data'.length - k) s' ∧
        (r'.method = b!"GET" → ∃ rest, s'.resp.body = w'.body ++ rest ∧ data'.take k ++ rest = data')) ∧
      (t' / 10 ^ 9 ≠ t / 10 ^ 9 → WholeAnswer r' w' data' s') := by
  rw [answer_date lib href fSys r w route name hn base data t hf ht s hs he h3] at hir
  exact resume_date lib href route name t hdate fSys' r' w' hn' base' data' t' hf' ht' hw' hu k x hx hk hrange hir

end

section Examples

/-- 2 January 2006, 15:04:05.5 UTC. -/
def exTime : Int := 1136214245500000000

/-- A library that knows one date. -/
def seekLib : Lib :=
  { exLib with
    parse := fun x => if x = b!"Mon, 02 Jan 2006 15:04:05 GMT" then some 1136214245000000000 else none
    format := fun _ => b!"Mon, 02 Jan 2006 15:04:05 GMT" }

/-- "static/a.txt" with ten bytes. -/
def seekFS : RawFS where
  opens n := if n = b!"static/a.txt" then
      .ok ⟨.ok ⟨b!"a.txt", (10 : Nat), false, exTime⟩, ⟨b!"0123456789", true⟩, ⟨[], false⟩, .error .notExist⟩
    else .error .notExist
  stats _ := .error .notExist

/-- A GET request with one header. -/
def seekReq (k v : Str) : HttpReq := ⟨b!"GET", b!"/files/a.txt", [], fun h => if h = k then v else []⟩

theorem exNames : StaticRoute.Names (.fileFS b!"static" b!"/files") b!"/files/a.txt" [b!"static", b!"a.txt"] := by
  refine ⟨[b!"static"], [b!"a.txt"], b!"files", ⟨by simp, ?_⟩, ⟨by simp, ?_⟩, by decide, .inl rfl, rfl, by decide, rfl⟩ <;>
  · intro s hs
    simp only [List.mem_cons, List.not_mem_nil, or_false] at hs
    subst hs
    exact ⟨⟨by decide, by decide, by decide, by decide⟩, no_escape _ (by decide)⟩

theorem exHas : HasFile seekFS [b!"static", b!"a.txt"] b!"a.txt" b!"0123456789" exTime :=
  ⟨by decide, _, rfl, rfl, rfl⟩

theorem exKnown : KnownTime exTime := by unfold KnownTime exTime; decide

theorem exDate : DateLaw seekLib exTime := by
  refine ⟨by decide, by decide, ?_⟩
  rintro e ⟨hv, sp, rest, h1, h2⟩
  have h2 : b!"Mon, 02 Jan 2006 15:04:05 GMT" = sp ++ e.written ++ rest := h2
  cases sp with
  | cons c sp =>
    rw [List.cons_append, List.cons_append] at h2
    injection h2 with h2 _
    have := h1 c (List.mem_cons_self ..)
    rw [← h2] at this
    unfold Space at this
    revert this; decide
  | nil =>
    rw [List.nil_append] at h2
    rcases written_head e with h | h <;>
    · cases hw : e.written with
      | nil => rw [hw] at h; cases h
      | cons c u =>
        rw [hw] at h h2
        rw [List.cons_append] at h2
        injection h2 with h2 _
        injection h with h
        rw [h] at h2
        revert h2; decide

/-- Three bytes from the middle of the file, through the whole handler. -/
example : ∃ s a n, (StaticRoute.run seekLib id seekFS (.fileFS b!"static" b!"/files")
      (seekReq b!"Range" b!"bytes=2-4") HttpResp.fresh).result = .ret s ∧ 0 < n ∧ a + n ≤ 10 ∧
      (∀ i, ByteSpec.Selects 10 i (.fromTo 2 4) ↔ a ≤ i ∧ i < a + n) ∧
      PartAnswer (seekReq b!"Range" b!"bytes=2-4") HttpResp.fresh b!"0123456789" a n s := by
  refine C105_one seekLib id seekFS (seekReq b!"Range" b!"bytes=2-4") HttpResp.fresh _ _ exNames b!"a.txt" b!"0123456789" exTime
    exHas ⟨.inl rfl, by decide, by decide, by decide, by decide⟩ (by decide) ⟨by decide, by decide⟩ b!"2-4" (.fromTo 2 4)
    (by decide) ⟨b!"2", b!"4", ⟨b!"2", b!"4", by decide, by decide, ?_, ?_⟩, by unfold Digits; decide, by unfold Digits; decide,
      by decide, by decide⟩ (by unfold ByteSpec.Valid; decide) (by decide) ⟨2, by unfold ByteSpec.Selects; decide⟩
  · exact ⟨[], [], by decide, by simp, by simp, by unfold Space; intro c h; cases h; decide,
      by unfold Space; intro c h; cases h; decide⟩
  · exact ⟨[], [], by decide, by simp, by simp, by unfold Space; intro c h; cases h; decide,
      by unfold Space; intro c h; cases h; decide⟩

/-- Bytes beyond the end. -/
example : ∃ s z, (StaticRoute.run seekLib id seekFS (.fileFS b!"static" b!"/files")
      (seekReq b!"Range" b!"bytes=12-14") HttpResp.fresh).result = .ret s ∧ s.resp.status = 416 ∧ s.err = some (.range .noOverlap) ∧
      Number 10 z ∧ s.resp.peek b!"Content-Range" = b!"bytes */" ++ z := by
  refine C105_none seekLib id seekFS (seekReq b!"Range" b!"bytes=12-14") HttpResp.fresh _ _ exNames b!"a.txt" b!"0123456789" exTime
    exHas (by decide) ⟨.inl rfl, by decide, by decide, by decide, by decide⟩ (by decide) ⟨by decide, by decide⟩ b!"12-14" (.fromTo 12 14)
    (by decide) ⟨b!"12", b!"14", ⟨b!"12", b!"14", by decide, by decide, ?_, ?_⟩, by unfold Digits; decide, by unfold Digits; decide,
      by decide, by decide⟩ (by unfold ByteSpec.Valid; decide) (by decide) (fun i h => ?_)
  · exact ⟨[], [], by decide, by simp, by simp, by unfold Space; intro c h; cases h; decide,
      by unfold Space; intro c h; cases h; decide⟩
  · exact ⟨[], [], by decide, by simp, by simp, by unfold Space; intro c h; cases h; decide,
      by unfold Space; intro c h; cases h; decide⟩
  · simp only [ByteSpec.Selects] at h
    have : (b!"0123456789").length = 10 := rfl
    omega

/-- The answers in full: three bytes, then nothing (304), then the rest of an interrupted download. -/
example : shown (StaticRoute.run seekLib id seekFS (.fileFS b!"static" b!"/files") (seekReq b!"Range" b!"bytes=2-4")
    HttpResp.fresh).result = some (206, b!"234", [.open b!"static/a.txt"]) := by decide +kernel
example : shown (StaticRoute.run seekLib id seekFS (.fileFS b!"static" b!"/files")
    (seekReq b!"If-Modified-Since" b!"Mon, 02 Jan 2006 15:04:05 GMT") HttpResp.fresh).result =
    some (304, [], [.open b!"static/a.txt"]) := by decide +kernel

/-- The hypotheses of C106: the second request sends the date of the first answer back. -/
example : ∃ s s', (StaticRoute.run seekLib id seekFS (.fileFS b!"static" b!"/files") (seekReq [] []) HttpResp.fresh).result = .ret s ∧
    (StaticRoute.run seekLib id seekFS (.fileFS b!"static" b!"/files")
      (seekReq b!"If-Modified-Since" (s.resp.peek b!"Last-Modified")) HttpResp.fresh).result = .ret s' ∧ s'.resp.status = 304 := by
  obtain ⟨s, h1, h2, h3, -⟩ := whole_answer seekLib id seekFS (seekReq [] []) HttpResp.fresh _ _ exNames _ _ _ exHas
    ⟨by decide, by decide⟩ (by decide +kernel)
  obtain ⟨s', k1, k2, -⟩ := C106_revalidate seekLib id seekFS (seekReq [] []) HttpResp.fresh _ _ exNames _ _ _ exHas exKnown exDate
    s h1 h2 (by rw [h3]; decide) seekFS (seekReq b!"If-Modified-Since" (s.resp.peek b!"Last-Modified")) HttpResp.fresh exNames
    _ _ _ exHas exKnown ⟨by decide, by decide⟩ (.inl rfl) rfl rfl rfl rfl rfl
  exact ⟨s, s', h1, k1, (k2 (by decide)).1⟩

/-- The hypotheses of C107: four bytes are there, the rest is asked for. -/
example : ∃ s s', (StaticRoute.run seekLib id seekFS (.fileFS b!"static" b!"/files") (seekReq [] []) HttpResp.fresh).result = .ret s ∧
    (StaticRoute.run seekLib id seekFS (.fileFS b!"static" b!"/files")
      ⟨b!"GET", b!"/files/a.txt", [], fun h => if h = b!"Range" then b!"bytes=4-" else if h = b!"If-Range" then
        s.resp.peek b!"Last-Modified" else []⟩ HttpResp.fresh).result = .ret s' ∧ s'.resp.status = 206 := by
  obtain ⟨s, h1, h2, h3, -⟩ := whole_answer seekLib id seekFS (seekReq [] []) HttpResp.fresh _ _ exNames _ _ _ exHas
    ⟨by decide, by decide⟩ (by decide +kernel)
  obtain ⟨s', k1, k2, -⟩ := C107_resume seekLib id seekFS (seekReq [] []) HttpResp.fresh _ _ exNames _ _ _ exHas exKnown exDate
    s h1 h2 (by rw [h3]; decide) seekFS
    ⟨b!"GET", b!"/files/a.txt", [], fun h => if h = b!"Range" then b!"bytes=4-" else if h = b!"If-Range" then
        s.resp.peek b!"Last-Modified" else []⟩ HttpResp.fresh exNames
    _ _ _ exHas exKnown ⟨by decide, by decide⟩ ⟨.inl rfl, rfl, rfl, rfl, rfl⟩ 4 b!"4" (by unfold Digits; decide) (by decide) rfl rfl
  exact ⟨s, s', h1, k1, (k2 rfl (by decide)).1.2.1⟩

end Examples
end Verif
