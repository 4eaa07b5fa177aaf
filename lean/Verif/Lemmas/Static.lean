import Verif.Model.Static
import Verif.Spec.Static
import Verif.Lemmas.Path
import Verif.Props.Content
/-
Lemmas for the file server properties.
-/
namespace Verif
open Spec

theorem hexVal_iff : ∀ c : UInt8, (hexVal c).isSome = true ↔ HexDigit c := by
  unfold HexDigit
  exact u8_all (by decide +kernel)

theorem hasEsc_iff (p : Str) : HasEsc p ↔ HasEscape p := by
  constructor
  · rintro ⟨a, x, y, b, rfl, h1, h2⟩
    exact ⟨a, x, y, b, by simp, (hexVal_iff x).mp h1, (hexVal_iff y).mp h2⟩
  · rintro ⟨a, x, y, b, rfl, h1, h2⟩
    exact ⟨a, x, y, b, by simp, (hexVal_iff x).mpr h1, (hexVal_iff y).mpr h2⟩

theorem goodSeg_iff (s : Str) : GoodSeg s ↔ Elem s := Iff.rfl

theorem fileName_eq (l : List Str) (h : l ≠ []) : fileName l = joinByte 47 l := by
  induction l with
  | nil => exact absurd rfl h
  | cons a t ih =>
    cases t with
    | nil => rfl
    | cons b t => simp only [fileName, joinByte]; rw [ih (by simp)]; simp

theorem joinByte_ne (l : List Str) (h : l ≠ []) (hg : ∀ s ∈ l, Elem s) : joinByte 47 l ≠ [] := by
  cases l with
  | nil => exact absurd rfl h
  | cons a t =>
    have := (hg a (by simp)).1
    cases t with
    | nil => exact this
    | cons b t => simp [joinByte, this]

theorem joinByte_head_ne (l : List Str) (h : l ≠ []) (hg : ∀ s ∈ l, Elem s) : hasPrefix (joinByte 47 l) b!"/" = false := by
  cases l with
  | nil => exact absurd rfl h
  | cons a t =>
    have ha := hg a (by simp)
    cases a with
    | nil => exact absurd rfl ha.1
    | cons c a =>
      have hc : (47 : UInt8) ≠ c := fun h => ha.2.2.2 (by simp [h])
      cases t <;> simp [joinByte, hasPrefix, List.isPrefixOf, hc]

/-- The name that `ioFS.Open` passes on for a cleaned rooted path. -/
theorem io_name (l : List Str) (hg : ∀ s ∈ l, Elem s) :
    (if 47 :: joinByte 47 l = b!"/" then b!"." else trimPrefix (47 :: joinByte 47 l) b!"/") = fileName l := by
  by_cases h : l = []
  · subst h; rfl
  · have := joinByte_ne l h hg
    rw [if_neg (by simpa using this), fileName_eq l h]
    simp [trimPrefix, hasPrefix]

/-- The name an access is about. -/
def Access.name : Access → Str
  | .open n => n
  | .stat n => n

theorem mapLoop_log (stat : Str → Except FsErr FileInfo) (orig : FsErr) (rest : List Str) :
    ∀ (done : List Str) (a : Access), a ∈ (mapLoop stat orig done rest).2 →
      ∃ x y, x ≠ [] ∧ rest = x ++ y ∧ a = .stat (joinByte 47 (done ++ x)) := by
  induction rest with
  | nil => intro done a ha; simp [mapLoop] at ha
  | cons p t ih =>
    intro done a ha
    have later : a ∈ (mapLoop stat orig (done ++ [p]) t).2 →
        ∃ x y, x ≠ [] ∧ p :: t = x ++ y ∧ a = .stat (joinByte 47 (done ++ x)) := by
      intro h
      obtain ⟨x, y, h1, h2, h3⟩ := ih (done ++ [p]) a h
      exact ⟨p :: x, y, by simp, by simp [h2], by rw [h3]; simp⟩
    have now : a = .stat (joinByte 47 (done ++ [p])) → ∃ x y, x ≠ [] ∧ p :: t = x ++ y ∧ a = .stat (joinByte 47 (done ++ x)) :=
      fun h => ⟨[p], t, by simp, rfl, h⟩
    rw [mapLoop] at ha
    split at ha
    · exact later ha
    · simp only at ha
      split at ha
      · exact now (by simpa using ha)
      · split at ha
        · exact now (by simpa using ha)
        · simp only [List.mem_cons] at ha
          rcases ha with ha | ha
          · exact now ha
          · exact later ha

theorem mapOpenError_log (orig : FsErr) (name : Str) (stat : Str → Except FsErr FileInfo) (a : Access)
    (ha : a ∈ (mapOpenError orig name stat).2) :
    ∃ x y, x ≠ [] ∧ splitByte 47 name = x ++ y ∧ a = .stat (joinByte 47 x) := by
  unfold mapOpenError at ha
  split at ha
  · simp at ha
  · simpa using mapLoop_log stat orig _ [] a ha

theorem openMapped_open (raw : RawFS) (name n : Str) : .open n ∈ (openMapped raw name).2 ↔ n = name := by
  unfold openMapped
  split
  · simp
  · simp only [List.mem_cons, Access.open.injEq]
    constructor
    · rintro (h | h)
      · exact h
      · obtain ⟨x, y, _, _, h⟩ := mapOpenError_log _ _ _ _ h
        cases h
    · exact Or.inl

/-- Everything that is asked when a clean name is opened is clean. -/
theorem openMapped_inside (raw : RawFS) (l : List Str) (hg : ∀ s ∈ l, Elem s) :
    ∀ a ∈ (openMapped raw (fileName l)).2, InsideRoot a.name := by
  intro a ha
  have hself : InsideRoot (fileName l) := ⟨l, hg, rfl⟩
  unfold openMapped at ha
  split at ha
  · simp at ha; subst ha; exact hself
  · simp only [List.mem_cons] at ha
    rcases ha with rfl | ha
    · exact hself
    · obtain ⟨x, y, hx, hsp, rfl⟩ := mapOpenError_log _ _ _ _ ha
      by_cases hl : l = []
      · subst hl
        have : splitByte 47 (fileName []) = [b!"."] := by decide
        rw [this] at hsp
        cases x with
        | nil => exact absurd rfl hx
        | cons c x =>
          simp at hsp
          obtain ⟨rfl, rfl, -⟩ := hsp
          exact ⟨[], by simp, rfl⟩
      · rw [fileName_eq l hl, splitByte_join 47 l hl (fun s hs => (hg s hs).2.2.2)] at hsp
        refine ⟨x, fun s hs => hg s (by rw [hsp]; simp [hs]), ?_⟩
        rw [fileName_eq x hx]
        rfl

/-- Serving content never panics. -/
theorem serveContent_ret (lib : Lib) (r : HttpReq) (w : HttpResp) (name : Str) (t : Int) (size : Option Int) (c : Content) :
    ∃ p, serveContent lib r w name t size c = .ret p := by
  unfold serveContent
  simp only
  obtain ⟨p, hp, -⟩ := checkPreconditions_ret lib.toTimeLib r (setLastModified lib.toTimeLib w t) t
  rw [hp, Outcome.bind_ret]
  obtain ⟨h, w1⟩ := p
  cases h with
  | none => exact ⟨_, rfl⟩
  | some rng =>
    simp only
    have : ∃ x, contentType lib r w1 name c = .ret x := by
      unfold contentType
      simp only
      split
      · split
        · obtain ⟨ct, h3, -⟩ := C59_exact (c.data.take 512)
          rw [h3, Outcome.bind_ret]
          split <;> exact ⟨_, rfl⟩
        · exact ⟨_, rfl⟩
      · exact ⟨_, rfl⟩
    obtain ⟨x, hx⟩ := this
    rw [hx, Outcome.bind_ret]
    cases x with
    | error w => exact ⟨_, rfl⟩
    | ok y =>
      obtain ⟨ct, w2⟩ := y
      cases size <;> exact ⟨_, rfl⟩

/-- `serveFile` as the exported functions call it. -/
theorem serveFile_ret (lib : Lib) (href : Str → Str) (fsm : FileSys) (name : Str) (r : HttpReq) (w : HttpResp) :
    ∃ s, serveFile lib href fsm name false false r w = .ret s ∧
      s.log = (if hasSuffix r.path b!"/index.html" then [] else (fsm name).2) := by
  unfold serveFile
  by_cases h : hasSuffix r.path b!"/index.html"
  · rw [if_pos h]; exact ⟨_, rfl, by rw [if_pos h]⟩
  · rw [if_neg h, if_neg h]
    simp only
    split
    · exact ⟨_, rfl, rfl⟩
    · split
      · exact ⟨_, rfl, rfl⟩
      · rename_i f hf _ fi hfi'
        split
        · exact ⟨_, rfl, rfl⟩
        · rename_i hd
          try simp only [Bool.false_eq_true, if_false]
          unfold serveStat
          have : fi.isDir = false := by
            cases hfi : fi.isDir
            · rfl
            · exact absurd (by simp [hfi]) hd
          rw [this]
          simp only [Bool.false_eq_true, if_false]
          unfold serveOpen
          obtain ⟨p, hp⟩ := serveContent_ret lib r w fi.name fi.modTime (some fi.size) f.content
          rw [hp, Outcome.bind_ret]
          exact ⟨_, rfl, rfl⟩

theorem splitByte_append_gen (c : UInt8) (a b : Str) : splitByte c (a ++ c :: b) = splitByte c a ++ splitByte c b := by
  induction a with
  | nil => simp [splitByte]
  | cons x a ih =>
    rw [List.cons_append, splitByte, splitByte]
    by_cases h : x = c
    · rw [if_pos h, if_pos h, ih]; rfl
    · rw [if_neg h, if_neg h, ih]
      cases hs : splitByte c a with
      | nil => exact absurd hs (splitByte_ne c a)
      | cons y ys => rfl

/-- Joining the configured directory and a path without "..", setting it and cleaning it again. -/
theorem joined_path (dir : List Str) (hdir : ∀ s ∈ dir, Elem s ∧ ¬ HasEsc s) (u : Str)
    (hu : ∀ s ∈ splitByte 47 u, s ≠ b!".." ∧ ¬ HasEsc s) (F : Str) (hF : F = joinByte 47 dir) :
    hasPrefix (normalizePath (pathJoin F u)) b!"/" = true ∧
    pathClean (normalizePath (pathJoin F u)) = 47 :: joinByte 47 (dir ++ (splitByte 47 u).filter keepSeg) ∧
    (dir ++ (splitByte 47 u).filter keepSeg ≠ [] →
      normalizePath (pathJoin F u) = 47 :: joinByte 47 (dir ++ (splitByte 47 u).filter keepSeg)) := by
  have hL : ∀ s ∈ dir ++ (splitByte 47 u).filter keepSeg, GoodSeg s ∧ ¬ HasEsc s := by
    intro s hs
    rw [List.mem_append, List.mem_filter] at hs
    rcases hs with hs | ⟨hs, hk⟩
    · exact ⟨(hdir s hs).1, (hdir s hs).2⟩
    · exact ⟨keepSeg_good hk (hu s hs).1 (splitByte_not_mem 47 u s hs), (hu s hs).2⟩
  -- the name with or without its slash
  have key : ∀ L : List Str, L ≠ [] → (∀ s ∈ L, GoodSeg s ∧ ¬ HasEsc s) → ∀ p, (p = joinByte 47 L ∨ p = 47 :: joinByte 47 L) →
      hasPrefix (normalizePath p) b!"/" = true ∧ pathClean (normalizePath p) = 47 :: joinByte 47 L ∧
      normalizePath p = 47 :: joinByte 47 L := by
    intro L hne hL p hp
    have hn : Normal L := normal_good L hne (fun s hs => (hL s hs).1)
    have hesc : ¬ HasEsc (ofSegs L) := by
      intro h
      obtain ⟨s, hs, h⟩ := hasEsc_segs L h
      exact (hL s hs).2 h
    have hnorm : normalizePath p = ofSegs L := by
      rcases hp with rfl | rfl
      · obtain ⟨l', h1, h2, h3, h4, h5⟩ := normalize_steps L hn.1 hn.2.1
        have hesc' : ¬ HasEsc (joinByte 47 L) := by
          intro h; rw [ofSegs_join L hne] at hesc; exact hesc (hasEsc_cons h)
        unfold normalizePath addLeadingSlash
        rw [if_neg (by rw [joinByte_head_ne L hne (fun s hs => (hL s hs).1)]; simp), percentDecode_id _ hesc']
        have : b!"/" ++ joinByte 47 L = ofSegs L := by rw [ofSegs_join L hne]; rfl
        rw [this]
        simp only at h3 ⊢
        rw [h3, h4 hn]
      · rw [← ofSegs_join L hne]; exact normalizePath_id L hn hesc
    rw [hnorm]
    refine ⟨by rw [ofSegs_join L hne]; simp [hasPrefix], ?_, ofSegs_join L hne⟩
    rw [pathClean_plain L hne hn.2.1 hn.2.2.2, filter_good L (fun s hs => (hL s hs).1)]
  by_cases hd : dir = []
  · subst hd
    have hF0 : F = [] := hF
    subst hF0
    simp only [List.nil_append] at hL ⊢
    unfold pathJoin
    rw [if_pos rfl]
    by_cases hu0 : u = []
    · subst hu0
      rw [if_pos rfl]
      refine ⟨by decide +kernel, by decide +kernel, fun h => absurd (by decide) h⟩
    · rw [if_neg hu0]
      have hseg : ∀ r, cleanSegs r u = (splitByte 47 u).filter keepSeg := by
        intro r
        unfold cleanSegs
        rw [foldl_clean_plain r _ [] (fun hm => (hu _ hm).1 rfl)]
        simp
      by_cases hne : (splitByte 47 u).filter keepSeg = []
      · rw [hne]
        have : pathClean u = b!"/" ∨ pathClean u = b!"." := by
          unfold pathClean
          rw [if_neg hu0, hseg, hseg, hne]
          split
          · left; rfl
          · right; rw [if_pos rfl]
        rcases this with h | h <;> rw [h] <;> exact ⟨by decide +kernel, by decide +kernel, fun h => absurd rfl h⟩
      · have : pathClean u = joinByte 47 ((splitByte 47 u).filter keepSeg) ∨
            pathClean u = 47 :: joinByte 47 ((splitByte 47 u).filter keepSeg) := by
          unfold pathClean
          rw [if_neg hu0, hseg, hseg]
          split
          · right; rfl
          · left; first | rfl | rw [if_neg hne]
        obtain ⟨h1, h2, h3⟩ := key _ hne hL _ this
        exact ⟨h1, h2, fun _ => h3⟩
  · have hF0 : F ≠ [] := by rw [hF]; exact joinByte_ne dir hd (fun s hs => (hdir s hs).1)
    have hne : dir ++ (splitByte 47 u).filter keepSeg ≠ [] := by simp [hd]
    have hFp : hasPrefix (F ++ 47 :: u) b!"/" = false := by
      have h0 := joinByte_head_ne dir hd (fun s hs => (hdir s hs).1)
      rw [← hF] at h0
      cases F with
      | nil => exact absurd rfl hF0
      | cons c F => simpa [hasPrefix, List.isPrefixOf] using h0
    have hcs : cleanSegs false (F ++ 47 :: u) = dir ++ (splitByte 47 u).filter keepSeg := by
      unfold cleanSegs
      rw [splitByte_append_gen, hF, splitByte_join 47 dir hd (fun s hs => (hdir s hs).1.2.2.2)]
      rw [foldl_clean_plain false _ [] (by
        intro hm
        rw [List.mem_append] at hm
        rcases hm with hm | hm
        · exact (hdir _ hm).1.2.2.1 rfl
        · exact (hu _ hm).1 rfl)]
      rw [List.filter_append, filter_good dir (fun s hs => (hdir s hs).1)]
      simp
    have hj : pathJoin F u = joinByte 47 (dir ++ (splitByte 47 u).filter keepSeg) := by
      unfold pathJoin
      rw [if_neg hF0]
      unfold pathClean
      rw [if_neg (by simp), if_neg (by rw [hFp]; simp), hcs, if_neg hne]
    rw [hj]
    obtain ⟨h1, h2, h3⟩ := key _ hne hL _ (Or.inl rfl)
    exact ⟨h1, h2, fun _ => h3⟩

/-! ### Operating system names -/

theorem joinByte_append (a b : List Str) (ha : a ≠ []) (hb : b ≠ []) : joinByte 47 (a ++ b) = joinByte 47 a ++ 47 :: joinByte 47 b := by
  induction a with
  | nil => exact absurd rfl ha
  | cons x a ih =>
    cases a with
    | nil =>
      cases b with
      | nil => exact absurd rfl hb
      | cons y b => rfl
    | cons y a =>
      have := ih (by simp)
      simp only [List.cons_append, joinByte] at this ⊢
      rw [this]; simp

/-- The elements of a cleaned path that is not rooted. -/
theorem cleanSegs_elems (r : Bool) (p : Str) : ∀ s ∈ cleanSegs r p, s ≠ [] ∧ s ≠ b!"." ∧ (47 : UInt8) ∉ s := by
  have key : ∀ (l out : List Str), NoSlash l → (∀ x ∈ out, x ≠ [] ∧ x ≠ b!"." ∧ (47 : UInt8) ∉ x) →
      ∀ x ∈ l.foldl (cleanStep r) out, x ≠ [] ∧ x ≠ b!"." ∧ (47 : UInt8) ∉ x := by
    intro l
    induction l with
    | nil => intro out _ h; exact h
    | cons s t ih =>
      intro out hl h
      refine ih _ (fun x hx => hl x (by simp [hx])) ?_
      unfold cleanStep
      by_cases h1 : s = [] ∨ s = b!"."
      · rw [if_pos h1]; exact h
      · rw [if_neg h1]
        by_cases h2 : s = b!".."
        · rw [if_pos h2]
          cases out with
          | nil =>
            simp only
            split
            · simp
            · intro x hx; simp at hx; subst hx; decide
          | cons a t =>
            simp only
            split
            · intro x hx
              rw [List.mem_cons] at hx
              rcases hx with rfl | hx
              · decide
              · exact h x hx
            · exact fun x hx => h x (by simp [hx])
        · rw [if_neg h2]
          intro x hx
          simp at hx
          rcases hx with rfl | hx
          · exact ⟨fun h => h1 (Or.inl h), fun h => h1 (Or.inr h), hl x (by simp)⟩
          · exact h x hx
  intro s hs
  unfold cleanSegs at hs
  rw [List.mem_reverse] at hs
  exact key _ [] (splitByte_not_mem 47 p) (by simp) s hs

/-- Appending a cleaned rooted path to a directory. -/
theorem cleanSegs_join (r : Bool) (D : Str) (L : List Str) (hL : ∀ s ∈ L, Elem s) :
    cleanSegs r (D ++ 47 :: 47 :: joinByte 47 L) = cleanSegs r D ++ L := by
  have hs : splitByte 47 (47 :: joinByte 47 L) = [] :: (if L = [] then [[]] else L) := by
    rw [splitByte, if_pos rfl]
    by_cases h : L = []
    · rw [if_pos h, h]; rfl
    · rw [if_neg h, splitByte_join 47 L h (fun s hs => (hL s hs).2.2.2)]
  unfold cleanSegs
  rw [splitByte_append_gen, hs, List.foldl_append, foldl_clean_plain r ([] :: if L = [] then [[]] else L) _ (by
    intro hm
    simp only [List.mem_cons] at hm
    rcases hm with hm | hm
    · cases hm
    · by_cases h : L = []
      · rw [if_pos h] at hm; simp at hm
      · rw [if_neg h] at hm; exact (hL _ hm).2.2.1 rfl)]
  rw [List.filter_cons_of_neg (by decide)]
  have : (if L = [] then [[]] else L).filter keepSeg = L := by
    by_cases h : L = []
    · rw [if_pos h, h]; decide
    · rw [if_neg h, filter_good L hL]
  rw [this]
  simp

theorem hasPrefix_append {D x : Str} (h : D ≠ []) : hasPrefix (D ++ x) b!"/" = hasPrefix D b!"/" := by
  cases D with
  | nil => exact absurd rfl h
  | cons c D => simp [hasPrefix, List.isPrefixOf]

/-- The name `Dir.Open` passes to the operating system is in the directory. -/
theorem dirName_below (D : Str) (hD : D ≠ []) (L : List Str) (hL : ∀ s ∈ L, Elem s) :
    BelowDir (pathClean D) (pathJoin D (47 :: joinByte 47 L)) := by
  have hj : pathJoin D (47 :: joinByte 47 L) = pathClean (D ++ 47 :: 47 :: joinByte 47 L) := by
    unfold pathJoin; rw [if_neg hD]
  rw [hj]
  unfold pathClean
  rw [if_neg hD, if_neg (show ¬ (D ++ 47 :: 47 :: joinByte 47 L = []) by simp), hasPrefix_append hD, cleanSegs_join _ _ _ hL, cleanSegs_join _ _ _ hL]
  have h1 := cleanSegs_elems true D
  have h2 := cleanSegs_elems false D
  by_cases hr : hasPrefix D b!"/" = true
  · rw [if_pos hr, if_pos hr]
    generalize cleanSegs true D = S at h1
    by_cases hl : L = []
    · left; rw [hl]; simp
    · right
      refine ⟨L, hl, hL, ?_⟩
      rw [fileName_eq L hl, if_neg (by simp)]
      by_cases hS : S = []
      · rw [hS, if_pos (by rfl)]; rfl
      · rw [if_neg, joinByte_append S L hS hl]
        · simp
        · intro h
          cases S with
          | nil => exact hS rfl
          | cons a t =>
            have := (h1 a (by simp)).1
            cases t <;> simp [joinByte, this] at h
  · rw [if_neg hr, if_neg hr]
    generalize cleanSegs false D = S at h2
    by_cases hl : L = []
    · left; rw [hl]; simp
    · right
      refine ⟨L, hl, hL, ?_⟩
      rw [fileName_eq L hl, if_neg (by simp [hl])]
      by_cases hS : S = []
      · rw [if_pos hS, if_pos rfl, hS]; rfl
      · rw [if_neg hS]
        have hdot : joinByte 47 S ≠ b!"." := by
          intro h
          have := splitByte_join 47 S hS (fun s hs => (h2 s hs).2.2)
          rw [h] at this
          have h3 : splitByte 47 b!"." = [b!"."] := by decide
          rw [h3] at this
          exact (h2 b!"." (by rw [← this]; simp)).2.1 rfl
        have hsl : joinByte 47 S ≠ b!"/" := by
          intro h
          have := splitByte_join 47 S hS (fun s hs => (h2 s hs).2.2)
          rw [h] at this
          have h3 : splitByte 47 b!"/" = [[], []] := by decide
          rw [h3] at this
          exact (h2 [] (by rw [← this]; simp)).1 rfl
        rw [if_neg hdot, if_neg hsl, joinByte_append S L hS hl]
        simp

/-! ### ".." elements -/

/-- A piece of a split string: it lies between separators. -/
theorem mem_splitByte (c : UInt8) (v s : Str) : s ∈ splitByte c v ↔
    ∃ a b, v = a ++ s ++ b ∧ c ∉ s ∧ (a = [] ∨ a.getLast? = some c) ∧ (b = [] ∨ b.head? = some c) := by
  constructor
  · intro h
    obtain ⟨A, B, hAB⟩ := List.append_of_mem h
    have hv := joinByte_splitByte' c v
    have hs := splitByte_not_mem c v s h
    rw [hAB] at hv
    have key : ∀ A : List Str, ∃ a, (a = [] ∨ a.getLast? = some c) ∧ joinByte c (A ++ s :: B) = a ++ joinByte c (s :: B) := by
      intro A
      induction A with
      | nil => exact ⟨[], Or.inl rfl, rfl⟩
      | cons x A ih =>
        obtain ⟨a, h1, h2⟩ := ih
        refine ⟨x ++ c :: a, ?_, ?_⟩
        · right
          rcases h1 with rfl | h1
          · simp
          · rw [List.getLast?_append, List.getLast?_cons, h1]; simp
        · cases A with
          | nil =>
            rw [List.nil_append] at h2
            have ha : a = [] := by simpa using h2
            subst ha
            simp only [List.cons_append, List.nil_append, joinByte]
            simp
          | cons y A =>
            simp only [List.cons_append, joinByte] at h2 ⊢
            rw [h2]; simp
    obtain ⟨a, h1, h2⟩ := key A
    cases B with
    | nil => exact ⟨a, [], by rw [← hv, h2]; simp [joinByte], hs, h1, Or.inl rfl⟩
    | cons y B => exact ⟨a, c :: joinByte c (y :: B), by rw [← hv, h2]; simp [joinByte], hs, h1, Or.inr rfl⟩
  · rintro ⟨a, b, rfl, hs, ha, hb⟩
    have hb' : s ∈ splitByte c (s ++ b) ∧ (splitByte c (s ++ b)).head? = some s := by
      rcases hb with rfl | hb
      · rw [List.append_nil, splitByte_single c s hs]; simp
      · cases b with
        | nil => simp at hb
        | cons x b =>
          simp at hb; subst hb
          rw [splitByte_append x s b hs]; simp
    rcases ha with rfl | ha
    · exact hb'.1
    · rcases List.eq_nil_or_concat a with rfl | ⟨a', x, rfl⟩
      · simp at ha
      · simp at ha; subst ha
        have : a'.concat x ++ s ++ b = a' ++ x :: (s ++ b) := by simp
        rw [this, splitByte_append_gen]
        rw [List.mem_append]
        exact Or.inr hb'.1

/-- Everything after the last separator. -/
theorem split_last (c : UInt8) (a : Str) : ∃ x y, a = x ++ y ∧ c ∉ y ∧ (x = [] ∨ x.getLast? = some c) := by
  induction a with
  | nil => exact ⟨[], [], rfl, by simp, Or.inl rfl⟩
  | cons d a ih =>
    obtain ⟨x, y, rfl, hy, hx⟩ := ih
    rcases hx with rfl | hx
    · by_cases hd : d = c
      · exact ⟨[d], y, rfl, hy, Or.inr (by simp [hd])⟩
      · exact ⟨[], d :: y, rfl, by simp [hy, Ne.symm hd], Or.inl rfl⟩
    · refine ⟨d :: x, y, rfl, hy, Or.inr ?_⟩
      rw [List.getLast?_cons, hx]; simp

theorem splitAt_first (c : UInt8) (b : Str) : ∃ x y, b = x ++ y ∧ c ∉ x ∧ (y = [] ∨ y.head? = some c) := by
  induction b with
  | nil => exact ⟨[], [], rfl, by simp, Or.inl rfl⟩
  | cons d b ih =>
    by_cases hd : d = c
    · exact ⟨[], d :: b, rfl, by simp, Or.inr (by simp [hd])⟩
    · obtain ⟨x, y, rfl, hx, hy⟩ := ih
      exact ⟨d :: x, y, rfl, by simp [hx, Ne.symm hd], hy⟩

theorem indexOf_infix (m a b : Str) : (indexOf m (a ++ m ++ b)).isSome = true := by
  induction a with
  | nil =>
    rw [List.nil_append]
    cases hmb : m ++ b with
    | nil =>
      have : m = [] := by simp at hmb; exact hmb.1
      subst this
      simp [indexOf]
    | cons c t =>
      unfold indexOf
      rw [← hmb, if_pos (by rw [List.isPrefixOf_iff_prefix]; exact ⟨b, rfl⟩)]
      rfl
  | cons c a ih =>
    rw [List.cons_append, List.cons_append]
    unfold indexOf
    split
    · rfl
    · rw [Option.isSome_map]; exact ih

/-- `containsDotDot` finds exactly the ".." elements. -/
theorem containsDotDot_iff (v : Str) : containsDotDot v = true ↔ HasDotDot v := by
  have hmem : b!".." ∈ (splitByte 47 v).flatMap (splitByte 92) ↔ HasDotDot v := by
    rw [List.mem_flatMap]
    constructor
    · rintro ⟨s, h1, h2⟩
      obtain ⟨a, b, rfl, -, ha, hb⟩ := (mem_splitByte 47 v s).mp h1
      obtain ⟨a', b', rfl, -, ha', hb'⟩ := (mem_splitByte 92 s b!"..").mp h2
      refine ⟨a ++ a', b' ++ b, by simp, ?_, ?_⟩
      · intro c hc
        rcases ha' with rfl | ha'
        · rw [List.append_nil] at hc
          rcases ha with rfl | ha
          · simp at hc
          · rw [ha] at hc; cases hc; left; rfl
        · rw [List.getLast?_append, ha'] at hc; cases hc; right; rfl
      · intro c hc
        rcases hb' with rfl | hb'
        · rw [List.nil_append] at hc
          rcases hb with rfl | hb
          · simp at hc
          · rw [hb] at hc; cases hc; left; rfl
        · rw [List.head?_append, hb'] at hc; cases hc; right; rfl
    · rintro ⟨a, b, rfl, ha, hb⟩
      obtain ⟨x, y, rfl, hy, hx⟩ := split_last 47 a
      obtain ⟨u, z, rfl, hu, hz⟩ := splitAt_first 47 b
      refine ⟨y ++ b!".." ++ u, (mem_splitByte 47 _ _).mpr ⟨x, z, by simp, ?_, hx, hz⟩, (mem_splitByte 92 _ _).mpr
        ⟨y, u, rfl, by decide, ?_, ?_⟩⟩
      · intro h
        simp at h
        rcases h with h | h
        · exact hy h
        · exact hu h
      · rcases List.eq_nil_or_concat y with rfl | ⟨y', c, rfl⟩
        · exact Or.inl rfl
        · right
          have := ha c (by simp [List.getLast?_append])
          rcases this with rfl | rfl
          · exact absurd (by simp) hy
          · simp
      · cases u with
        | nil => exact Or.inl rfl
        | cons c u =>
          right
          have := hb c (by simp)
          rcases this with rfl | rfl
          · exact absurd (by simp) hu
          · rfl
  unfold containsDotDot
  by_cases h : (indexOf b!".." v).isNone
  · rw [if_pos h]
    constructor
    · intro h; cases h
    · rintro ⟨a, b, rfl, -⟩
      have := indexOf_infix b!".." a b
      rw [Option.isNone_iff_eq_none] at h
      rw [h] at this
      cases this
  · rw [if_neg h, ← hmem, List.any_eq_true]
    constructor
    · rintro ⟨x, hx, h⟩
      rw [beq_iff_eq] at h
      exact h ▸ hx
    · intro h; exact ⟨_, h, by simp⟩

theorem suffix_segs (m : Str) (hm : (47 : UInt8) ∉ m) (A : List Str) (s : Str) (hs : (47 : UInt8) ∉ s) :
    hasSuffix (ofSegs (A ++ [s])) (47 :: m) = true ↔ s = m := by
  unfold hasSuffix
  rw [List.isSuffixOf_iff_suffix]
  have he : ofSegs (A ++ [s]) = ofSegs A ++ 47 :: s := by simp
  rw [he]
  constructor
  · rintro ⟨r, hr⟩
    have h1 := lastIndexByte_split (ofSegs A) s hs
    have h2 := lastIndexByte_split r m hm
    rw [hr, h1] at h2
    have hlen := Option.some.inj h2
    have h3 := (List.append_inj hr hlen.symm).2
    simp only [List.cons.injEq, true_and] at h3
    exact h3.symm
  · rintro rfl; exact ⟨ofSegs A, rfl⟩

end Verif
