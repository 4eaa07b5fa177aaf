import Verif.Props.StaticServe
import Verif.Base.U8
/-
C52, C70: the exact name an embedded static route asks its file system for.
-/
namespace Verif
open Spec

theorem hexVal_value (c : UInt8) : hexVal c = if HexDigit c then some (UInt8.ofNat (hexValue c)) else none :=
  u8_all (P := fun c => hexVal c = if HexDigit c then some (UInt8.ofNat (hexValue c)) else none) (by decide +kernel) c

/-- The HTTP library's decoding. -/
theorem percentDecode_eq (p : Str) : percentDecode p = unescape p := by
  induction p using unescape.induct with
  | case1 => rfl
  | case2 c => rfl
  | case3 c x => rfl
  | case4 c x y t h ih =>
    rw [percentDecode, unescape, if_pos h.1, if_pos h, hexVal_value, hexVal_value, if_pos h.2.1, if_pos h.2.2]
    simp only
    rw [ih]
    congr 1
    apply UInt8.toNat_inj.mp
    simp [UInt8.toNat_add, UInt8.toNat_mul]
    rw [Nat.mul_comm]
  | case5 c x y t h ih =>
    rw [percentDecode, unescape, if_neg h]
    by_cases hc : c = 37
    · rw [if_pos hc, hexVal_value, hexVal_value]
      by_cases hx : HexDigit x
      · have hy : ¬ HexDigit y := fun hy => h ⟨hc, hx, hy⟩
        rw [if_pos hx, if_neg hy]
        simp only
        rw [ih]
      · rw [if_neg hx]
        simp only
        rw [ih]
    · rw [if_neg hc, ih]

theorem unescape_slash (p : Str) : unescape (47 :: p) = 47 :: unescape p := by
  match p with
  | [] => rfl
  | [a] => rfl
  | x :: y :: t => rw [unescape, if_neg (fun h => absurd h.1 (by decide))]

/-- `path.Clean`'s stack is the walk, last element first. -/
theorem walk_eq (l : List Str) : (l.foldl (cleanStep true) []).reverse = walk l := by
  unfold walk
  have key : ∀ (l : List Str) (out : List Str), b!".." ∉ out →
      (l.foldl (cleanStep true) out).reverse =
        l.foldl (fun here s => if s = [] ∨ s = b!"." then here else if s = b!".." then here.dropLast else here ++ [s]) out.reverse := by
    intro l
    induction l with
    | nil => intro out _; rfl
    | cons s t ih =>
      intro out ho
      rw [List.foldl_cons, List.foldl_cons]
      by_cases h1 : s = [] ∨ s = b!"."
      · have : cleanStep true out s = out := by unfold cleanStep; rw [if_pos h1]
        rw [this, if_pos h1, ih out ho]
      · by_cases h2 : s = b!".."
        · rw [if_neg h1, if_pos h2]
          cases out with
          | nil =>
            have : cleanStep true [] s = [] := by unfold cleanStep; rw [if_neg h1, if_pos h2]; rfl
            rw [this, ih [] (by simp)]; rfl
          | cons a o =>
            simp only [List.mem_cons, not_or] at ho
            have : cleanStep true (a :: o) s = o := by
              unfold cleanStep; rw [if_neg h1, if_pos h2]; simp only; rw [if_neg (fun h => ho.1 h.symm)]
            rw [this, ih o ho.2]; simp
        · have : cleanStep true out s = s :: out := by unfold cleanStep; rw [if_neg h1, if_neg h2]
          rw [this, if_neg h1, if_neg h2, ih (s :: out) (by simp; exact ⟨fun h => h2 h.symm, ho⟩)]; simp
  exact key l [] (by simp)

theorem walk_good (p : Str) : ∀ s ∈ walk (elements p), Elem s := by
  intro s hs
  unfold elements at hs
  rw [← walk_eq] at hs
  exact cleanSegs_good p s hs

/-- The name of a path that was set on a request and cleaned. -/
theorem normalize_walk (p : Str) : pathClean (normalizePath p) = 47 :: joinByte 47 (walk (elements (unescape p))) ∧
    (hasSuffix (normalizePath p) b!"/index.html" = true ↔ (elements (unescape p)).getLast? = some b!"index.html") := by
  obtain ⟨l, hn, h1, h2, h3⟩ := normalizePath_walk p
  rw [percentDecode_eq] at h2 h3
  constructor
  · rw [h1, pathClean_plain l hn.1 hn.2.1 hn.2.2.2]
    unfold elements
    rw [← walk_eq, ← h2, foldl_clean_plain true l [] hn.2.2.2]
    simp
  · unfold elements
    rw [h1, ← h3 _ ⟨by decide, by decide⟩]
    obtain ⟨A, x, rfl⟩ : ∃ A x, l = A ++ [x] := by
      rcases List.eq_nil_or_concat l with h | ⟨A, x, h⟩
      · exact absurd h hn.1
      · exact ⟨A, x, by simp [h]⟩
    have := suffix_segs b!"index.html" (by decide) A x (hn.2.1 x (by simp))
    rw [show b!"/index.html" = 47 :: b!"index.html" from rfl, this]
    simp

section
variable (lib : Lib) (href : Str → Str) (fSys : RawFS) (filePath urlPath : Str) (r : HttpReq) (w : HttpResp)

theorem runWith_exact (newU : Str) : ∃ s, (runWith lib href (ioOpen fSys) newU r w).result = .ret s ∧
    ((elements (unescape newU)).getLast? = some b!"index.html" → s.resp.status = 301 ∧ s.log = []) ∧
    ((elements (unescape newU)).getLast? ≠ some b!"index.html" →
      ∀ n, .open n ∈ s.log ↔ n = fileName (walk (elements (unescape newU)))) := by
  obtain ⟨k1, k2⟩ := normalize_walk newU
  have hp : hasPrefix (normalizePath newU) b!"/" = true := by
    obtain ⟨l, t, hl, hp, hs⟩ := request_path newU
    rw [hp]; simp [hasPrefix]
  have hrun : (runWith lib href (ioOpen fSys) newU r w).result = serveFile lib href (ioOpen fSys) (pathClean (normalizePath newU)) false false
      { r with path := normalizePath newU } w := by
    unfold runWith fileServe
    simp only
    rw [if_pos hp]
  obtain ⟨s, h1, h2⟩ := serveFile_ret lib href (ioOpen fSys) (pathClean (normalizePath newU)) { r with path := normalizePath newU } w
  rw [hrun]
  refine ⟨s, h1, fun h => ?_, fun h n => ?_⟩
  · have hs := k2.mpr h
    unfold serveFile at h1
    rw [if_pos hs] at h1 h2
    refine ⟨?_, h2⟩
    injection h1 with h1
    rw [← h1]
    rfl
  · have hs : ¬ (hasSuffix (normalizePath newU) b!"/index.html" = true) := fun hh => h (k2.mp hh)
    simp only at h2
    rw [if_neg hs] at h2
    rw [h2, k1]
    unfold ioOpen
    rw [io_name _ (walk_good _), openMapped_open]

theorem walk_plain (l : List Str) (h : b!".." ∉ l) : walk l = l.filter keepSeg := by
  rw [← walk_eq, foldl_clean_plain true l [] h]; simp

theorem elements_fileName (l : List Str) (hne : l ≠ []) (hl : ∀ s ∈ l, Elem s) : elements (fileName l) = l := by
  unfold elements
  rw [fileName_eq l hne, splitByte_join 47 l hne (fun s hs => (hl s hs).2.2.2)]

/-- Different lists of elements have different names. -/
theorem fileName_inj (a b : List Str) (ha : ∀ s ∈ a, Elem s) (hb : ∀ s ∈ b, Elem s) (h : fileName a = fileName b) : a = b := by
  have dot : ∀ l : List Str, (∀ s ∈ l, Elem s) → l ≠ [] → fileName l ≠ b!"." := by
    intro l hl hne h
    have := elements_fileName l hne hl
    rw [h] at this
    have h2 : elements b!"." = [b!"."] := by decide
    rw [h2] at this
    exact (hl b!"." (by rw [← this]; simp)).2.1 rfl
  by_cases h1 : a = []
  · by_cases h2 : b = []
    · rw [h1, h2]
    · exact absurd (by rw [← h, h1]; rfl) (dot b hb h2)
  · by_cases h2 : b = []
    · exact absurd (by rw [h, h2]; rfl) (dot a ha h1)
    · rw [← elements_fileName a h1 ha, ← elements_fileName b h2 hb, h]

/-- C53, exactly.  A request with the path `p`, as the client wrote it, on a file server: if the last element of the decoded path
is "index.html", it is redirected and nothing is opened.  Otherwise exactly the file is opened that one reaches from the
root along the decoded path; so the page D/index.html is opened if and only if one reaches it by a path that does not end
in its name (but, for example, in "index.html/", "index.html/." or "index.html/x/.."). -/
theorem C53_exact (p : Str) : ∃ s, fileServe lib href (ioOpen fSys) { r with path := normalizePath p } w = .ret s ∧
    ((elements (unescape p)).getLast? = some b!"index.html" → s.resp.status = 301 ∧ s.log = []) ∧
    ((elements (unescape p)).getLast? ≠ some b!"index.html" → ∀ n, .open n ∈ s.log ↔ n = fileName (walk (elements (unescape p)))) ∧
    (∀ D : List Str, (∀ d ∈ D, Elem d) → (Access.open (fileName (D ++ [b!"index.html"])) ∈ s.log ↔
      walk (elements (unescape p)) = D ++ [b!"index.html"] ∧ (elements (unescape p)).getLast? ≠ some b!"index.html")) := by
  obtain ⟨s, h1, h2, h3⟩ := runWith_exact lib href fSys r w p
  refine ⟨s, h1, h2, h3, fun D hD => ?_⟩
  by_cases hl : (elements (unescape p)).getLast? = some b!"index.html"
  · rw [(h2 hl).2]
    exact iff_of_false (by simp) (fun h => h.2 hl)
  · rw [h3 hl]
    constructor
    · intro h
      refine ⟨?_, hl⟩
      refine (fileName_inj _ _ ?_ (walk_good _) h).symm
      intro d hd
      rw [List.mem_append, List.mem_singleton] at hd
      rcases hd with hd | rfl
      · exact hD d hd
      · unfold Elem; decide
    · intro h; rw [h.1]

/-- An index page that is served, at every place. -/
theorem C53_exact_slash (D : List Str) (hD : ∀ d ∈ D, Elem d) (p : Str) (hp : unescape p = b!"/" ++ fileName (D ++ [b!"index.html"]) ++ b!"/") :
    ∃ s, fileServe lib href (ioOpen fSys) { r with path := normalizePath p } w = .ret s ∧ Access.open (fileName (D ++ [b!"index.html"])) ∈ s.log := by
  obtain ⟨s, h1, -, -, h2⟩ := C53_exact lib href fSys r w p
  refine ⟨s, h1, (h2 D hD).2 ?_⟩
  have hE : ∀ d ∈ D ++ [b!"index.html"], Elem d := by
    intro d hd
    rw [List.mem_append, List.mem_singleton] at hd
    rcases hd with hd | rfl
    · exact hD d hd
    · unfold Elem; decide
  have he : elements (unescape p) = [] :: (D ++ [b!"index.html"]) ++ [[]] := by
    rw [hp, fileName_eq _ (by simp)]
    have : b!"/" ++ joinByte 47 (D ++ [b!"index.html"]) ++ b!"/" = joinByte 47 ([] :: (D ++ [b!"index.html"]) ++ [[]]) := by
      have hj : ∀ l : List Str, l ≠ [] → joinByte 47 (l ++ [[]]) = joinByte 47 l ++ b!"/" := by
        intro l
        induction l with
        | nil => intro h; exact absurd rfl h
        | cons a l ih =>
          intro _
          cases l with
          | nil => simp [joinByte]
          | cons b l => rw [List.cons_append, List.cons_append, joinByte, ← List.cons_append, ih (by simp), joinByte]; simp
      rw [hj _ (by simp)]
      cases hD' : D ++ [b!"index.html"] with
      | nil => simp at hD'
      | cons a l => simp [joinByte]
    rw [this]
    unfold elements
    refine splitByte_join 47 _ (by simp) ?_
    intro x hx
    simp only [List.mem_append, List.mem_cons, List.not_mem_nil, or_false] at hx
    rcases hx with (rfl | hx) | rfl
    · simp
    · exact (hE x (by simpa using hx)).2.2.2
    · simp
  constructor
  · have hw := walk_plain (elements (unescape p)) (by
      rw [he]
      intro hm
      simp only [List.mem_append, List.mem_cons, List.not_mem_nil, or_false] at hm
      rcases hm with (h | h) | h
      · exact absurd h (by decide)
      · exact (hE _ (by simpa using h)).2.2.1 rfl
      · exact absurd h (by decide))
    rw [hw, he, List.filter_append, List.filter_cons_of_neg (by decide), filter_good _ hE, List.filter_cons_of_neg (by decide)]
    simp
  · rw [he, List.getLast?_append]; simp [Option.or]

/-- C70, exactly: a FixStaticFileFS route asks its file system for the file one reaches from the root along the
configured name after its percent escapes have been decoded, and for no other, whatever the request; if the last element
of the decoded name is "index.html", every request is answered 301 and nothing is opened. -/
theorem C70_exact : ∃ s, (fixStaticRun lib href fSys filePath r w).result = .ret s ∧
    ((elements (unescape filePath)).getLast? = some b!"index.html" → s.resp.status = 301 ∧ s.log = []) ∧
    ((elements (unescape filePath)).getLast? ≠ some b!"index.html" →
      ∀ n, .open n ∈ s.log ↔ n = fileName (walk (elements (unescape filePath)))) :=
  runWith_exact lib href fSys r w filePath


theorem insideDir_iff (dir l : List Str) (hd : ∀ s ∈ dir, Elem s) (hl : ∀ s ∈ l, Elem s) : InsideDir dir (fileName l) ↔ dir <+: l := by
  constructor
  · rintro ⟨t, ht, h⟩
    have := fileName_inj l (dir ++ t) hl (fun s hs => by
      rw [List.mem_append] at hs
      rcases hs with hs | hs
      · exact hd s hs
      · exact ht s hs) h
    exact ⟨t, this.symm⟩
  · rintro ⟨t, rfl⟩
    exact ⟨t, fun s hs => hl s (by simp [hs]), rfl⟩

/-- `path.Join` of the configured directory and a path without "..". -/
theorem join_form (dir : List Str) (hdir : ∀ s ∈ dir, Elem s) (u : Str) (hu : b!".." ∉ elements u) :
    (dir ++ walk (elements u) = [] ∧ (pathJoin (joinByte 47 dir) u = [] ∨ pathJoin (joinByte 47 dir) u = b!"." ∨
      pathJoin (joinByte 47 dir) u = b!"/")) ∨
    (dir ++ walk (elements u) ≠ [] ∧ (pathJoin (joinByte 47 dir) u = fileName (dir ++ walk (elements u)) ∨
      pathJoin (joinByte 47 dir) u = b!"/" ++ fileName (dir ++ walk (elements u)))) := by
  have hw : walk (elements u) = (splitByte 47 u).filter keepSeg := walk_plain _ hu
  by_cases hd : dir = []
  · subst hd
    simp only [List.nil_append]
    have hj0 : joinByte 47 ([] : List Str) = [] := rfl
    unfold pathJoin
    rw [hj0, if_pos rfl]
    by_cases hu0 : u = []
    · subst hu0
      rw [if_pos rfl]
      exact Or.inl ⟨by decide, Or.inl rfl⟩
    · rw [if_neg hu0]
      have hseg : ∀ r, cleanSegs r u = walk (elements u) := by
        intro r
        unfold cleanSegs
        rw [foldl_clean_plain r (splitByte 47 u) [] hu, hw]
        simp
      by_cases hne : walk (elements u) = []
      · refine Or.inl ⟨hne, Or.inr ?_⟩
        unfold pathClean
        rw [if_neg hu0, hseg, hseg, hne]
        split
        · right; rfl
        · left; rw [if_pos rfl]
      · refine Or.inr ⟨hne, ?_⟩
        rw [fileName_eq _ hne]
        unfold pathClean
        rw [if_neg hu0, hseg, hseg, if_neg hne]
        split
        · right; rfl
        · left; rfl
  · have hne : dir ++ walk (elements u) ≠ [] := by simp [hd]
    refine Or.inr ⟨hne, Or.inl ?_⟩
    have hF0 : joinByte 47 dir ≠ [] := joinByte_ne dir hd hdir
    have hFp : hasPrefix (joinByte 47 dir ++ 47 :: u) b!"/" = false := by
      rw [hasPrefix_append hF0]; exact joinByte_head_ne dir hd hdir
    have hcs : cleanSegs false (joinByte 47 dir ++ 47 :: u) = dir ++ walk (elements u) := by
      unfold cleanSegs
      rw [splitByte_append_gen, splitByte_join 47 dir hd (fun s hs => (hdir s hs).2.2.2)]
      rw [foldl_clean_plain false _ [] (by
        intro hm
        rw [List.mem_append] at hm
        rcases hm with hm | hm
        · exact (hdir _ hm).2.2.1 rfl
        · exact hu hm)]
      rw [List.filter_append, filter_good dir hdir, hw]
      simp
    unfold pathJoin
    rw [if_neg hF0]
    unfold pathClean
    rw [if_neg (by simp), if_neg (by rw [hFp]; simp), hcs, if_neg hne, fileName_eq _ hne]

/-- Setting the joined path: a slash in front makes no difference. -/
theorem join_walk (dir : List Str) (hdir : ∀ s ∈ dir, Elem s) (u : Str) (hu : b!".." ∉ elements u) :
    walk (elements (unescape (pathJoin (joinByte 47 dir) u))) = walk (elements (unescape (fileName (dir ++ walk (elements u))))) ∧
    ((elements (unescape (pathJoin (joinByte 47 dir) u))).getLast? = some b!"index.html" ↔
      (elements (unescape (fileName (dir ++ walk (elements u))))).getLast? = some b!"index.html") := by
  rcases join_form dir hdir u hu with ⟨h1, h2⟩ | ⟨h1, h2⟩
  · rw [h1]
    rcases h2 with h2 | h2 | h2 <;> rw [h2] <;> decide +kernel
  · rcases h2 with h2 | h2
    · rw [h2]; exact ⟨rfl, Iff.rfl⟩
    · rw [h2]
      generalize fileName (dir ++ walk (elements u)) = f
      have : unescape (b!"/" ++ f) = 47 :: unescape f := unescape_slash f
      rw [this]
      unfold elements
      rw [splitByte, if_pos rfl, getLast?_skip' _ _ (splitByte_ne 47 _)]
      exact ⟨rfl, Iff.rfl⟩

/-- C52, exactly: a request that was routed by "/U/rest" to a StaticFileFS route with the prefix "/U" asks the file
system for the file one reaches from its root along the name of the configured directory and of what `rest` leads to,
decoded once more; and for no other. It is in the configured directory exactly if that walk leads there. If the last
element of the decoded name is "index.html", the request is answered 301 and nothing is opened. -/
theorem C52_exact (dir : List Str) (hdir : ∀ s ∈ dir, Elem s)
    (hfile : ∃ f, (f = [] ∧ dir = [] ∨ f = fileName dir ∧ dir ≠ []) ∧ (filePath = f ∨ filePath = b!"/" ++ f))
    (raw U rest : Str) (hpath : r.path = normalizePath raw) (hurl : urlPath = b!"/" ++ U)
    (hroute : r.path = b!"/" ++ U ++ b!"/" ++ rest) (asked : List Str)
    (hasked : asked = elements (unescape (fileName (dir ++ walk (elements rest))))) :
    ∃ s, (staticFSRun lib href fSys filePath urlPath r w).result = .ret s ∧
      (asked.getLast? = some b!"index.html" → s.resp.status = 301 ∧ s.log = []) ∧
      (asked.getLast? ≠ some b!"index.html" →
        (∀ n, .open n ∈ s.log ↔ n = fileName (walk asked)) ∧ ((∀ n, .open n ∈ s.log → InsideDir dir n) ↔ dir <+: walk asked)) := by
  have hF : trimPrefix filePath b!"/" = joinByte 47 dir := by
    obtain ⟨f, hf, hfp⟩ := hfile
    have hj : f = joinByte 47 dir := by
      rcases hf with ⟨rfl, rfl⟩ | ⟨rfl, hd⟩
      · rfl
      · exact fileName_eq dir hd
    subst hj
    rcases hfp with rfl | rfl
    · unfold trimPrefix
      rcases hf with ⟨h, hd⟩ | ⟨h, hd⟩
      · rw [h]; rfl
      · rw [joinByte_head_ne dir hd hdir]; rfl
    · simp [trimPrefix, hasPrefix]
  have hU : trimPrefix urlPath b!"/" = U := by rw [hurl]; simp [trimPrefix, hasPrefix]
  have hu : trimPrefix (trimPrefix r.path b!"/") U = 47 :: rest := by
    have : trimPrefix r.path b!"/" = U ++ 47 :: rest := by rw [hroute]; simp [trimPrefix, hasPrefix]
    rw [this]
    unfold trimPrefix hasPrefix
    rw [if_pos (by rw [List.isPrefixOf_iff_prefix]; exact ⟨47 :: rest, rfl⟩)]
    simp
  have hrest : b!".." ∉ elements rest := by
    obtain ⟨l, t, hl, hp, hs⟩ := request_path raw
    intro hm
    apply hl.2.2.2
    rw [← hs]
    have : t = U ++ 47 :: rest := by
      rw [hpath, hp] at hroute
      simpa using hroute
    rw [this, splitByte_append_gen]
    exact List.mem_append_right _ hm
  have hel : elements (47 :: rest) = [] :: elements rest := by unfold elements; rw [splitByte, if_pos rfl]
  have hwk : walk (elements (47 :: rest)) = walk (elements rest) := by rw [hel]; rfl
  obtain ⟨j1, j2⟩ := join_walk dir hdir (47 :: rest) (by rw [hel]; simp; exact hrest)
  rw [hwk] at j1 j2
  obtain ⟨s, h1, h2, h3⟩ := runWith_exact lib href fSys r w (pathJoin (joinByte 47 dir) (47 :: rest))
  subst hasked
  refine ⟨s, ?_, fun h => h2 (j2.mpr h), fun h => ?_⟩
  · unfold staticFSRun
    simp only
    rw [hU, hu, hF]
    exact h1
  · have h4 := h3 (fun hh => h (j2.mp hh))
    rw [j1] at h4
    refine ⟨h4, ?_⟩
    rw [← insideDir_iff dir _ hdir (walk_good _)]
    constructor
    · intro hh; exact hh _ ((h4 _).mpr rfl)
    · intro hh n hn; rw [(h4 n).mp hn]; exact hh

end

section
variable (lib : Lib) (href : Str → Str) (fSys : RawFS) (urlPath : Str) (r : HttpReq) (w : HttpResp)

/-- C77, exactly: a request that was routed by "/U/rest" to a StaticFile route with the prefix "/U" asks the configured
directory for the file one reaches along `rest` decoded once more, and for no other; if the last element of that is
"index.html", it is answered 301 and nothing is opened. -/
theorem C77_exact (U rest : Str) (hurl : urlPath = b!"/" ++ U) (hroute : r.path = b!"/" ++ U ++ b!"/" ++ rest) :
    ∃ s, (staticFileRun lib href fSys urlPath r w).result = .ret s ∧
      ((elements (unescape rest)).getLast? = some b!"index.html" → s.resp.status = 301 ∧ s.log = []) ∧
      ((elements (unescape rest)).getLast? ≠ some b!"index.html" →
        ∀ n, .open n ∈ s.log ↔ n = fileName (walk (elements (unescape rest)))) := by
  have hU : trimPrefix urlPath b!"/" = U := by rw [hurl]; simp [trimPrefix, hasPrefix]
  have hu : trimPrefix (trimPrefix r.path b!"/") U = 47 :: rest := by
    have : trimPrefix r.path b!"/" = U ++ 47 :: rest := by rw [hroute]; simp [trimPrefix, hasPrefix]
    rw [this]
    unfold trimPrefix hasPrefix
    rw [if_pos (by rw [List.isPrefixOf_iff_prefix]; exact ⟨47 :: rest, rfl⟩)]
    simp
  have hel : elements (unescape (47 :: rest)) = [] :: elements (unescape rest) := by
    rw [unescape_slash]; unfold elements; rw [splitByte, if_pos rfl]
  have hgl : (elements (unescape (47 :: rest))).getLast? = (elements (unescape rest)).getLast? := by
    rw [hel]; exact getLast?_skip' _ _ (splitByte_ne 47 _)
  have hwk : walk (elements (unescape (47 :: rest))) = walk (elements (unescape rest)) := by rw [hel]; rfl
  obtain ⟨s, h1, h2, h3⟩ := runWith_exact lib href fSys r w (47 :: rest)
  rw [hgl, hwk] at h3
  rw [hgl] at h2
  refine ⟨s, ?_, h2, h3⟩
  unfold staticFileRun
  simp only
  rw [hU, hu]
  exact h1

end

/-- C77_exact, for a file whose name contains an escape: another file is opened. -/
example : shown (staticFileRun exLib id exFS b!"/files" (exGet b!"/files/a%2541") HttpResp.fresh).result =
    some (404, b!"404 page not found", [.open b!"aA"]) ∧ (exGet b!"/files/a%2541").path = b!"/files/" ++ b!"a%41" := by
  decide +kernel

/-- What C52_exact says of two requests, one of which leaves the directory. -/
example : walk (elements (unescape (fileName ([b!"static"] ++ walk (elements b!"%2e%2e/secret.txt"))))) = [b!"secret.txt"] ∧
    walk (elements (unescape (fileName ([b!"static"] ++ walk (elements b!"./a.txt"))))) = [b!"static", b!"a.txt"] := by
  decide +kernel

example : ∃ s, (staticFSRun exLib id exFS b!"static" b!"/files" (exGet b!"/files/%252e%252e/secret.txt") HttpResp.fresh).result = .ret s ∧
    ¬ ∀ n, .open n ∈ s.log → InsideDir [b!"static"] n := by
  obtain ⟨s, h1, -, h3⟩ := C52_exact exLib id exFS b!"static" b!"/files" (exGet b!"/files/%252e%252e/secret.txt") HttpResp.fresh
    [b!"static"] (by intro s hs; simp at hs; subst hs; exact ⟨by decide, by decide, by decide, by decide⟩)
    ⟨b!"static", Or.inr ⟨rfl, by simp⟩, Or.inl rfl⟩ b!"/files/%252e%252e/secret.txt" b!"files" b!"%2e%2e/secret.txt" rfl rfl
    (by decide +kernel) _ rfl
  have hw : walk (elements (unescape (fileName ([b!"static"] ++ walk (elements b!"%2e%2e/secret.txt"))))) = [b!"secret.txt"] := by
    decide +kernel
  refine ⟨s, h1, fun h => ?_⟩
  have := (h3 (by decide +kernel)).2.mp h
  rw [hw] at this
  exact absurd this (by decide)

/-- C70_exact: a name with an escape, and an index page behind one. -/
example : walk (elements (unescape b!"a%41.txt")) = [b!"aA.txt"] ∧
    (elements (unescape b!"docs%2findex.html")).getLast? = some b!"index.html" := by decide +kernel

end Verif
