import Verif.Props.Seek
import Verif.Spec.Frail
/-
C112: static routes and files that cannot seek or do not have the size they claim.
-/
namespace Verif
open Spec

section
variable (lib : Lib) (href : Str → Str) (fSys : RawFS) (r : HttpReq) (w : HttpResp)

/-- Each kind of static route serves the file it names as content, whatever the file is like. -/
theorem route_content (route : StaticRoute) (name : List Str) (hn : route.Names r.path name) (f : FsFile) (fi : FileInfo)
    (ho : fSys.opens (fileName name) = .ok f) (hs : f.stat = .ok fi) (hd : fi.isDir = false) :
    (route.run lib href fSys r w).result =
      (serveContent lib r w fi.name fi.modTime (some fi.size) f.content).bind
        fun p => .ret ⟨p.1, p.2, [.open (fileName name)]⟩ := by
  cases route with
  | fileFS filePath urlPath =>
    obtain ⟨dir, rest, U, ⟨h1, h2⟩, ⟨h3, h4⟩, h5, h6, h7, h8, rfl⟩ := hn
    exact fs_content lib href fSys r w filePath urlPath dir h2 h1 h6 U h7 rest h3 h4 h8 h5 f fi ho hs hd
  | file urlPath =>
    obtain ⟨U, ⟨h1, h2⟩, h3, h4, h5⟩ := hn
    have hU : trimPrefix urlPath b!"/" = U := by rw [h4]; simp [trimPrefix, hasPrefix]
    have hu : trimPrefix (trimPrefix r.path b!"/") U = 47 :: joinByte 47 name := by
      have h1 : trimPrefix r.path b!"/" = U ++ 47 :: joinByte 47 name := by
        rw [h5, fileName_eq name h1]; simp [trimPrefix, hasPrefix]
      rw [h1]
      unfold trimPrefix hasPrefix
      rw [if_pos (by rw [List.isPrefixOf_iff_prefix]; exact ⟨_, rfl⟩)]
      simp
    show (staticFileRun lib href fSys urlPath r w).result = _
    unfold staticFileRun
    simp only
    rw [hU, hu]
    exact named_content lib href fSys r w name h1 h2 h3 f fi ho hs hd
  | fixFS filePath =>
    obtain ⟨⟨h1, h2⟩, h3, h4⟩ := hn
    show (runWith lib href (ioOpen fSys) filePath r w).result = _
    have : filePath = 47 :: joinByte 47 name := by rw [h4, fileName_eq name h1]; rfl
    rw [this]
    exact named_content lib href fSys r w name h1 h2 h3 f fi ho hs hd

/-- With `OpensAs`. -/
theorem frail_content (route : StaticRoute) (name : List Str) (hn : route.Names r.path name) (base : Str) (size : Nat) (t : Int)
    (c : Content) (hf : OpensAs fSys name base size t c) :
    ∃ s, (route.run lib href fSys r w).result = .ret s ∧ s.log = [.open (fileName name)] ∧
      serveContent lib r w base t (some size) c = .ret (s.resp, s.err) := by
  obtain ⟨-, f, ho, hs, rfl⟩ := hf
  obtain ⟨⟨w', e⟩, hw⟩ := serveContent_ret lib r w base t (some size) f.content
  refine ⟨⟨w', e, [.open (fileName name)]⟩, ?_, rfl, hw⟩
  rw [route_content lib href fSys r w route name hn f ⟨base, size, false, t⟩ ho hs rfl]
  simp only
  rw [hw, Outcome.bind_ret]

theorem contentType_known (w : HttpResp) (base : Str) (c : Content) (h : c.seekable = true ∨ TypeKnown lib r base) :
    ∃ ct w', contentType lib r w base c = .ret (.ok (ct, w')) ∧ w'.body = w.body ∧
      (∀ k, k ≠ b!"Content-Type" → w'.peek k = w.peek k) := by
  rcases h with h | h
  · obtain ⟨ct, w', h1, h2, -, h3⟩ := contentType_ret lib r w base c h
    exact ⟨ct, w', h1, h2, h3⟩
  · unfold contentType
    simp only
    by_cases h1 : r.header b!"Content-Type" = []
    · rw [if_pos h1]
      rcases h with h | h
      · exact absurd h1 h
      · rw [if_neg h]
        exact ⟨_, _, rfl, rfl, fun k hk => by rw [peek_set, if_neg hk]⟩
    · rw [if_neg h1]
      exact ⟨_, _, rfl, rfl, fun _ _ => rfl⟩

theorem contentType_unknown (w : HttpResp) (base : Str) (c : Content) (h : c.seekable = false) (hk : ¬ TypeKnown lib r base) :
    contentType lib r w base c = .ret (.error (httpError w b!"seeker can't seek" 500)) := by
  unfold contentType
  simp only
  have h1 : r.header b!"Content-Type" = [] := Classical.byContradiction fun h1 => hk (.inl h1)
  have h2 : lib.typeByName base = [] := Classical.byContradiction fun h1 => hk (.inr h1)
  rw [if_pos h1, if_pos h2]
  obtain ⟨ct, h3, -⟩ := C59_exact (c.data.take 512)
  rw [h3, Outcome.bind_ret, if_neg (by rw [h]; decide)]

/-- What is served once the conditions let the request through. -/
theorem frail_reduces (base : Str) (t : Int) (size : Int) (c : Content) (rng : Str)
    (hc : c.seekable = true ∨ TypeKnown lib r base)
    (hpre : checkPreconditions lib.toTimeLib r (setLastModified lib.toTimeLib w t) t =
      .ret (some rng, setLastModified lib.toTimeLib w t)) :
    ∃ ct w', serveContent lib r w base t (some size) c = .ret (serveSized lib r w' ct rng size c) ∧
      contentType lib r (setLastModified lib.toTimeLib w t) base c = .ret (.ok (ct, w')) ∧ w'.body = w.body ∧
      (∀ k, k ≠ b!"Content-Type" → k ≠ b!"Last-Modified" → w'.peek k = w.peek k) := by
  obtain ⟨ct, w', h1, h2, h4⟩ := contentType_known lib r (setLastModified lib.toTimeLib w t) base c hc
  refine ⟨ct, w', ?_, h1, ?_, ?_⟩
  · unfold serveContent
    simp only
    rw [hpre, Outcome.bind_ret]
    simp only
    rw [h1, Outcome.bind_ret]
  · rw [h2, setLastModified_body]
  · intro k hk hl; rw [h4 k hk, setLastModified_peek _ _ _ _ hl]

theorem uncond_range (t : Int) (hu : Unconditional r) (hir : r.header b!"If-Range" = []) :
    checkPreconditions lib.toTimeLib r (setLastModified lib.toTimeLib w t) t =
      .ret (some (r.header b!"Range"), setLastModified lib.toTimeLib w t) :=
  (uncond_pre lib r (setLastModified lib.toTimeLib w t) t hu).2 (fun h => h.2.1 hir)

/-- What a client gets of `x`: nothing for HEAD. -/
theorem carries_body {method body body' : Str} {x : Str} (h1 : method ≠ b!"HEAD" → body' = body ++ x) (h2 : method = b!"HEAD" → body' = body) :
    body' = body ++ (if method = b!"HEAD" then [] else x) := body_of h1 h2

/-- **C112** (the whole file), `_partial`: without a Range header the answer announces the size of the file information and
carries the bytes the file has, up to that size — so exactly the announced bytes if the file did not shrink in between, and
the first ones of them if it did.  This needs no Seek, unless the type has to be sniffed. -/
theorem C112_whole_partial (route : StaticRoute) (name : List Str) (hn : route.Names r.path name) (base : Str) (size : Nat) (t : Int)
    (c : Content) (hf : OpensAs fSys name base size t c) (hu : Unconditional r) (hir : r.header b!"If-Range" = [])
    (hr : r.header b!"Range" = []) (hw : NoEncoding w) (hc : c.seekable = true ∨ TypeKnown lib r base) :
    ∃ s, (route.run lib href fSys r w).result = .ret s ∧
      Announces w s 200 size (if r.method = b!"HEAD" then [] else c.data.take size) ∧
      (size ≤ c.data.length → (c.data.take size).length = size) := by
  obtain ⟨s, hs, -, hsc⟩ := frail_content lib href fSys r w route name hn base size t c hf
  have hpre := uncond_range lib r w t hu hir
  rw [hr] at hpre
  obtain ⟨ct, w1, h1, -, h2, h3⟩ := frail_reduces lib r w base t size c [] hc hpre
  have hsend : serveSized lib r w1 ct [] size c = sendRanges lib r w1 ct size c [] := by
    unfold serveSized
    rw [if_pos (by omega)]
    show sendRanges _ _ _ _ _ _ _ = _
    congr 1
  rw [hsc, hsend] at h1
  unfold sendRanges at h1
  simp only at h1
  injection h1 with h1
  injection h1 with e1 e2
  obtain ⟨l1, l2, l3, l4, l5⟩ := lengthHeaders_facts w1 size
  obtain ⟨s1, s2, s3, s4⟩ := sendBody_facts r (lengthHeaders w1 size) 200 c.data size
  rw [← e1] at s1 s2 s3 s4
  refine ⟨s, hs, ⟨e2, s1, ?_, ?_⟩, ?_⟩
  · rw [s2, l4 (by rw [h3 _ (by decide) (by decide)]; exact hw.1)]
    exact formatInt_number _
  · rw [l1, h2, Int.toNat_natCast] at s3
    rw [l1, h2] at s4
    exact body_of s3 s4
  · intro h; rw [List.length_take]; omega

/-- **C112** (unknown type, no Seek): the bytes looked at for the type cannot be given back, and the request is refused,
whatever range it asks for. -/
theorem C112_sniffed (route : StaticRoute) (name : List Str) (hn : route.Names r.path name) (base : Str) (size : Nat) (t : Int)
    (c : Content) (hf : OpensAs fSys name base size t c) (hu : Unconditional r)
    (hc : c.seekable = false) (hk : ¬ TypeKnown lib r base) :
    ∃ s, (route.run lib href fSys r w).result = .ret s ∧ Fails w s 500 b!"seeker can't seek" := by
  obtain ⟨s, hs, -, hsc⟩ := frail_content lib href fSys r w route name hn base size t c hf
  refine ⟨s, hs, ?_⟩
  obtain ⟨rng, hpre⟩ : ∃ rng, checkPreconditions lib.toTimeLib r (setLastModified lib.toTimeLib w t) t =
      .ret (some rng, setLastModified lib.toTimeLib w t) := by
    by_cases h : (question lib.toTimeLib r (setLastModified lib.toTimeLib w t) t).RangeFails
    · exact ⟨_, (uncond_pre lib r _ t hu).1 h⟩
    · exact ⟨_, (uncond_pre lib r _ t hu).2 h⟩
  unfold serveContent at hsc
  simp only at hsc
  rw [hpre, Outcome.bind_ret] at hsc
  simp only at hsc
  rw [contentType_unknown lib r _ base c hc hk, Outcome.bind_ret] at hsc
  simp only at hsc
  injection hsc with hsc
  injection hsc with e1 e2
  refine ⟨e2.symm, ?_, ?_, ?_⟩
  · rw [← e1]; rfl
  · rw [← e1]; show (setLastModified lib.toTimeLib w t).body ++ _ = _; rw [setLastModified_body]
  · rw [← e1]; unfold httpError
    rw [peek_write, peek_code, peek_set, if_neg (by decide), peek_set, if_pos rfl]

/-- **C112** (one range).  A specification that selects bytes, counted by the size of the file information: a file that can
seek answers 206 and carries those of the selected bytes that it still has; one that cannot is refused with 416. -/
theorem C112_range (route : StaticRoute) (name : List Str) (hn : route.Names r.path name) (base : Str) (size : Nat) (t : Int)
    (c : Content) (hf : OpensAs fSys name base size t c) (hu : Unconditional r) (hir : r.header b!"If-Range" = [])
    (hw : NoEncoding w) (x : Str) (b : ByteSpec) (hr : r.header b!"Range" = b!"bytes=" ++ x) (hx : b.Text x) (hv : b.Valid)
    (hcomma : 44 ∉ x) (hsel : ∃ i, b.Selects size i) :
    ∃ s a n, (route.run lib href fSys r w).result = .ret s ∧ 0 < n ∧ a + n ≤ size ∧
      (∀ i, b.Selects size i ↔ a ≤ i ∧ i < a + n) ∧
      (c.seekable = true → Announces w s 206 n (if r.method = b!"HEAD" then [] else slice c.data a (a + n)) ∧
        ContentRange a (a + n) size (s.resp.peek b!"Content-Range")) ∧
      (c.seekable = false → TypeKnown lib r base → Fails w s 416 b!"io.File missing Seek method") := by
  obtain ⟨s, hs, -, hsc⟩ := frail_content lib href fSys r w route name hn base size t c hf
  have hlen := hf.1
  have hpre := uncond_range lib r w t hu hir
  have hsize : 0 < size := by
    obtain ⟨i, hi⟩ := hsel
    cases b <;> simp only [ByteSpec.Selects] at hi <;> omega
  obtain ⟨rs, hcov, hp⟩ := (C55_rfc size hsize hlen [x] [b] (.cons hx hv .nil) (by simp) (by simpa using hcomma)).2
    ⟨b, by simp, hsel⟩
  cases hcov with
  | drop hno _ =>
    obtain ⟨i, hi⟩ := hsel
    exact absurd hi (hno i)
  | take h4 h5 h6 h7 h8 =>
    cases h8
    rename_i a n
    obtain ⟨a', rfl⟩ := Int.eq_ofNat_of_zero_le h6
    obtain ⟨n', rfl⟩ := Int.eq_ofNat_of_zero_le (Int.le_of_lt h7)
    have hiff : ∀ i, b.Selects size i ↔ a' ≤ i ∧ i < a' + n' := by
      intro i
      rw [h5 i]
      omega
    have hlast : b.Selects size (a' + n' - 1) := (hiff _).mpr ⟨by omega, by omega⟩
    have hbnd : a' + n' ≤ size := by
      have : a' + n' - 1 < size := by
        cases b <;> simp only [ByteSpec.Selects] at hlast <;> omega
      omega
    refine ⟨s, a', n', hs, by omega, hbnd, hiff, ?_⟩
    have hrange : joinByte 44 [x] = x := rfl
    rw [hr] at hpre
    rw [hrange] at hp
    have hsum : sumRangesSize [⟨(a' : Int), n'⟩] = n' := by
      rw [sumRanges_eq _ (by simp) (by simp [totalLength]; omega)]
      simp [totalLength]
    have key : ∀ ct w1, serveSized lib r w1 ct (b!"bytes=" ++ x) size c = sendRanges lib r w1 ct size c [⟨a', n'⟩] := by
      intro ct w1
      unfold serveSized
      rw [if_pos (by omega), hp]
      simp only [List.map_cons, List.map_nil]
      rw [hsum, if_neg (by omega)]
    constructor
    · intro hc
      obtain ⟨ct, w1, h1, -, h2, h3⟩ := frail_reduces lib r w base t size c _ (.inl hc) hpre
      rw [hsc, key] at h1
      unfold sendRanges at h1
      simp only at h1
      rw [if_neg (by simp [hc])] at h1
      injection h1 with h1
      injection h1 with e1 e2
      obtain ⟨l1, l2, l3, l4, l5⟩ := lengthHeaders_facts (w1.set b!"Content-Range" (contentRange ⟨a', n'⟩ size)) n'
      generalize lengthHeaders (w1.set b!"Content-Range" (contentRange ⟨a', n'⟩ size)) n' = w2 at l1 l2 l3 l4 l5 e1
      obtain ⟨s1, s2, s3, s4⟩ := sendBody_facts r w2 206 (c.data.drop (a' : Int).toNat) n'
      rw [← e1] at s1 s2 s3 s4
      rw [l1, body_set, h2, Int.toNat_natCast, Int.toNat_natCast] at s3
      rw [l1, body_set, h2] at s4
      refine ⟨⟨e2, s1, ?_, ?_⟩, ?_⟩
      · rw [s2, l4 (by rw [peek_set, if_neg (by decide), h3 _ (by decide) (by decide)]; exact hw.1)]
        exact formatInt_number _
      · rw [slice, List.drop_take, Nat.add_sub_cancel_left]
        exact body_of s3 s4
      · rw [s2, l5 _ (by decide) (by decide), peek_set, if_pos rfl]
        exact contentRange_spec a' n' _ (by omega) hbnd hlen
    · intro hc hk
      obtain ⟨ct, w1, h1, -, h2, h3⟩ := frail_reduces lib r w base t size c _ (.inr hk) hpre
      rw [hsc, key] at h1
      unfold sendRanges at h1
      simp only at h1
      rw [if_pos (by simp [hc])] at h1
      injection h1 with h1
      injection h1 with e1 e2
      refine ⟨e2, ?_, ?_, ?_⟩
      · rw [e1]; rfl
      · rw [e1]; show w1.body ++ _ = _; rw [h2]; rfl
      · rw [e1]; unfold httpError
        rw [peek_write, peek_code, peek_set, if_neg (by decide), peek_set, if_pos rfl]

/-- **C112** (ServeContent).  The exported function finds the size by seeking: content that cannot seek is refused with 500,
whatever its type. -/
theorem C112_serveContent (name : Str) (t : Int) (c : Content) (hu : Unconditional r) (hc : c.seekable = false) :
    ∃ w', ServeContent lib r w name t c = .ret (w', some .seek) ∧ w'.status = 500 ∧ w'.body = w.body ++ b!"seeker can't seek" ∧
      w'.peek b!"Content-Type" = b!"text/plain; charset=utf-8" := by
  obtain ⟨rng, hpre⟩ : ∃ rng, checkPreconditions lib.toTimeLib r (setLastModified lib.toTimeLib w t) t =
      .ret (some rng, setLastModified lib.toTimeLib w t) := by
    by_cases h : (question lib.toTimeLib r (setLastModified lib.toTimeLib w t) t).RangeFails
    · exact ⟨_, (uncond_pre lib r _ t hu).1 h⟩
    · exact ⟨_, (uncond_pre lib r _ t hu).2 h⟩
  unfold ServeContent serveContent
  simp only
  rw [hpre, Outcome.bind_ret]
  simp only
  by_cases hk : TypeKnown lib r name
  · obtain ⟨ct, w', h1, h2, -⟩ := contentType_known lib r (setLastModified lib.toTimeLib w t) name c (.inr hk)
    rw [h1, Outcome.bind_ret]
    simp only [hc, Bool.false_eq_true, if_false]
    refine ⟨_, rfl, rfl, ?_, ?_⟩
    · show w'.body ++ _ = _
      rw [h2, setLastModified_body]
    · unfold httpError
      rw [peek_write, peek_code, peek_set, if_neg (by decide), peek_set, if_pos rfl]
  · rw [contentType_unknown lib r _ name c hc hk, Outcome.bind_ret]
    simp only
    refine ⟨_, rfl, rfl, ?_, ?_⟩
    · show (setLastModified lib.toTimeLib w t).body ++ _ = _
      rw [setLastModified_body]
    · unfold httpError
      rw [peek_write, peek_code, peek_set, if_neg (by decide), peek_set, if_pos rfl]

/-! ### Every request -/

theorem take_prefix {x y : Str} (h : x <+: y) (n : Nat) : x.take n <+: y.take n := by
  obtain ⟨z, rfl⟩ := h
  rw [List.take_append]
  exact ⟨_, rfl⟩

theorem drop_prefix {x y : Str} (h : x <+: y) (n : Nat) : x.drop n <+: y.drop n := by
  obtain ⟨z, rfl⟩ := h
  rw [List.drop_append]
  exact ⟨_, rfl⟩

/-- A range inside the size, of what can be read and of what was announced. -/
theorem slice_prefix {x y : Str} {size : Nat} (h : x.take size <+: y) (a n : Nat) (hb : a + n ≤ size) :
    (x.drop a).take n <+: (y.drop a).take n := by
  have e : (x.drop a).take n = ((x.take size).drop a).take n := by
    rw [List.drop_take, List.take_take, Nat.min_eq_left (by omega)]
  rw [e]
  exact take_prefix (drop_prefix h a) n

theorem pipeOut_prefix (c : Content) (full : Str) (h : c.data.take full.length <+: full) (b ct : Str) (size : Int)
    (rs : List HttpRange) (hb : ∀ ra ∈ rs, 0 ≤ ra.start ∧ 0 ≤ ra.length ∧ ra.start + ra.length ≤ full.length) (first : Bool) :
    pipeOut c b ct size first rs <+: pipeOut ⟨full, true⟩ b ct size first rs := by
  induction rs generalizing first with
  | nil => exact List.prefix_refl _
  | cons ra rs ih =>
    obtain ⟨h1, h2, h3⟩ := hb ra (List.mem_cons_self ..)
    have hf := readAt_length (c := ⟨full, true⟩) (ra := ra) ⟨h1, h2, h3⟩
    have hp : readAt c ra.start ra.length <+: readAt ⟨full, true⟩ ra.start ra.length := by
      unfold readAt
      exact slice_prefix h _ _ (by omega)
    have ih' := ih (fun x hx => hb x (List.mem_cons_of_mem _ hx)) false
    unfold pipeOut
    simp only [Bool.true_eq_false, if_false]
    rw [if_neg (show ¬ ((readAt ⟨full, true⟩ ra.start ra.length).length : Int) < ra.length by omega)]
    by_cases hc : c.seekable = false
    · rw [if_pos hc, List.append_assoc]
      exact List.prefix_append _ _
    · rw [if_neg hc]
      by_cases hl : ((readAt c ra.start ra.length).length : Int) < ra.length
      · rw [if_pos hl, List.append_assoc, List.prefix_append_right_inj]
        exact List.IsPrefix.trans hp (List.prefix_append _ _)
      · rw [if_neg hl]
        have e : readAt c ra.start ra.length = readAt ⟨full, true⟩ ra.start ra.length :=
          List.IsPrefix.eq_of_length_le hp (by omega)
        rw [e, List.append_assoc, List.append_assoc, List.prefix_append_right_inj, List.prefix_append_right_inj]
        exact ih'

theorem sendBody_prefix (w : HttpResp) (code : Nat) (x y : Str) (n : Int) (h : x.take n.toNat <+: y.take n.toNat) :
    (sendBody r w code x n).status = (sendBody r w code y n).status ∧ (sendBody r w code x n).headers = (sendBody r w code y n).headers ∧
      (sendBody r w code x n).body <+: (sendBody r w code y n).body := by
  unfold sendBody
  simp only
  split
  · refine ⟨rfl, rfl, ?_⟩
    show (w.code code).body ++ _ <+: (w.code code).body ++ _
    rw [List.prefix_append_right_inj]
    exact h
  · exact ⟨rfl, rfl, List.prefix_refl _⟩

/-- The answer is a truncated form of the other. -/
def Truncates (p q : HttpResp × Option ServeErr) : Prop :=
  p.2 = q.2 ∧ p.1.status = q.1.status ∧ p.1.headers = q.1.headers ∧ p.1.body <+: q.1.body

theorem truncates_refl (p : HttpResp × Option ServeErr) : Truncates p p := ⟨rfl, rfl, rfl, List.prefix_refl _⟩

theorem sendRanges_prefix (w : HttpResp) (ct : Str) (c : Content) (full : Str)
    (h : c.data.take full.length <+: full) (rs : List HttpRange)
    (hb : ∀ ra ∈ rs, 0 ≤ ra.start ∧ 0 ≤ ra.length ∧ ra.start + ra.length ≤ full.length) :
    (c.seekable = false ∧ sendRanges lib r w ct full.length c rs = (httpError w seekMsg 416, some .seek)) ∨
      Truncates (sendRanges lib r w ct full.length c rs) (sendRanges lib r w ct full.length ⟨full, true⟩ rs) := by
  match rs, hb with
  | [], _ =>
    refine Or.inr ?_
    unfold sendRanges
    obtain ⟨h1, h2, h3⟩ := sendBody_prefix r (lengthHeaders w full.length) 200 c.data full full.length
      (by rw [Int.toNat_natCast, List.take_length]; exact h)
    exact ⟨rfl, h1, h2, h3⟩
  | [ra], hb =>
    unfold sendRanges
    simp only
    by_cases hc : c.seekable = false
    · rw [if_pos hc]; exact Or.inl ⟨hc, rfl⟩
    · rw [if_neg hc, if_neg (by decide)]
      obtain ⟨b1, b2, b3⟩ := hb ra (List.mem_cons_self ..)
      obtain ⟨h1, h2, h3⟩ := sendBody_prefix r (lengthHeaders (w.set b!"Content-Range" (contentRange ra full.length)) ra.length) 206
        (c.data.drop ra.start.toNat) (full.drop ra.start.toNat) ra.length (slice_prefix h _ _ (by omega))
      exact Or.inr ⟨rfl, h1, h2, h3⟩
  | ra :: rb :: t, hb =>
    refine Or.inr ?_
    unfold sendRanges
    simp only
    obtain ⟨h1, h2, h3⟩ := sendBody_prefix r (lengthHeaders (w.set b!"Content-Type" (b!"multipart/byteranges; boundary=" ++ lib.boundary))
        (rangesMIMESize lib.countBoundary (ra :: rb :: t) ct full.length)) 206
      _ _ (rangesMIMESize lib.countBoundary (ra :: rb :: t) ct full.length)
      (take_prefix (pipeOut_prefix c full h lib.boundary ct full.length (ra :: rb :: t) hb true) _)
    exact ⟨rfl, h1, h2, h3⟩

theorem serveSized_prefix (w : HttpResp) (ct rng : Str) (c : Content) (full : Str) (hlen : full.length < 2 ^ 63)
    (h : c.data.take full.length <+: full) :
    (c.seekable = false ∧ serveSized lib r w ct rng full.length c = (httpError w seekMsg 416, some .seek)) ∨
      Truncates (serveSized lib r w ct rng full.length c) (serveSized lib r w ct rng full.length ⟨full, true⟩) := by
  unfold serveSized
  rw [if_pos (by omega), if_pos (by omega)]
  cases hp : parseRange rng full.length with
  | error e => exact Or.inr (truncates_refl _)
  | ok rs =>
    have hb := C54_bounds rng full.length (by omega) (by omega) rs hp
    simp only
    split
    · exact sendRanges_prefix lib r w ct c full h [] (by simp)
    · exact sendRanges_prefix lib r w ct c full h rs hb

/-- **C112** (every request), `_partial`.  Let the file information announce `full.length` bytes, and let what can be read of the
file agree with `full` as far as it goes (the file shrank, grew, or cannot seek).  Whatever the request — conditions, ranges,
method — the answer is the one a file with exactly the bytes of `full` gets (same error, status, headers), with a body
that is a beginning of its body; or the file cannot seek and the answer is a 416 error.  The type must be known, or
sniffed from the same bytes. Missing: that the body is all of it (`C112_violated`). -/
theorem C112_prefix_partial (route : StaticRoute) (name : List Str) (hn : route.Names r.path name) (base full : Str) (t : Int)
    (c : Content) (hf : OpensAs fSys name base full.length t c) (hagree : c.data.take full.length <+: full)
    (htype : TypeKnown lib r base ∨ (c.seekable = true ∧ c.data.take 512 = full.take 512))
    (good : RawFS) (hgood : HasFile good name base full t) :
    ∃ s s0, (route.run lib href fSys r w).result = .ret s ∧ (route.run lib href good r w).result = .ret s0 ∧
      ((c.seekable = false ∧ Fails w s 416 b!"io.File missing Seek method") ∨
        (s.err = s0.err ∧ s.resp.status = s0.resp.status ∧ s.resp.headers = s0.resp.headers ∧ s.resp.body <+: s0.resp.body)) := by
  obtain ⟨s, hs, -, hsc⟩ := frail_content lib href fSys r w route name hn base full.length t c hf
  obtain ⟨s0, hs0, -, hsc0⟩ := C105_content lib href good r w route name hn base full t hgood
  refine ⟨s, s0, hs, hs0, ?_⟩
  obtain ⟨⟨o, w'⟩, hp1, hp2, hp3⟩ := checkPreconditions_ret lib.toTimeLib r (setLastModified lib.toTimeLib w t) t
  unfold serveContent at hsc hsc0
  simp only at hsc hsc0
  rw [hp1, Outcome.bind_ret] at hsc hsc0
  cases o with
  | none =>
    simp only at hsc hsc0
    rw [hsc] at hsc0
    injection hsc0 with hsc0
    injection hsc0 with e1 e2
    exact Or.inr ⟨e2, by rw [e1], by rw [e1], by rw [e1]; exact List.prefix_refl _⟩
  | some rng =>
    simp only at hsc hsc0
    have hct : contentType lib r w' base c = contentType lib r w' base ⟨full, true⟩ := by
      unfold contentType
      simp only
      split
      · next h1 =>
        split
        · next h2 =>
          rcases htype with (h | h) | ⟨h, h'⟩
          · exact absurd h1 h
          · exact absurd h2 h
          · rw [h', h]; rfl
        · rfl
      · rfl
    obtain ⟨ct, w1, hct0, hb1, -, -⟩ := contentType_ret lib r w' base ⟨full, true⟩ rfl
    rw [hct, hct0, Outcome.bind_ret] at hsc
    rw [hct0, Outcome.bind_ret] at hsc0
    simp only at hsc hsc0
    injection hsc with hsc
    injection hsc0 with hsc0
    rcases serveSized_prefix lib r w1 ct rng c full hf.1 hagree with ⟨h1, h2⟩ | ⟨h1, h2, h3, h4⟩
    · refine Or.inl ⟨h1, ?_⟩
      rw [h2] at hsc
      injection hsc with e1 e2
      refine ⟨e2.symm, ?_, ?_, ?_⟩
      · rw [← e1]; rfl
      · rw [← e1]; show w1.body ++ _ = _; rw [hb1, hp2, setLastModified_body]; rfl
      · rw [← e1]; unfold httpError
        rw [peek_write, peek_code, peek_set, if_neg (by decide), peek_set, if_pos rfl]
    · refine Or.inr ?_
      rw [hsc, hsc0] at h1 h2 h3 h4
      exact ⟨h1, h2, h3, h4⟩

/-! ### Exactly which files -/

theorem pipeOut_whole (c : Content) (full : Str) (hc : c.seekable = true) (h : c.data.take full.length = full) (b ct : Str) (size : Int)
    (rs : List HttpRange) (hb : ∀ ra ∈ rs, 0 ≤ ra.start ∧ 0 ≤ ra.length ∧ ra.start + ra.length ≤ full.length) (first : Bool) :
    pipeOut c b ct size first rs = pipeOut ⟨full, true⟩ b ct size first rs := by
  induction rs generalizing first with
  | nil => rfl
  | cons ra rs ih =>
    obtain ⟨h1, h2, h3⟩ := hb ra (List.mem_cons_self ..)
    have e : readAt c ra.start ra.length = readAt ⟨full, true⟩ ra.start ra.length := by
      unfold readAt
      have : ∀ (x : Str) (a n : Nat), a + n ≤ full.length → (x.drop a).take n = ((x.take full.length).drop a).take n := by
        intro x a n hl
        rw [List.drop_take, List.take_take, Nat.min_eq_left (by omega)]
      rw [this c.data _ _ (by omega), h]
    have ih' := ih (fun x hx => hb x (List.mem_cons_of_mem _ hx)) false
    unfold pipeOut
    simp only [hc, Bool.true_eq_false, if_false, e, ih']

theorem serveSized_whole (w : HttpResp) (ct rng : Str) (c : Content) (full : Str) (hlen : full.length < 2 ^ 63) (hc : c.seekable = true)
    (h : c.data.take full.length = full) :
    serveSized lib r w ct rng full.length c = serveSized lib r w ct rng full.length ⟨full, true⟩ := by
  have cut : ∀ a n : Nat, a + n ≤ full.length → (c.data.drop a).take n = (full.drop a).take n := by
    intro a n hl
    have : (c.data.drop a).take n = ((c.data.take full.length).drop a).take n := by
      rw [List.drop_take, List.take_take, Nat.min_eq_left (by omega)]
    rw [this, h]
  have body : ∀ (w : HttpResp) code (x y : Str) (n : Int), x.take n.toNat = y.take n.toNat → sendBody r w code x n = sendBody r w code y n := by
    intro w code x y n hxy
    unfold sendBody
    rw [hxy]
  have ranges : ∀ rs : List HttpRange, (∀ ra ∈ rs, 0 ≤ ra.start ∧ 0 ≤ ra.length ∧ ra.start + ra.length ≤ full.length) →
      sendRanges lib r w ct full.length c rs = sendRanges lib r w ct full.length ⟨full, true⟩ rs := by
    intro rs hb
    match rs, hb with
    | [], _ =>
      unfold sendRanges
      simp only
      rw [body _ _ c.data full _ (by rw [Int.toNat_natCast, h, List.take_length])]
    | [ra], hb =>
      obtain ⟨b1, b2, b3⟩ := hb ra (List.mem_cons_self ..)
      unfold sendRanges
      simp only [hc, Bool.true_eq_false, if_false]
      rw [body _ _ (c.data.drop ra.start.toNat) (full.drop ra.start.toNat) _ (cut _ _ (by omega))]
    | ra :: rb :: t, hb =>
      unfold sendRanges
      simp only
      rw [pipeOut_whole c full hc h lib.boundary ct full.length (ra :: rb :: t) hb true]
  unfold serveSized
  rw [if_pos (by omega), if_pos (by omega)]
  cases hp : parseRange rng full.length with
  | error e => rfl
  | ok rs =>
    have hb := C54_bounds rng full.length (by omega) (by omega) rs hp
    simp only
    split
    · exact ranges [] (by simp)
    · exact ranges rs hb

theorem zeroParts : Parts b!"0-0" b!"0" b!"0" :=
  (parts_iff _ _ _).1 ⟨b!"0", b!"0", by decide +kernel, by decide +kernel, by decide +kernel⟩

/-- **C112** (exactly).  A file whose information announces the bytes of `full`, which is not empty, whose type is known by its
name, and of which what can be read agrees with `full` as far as it goes: every request (conditions, ranges, method) is answered
exactly as for a file with the bytes of `full` if and only if the file can seek and did not shrink.  (It may have grown.) -/
theorem C112_exact (route : StaticRoute) (path : Str) (name : List Str) (hn : route.Names path name) (base full : Str) (t : Int)
    (c : Content) (hf : OpensAs fSys name base full.length t c) (hne : full ≠ []) (hagree : c.data.take full.length <+: full)
    (htype : lib.typeByName base ≠ []) (good : RawFS) (hgood : HasFile good name base full t) (hw : NoEncoding w) :
    (∀ r : HttpReq, r.path = path → ∃ s s0, (route.run lib href fSys r w).result = .ret s ∧ (route.run lib href good r w).result = .ret s0 ∧
      s.resp = s0.resp ∧ s.err = s0.err) ↔ c.seekable = true ∧ full.length ≤ c.data.length := by
  have hpos : 0 < full.length := List.length_pos_iff.2 hne
  constructor
  · intro h
    have hgood' : OpensAs good name base full.length t ⟨full, true⟩ := hgood
    constructor
    · cases hc : c.seekable with
      | true => rfl
      | false =>
        exfalso
        let q : HttpReq := ⟨b!"GET", path, [], fun k => if k = b!"Range" then b!"bytes=0-0" else []⟩
        have hu : Unconditional q := ⟨.inl rfl, rfl, rfl, rfl, rfl⟩
        have hx : (ByteSpec.fromTo 0 0).Text b!"0-0" := ⟨b!"0", b!"0", zeroParts, by unfold Digits; decide, by unfold Digits; decide, by decide, by decide⟩
        obtain ⟨s, s0, e1, e2, e3, e4⟩ := h q rfl
        obtain ⟨s', a, n, k1, -, -, -, -, k2⟩ := C112_range lib href fSys q w route name hn base full.length t c hf hu rfl hw b!"0-0" (.fromTo 0 0)
          rfl hx ⟨by omega, by omega⟩ (by decide) ⟨0, by simp only [ByteSpec.Selects]; omega⟩
        obtain ⟨s0', a', n', g1, -, -, -, g2, -⟩ := C112_range lib href good q w route name hn base full.length t ⟨full, true⟩ hgood' hu rfl hw b!"0-0" (.fromTo 0 0)
          rfl hx ⟨by omega, by omega⟩ (by decide) ⟨0, by simp only [ByteSpec.Selects]; omega⟩
        rw [e1] at k1
        cases k1
        rw [e2] at g1
        cases g1
        have k3 := (k2 hc (.inr htype)).1
        have g3 := (g2 rfl).1.1
        rw [e4, g3] at k3
        cases k3
    · let q : HttpReq := ⟨b!"GET", path, [], fun _ => []⟩
      have hu : Unconditional q := ⟨.inl rfl, rfl, rfl, rfl, rfl⟩
      obtain ⟨s, s0, e1, e2, e3, e4⟩ := h q rfl
      obtain ⟨s', k1, k2, -⟩ := C112_whole_partial lib href fSys q w route name hn base full.length t c hf hu rfl rfl hw (.inr (.inr htype))
      obtain ⟨s0', g1, g2, -⟩ := C112_whole_partial lib href good q w route name hn base full.length t ⟨full, true⟩ hgood' hu rfl rfl hw (.inl rfl)
      rw [e1] at k1
      cases k1
      rw [e2] at g1
      cases g1
      have k3 := k2.2.2.2
      rw [e3, g2.2.2.2] at k3
      have k4 := List.append_cancel_left k3
      have hq : ¬ q.method = b!"HEAD" := show ¬ (b!"GET" : Str) = b!"HEAD" by decide
      rw [if_neg hq, if_neg hq] at k4
      have := congrArg List.length k4
      simp only [List.length_take, Nat.min_self] at this
      omega
  · rintro ⟨hc, hl⟩ r rfl
    have hfull : c.data.take full.length = full := hagree.eq_of_length (by rw [List.length_take]; omega)
    obtain ⟨s, hs, -, hsc⟩ := frail_content lib href fSys r w route name hn base full.length t c hf
    obtain ⟨s0, hs0, -, hsc0⟩ := C105_content lib href good r w route name hn base full t hgood
    refine ⟨s, s0, hs, hs0, ?_⟩
    have key : serveContent lib r w base t (some (full.length : Int)) c = serveContent lib r w base t (some (full.length : Int)) ⟨full, true⟩ := by
      have hct : ∀ w', contentType lib r w' base c = contentType lib r w' base ⟨full, true⟩ := by
        intro w'
        unfold contentType
        simp only
        split
        · rfl
        · rfl
      unfold serveContent
      simp only [hct, serveSized_whole lib r _ _ _ c full hf.1 hc hfull]
    rw [key, hsc0] at hsc
    injection hsc with hsc
    injection hsc with e1 e2
    exact ⟨e1.symm, e2.symm⟩

end

/-! ### Examples -/

namespace FrailEx

/-- A file that says it is 10 bytes long. -/
def frailFS (c : Content) : RawFS where
  opens := fun n => if n = b!"a.txt" then .ok ⟨.ok ⟨b!"a.txt", 10, false, 0⟩, c, c, .error .notExist⟩ else .error .notExist
  stats := fun n => if n = b!"a.txt" then .ok ⟨b!"a.txt", 10, false, 0⟩ else .error .notExist

def typedLib : Lib := { exLib with typeByName := fun _ => b!"text/plain", boundary := b!"XY", countBoundary := b!"ZW" }
def getRange (rng : Str) : HttpReq := ⟨b!"GET", b!"/files/a.txt", [], fun k => if k = b!"Range" then rng else []⟩

theorem frail_names (rng : Str) : (StaticRoute.file b!"/files").Names (getRange rng).path [b!"a.txt"] := by
  refine ⟨b!"files", ⟨by decide, ?_⟩, by decide, rfl, rfl⟩
  intro s hs
  simp only [List.mem_singleton] at hs
  subst hs
  exact ⟨by unfold Elem; decide, fun h => absurd ((hasEsc_iff _).mpr h) (by
    rintro ⟨a, x, y, b, h, -⟩
    have := congrArg (List.count 37) h
    simp at this)⟩

theorem frail_opens (c : Content) : OpensAs (frailFS c) [b!"a.txt"] b!"a.txt" 10 0 c :=
  ⟨by omega, ⟨.ok ⟨b!"a.txt", 10, false, 0⟩, c, c, .error .notExist⟩, rfl, rfl, rfl⟩

def seen (c : Content) (rng : Str) : Option (Nat × Str × Str) :=
  match ((StaticRoute.file b!"/files").run typedLib id (frailFS c) (getRange rng) HttpResp.fresh).result with
  | .ret s => some (s.resp.status, s.resp.peek b!"Content-Length", s.resp.body)
  | _ => none

example : seen ⟨b!"0123456789", false⟩ b!"bytes=4-5" = some (416, [], b!"io.File missing Seek method") ∧
    seen ⟨b!"0123456789", false⟩ [] = some (200, b!"10", b!"0123456789") ∧ seen ⟨b!"0123456789ab", true⟩ [] = some (200, b!"10", b!"0123456789") := by
  decide +kernel

theorem frail_uncond (rng : Str) : Unconditional (getRange rng) := ⟨Or.inl rfl, rfl, rfl, rfl, rfl⟩
theorem frail_fresh : NoEncoding HttpResp.fresh := ⟨rfl, rfl⟩
theorem frail_typed (rng : Str) : TypeKnown typedLib (getRange rng) b!"a.txt" := Or.inr (by decide)

example : ∃ s, ((StaticRoute.file b!"/files").run typedLib id (frailFS ⟨b!"0123", false⟩) (getRange []) HttpResp.fresh).result = .ret s ∧
    Announces HttpResp.fresh s 200 10 b!"0123" := by
  obtain ⟨s, h1, h2, -⟩ := C112_whole_partial typedLib id _ (getRange []) HttpResp.fresh _ _ (frail_names []) _ _ _ _
    (frail_opens ⟨b!"0123", false⟩) (frail_uncond []) rfl rfl frail_fresh (Or.inr (frail_typed []))
  exact ⟨s, h1, h2⟩
example : ∃ s, ((StaticRoute.file b!"/files").run exLib id (frailFS ⟨b!"0123", false⟩) (getRange b!"bytes=1-2") HttpResp.fresh).result = .ret s ∧
    Fails HttpResp.fresh s 500 b!"seeker can't seek" :=
  C112_sniffed exLib id _ (getRange b!"bytes=1-2") HttpResp.fresh _ _ (frail_names _) _ _ _ _
    (frail_opens ⟨b!"0123", false⟩) (frail_uncond _) rfl (by rintro (h | h) <;> exact h rfl)
example : ∃ s a n, ((StaticRoute.file b!"/files").run typedLib id (frailFS ⟨b!"0123", true⟩) (getRange b!"bytes=2-5") HttpResp.fresh).result = .ret s ∧
    Announces HttpResp.fresh s 206 n (slice b!"0123" a (a + n)) ∧ ∀ i, (ByteSpec.fromTo 2 5).Selects 10 i ↔ a ≤ i ∧ i < a + n := by
  obtain ⟨s, a, n, h1, -, -, h2, h3, -⟩ := C112_range typedLib id _ (getRange b!"bytes=2-5") HttpResp.fresh _ _ (frail_names _) _ _ _ _
    (frail_opens ⟨b!"0123", true⟩) (frail_uncond _) rfl frail_fresh b!"2-5" (.fromTo 2 5) rfl ⟨b!"2", b!"5", ⟨b!"2", b!"5", by decide, by decide,
      ⟨[], [], by decide, by simp, by simp, by unfold Space; intro c h; cases h; decide, by unfold Space; intro c h; cases h; decide⟩,
      ⟨[], [], by decide, by simp, by simp, by unfold Space; intro c h; cases h; decide, by unfold Space; intro c h; cases h; decide⟩⟩,
      by unfold Digits; decide, by unfold Digits; decide, by decide, by decide⟩
    (by unfold ByteSpec.Valid; decide) (by decide) ⟨2, by unfold ByteSpec.Selects; decide⟩
  exact ⟨s, a, n, h1, (h3 rfl).1, h2⟩
example : ∃ w', ServeContent typedLib (getRange []) HttpResp.fresh b!"a.txt" 0 ⟨b!"0123", false⟩ = .ret (w', some .seek) ∧ w'.status = 500 := by
  obtain ⟨w', h1, h2, -⟩ := C112_serveContent typedLib (getRange []) HttpResp.fresh b!"a.txt" 0 ⟨b!"0123", false⟩ (frail_uncond []) rfl
  exact ⟨w', h1, h2⟩
/-- Two ranges of a file that cannot seek, against the same file on a file system that can. -/
example : ∃ s s0, ((StaticRoute.file b!"/files").run typedLib id (frailFS ⟨b!"0123456789", false⟩) (getRange b!"bytes=0-1,4-5") HttpResp.fresh).result = .ret s ∧
    ((StaticRoute.file b!"/files").run typedLib id (frailFS ⟨b!"0123456789", true⟩) (getRange b!"bytes=0-1,4-5") HttpResp.fresh).result = .ret s0 ∧
    (Fails HttpResp.fresh s 416 b!"io.File missing Seek method" ∨ s.resp.body <+: s0.resp.body) := by
  obtain ⟨s, s0, h1, h2, h3⟩ := C112_prefix_partial typedLib id (frailFS ⟨b!"0123456789", false⟩) (getRange b!"bytes=0-1,4-5") HttpResp.fresh _ _
    (frail_names _) b!"a.txt" b!"0123456789" 0 _ (frail_opens _) (by decide) (Or.inl (frail_typed _)) (frailFS ⟨b!"0123456789", true⟩)
    ⟨by decide, _, rfl, rfl, rfl⟩
  exact ⟨s, s0, h1, h2, h3.imp (·.2) (·.2.2.2)⟩

/-- The hypotheses of `C112_exact` hold for a file that shrank, one that grew and one that cannot seek. -/
example (c : Content) (h : c.data.take 10 <+: b!"0123456789") :
    (∀ q : HttpReq, q.path = b!"/files/a.txt" → ∃ s s0, ((StaticRoute.file b!"/files").run typedLib id (frailFS c) q HttpResp.fresh).result = .ret s ∧
      ((StaticRoute.file b!"/files").run typedLib id (frailFS ⟨b!"0123456789", true⟩) q HttpResp.fresh).result = .ret s0 ∧
      s.resp = s0.resp ∧ s.err = s0.err) ↔ c.seekable = true ∧ 10 ≤ c.data.length :=
  C112_exact typedLib id (frailFS c) HttpResp.fresh _ _ _ (frail_names []) b!"a.txt" b!"0123456789" 0 c (frail_opens c) (by decide) h (by decide)
    (frailFS ⟨b!"0123456789", true⟩) (frail_opens _) frail_fresh

end FrailEx

open FrailEx in
/-- **C112** is violated: the file shrank to four bytes, and the answer is a success that announces ten; several ranges of a file
that cannot seek are answered 206 with the header of the first part and none of the bytes. -/
theorem C112_violated :
    seen ⟨b!"0123", true⟩ [] = some (200, b!"10", b!"0123") ∧
    seen ⟨b!"0123456789", false⟩ b!"bytes=0-1,4-5" =
      some (206, b!"142", b!"--XY\r\nContent-Range: bytes 0-1/10\r\nContent-Type: text/plain\r\n\r\n") ∧
    seen ⟨b!"0123456789", true⟩ b!"bytes=0-1,4-5" = some (206, b!"142",
      b!"--XY\r\nContent-Range: bytes 0-1/10\r\nContent-Type: text/plain\r\n\r\n01\r\n--XY\r\nContent-Range: bytes 4-5/10\r\nContent-Type: text/plain\r\n\r\n45\r\n--XY--\r\n") := by
  decide +kernel

end Verif
