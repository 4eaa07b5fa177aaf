import Verif.Props.Content
import Verif.Props.Static
import Verif.Spec.Kept
/-
C118: what was put into the response before the content is served.
-/
namespace Verif
open Spec

/-- The headers outside `K` are those of before, and the body goes on from where it was. -/
def Keeps (K : List Str) (w w' : HttpResp) : Prop := (∀ k, k ∉ K → w'.peek k = w.peek k) ∧ w.body <+: w'.body

theorem Keeps.refl (K : List Str) (w : HttpResp) : Keeps K w w := ⟨fun _ _ => rfl, List.prefix_refl _⟩
theorem Keeps.trans {K : List Str} {a b c : HttpResp} (h : Keeps K a b) (g : Keeps K b c) : Keeps K a c :=
  ⟨fun k hk => (g.1 k hk).trans (h.1 k hk), h.2.trans g.2⟩
theorem Keeps.mono {K L : List Str} (hl : ∀ k ∈ K, k ∈ L) {a b : HttpResp} (h : Keeps K a b) : Keeps L a b :=
  ⟨fun k hk => h.1 k fun hm => hk (hl k hm), h.2⟩

theorem peek_del (w : HttpResp) (k k' : Str) : (w.del k).peek k' = if k' = k then [] else w.peek k' := by
  unfold HttpResp.peek HttpResp.del
  simp only [GoMap.get?_erase]
  split <;> rfl

theorem Keeps.set {K : List Str} {a b : HttpResp} (h : Keeps K a b) (k v : Str) (hk : k ∈ K) : Keeps K a (b.set k v) :=
  h.trans ⟨fun k' hk' => by rw [peek_set, if_neg (show ¬ k' = k from fun e => hk' (e ▸ hk))], List.prefix_refl _⟩
theorem Keeps.del {K : List Str} {a b : HttpResp} (h : Keeps K a b) (k : Str) (hk : k ∈ K) : Keeps K a (b.del k) :=
  h.trans ⟨fun k' hk' => by rw [peek_del, if_neg (show ¬ k' = k from fun e => hk' (e ▸ hk))], List.prefix_refl _⟩
theorem Keeps.code {K : List Str} {a b : HttpResp} (h : Keeps K a b) (c : Nat) : Keeps K a (b.code c) :=
  h.trans ⟨fun _ _ => rfl, List.prefix_refl _⟩
theorem Keeps.write {K : List Str} {a b : HttpResp} (h : Keeps K a b) (s : Str) : Keeps K a (b.write s) :=
  h.trans ⟨fun _ _ => rfl, ⟨s, rfl⟩⟩

/-- The headers that may be set on every path but the one that answers "not modified", but for Content-Length. -/
def sentHeaders : List Str :=
  [b!"Content-Type", b!"Content-Range", b!"Accept-Ranges", b!"Last-Modified", b!"X-Content-Type-Options"]

/-- Content-Length may be set, or there is an encoding, and it is not touched. -/
def LengthFree (K : List Str) (w : HttpResp) : Prop :=
  b!"Content-Length" ∈ K ∨ (b!"Content-Encoding" ∉ K ∧ w.peek b!"Content-Encoding" ≠ [])

section
variable (K : List Str) (hK : ∀ k ∈ sentHeaders, k ∈ K)
include hK

theorem keeps_httpError {a b : HttpResp} (h : Keeps K a b) (m : Str) (n : Nat) : Keeps K a (httpError b m n) :=
  (((h.set _ _ (hK _ (by decide))).set _ _ (hK _ (by decide))).code _).write _

theorem keeps_lastModified (lib : TimeLib) {a b : HttpResp} (h : Keeps K a b) (t : Int) : Keeps K a (setLastModified lib b t) := by
  unfold setLastModified
  split
  · exact h
  · exact h.set _ _ (hK _ (by decide))

theorem keeps_lengthHeaders {a b : HttpResp} (h : Keeps K a b) (hL : LengthFree K a) (n : Int) :
    Keeps K a (lengthHeaders b n) := by
  unfold lengthHeaders
  dsimp only
  have h1 := h.set b!"Accept-Ranges" b!"bytes" (hK _ (by decide))
  split
  · rename_i he
    rcases hL with hL | ⟨hL1, hL2⟩
    · exact h1.set _ _ hL
    · exact absurd ((h1.1 _ hL1).symm.trans he) hL2
  · exact h1

omit hK in
theorem keeps_sendBody (r : HttpReq) {a b : HttpResp} (h : Keeps K a b) (c : Nat) (s : Str) (n : Int) :
    Keeps K a (sendBody r b c s n) := by
  unfold sendBody
  dsimp only
  split
  · exact (h.code _).write _
  · exact h.code _

theorem keeps_sized (lib : Lib) (r : HttpReq) {a b : HttpResp} (h : Keeps K a b) (hL : LengthFree K a) (ct rng : Str)
    (size : Int) (c : Content) : Keeps K a (serveSized lib r b ct rng size c).1 := by
  unfold serveSized
  split
  · split
    · dsimp only
      apply keeps_httpError K hK
      split
      · exact h.set _ _ (hK _ (by decide))
      · exact h
    · rename_i rs _
      generalize (if sumRangesSize rs > size then [] else rs) = rs'
      unfold sendRanges
      split
      · exact keeps_sendBody K r (keeps_lengthHeaders K hK h hL _) _ _ _
      · split
        · exact keeps_httpError K hK h _ _
        · exact keeps_sendBody K r (keeps_lengthHeaders K hK (h.set _ _ (hK _ (by decide))) hL _) _ _ _
      · exact keeps_sendBody K r (keeps_lengthHeaders K hK (h.set _ _ (hK _ (by decide))) hL _) _ _ _
  · exact keeps_sendBody K r h _ _ _

omit hK in
/-- The response that `contentType` leaves. -/
def typeResp : Except HttpResp (Str × HttpResp) → HttpResp
  | .error w => w
  | .ok (_, w) => w

theorem keeps_contentType (lib : Lib) (r : HttpReq) {a b : HttpResp} (h : Keeps K a b) (name : Str) (c : Content) :
    ∃ x, contentType lib r b name c = .ret x ∧ Keeps K a (typeResp x) := by
  unfold contentType
  dsimp only
  split
  · split
    · obtain ⟨ct, hd, -⟩ := C59_exact (c.data.take 512)
      rw [hd, Outcome.bind_ret]
      split
      · exact ⟨_, rfl, h.set _ _ (hK _ (by decide))⟩
      · exact ⟨_, rfl, keeps_httpError K hK h _ _⟩
    · exact ⟨_, rfl, h.set _ _ (hK _ (by decide))⟩
  · exact ⟨_, rfl, h⟩

omit hK in
/-- The three ways the conditions of a request come out. -/
theorem conditions_cases (lib : TimeLib) (r : HttpReq) (w : HttpResp) (t : Int) :
    checkPreconditions lib r w t = .ret (none, writeNotModified w) ∨
    checkPreconditions lib r w t = .ret (none, w.code 412) ∨
    ∃ rng, checkPreconditions lib r w t = .ret (some rng, w) := by
  have hC := C57_conditions lib r w t
  simp only at hC
  by_cases h1 : (question lib r w t).MatchFails ∨ (question lib r w t).ModifiedSince
  · exact .inr (.inl (hC.1 h1))
  · obtain ⟨c1, c2, c3, c4, c5⟩ := hC.2 h1
    by_cases h2 : (question lib r w t).NoneMatchFails
    · by_cases h3 : (question lib r w t).Safe
      · exact .inl (c1 h2 h3)
      · exact .inr (.inl (c2 h2 h3))
    · by_cases h3 : (question lib r w t).NotModified
      · exact .inl (c3 h2 h3)
      · by_cases h4 : (question lib r w t).RangeFails
        · exact .inr (.inr ⟨_, c4 h2 h3 h4⟩)
        · exact .inr (.inr ⟨_, c5 h2 h3 h4⟩)

theorem keeps_serve (lib : Lib) (r : HttpReq) {a b : HttpResp} (h : Keeps K a b) (hL : LengthFree K a) (name : Str) (t : Int)
    (size : Option Int) (c : Content) :
    ∃ w' e, serveContent lib r b name t size c = .ret (w', e) ∧
      (Keeps K a w' ∨ w' = writeNotModified (setLastModified lib.toTimeLib b t)) := by
  have h0 := keeps_lastModified K hK lib.toTimeLib h t
  unfold serveContent
  dsimp only
  rcases conditions_cases lib.toTimeLib r (setLastModified lib.toTimeLib b t) t with hp | hp | ⟨rng, hp⟩
  · rw [hp, Outcome.bind_ret]; exact ⟨_, _, rfl, .inr rfl⟩
  · rw [hp, Outcome.bind_ret]; exact ⟨_, _, rfl, .inl (h0.code _)⟩
  · rw [hp, Outcome.bind_ret]
    dsimp only
    obtain ⟨x, hx, hk⟩ := keeps_contentType K hK lib r h0 name c
    rw [hx, Outcome.bind_ret]
    match x, hk with
    | .error w, hk => exact ⟨_, _, rfl, .inl hk⟩
    | .ok (ct, w), hk =>
      dsimp only
      cases size with
      | none => exact ⟨_, _, rfl, .inl (keeps_httpError K hK hk _ _)⟩
      | some size => exact ⟨_, _, rfl, .inl (keeps_sized K hK lib r hk hL ct rng size c)⟩

end

theorem keeps_notModified {K : List Str} (hK : ∀ k ∈ contentHeaders, k ∈ K) {a b : HttpResp} (h : Keeps K a b) :
    Keeps K a (writeNotModified b) := by
  unfold writeNotModified
  dsimp only
  have h1 := ((h.del b!"Content-Type" (hK _ (by decide))).del b!"Content-Length" (hK _ (by decide))).del
    b!"Content-Encoding" (hK _ (by decide))
  split
  · exact (h1.del _ (hK _ (by decide))).code _
  · exact h1.code _

/-- For any list that holds all the headers of the content. -/
theorem keeps_serve_all {K : List Str} (hK : ∀ k ∈ contentHeaders, k ∈ K) (lib : Lib) (r : HttpReq) {a b : HttpResp}
    (h : Keeps K a b) (name : Str) (t : Int) (size : Option Int) (c : Content) :
    ∃ w' e, serveContent lib r b name t size c = .ret (w', e) ∧ Keeps K a w' := by
  have hS : ∀ k ∈ sentHeaders, k ∈ K := fun k hk => hK k (by revert k; decide)
  obtain ⟨w', e, h1, h2⟩ := keeps_serve K hS lib r h (.inl (hK _ (by decide))) name t size c
  refine ⟨w', e, h1, ?_⟩
  rcases h2 with h2 | rfl
  · exact h2
  · exact keeps_notModified hK (keeps_lastModified K hS lib.toTimeLib h t)

theorem written_inj {a b : ETag} (h : a.written = b.written) : a = b := by
  obtain ⟨w, a⟩ := a
  obtain ⟨w', b⟩ := b
  cases w <;> cases w' <;> simp [ETag.written] at h ⊢
  all_goals exact h

theorem lists_nil (x : Entry) : ¬ Lists [] x := by
  intro h
  generalize hn : ([] : Str) = u at h
  cases h with
  | star => simp at hn
  | here _ _ => simp [ETag.written] at hn
  | later _ _ _ => simp [ETag.written] at hn

/-- The text of one tag lists this tag only. -/
theorem lists_one (e : ETag) (hv : e.Valid) (x : Entry) (h : Lists e.written x) : x = .tag e := by
  have hs : ∃ c t, e.written = c :: t ∧ (c = 34 ∨ c = 87) := by
    obtain ⟨w, a⟩ := e
    cases w
    · exact ⟨_, _, written_strong a, .inl rfl⟩
    · exact ⟨_, _, written_weak a, .inr rfl⟩
  obtain ⟨c, t, he, hc⟩ := hs
  rw [he] at h
  have hsp : ¬ Space c := by rcases hc with rfl | rfl <;> (unfold Space; decide)
  rcases Lists.first hsp (by rcases hc with rfl | rfl <;> decide) h with ⟨h, -⟩ | ⟨e', rest, hv', h1, h2⟩
  · rcases hc with rfl | rfl <;> cases h
  · have e1 := scanTrimmed_written e hv []
    rw [List.append_nil, he, h1, scanTrimmed_written e' hv' rest] at e1
    injection e1 with e1 e2
    subst e2
    rcases h2 with h2 | h2
    · rw [h2, written_inj (a := e') (b := e) (by rw [he, h1]; simp)]
    · exact absurd h2 (lists_nil x)

section
variable (lib : Lib) (r : HttpReq) (w : HttpResp) (name : Str) (modTime : Int) (c : Content)

/-- C118: whatever is served, to whatever request, the headers set before that are not about the content are in the answer as
they were, and the body goes on from what was written before. -/
theorem C118_headers :
    ∃ w' e, ServeContent lib r w name modTime c = .ret (w', e) ∧
      (∀ k, k ∉ contentHeaders → w'.peek k = w.peek k) ∧ ∃ more, w'.body = w.body ++ more := by
  obtain ⟨w', e, h1, h2, more, h3⟩ :=
    keeps_serve_all (K := contentHeaders) (fun _ h => h) lib r (.refl _ w) name modTime
      (if c.seekable then some c.data.length else none) c
  exact ⟨w', e, h1, h2, more, h3.symm⟩

/-- C118: the handler's own tag is the one the request is compared with. A client that has it is told that nothing was
modified, and gets the tag again; a client that wants to go on with another one is refused. -/
theorem C118_tag (e : ETag) (hv : e.Valid) (he : w.peek b!"Etag" = e.written) :
    ((r.method = b!"GET" ∨ r.method = b!"HEAD") → r.header b!"If-Match" = [] → r.header b!"If-Unmodified-Since" = [] →
      r.header b!"If-None-Match" = e.written →
      ∃ w', ServeContent lib r w name modTime c = .ret (w', none) ∧ w'.status = 304 ∧ w'.peek b!"Etag" = e.written ∧
        w'.body = w.body) ∧
    (∀ e', e'.Valid → e' ≠ e → r.header b!"If-Match" = e'.written →
      ∃ w', ServeContent lib r w name modTime c = .ret (w', none) ∧ w'.status = 412 ∧ w'.peek b!"Etag" = e.written ∧
        w'.body = w.body) := by
  have hA := C57_answer lib r w name modTime (if c.seekable then some c.data.length else none) c
  simp only at hA
  constructor
  · intro hm h1 h2 h3
    obtain ⟨w', a1, a2, a3, -, -, a4⟩ := hA.2 (fun h => by
      rcases h with h | h
      · exact h.1 h1
      · exact h.2.1 h2) (.inl ⟨⟨fun h => written_ne_nil e (h3.symm.trans h), .inr ⟨e, e, by
          have := Lists.here (sep := []) (rest := []) (e := e) (by intro c hc; cases hc) hv
          rw [List.nil_append, List.append_nil] at this
          show Lists (r.header b!"If-None-Match") (Entry.tag e)
          exact h3.symm ▸ this, ⟨he, hv⟩, rfl⟩⟩, hm⟩)
    exact ⟨w', a1, a2, (a4 _ (by decide) (by decide) (by decide) (by decide)).trans he, a3⟩
  · intro e' hv' hne h1
    obtain ⟨w', a1, a2, a3, -, a4⟩ := hA.1 (.inl (.inl ⟨fun h => written_ne_nil e' (h1.symm.trans h), fun h => by
      have hl : AnyMatch Strong e'.written e.written := by
        have h' : AnyMatch Strong (r.header b!"If-Match") (w.peek b!"Etag") := h
        rw [h1, he] at h'; exact h'
      rcases hl with hl | ⟨e1, e2, hl, ⟨h2, -⟩, rfl, -⟩
      · cases lists_one e' hv' _ hl
      · injection lists_one e' hv' _ hl with h3
        exact hne (h3.symm.trans (written_inj (h2.symm)))⟩))
    exact ⟨w', a1, a2, (a4 _ (by decide)).trans he, a3⟩

/-- C118: an encoding set before stays, unless the answer is "not modified", and while there is one the length is left to
whoever set it. -/
theorem C118_encoding :
    ∃ w' e, ServeContent lib r w name modTime c = .ret (w', e) ∧
      (w'.status ≠ 304 → w'.peek b!"Content-Encoding" = w.peek b!"Content-Encoding" ∧
        (w.peek b!"Content-Encoding" ≠ [] → w'.peek b!"Content-Length" = w.peek b!"Content-Length")) := by
  by_cases he : w.peek b!"Content-Encoding" = []
  · obtain ⟨w', e, h1, h2⟩ := keeps_serve (b!"Content-Length" :: sentHeaders) (fun _ h => List.mem_cons_of_mem _ h) lib r
      (.refl _ w) (.inl List.mem_cons_self) name modTime (if c.seekable then some c.data.length else none) c
    refine ⟨w', e, h1, fun hs => ?_⟩
    rcases h2 with h2 | rfl
    · exact ⟨h2.1 _ (by decide), fun h => absurd he h⟩
    · exact absurd (C57_not_modified _).1 hs
  · obtain ⟨w', e, h1, h2⟩ := keeps_serve sentHeaders (fun _ h => h) lib r
      (.refl _ w) (.inr ⟨by decide, he⟩) name modTime (if c.seekable then some c.data.length else none) c
    refine ⟨w', e, h1, fun hs => ?_⟩
    rcases h2 with h2 | rfl
    · exact ⟨h2.1 _ (by decide), fun _ => h2.1 _ (by decide)⟩
    · exact absurd (C57_not_modified _).1 hs

end

/-! ### The status -/

theorem setLastModified_code (lib : TimeLib) (w : HttpResp) (s : Nat) (t : Int) :
    setLastModified lib (w.code s) t = (setLastModified lib w t).code s := by
  unfold setLastModified
  split <;> rfl

theorem writeNotModified_code (w : HttpResp) (s : Nat) : writeNotModified (w.code s) = writeNotModified w := by
  have h : ∀ k : Str, (w.code s).del k = (w.del k).code s := fun _ => rfl
  have h2 : ∀ (w : HttpResp) (k : Str), (w.code s).del k = (w.del k).code s := fun _ _ => rfl
  unfold writeNotModified
  simp only [h, h2, peek_code]
  split <;> rfl

theorem checkPreconditions_code (lib : TimeLib) (r : HttpReq) (w : HttpResp) (s : Nat) (t : Int) :
    checkPreconditions lib r (w.code s) t =
      (checkPreconditions lib r w t).bind fun p => .ret (p.1, if p.1 = none then p.2 else p.2.code s) := by
  have hC := C57_conditions lib r w t
  have hD := C57_conditions lib r (w.code s) t
  have hq : question lib r (w.code s) t = question lib r w t := rfl
  simp only [hq] at hC hD
  by_cases h1 : (question lib r w t).MatchFails ∨ (question lib r w t).ModifiedSince
  · rw [hC.1 h1, hD.1 h1]; rfl
  · obtain ⟨c1, c2, c3, c4, c5⟩ := hC.2 h1
    obtain ⟨d1, d2, d3, d4, d5⟩ := hD.2 h1
    by_cases h2 : (question lib r w t).NoneMatchFails
    · by_cases h3 : (question lib r w t).Safe
      · rw [c1 h2 h3, d1 h2 h3, writeNotModified_code]; rfl
      · rw [c2 h2 h3, d2 h2 h3]; rfl
    · by_cases h3 : (question lib r w t).NotModified
      · rw [c3 h2 h3, d3 h2 h3, writeNotModified_code]; rfl
      · by_cases h4 : (question lib r w t).RangeFails
        · rw [c4 h2 h3 h4, d4 h2 h3 h4]; rfl
        · rw [c5 h2 h3 h4, d5 h2 h3 h4]; rfl

theorem lengthHeaders_code (w : HttpResp) (s : Nat) (n : Int) : lengthHeaders (w.code s) n = (lengthHeaders w n).code s := by
  unfold lengthHeaders
  dsimp only
  have : (w.code s).set b!"Accept-Ranges" b!"bytes" = (w.set b!"Accept-Ranges" b!"bytes").code s := rfl
  rw [this, peek_code]
  split <;> rfl

theorem sendBody_code (r : HttpReq) (w : HttpResp) (s c : Nat) (b : Str) (n : Int) :
    sendBody r (w.code s) c b n = sendBody r w c b n := rfl

theorem httpError_code (w : HttpResp) (s : Nat) (m : Str) (n : Nat) : httpError (w.code s) m n = httpError w m n := rfl

theorem set_code (w : HttpResp) (s : Nat) (k v : Str) : (w.code s).set k v = (w.set k v).code s := rfl

theorem serveSized_code (lib : Lib) (r : HttpReq) (w : HttpResp) (s : Nat) (ct rng : Str) (size : Int) (c : Content) :
    serveSized lib r (w.code s) ct rng size c = serveSized lib r w ct rng size c := by
  unfold serveSized
  split
  · split
    · dsimp only
      split
      · rfl
      · rfl
    · rename_i rs _
      generalize (if sumRangesSize rs > size then [] else rs) = rs'
      unfold sendRanges
      split
      · rw [lengthHeaders_code, sendBody_code]
      · split
        · rfl
        · dsimp only
          rw [set_code, lengthHeaders_code, sendBody_code]
      · dsimp only
        rw [set_code, lengthHeaders_code, sendBody_code]
  · rfl

/-- C118: the answer does not depend on a status set before; it is the one of the content. -/
theorem C118_status (lib : Lib) (r : HttpReq) (w : HttpResp) (name : Str) (modTime : Int) (c : Content) (s : Nat) :
    ServeContent lib r { w with status := s } name modTime c = ServeContent lib r w name modTime c := by
  show ServeContent lib r (w.code s) name modTime c = _
  unfold ServeContent serveContent
  dsimp only
  rw [setLastModified_code, checkPreconditions_code]
  rcases conditions_cases lib.toTimeLib r (setLastModified lib.toTimeLib w modTime) modTime with hp | hp | ⟨rng, hp⟩
  · rw [hp]; rfl
  · rw [hp]; rfl
  · rw [hp]
    simp only [Outcome.bind_ret, reduceCtorEq, if_false]
    generalize setLastModified lib.toTimeLib w modTime = u
    unfold contentType
    dsimp only
    split
    · split
      · obtain ⟨ct, hd, -⟩ := C59_exact (c.data.take 512)
        rw [hd, Outcome.bind_ret]
        cases hs : c.seekable
        · rfl
        · simp only [if_true, Outcome.bind_ret]
          rw [set_code, serveSized_code]
      · simp only [Outcome.bind_ret]
        cases hs : c.seekable
        · rfl
        · simp only [if_true]
          rw [set_code, serveSized_code]
    · simp only [Outcome.bind_ret]
      cases hs : c.seekable
      · rfl
      · simp only [if_true]
        rw [serveSized_code]

/-! ### Static routes -/

theorem keeps_redirect {K : List Str} (hK : b!"Location" ∈ K) (lib : Lib) (r : HttpReq) {a b : HttpResp} (h : Keeps K a b)
    (p : Str) : Keeps K a (localRedirect lib r b p) := by
  unfold localRedirect
  exact (h.set _ _ hK).code _

theorem content_file : ∀ k ∈ contentHeaders, k ∈ fileHeaders := fun _ h => List.mem_cons_of_mem _ h
theorem sent_file : ∀ k ∈ sentHeaders, k ∈ fileHeaders := by decide

section
variable (lib : Lib) (href : Str → Str) (r : HttpReq) (w : HttpResp)

theorem keeps_open (fi : FileInfo) (c : Content) (log : List Access) (run : StaticRun)
    (h : serveOpen lib r w fi c log = .ret run) : Keeps fileHeaders w run.resp := by
  unfold serveOpen at h
  obtain ⟨w', e, h1, h2⟩ := keeps_serve_all content_file lib r (.refl _ w) fi.name fi.modTime (some fi.size) c
  rw [h1, Outcome.bind_ret] at h
  injection h with h
  subst h
  exact h2

theorem keeps_dir (fi : FileInfo) (f : FsFile) (log : List Access) (run : StaticRun)
    (h : serveDir lib href r w fi f log = .ret run) : Keeps fileHeaders w run.resp := by
  unfold serveDir at h
  split at h
  · injection h with h; subst h; exact keeps_notModified content_file (.refl _ w)
  · dsimp only at h
    injection h with h; subst h
    have h0 := keeps_lastModified fileHeaders sent_file lib.toTimeLib (.refl _ w) fi.modTime
    unfold dirList
    split
    · exact keeps_httpError fileHeaders sent_file h0 _ _
    · exact (((h0.set _ _ (by decide)).write _).write _).write _

theorem keeps_stat (fsm : FileSys) (name : Str) (fi : FileInfo) (f : FsFile) (log : List Access) (run : StaticRun)
    (h : serveStat lib href fsm name r w fi f log = .ret run) : Keeps fileHeaders w run.resp := by
  unfold serveStat at h
  split at h
  · split at h
    · injection h with h; subst h; exact keeps_redirect (by decide) lib r (.refl _ w) _
    · unfold serveIndex at h
      dsimp only at h
      split at h
      · exact keeps_dir lib href r w _ _ _ _ h
      · split at h
        · exact keeps_dir lib href r w _ _ _ _ h
        · split at h
          · exact keeps_dir lib href r w _ _ _ _ h
          · exact keeps_open lib r w _ _ _ _ h
  · exact keeps_open lib r w _ _ _ _ h

theorem keeps_file (fsm : FileSys) (name : Str) (showDir redirect : Bool) (run : StaticRun)
    (h : serveFile lib href fsm name showDir redirect r w = .ret run) : Keeps fileHeaders w run.resp := by
  unfold serveFile at h
  split at h
  · injection h with h; subst h; exact keeps_redirect (by decide) lib r (.refl _ w) _
  · dsimp only at h
    split at h
    · injection h with h; subst h; exact keeps_httpError fileHeaders sent_file (.refl _ w) _ _
    · split at h
      · injection h with h; subst h; exact keeps_httpError fileHeaders sent_file (.refl _ w) _ _
      · split at h
        · injection h with h; subst h; exact keeps_httpError fileHeaders sent_file (.refl _ w) _ _
        · split at h
          · unfold canonicalRedirect at h
            split at h
            · cases h
            · split at h
              · split at h
                · injection h with h; subst h; exact keeps_redirect (by decide) lib r (.refl _ w) _
                · exact keeps_stat lib href r w _ _ _ _ _ _ h
              · split at h
                · injection h with h; subst h; exact keeps_redirect (by decide) lib r (.refl _ w) _
                · exact keeps_stat lib href r w _ _ _ _ _ _ h
          · exact keeps_stat lib href r w _ _ _ _ _ _ h

theorem keeps_run (root : FileSys) (u : Str) (run : StaticRun) (h : (runWith lib href root u r w).result = .ret run) :
    Keeps fileHeaders w run.resp := by
  unfold runWith fileServe at h
  dsimp only at h
  split at h <;> exact keeps_file lib href _ w _ _ _ _ _ h

/-- C118 for the three kinds of static routes and for `ServeFile`: what the handlers before put into the response, other than
the headers of a file or a redirect, is in the answer, and the body goes on from what they wrote. -/
theorem C118_static (fSys : RawFS) (run : StaticRun)
    (h : (∃ urlPath, (staticFileRun lib href fSys urlPath r w).result = .ret run) ∨
      (∃ filePath urlPath, (staticFSRun lib href fSys filePath urlPath r w).result = .ret run) ∨
      (∃ filePath, (fixStaticRun lib href fSys filePath r w).result = .ret run) ∨
      ∃ name, ServeFile lib href fSys name r w = .ret run) :
    (∀ k, k ∉ fileHeaders → run.resp.peek k = w.peek k) ∧ ∃ more, run.resp.body = w.body ++ more := by
  have hk : Keeps fileHeaders w run.resp := by
    rcases h with ⟨u, h⟩ | ⟨f, u, h⟩ | ⟨f, h⟩ | ⟨n, h⟩
    · exact keeps_run lib href r w _ _ _ h
    · exact keeps_run lib href r w _ _ _ h
    · exact keeps_run lib href r w _ _ _ h
    · unfold ServeFile at h
      split at h
      · injection h with h; subst h; exact keeps_httpError fileHeaders sent_file (.refl _ w) _ _
      · exact keeps_file lib href r w _ _ _ _ _ h
  obtain ⟨h1, more, h2⟩ := hk
  exact ⟨h1, more, h2.symm⟩

end

/-! ### The type -/

/-- C118, the type, exactly, for an answer with the whole content or one range: the type the handler set is the type of the
answer just in case the request carries a Content-Type itself, or the type found from the name or the content is the same. -/
theorem C118_type_exact (lib : Lib) (r : HttpReq) (w : HttpResp) (name : Str) (modTime : Int) (c : Content) (rng : Str)
    (hc : c.seekable = true)
    (hpre : checkPreconditions lib.toTimeLib r (setLastModified lib.toTimeLib w modTime) modTime =
      .ret (some rng, setLastModified lib.toTimeLib w modTime))
    (rs : List HttpRange) (hp : parseRange rng c.data.length = .ok rs) (hone : rs.length ≤ 1) :
    ∃ w', ServeContent lib r w name modTime c = .ret (w', none) ∧
      (w'.peek b!"Content-Type" = w.peek b!"Content-Type" ↔
        r.header b!"Content-Type" ≠ [] ∨ UsedType lib r name c.data (w.peek b!"Content-Type")) := by
  obtain ⟨w', h1, h2, h3⟩ := C68_exact lib r w name modTime c rng hc hpre rs hp hone
  refine ⟨w', ?_, ?_⟩
  · unfold ServeContent; rw [hc]; exact h1
  · constructor
    · intro h
      by_cases hr : r.header b!"Content-Type" = []
      · exact .inr (h ▸ h2 hr)
      · exact .inl hr
    · rintro (h | h)
      · exact h3 h
      · by_cases hr : r.header b!"Content-Type" = []
        · have hu := h2 hr
          by_cases hn : lib.typeByName name = []
          · exact firstMatch_unique (hu.2.2 hr hn) (h.2.2 hr hn)
          · rw [hu.2.1 hr hn, h.2.1 hr hn]
        · exact h3 hr

/-- C118, the type, for requests that carry a Content-Type themselves. -/
theorem C118_type_partial (lib : Lib) (r : HttpReq) (w : HttpResp) (name : Str) (modTime : Int) (c : Content) (rng : Str)
    (hc : c.seekable = true) (hr : r.header b!"Content-Type" ≠ [])
    (hpre : checkPreconditions lib.toTimeLib r (setLastModified lib.toTimeLib w modTime) modTime =
      .ret (some rng, setLastModified lib.toTimeLib w modTime))
    (rs : List HttpRange) (hp : parseRange rng c.data.length = .ok rs) (hone : rs.length ≤ 1) :
    ∃ w', ServeContent lib r w name modTime c = .ret (w', none) ∧ w'.peek b!"Content-Type" = w.peek b!"Content-Type" := by
  obtain ⟨w', h1, h2⟩ := C118_type_exact lib r w name modTime c rng hc hpre rs hp hone
  exact ⟨w', h1, h2.2 (.inl hr)⟩

section Examples

/-- A response into which a handler put a tag, a type, an encoding, a cookie policy and some text. -/
def preparedResp : HttpResp :=
  ⟨201, [(b!"Etag", b!"\"v1\""), (b!"Content-Type", b!"video/mp4"), (b!"Content-Encoding", b!"gzip"),
    (b!"Content-Length", b!"4"), (b!"Cache-Control", b!"no-store")], b!"pre"⟩

/-- C118 fails for the type: the code asks the request, not the response, for a Content-Type, so the type a handler has set is
replaced by that of the file name. -/
theorem C118_violated :
    ∃ w', ServeContent exLib (condReq b!"GET" [] [] [] []) preparedResp b!"a.html" 0 exContent = .ret (w', none) ∧
      preparedResp.peek b!"Content-Type" = b!"video/mp4" ∧ w'.status = 200 ∧ w'.peek b!"Content-Type" = b!"text/html" ∧
      w'.peek b!"Cache-Control" = b!"no-store" ∧ w'.peek b!"Content-Length" = b!"4" ∧ w'.body = b!"pre0123456789" :=
  ⟨_, rfl, by decide +kernel⟩

/-- The hypotheses of `C118_tag` are met by the prepared response, and those of `C118_type_exact` by a plain request. -/
example : (ETag.mk false b!"v1").Valid ∧ preparedResp.peek b!"Etag" = (ETag.mk false b!"v1").written ∧
    ∃ w', ServeContent exLib (condReq b!"GET" b!"If-None-Match" b!"\"v1\"" [] []) preparedResp b!"a.html" 0 exContent =
      .ret (w', none) ∧ w'.status = 304 ∧ w'.body = b!"pre" ∧ w'.peek b!"Content-Encoding" = [] :=
  ⟨by unfold ETag.Valid TagByte; decide, by decide +kernel, _, rfl, by decide +kernel⟩
example : checkPreconditions exLib.toTimeLib (condReq b!"GET" b!"Range" b!"bytes=2-3" [] [])
      (setLastModified exLib.toTimeLib preparedResp 0) 0 =
    .ret (some b!"bytes=2-3", setLastModified exLib.toTimeLib preparedResp 0) ∧
    parseRange b!"bytes=2-3" exContent.data.length = .ok [⟨2, 2⟩] := by decide +kernel

end Examples

end Verif
