import Verif.Spec.Cache
import Verif.Props.Download
/-
C127: a cache that asks the server any number of times, while the file changes.
-/
namespace Verif
open Spec
set_option linter.unusedSectionVars false

/-! ### Any server with these answers -/

open Classical in
/-- The date the server tells for a version. -/
noncomputable def FileVersion.told (lib : Lib) (v : FileVersion) : Str := if KnownTime v.time then lib.format v.time else []

/-- The answers that matter. -/
structure ServesCache (lib : Lib) (serves : FileVersion → HttpReq → HttpResp → Prop) : Prop where
  plain : ∀ v r w c, c.date = [] ∨ ¬ KnownTime v.time → Held.Asks c r → serves v r w →
    w.status = 200 ∧ w.body = v.data ∧ w.peek b!"Last-Modified" = FileVersion.told lib v
  still : ∀ v r w c t, KnownTime v.time → DateLaw lib t → c.date = lib.format t → Held.Asks c r → serves v r w →
    v.time / 10 ^ 9 ≤ t / 10 ^ 9 → w.status = 304 ∧ w.body = [] ∧ w.peek b!"Last-Modified" = FileVersion.told lib v
  later : ∀ v r w c t, KnownTime v.time → DateLaw lib t → c.date = lib.format t → Held.Asks c r → serves v r w →
    t / 10 ^ 9 < v.time / 10 ^ 9 → w.status = 200 ∧ w.body = v.data ∧ w.peek b!"Last-Modified" = FileVersion.told lib v

/-- The bytes are of one version, the date of one that is not from a later second. -/
def HeldOf (lib : Lib) (vs : List FileVersion) : Held → Prop
  | .nothing => True
  | .kept date data => ∃ v ∈ vs, data = v.data ∧
      ((¬ KnownTime v.time ∧ date = []) ∨ ∃ v1 ∈ vs, KnownTime v.time ∧ KnownTime v1.time ∧ date = lib.format v1.time ∧ v1.time / 10 ^ 9 ≤ v.time / 10 ^ 9)

theorem heldOf_mono {lib : Lib} {vs : List FileVersion} {c : Held} (v : FileVersion) (h : HeldOf lib vs c) : HeldOf lib (vs ++ [v]) c := by
  cases c with
  | nothing => exact True.intro
  | kept date data =>
    obtain ⟨v0, h0, h1, h2 | ⟨v1, h2, h3⟩⟩ := h
    · exact ⟨v0, by simp [h0], h1, .inl h2⟩
    · exact ⟨v0, by simp [h0], h1, .inr ⟨v1, by simp [h2], h3⟩⟩

theorem heldOf_new {lib : Lib} {vs : List FileVersion} {v : FileVersion} {w : HttpResp}
    (h : w.body = v.data ∧ w.peek b!"Last-Modified" = FileVersion.told lib v) :
    HeldOf lib (vs ++ [v]) (.kept (w.peek b!"Last-Modified") w.body) := by
  obtain ⟨h1, h2⟩ := h
  refine ⟨v, by simp, h1, ?_⟩
  rw [h2]
  unfold FileVersion.told
  by_cases hk : KnownTime v.time
  · exact .inr ⟨v, by simp, hk, hk, if_pos hk, Int.le_refl _⟩
  · exact .inl ⟨hk, if_neg hk⟩

/-- The answer, if what the cache holds is of the versions `vs`. -/
theorem cache_answer {lib : Lib} {serves : FileVersion → HttpReq → HttpResp → Prop} (hs : ServesCache lib serves)
    {vs : List FileVersion} (hd : ∀ v ∈ vs, KnownTime v.time → DateLaw lib v.time) {c : Held} (hc : HeldOf lib vs c)
    {v : FileVersion} {r : HttpReq} {w : HttpResp} (ha : c.Asks r) (hw : serves v r w) :
    w.peek b!"Last-Modified" = FileVersion.told lib v ∧
    ((w.status = 200 ∧ w.body = v.data) ∨
      (w.status = 304 ∧ w.body = [] ∧ ∃ date data, c = .kept date data ∧ KnownTime v.time ∧ ∃ v0 ∈ vs, ∃ v1 ∈ vs, data = v0.data ∧ KnownTime v0.time ∧ KnownTime v1.time ∧
        v.time / 10 ^ 9 ≤ v1.time / 10 ^ 9 ∧ v1.time / 10 ^ 9 ≤ v0.time / 10 ^ 9 ∧ date = lib.format v1.time)) := by
  have whole : (w.status = 200 ∧ w.body = v.data ∧ w.peek b!"Last-Modified" = FileVersion.told lib v) → _ := fun h =>
    (⟨h.2.2, .inl ⟨h.1, h.2.1⟩⟩ : w.peek b!"Last-Modified" = FileVersion.told lib v ∧
    ((w.status = 200 ∧ w.body = v.data) ∨
      (w.status = 304 ∧ w.body = [] ∧ ∃ date data, c = .kept date data ∧ KnownTime v.time ∧ ∃ v0 ∈ vs, ∃ v1 ∈ vs, data = v0.data ∧ KnownTime v0.time ∧ KnownTime v1.time ∧
        v.time / 10 ^ 9 ≤ v1.time / 10 ^ 9 ∧ v1.time / 10 ^ 9 ≤ v0.time / 10 ^ 9 ∧ date = lib.format v1.time)))
  cases c with
  | nothing => exact whole (hs.plain v r w .nothing (.inl rfl) ha hw)
  | kept date data =>
    by_cases hk : KnownTime v.time
    · obtain ⟨v0, h0, h1, ⟨-, h2⟩ | ⟨v1, h2, hk0, hk1, h3, h4⟩⟩ := hc
      · exact whole (hs.plain v r w (.kept date data) (.inl h2) ha hw)
      · have hd1 := hd v1 h2 hk1
        rcases Int.lt_or_le (v1.time / 10 ^ 9) (v.time / 10 ^ 9) with hl | hl
        · exact whole (hs.later v r w (.kept date data) v1.time hk hd1 h3 ha hw hl)
        · obtain ⟨s1, s2, s3⟩ := hs.still v r w (.kept date data) v1.time hk hd1 h3 ha hw hl
          exact ⟨s3, .inr ⟨s1, s2, date, data, rfl, hk, v0, h0, v1, h2, h1, hk0, hk1, hl, h4, h3⟩⟩
    · exact whole (hs.plain v r w _ (.inr hk) ha hw)

theorem cached_of (lib : Lib) (serves : FileVersion → HttpReq → HttpResp → Prop) (hs : ServesCache lib serves)
    (vs : List FileVersion) (c : Held) (h : Cached serves vs c)
    (hd : ∀ v ∈ vs, KnownTime v.time → DateLaw lib v.time) : HeldOf lib vs c := by
  induction h with
  | start => exact True.intro
  | lost _ ih => exact heldOf_mono _ (ih fun x hx => hd x (by simp [hx]))
  | @ask vs c c' v r w hc ha hw ht ih =>
    have ih := ih fun x hx => hd x (by simp [hx])
    obtain ⟨hl, h⟩ := cache_answer hs (fun x hx => hd x (by simp [hx])) ih ha hw
    cases ht with
    | replace h200 =>
      rcases h with ⟨-, h⟩ | ⟨h, -⟩
      · exact heldOf_new ⟨h, hl⟩
      · rw [h] at h200; exact absurd h200 (by decide)
    | keep _ => exact heldOf_mono v ih
    | refresh h304 =>
      rcases h with ⟨h, -⟩ | ⟨-, -, date', data', e, hk, v0, h0, v1, h1, hdata, hk0, hk1, k1, k2, -⟩
      · rw [h] at h304; exact absurd h304 (by decide)
      · cases e
        refine ⟨v0, by simp [h0], hdata, .inr ⟨v, by simp, hk0, hk, ?_, by omega⟩⟩
        rw [hl]; exact if_pos hk

/-! ### A static route of a server -/

/-- What is sent tells the date of the version. -/
theorem told_date (lib : Lib) (href : Str → Str) (fSys : RawFS) (r : HttpReq) (w : HttpResp) (route : StaticRoute) (name : List Str)
    (hn : route.Names r.path name) (base : Str) (v : FileVersion) (hf : HasFile fSys name base v.data v.time)
    (hw : w.peek b!"Last-Modified" = []) (s : StaticRun) (hs : (route.run lib href fSys r w).result = .ret s) (rng : Str)
    (hpre : checkPreconditions lib.toTimeLib r (setLastModified lib.toTimeLib w v.time) v.time =
      .ret (some rng, setLastModified lib.toTimeLib w v.time)) : s.resp.peek b!"Last-Modified" = FileVersion.told lib v := by
  obtain ⟨s', hs', -, hsc⟩ := C105_content lib href fSys r w route name hn base v.data v.time hf
  rw [hs] at hs'
  cases hs'
  have hlm : (setLastModified lib.toTimeLib w v.time).peek b!"Last-Modified" = FileVersion.told lib v := by
    unfold setLastModified FileVersion.told
    have hz := isZeroTime_iff lib.toTimeLib r w v.time
    by_cases hk : KnownTime v.time
    · rw [if_neg (fun h => hz.1 h ⟨hk.1, hk.2⟩), peek_set, if_pos rfl, if_pos hk]
    · rw [if_pos (hz.2 fun h => hk ⟨h.1, h.2⟩), hw, if_neg hk]
  obtain ⟨ct, w1, h1, h2, h3, h4⟩ := contentType_ret lib r (setLastModified lib.toTimeLib w v.time) base ⟨v.data, true⟩ rfl
  have : serveContent lib r w base v.time (some (v.data.length : Int)) ⟨v.data, true⟩ = .ret (serveSized lib r w1 ct rng v.data.length ⟨v.data, true⟩) := by
    unfold serveContent
    simp only
    rw [hpre, Outcome.bind_ret]
    simp only
    rw [h1, Outcome.bind_ret]
  rw [hsc] at this
  injection this with h
  have e : (serveSized lib r w1 ct rng v.data.length ⟨v.data, true⟩).1 = s.resp := by rw [← h]
  rw [← e, serveSized_lastModified, h4 _ (by decide), hlm]

section
variable {η υ : Type} [Inhabited η] (level : Int) (u : Str → Str) (env : Env υ)
  (visit : GoMap RxPtr (Option Nat) → List (RxPtr × Option Nat)) (hv : AnyOrder visit)
  (V : ReqView υ) (msg : ServeErr → Str) (lib : Lib) (href : Str → Str) (grow : Nat → Nat → Nat)
  (ops later : List (Op η RxPtr)) (addr : Nat) (fixed : Str) (h : η) (route : StaticRoute)
  (calls : List (Op η RxPtr)) (name : List Str)

/-- The server, whose static route finds the file in the version `v`, answers the request with `w`; nothing was written before. -/
def servesCached (v : FileVersion) (r : HttpReq) (w : HttpResp) : Prop :=
  ∃ (I : Handlers3 η υ) (a : Arrival υ) (fSys : RawFS) (base : Str), I.main h = some (route.main V msg lib href fSys) ∧ a.Reads V r ∧
    route.Reached fixed (ops ++ later) a.req ∧ route.Names r.path name ∧ HasFile fSys name base v.data v.time ∧
    NoEncoding a.resp.http ∧ a.resp.http.peek b!"Last-Modified" = [] ∧ a.resp.body = [] ∧
    GetsAnswer (served level u env visit grow I (ops ++ calls ++ later) a) w

theorem cache_pre (r : HttpReq) (w : HttpResp) (t : Int) (c : Held) (hc : c.date = [] ∨ ¬ KnownTime t) (ha : c.Asks r) :
    checkPreconditions lib.toTimeLib r w t = .ret (some [], w) := by
  obtain ⟨hm, h1, h2, h3, h4, h5⟩ := ha
  have hC := C57_conditions lib.toTimeLib r w t
  simp only at hC
  obtain ⟨-, hC⟩ := hC
  obtain ⟨-, -, -, c4, c5⟩ := hC (by
    rintro (⟨h, -⟩ | ⟨-, h, -⟩)
    · exact h h1
    · exact h h2)
  have hnm : ¬ (question lib.toTimeLib r w t).NoneMatchFails := fun h => h.1 h3
  have hq : ¬ (question lib.toTimeLib r w t).NotModified := by
    rintro ⟨-, -, h, hk, -⟩
    rcases hc with hc | hc
    · exact h (h5.trans hc)
    · exact hc ⟨hk.1, hk.2⟩
  by_cases hrf : (question lib.toTimeLib r w t).RangeFails
  · exact c4 hnm hq hrf
  · rw [← h4]; exact c5 hnm hq hrf

include hv in
theorem serves_cache (hcalls : route.mount addr (progState grow ops).setVars.length fixed h = some calls) :
    ServesCache lib (servesCached level u env visit V msg lib href grow ops later fixed h route calls name) := by
  refine ⟨?_, ?_, ?_⟩
  · rintro v r w c hc ha ⟨I, a, fSys, base, hI, hr', hfree, hn, hf, hw, hlm, hb, hgot⟩
    obtain ⟨s, hs, h2, -⟩ := mounted level u env visit hv V msg lib href grow ops later addr fixed h route I a r hr' fSys hI hfree
      calls hcalls name hn base v.data v.time hf
    obtain ⟨e1, e2⟩ := answered level u env visit msg grow h2 hgot
    have hpre := cache_pre lib r (setLastModified lib.toTimeLib a.resp.http v.time) v.time c hc ha
    obtain ⟨s', hs', hA⟩ := whole_answer lib href fSys r a.resp.http route name hn base v.data v.time hf hw hpre
    rw [hs] at hs'
    cases hs'
    have hd := told_date lib href fSys r a.resp.http route name hn base v hf hlm s hs _ hpre
    rw [e1] at hd
    obtain ⟨-, a1, -, a2⟩ := hA
    rw [e1] at a1 a2
    refine ⟨a1, ?_, hd⟩
    rw [a2, if_neg (by rw [ha.1]; decide)]
    show a.resp.body ++ _ = _
    rw [hb]; rfl
  all_goals
    rintro v r w c t hk hdate hc ⟨hm, h1, h3, h4, h5, h6⟩ ⟨I, a, fSys, base, hI, hr', hfree, hn, hf, hw, hlm, hb, hgot⟩ ht
    obtain ⟨s, hs, h2, -⟩ := mounted level u env visit hv V msg lib href grow ops later addr fixed h route I a r hr' fSys hI hfree
      calls hcalls name hn base v.data v.time hf
    obtain ⟨e1, e2⟩ := answered level u env visit msg grow h2 hgot
    rw [hc] at h6
    obtain ⟨s', hs', hA⟩ := since_answer lib href route name fSys r a.resp.http hn base v.data v.time hf hk hw (.inl hm) h1 h3 h4 h5
      (by rw [h6]; exact hdate.1) (t / 10 ^ 9 * 10 ^ 9) (by rw [h6]; exact hdate.2.1)
    rw [show t / 10 ^ 9 * 10 ^ 9 / 10 ^ 9 = t / 10 ^ 9 by omega] at hA
    rw [hs] at hs'
    cases hs'
    have htold : FileVersion.told lib v = lib.format v.time := if_pos hk
    rw [htold]
  · obtain ⟨a1, -, a2, -, -, a3⟩ := hA.1 ht
    rw [e1] at a1 a2 a3
    exact ⟨a1, a2.trans hb, a3⟩
  · obtain ⟨⟨-, a1, -, a2⟩, a3⟩ := hA.2 ht
    rw [e1] at a1 a2 a3
    refine ⟨a1, ?_, a3⟩
    rw [a2, if_neg (by rw [hm]; decide)]
    show a.resp.body ++ _ = _
    rw [hb]; rfl

include hv in
/-- **C127** (what the cache holds is the file).  A cache asks a static route of a server for a file, whatever else the program registers, any number of
times, each time If-Modified-Since the date it was told; some answers are lost, and the file may change between the requests.  If a version with other
bytes than an earlier one is always from a later second, then after every answer that arrives the cache holds the file as it is then. -/
theorem C127_fresh (hcalls : route.mount addr (progState grow ops).setVars.length fixed h = some calls)
    (vs : List FileVersion) (v : FileVersion) (hd : ∀ v' ∈ vs ++ [v], KnownTime v'.time → DateLaw lib v'.time)
    (hlate : (vs ++ [v]).Pairwise FileVersion.Before) (c : Held)
    (hc : Cached (servesCached level u env visit V msg lib href grow ops later fixed h route calls name) vs c)
    (r : HttpReq) (hr : c.Asks r) (w : HttpResp)
    (hw : servesCached level u env visit V msg lib href grow ops later fixed h route calls name v r w) (c' : Held) (ht : c.Takes w c') :
    ∃ date, c' = .kept date v.data := by
  have hs := serves_cache level u env visit hv V msg lib href grow ops later addr fixed h route calls name hcalls
  have hd' : ∀ v' ∈ vs, KnownTime v'.time → DateLaw lib v'.time := fun x hx => hd x (by simp [hx])
  obtain ⟨-, h⟩ := cache_answer hs hd' (cached_of lib _ hs vs c hc hd') hr hw
  have same : ∀ date data, c = .kept date data → w.status = 304 → data = v.data := by
    intro date data e h304
    rcases h with ⟨h, -⟩ | ⟨-, -, date', data', e', hk, v0, h0, v1, -, hdata, hk0, hk1, k1, k2, -⟩
    · rw [h] at h304; exact absurd h304 (by decide)
    · rw [e] at e'
      cases e'
      rcases (List.pairwise_append.1 hlate).2.2 v0 h0 v (by simp) hk0 hk with h | h
      · rw [hdata, h]
      · omega
  cases ht with
  | replace h200 =>
    rcases h with ⟨-, h⟩ | ⟨h, -⟩
    · exact ⟨_, by rw [h]⟩
    · rw [h] at h200; exact absurd h200 (by decide)
  | keep h304 => exact ⟨_, by rw [same _ _ rfl h304]⟩
  | refresh h304 => exact ⟨_, by rw [same _ _ rfl h304]⟩

include hv in
/-- **C127** (every answer).  Without the proviso: what a cache holds is always one version of the file, whole; the answer is 304 without content or 200 with
the file as it is then, and it is 304 only if the file is not from a later second than the version the cache holds. -/
theorem C127_always (hcalls : route.mount addr (progState grow ops).setVars.length fixed h = some calls)
    (vs : List FileVersion) (hd : ∀ v' ∈ vs, KnownTime v'.time → DateLaw lib v'.time) (c : Held)
    (hc : Cached (servesCached level u env visit V msg lib href grow ops later fixed h route calls name) vs c) :
    (∀ date data, c = .kept date data → ∃ v0 ∈ vs, data = v0.data) ∧
    ∀ (v : FileVersion) (r : HttpReq) (w : HttpResp), c.Asks r →
      servesCached level u env visit V msg lib href grow ops later fixed h route calls name v r w →
      (w.status = 200 ∧ w.body = v.data) ∨
      (w.status = 304 ∧ w.body = [] ∧ KnownTime v.time ∧ ∃ date, ∃ v0 ∈ vs, c = .kept date v0.data ∧ KnownTime v0.time ∧
        v.time / 10 ^ 9 ≤ v0.time / 10 ^ 9) := by
  have hs := serves_cache level u env visit hv V msg lib href grow ops later addr fixed h route calls name hcalls
  have ho := cached_of lib _ hs vs c hc hd
  refine ⟨?_, ?_⟩
  · rintro date data rfl
    obtain ⟨v0, h0, h1, -⟩ := ho
    exact ⟨v0, h0, h1⟩
  · intro v r w ha hw
    obtain ⟨-, h | ⟨h1, h2, date, data, e, hk, v0, h0, v1, h3, rfl, hk0, -, k1, k2, -⟩⟩ := cache_answer hs hd ho ha hw
    · exact .inl h
    · exact .inr ⟨h1, h2, hk, date, v0, h0, e, hk0, by omega⟩

include hv in
/-- **C127** (nothing is sent twice).  If a cache got an answer while the file was `v`, whose time is known, and asks again while it is `v`, or any file that is not from a later
second, it is told 304, without content. -/
theorem C127_again (hcalls : route.mount addr (progState grow ops).setVars.length fixed h = some calls)
    (vs : List FileVersion) (v : FileVersion) (hd : ∀ v' ∈ vs ++ [v], KnownTime v'.time → DateLaw lib v'.time) (hk : KnownTime v.time) (c : Held)
    (hc : Cached (servesCached level u env visit V msg lib href grow ops later fixed h route calls name) vs c)
    (r : HttpReq) (hr : c.Asks r) (w : HttpResp)
    (hw : servesCached level u env visit V msg lib href grow ops later fixed h route calls name v r w) (c' : Held) (ht : c.Takes w c')
    (v' : FileVersion) (hk' : KnownTime v'.time) (hle : v'.time / 10 ^ 9 ≤ v.time / 10 ^ 9) (r' : HttpReq) (hr' : c'.Asks r') (w' : HttpResp)
    (hw' : servesCached level u env visit V msg lib href grow ops later fixed h route calls name v' r' w') :
    w'.status = 304 ∧ w'.body = [] := by
  have hs := serves_cache level u env visit hv V msg lib href grow ops later addr fixed h route calls name hcalls
  have hd' : ∀ v' ∈ vs, KnownTime v'.time → DateLaw lib v'.time := fun x hx => hd x (by simp [hx])
  obtain ⟨hl, h⟩ := cache_answer hs hd' (cached_of lib _ hs vs c hc hd') hr hw
  have htold : FileVersion.told lib v = lib.format v.time := if_pos hk
  rw [htold] at hl
  have done : ∀ t, DateLaw lib t → c'.date = lib.format t → v.time / 10 ^ 9 ≤ t / 10 ^ 9 → w'.status = 304 ∧ w'.body = [] := by
    intro t h1 h2 h3
    obtain ⟨s1, s2, -⟩ := hs.still v' r' w' c' t hk' h1 h2 hr' hw' (by omega)
    exact ⟨s1, s2⟩
  cases ht with
  | replace _ => exact done v.time (hd v (by simp) hk) hl (Int.le_refl _)
  | refresh _ => exact done v.time (hd v (by simp) hk) hl (Int.le_refl _)
  | keep h304 =>
    rcases h with ⟨h, -⟩ | ⟨-, -, date', data', e, -, v0, h0, v1, h1, hdata, hk0, hk1, k1, k2, k3⟩
    · rw [h] at h304; exact absurd h304 (by decide)
    · cases e
      exact done v1.time (hd' v1 h1 hk1) k3 k1

include hv in
/-- There is an answer. -/
theorem cached_exists (hcalls : route.mount addr (progState grow ops).setVars.length fixed h = some calls)
    (I : Handlers3 η υ) (a : Arrival υ) (fSys : RawFS) (base : Str) (v : FileVersion) (r : HttpReq)
    (hI : I.main h = some (route.main V msg lib href fSys)) (hr : a.Reads V r)
    (hfree : route.Reached fixed (ops ++ later) a.req) (hn : route.Names r.path name) (hf : HasFile fSys name base v.data v.time)
    (hw : NoEncoding a.resp.http) (hlm : a.resp.http.peek b!"Last-Modified" = []) (hb : a.resp.body = []) (hu : a.ba.use = false) (c : Held) (hc : c.Asks r)
    (hask : c.date = [] ∨ ¬ KnownTime v.time ∨ KnownTime v.time ∧ ∃ t, DateLaw lib t ∧ c.date = lib.format t) :
    ∃ w, servesCached level u env visit V msg lib href grow ops later fixed h route calls name v r w := by
  obtain ⟨s, hs, h2, h3⟩ := mounted level u env visit hv V msg lib href grow ops later addr fixed h route I a r hr fSys hI hfree
    calls hcalls name hn base v.data v.time hf
  have plain : c.date = [] ∨ ¬ KnownTime v.time → s.err = none := by
    intro hp
    obtain ⟨s', hs', hA⟩ := whole_answer lib href fSys r a.resp.http route name hn base v.data v.time hf hw
      (cache_pre lib r (setLastModified lib.toTimeLib a.resp.http v.time) v.time c hp hc)
    rw [hs] at hs'
    cases hs'
    exact hA.1
  have he : s.err = none := by
    rcases hask with hp | hp | ⟨hk, t, hdate, hd⟩
    · exact plain (.inl hp)
    · exact plain (.inr hp)
    · obtain ⟨hm, h1, h3, h4, h5, h6⟩ := hc
      rw [hd] at h6
      obtain ⟨s', hs', hA⟩ := since_answer lib href route name fSys r a.resp.http hn base v.data v.time hf hk hw (.inl hm) h1 h3 h4 h5
        (by rw [h6]; exact hdate.1) (t / 10 ^ 9 * 10 ^ 9) (by rw [h6]; exact hdate.2.1)
      rw [hs] at hs'
      cases hs'
      rcases Int.lt_or_le (t / 10 ^ 9 * 10 ^ 9 / 10 ^ 9) (v.time / 10 ^ 9) with hl | hl
      · exact (hA.2 hl).1.1
      · exact (hA.1 hl).2.1
  obtain ⟨sv, d, i1, i2⟩ := h3 hu
  obtain ⟨g1, g2⟩ := h2 sv d i1 i2
  exact ⟨s.resp, I, a, fSys, base, hI, hr, hfree, hn, hf, hw, hlm, hb, sv, d, i1, i2, by rw [g2, (staticErr_none msg).2 he], g1⟩

end

/-! ### A file that is replaced by an older one -/

namespace CacheEx
open DownloadEx (fsOf handlers has)

abbrev serves : FileVersion → HttpReq → HttpResp → Prop :=
  servesCached 5 id StaticMainEx.env id StaticMainEx.view StaticMainEx.msg seekLib id (fun c _ => 2 * c) exStaticOps exStaticLater [] 3
    (.fileFS b!"static" b!"/files") MountEx.calls [b!"static", b!"a.txt"]

/-- The request of the cache. -/
def ask (c : Held) : HttpReq := ⟨b!"GET", b!"/files/a.txt", [], fun k => if k = b!"If-Modified-Since" then c.date else []⟩

theorem asks (c : Held) : c.Asks (ask c) := ⟨rfl, rfl, rfl, rfl, rfl, rfl⟩

theorem answer (v : FileVersion) (h : v.data.length < 2 ^ 63) (c : Held)
    (hask : c.date = [] ∨ ¬ KnownTime v.time ∨ KnownTime v.time ∧ ∃ t, DateLaw seekLib t ∧ c.date = seekLib.format t) : ∃ w, serves v (ask c) w := by
  refine cached_exists 5 id StaticMainEx.env id (fun _ => List.Perm.refl _) StaticMainEx.view StaticMainEx.msg seekLib id (fun c _ => 2 * c)
    exStaticOps exStaticLater 2 [] 3 (.fileFS b!"static" b!"/files") MountEx.calls _ MountEx.mountedCalls (handlers v) (MountEx.arrival (ask c)) (fsOf v) b!"a.txt" v _
    rfl ⟨fun _ => rfl, rfl, rfl⟩ ?_ ?_ (has v h) ⟨by show HttpResp.peek _ _ = _; rfl, by show HttpResp.peek _ _ = _; rfl⟩ (by show HttpResp.peek _ _ = _; rfl)
    rfl rfl c (asks c) hask
  · exact MountEx.reached
  · exact exNames

theorem law : ServesCache seekLib serves :=
  serves_cache 5 id StaticMainEx.env id (fun _ => List.Perm.refl _) StaticMainEx.view StaticMainEx.msg seekLib id (fun c _ => 2 * c)
    exStaticOps exStaticLater 2 [] 3 (.fileFS b!"static" b!"/files") MountEx.calls _ MountEx.mountedCalls

def now : FileVersion := ⟨b!"new", exTime⟩
/-- A version from ten seconds before. -/
def backup : FileVersion := ⟨b!"old", exTime - 10 * 10 ^ 9⟩
/-- A file of a file system without times. -/
def embedded : FileVersion := ⟨b!"emb", 0⟩

theorem knownBackup : KnownTime backup.time := by unfold KnownTime; decide
theorem unknown : ¬ KnownTime embedded.time := fun h => h.1 rfl

theorem got : Cached serves [now] (.kept (seekLib.format exTime) b!"new") := by
  obtain ⟨w, hw⟩ := answer now (by decide) .nothing (.inl rfl)
  obtain ⟨h1, h2, h3⟩ := law.plain now _ w .nothing (.inl rfl) (asks _) hw
  have := Cached.ask .start (asks _) hw (.replace h1)
  rw [h3, h2] at this
  rw [show FileVersion.told seekLib now = seekLib.format exTime from if_pos exKnown] at this
  exact this

/-- The hypotheses of the theorems hold: a file that goes from unknown to known times, and stays. -/
example : [embedded, now, now].Pairwise FileVersion.Before ∧
    ∃ c, Cached serves [embedded, now] c ∧ ∃ w c', serves now (ask c) w ∧ w.status = 304 ∧ c.Takes w c' ∧ c' = .kept (seekLib.format exTime) b!"new" := by
  refine ⟨?_, .kept (seekLib.format exTime) b!"new", ?_, ?_⟩
  · have hb : ∀ x, FileVersion.Before embedded x := fun x h => absurd h unknown
    have hn : FileVersion.Before now now := fun _ _ => .inl rfl
    simp [hb, hn]
  · obtain ⟨w0, hw0⟩ := answer embedded (by decide) .nothing (.inl rfl)
    obtain ⟨g1, g2, g3⟩ := law.plain embedded _ w0 .nothing (.inl rfl) (asks _) hw0
    have hc := Cached.ask .start (asks _) hw0 (.replace g1)
    rw [g3, g2, show FileVersion.told seekLib embedded = [] from if_neg unknown] at hc
    obtain ⟨w, hw⟩ := answer now (by decide) (.kept [] embedded.data) (.inl rfl)
    obtain ⟨h1, h2, h3⟩ := law.plain now _ w _ (.inl rfl) (asks (.kept [] embedded.data)) hw
    have := Cached.ask hc (asks _) hw (.replace h1)
    rw [h3, h2] at this
    rw [show FileVersion.told seekLib now = seekLib.format exTime from if_pos exKnown] at this
    exact this
  · obtain ⟨w, hw⟩ := answer now (by decide) (.kept (seekLib.format exTime) b!"new") (.inr (.inr ⟨exKnown, exTime, exDate, rfl⟩))
    obtain ⟨h1, -, -⟩ := law.still now _ w _ exTime exKnown exDate rfl (asks (.kept (seekLib.format exTime) b!"new")) hw (Int.le_refl _)
    exact ⟨w, _, hw, h1, .keep h1, rfl⟩

end CacheEx

open CacheEx in
/-- **C127** (the proviso is needed).  If the file is replaced by an older one, as when a backup is put back with its time, a cache keeps what it has, however often it asks. -/
theorem C127_backup (n : Nat) : Cached serves (now :: List.replicate n backup) (.kept (seekLib.format exTime) b!"new") := by
  induction n with
  | zero => exact got
  | succ n ih =>
    obtain ⟨w, hw⟩ := answer backup (by decide) (.kept (seekLib.format exTime) b!"new") (.inr (.inr ⟨knownBackup, exTime, exDate, rfl⟩))
    obtain ⟨h1, -, -⟩ := law.still backup _ w _ exTime knownBackup exDate rfl (asks (.kept (seekLib.format exTime) b!"new")) hw (by decide)
    have := Cached.ask ih (asks _) hw (.keep h1)
    rw [List.replicate_succ']
    exact this

end Verif
