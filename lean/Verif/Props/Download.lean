import Verif.Spec.Download
import Verif.Props.Mount
/-
C126: downloads that are interrupted any number of times, while the file changes.
-/
namespace Verif
open Spec
set_option linter.unusedSectionVars false

/-! ### Any server with these answers -/

/-- The answers that matter. -/
structure ServesParts (lib : Lib) (serves : FileVersion → HttpReq → HttpResp → Prop) : Prop where
  plain : ∀ v r w, KnownTime v.time → Copy.nothing.Asks r → serves v r w →
    w.status = 200 ∧ w.body = v.data ∧ w.peek b!"Last-Modified" = lib.format v.time
  same : ∀ v r w t got, KnownTime v.time → DateLaw lib t → (Copy.part (lib.format t) got).Asks r → serves v r w →
    v.time / 10 ^ 9 = t / 10 ^ 9 → got.length < v.data.length → w.status = 206 ∧ w.body = v.data.drop got.length
  other : ∀ v r w t got, KnownTime v.time → DateLaw lib t → (Copy.part (lib.format t) got).Asks r → serves v r w →
    v.time / 10 ^ 9 ≠ t / 10 ^ 9 → w.status = 200 ∧ w.body = v.data ∧ w.peek b!"Last-Modified" = lib.format v.time

/-- The copy is of one of the versions. -/
def OfOne (lib : Lib) (vs : List FileVersion) : Copy → Prop
  | .nothing => True
  | .part date got => ∃ v ∈ vs, date = lib.format v.time ∧ got <+: v.data ∧ got ≠ [] ∧ got.length < v.data.length
  | .whole got => ∃ v ∈ vs, got = v.data

theorem ofOne_whole {lib : Lib} {vs : List FileVersion} {v : FileVersion} {w : HttpResp} {p : Str} (c : Copy)
    (h : w.status = 200 ∧ w.body = v.data ∧ w.peek b!"Last-Modified" = lib.format v.time) (hp : p <+: w.body) :
    OfOne lib (vs ++ [v]) (c.takes w p) := by
  obtain ⟨h1, h2, h3⟩ := h
  unfold Copy.takes
  rw [if_neg (by rw [h1]; decide), if_pos h1]
  have hv : v ∈ vs ++ [v] := by simp
  split
  · next e => exact ⟨v, hv, by rw [e, h2]⟩
  · next e =>
    split
    · exact True.intro
    · next e' =>
      refine ⟨v, hv, h3, h2 ▸ hp, e', ?_⟩
      rcases Nat.lt_or_ge p.length v.data.length with h | h
      · exact h
      · exact absurd (hp.eq_of_length (Nat.le_antisymm hp.length_le (by rw [h2]; exact h))) e

theorem download_one (lib : Lib) (serves : FileVersion → HttpReq → HttpResp → Prop) (hs : ServesParts lib serves)
    (vs : List FileVersion) (c : Copy) (h : Download serves vs c)
    (hk : ∀ v ∈ vs, KnownTime v.time ∧ DateLaw lib v.time)
    (hsame : ∀ v ∈ vs, ∀ v' ∈ vs, v.time / 10 ^ 9 = v'.time / 10 ^ 9 → v.data = v'.data) : OfOne lib vs c := by
  induction h with
  | start => exact True.intro
  | @ask vs c v r w p hd ha hw hp ih =>
    have ih := ih (fun x hx => hk x (by simp [hx])) fun x hx y hy => hsame x (by simp [hx]) y (by simp [hy])
    obtain ⟨k1, k2⟩ := hk v (by simp)
    cases c with
    | nothing => exact ofOne_whole _ (hs.plain v r w k1 ha hw) hp
    | whole got => exact absurd ha id
    | part date got =>
      obtain ⟨v0, hv0, rfl, g1, g2, g3⟩ := ih
      have hd0 := (hk v0 (by simp [hv0])).2
      by_cases ht : v.time / 10 ^ 9 = v0.time / 10 ^ 9
      · have hdata : v.data = v0.data := hsame v (by simp) v0 (by simp [hv0]) ht
        obtain ⟨s1, s2⟩ := hs.same v r w v0.time got k1 hd0 ha hw ht (by rw [hdata]; exact g3)
        obtain ⟨rest, hrest⟩ := g1
        have hdrop : v.data.drop got.length = rest := by rw [hdata, ← hrest, List.drop_left]
        rw [hdrop] at s2
        unfold Copy.takes
        rw [if_pos s1]
        dsimp only
        split
        · next e => exact ⟨v0, by simp [hv0], by rw [e, s2, hrest]⟩
        · next e =>
          rw [s2] at hp e
          refine ⟨v0, by simp [hv0], rfl, ?_, by simp [g2], ?_⟩
          · rw [← hrest]; exact (List.prefix_append_right_inj got).2 hp
          · rw [← hrest, List.length_append, List.length_append]
            have hle := hp.length_le
            have : p.length ≠ rest.length := fun h => e (hp.eq_of_length h)
            omega
      · exact ofOne_whole _ (hs.other v r w v0.time got k1 hd0 ha hw ht) hp

/-! ### A static route of a server -/

section
variable {η υ : Type} [Inhabited η] (level : Int) (u : Str → Str) (env : Env υ)
  (visit : GoMap RxPtr (Option Nat) → List (RxPtr × Option Nat)) (hv : AnyOrder visit)
  (V : ReqView υ) (msg : ServeErr → Str) (lib : Lib) (href : Str → Str) (grow : Nat → Nat → Nat)
  (ops later : List (Op η RxPtr)) (addr : Nat) (fixed : Str) (h : η) (route : StaticRoute)
  (calls : List (Op η RxPtr)) (name : List Str)

/-- The server, whose static route finds the file in the version `v`, answers the request with `w`; nothing was written before. -/
def servesVersion (v : FileVersion) (r : HttpReq) (w : HttpResp) : Prop :=
  ∃ (I : Handlers3 η υ) (a : Arrival υ) (fSys : RawFS) (base : Str), I.main h = some (route.main V msg lib href fSys) ∧ a.Reads V r ∧
    route.Reached fixed (ops ++ later) a.req ∧ route.Names r.path name ∧ HasFile fSys name base v.data v.time ∧
    NoEncoding a.resp.http ∧ a.resp.body = [] ∧ GetsAnswer (served level u env visit grow I (ops ++ calls ++ later) a) w

include hv in
theorem serves_parts (hcalls : route.mount addr (progState grow ops).setVars.length fixed h = some calls) :
    ServesParts lib (servesVersion level u env visit V msg lib href grow ops later fixed h route calls name) := by
  refine ⟨?_, ?_, ?_⟩
  · rintro v r w hk ⟨hm, hu, hr, hir⟩ ⟨I, a, fSys, base, hI, hr', hfree, hn, hf, hw, hb, hgot⟩
    obtain ⟨s, hs, h2, -⟩ := mounted level u env visit hv V msg lib href grow ops later addr fixed h route I a r hr' fSys hI hfree
      calls hcalls name hn base v.data v.time hf
    obtain ⟨e1, e2⟩ := answered level u env visit msg grow h2 hgot
    have hpre := (uncond_pre lib r (setLastModified lib.toTimeLib a.resp.http v.time) v.time hu).2 (fun h => h.2.1 hir)
    rw [hr] at hpre
    obtain ⟨s', hs', hA⟩ := whole_answer lib href fSys r a.resp.http route name hn base v.data v.time hf hw hpre
    rw [hs] at hs'
    cases hs'
    have hd := answer_date lib href fSys r a.resp.http route name hn base v.data v.time hf hk s hs e2 (by rw [hA.2.1]; decide)
    rw [e1] at hd
    obtain ⟨-, a1, -, a2⟩ := hA
    rw [e1] at a1 a2
    refine ⟨a1, ?_, hd⟩
    rw [a2, if_neg (by rw [hm]; decide)]
    show a.resp.body ++ _ = _
    rw [hb]; rfl
  · rintro v r w t got hk hdate ⟨hm, hu, hir, x, hx, hx', hr⟩ ⟨I, a, fSys, base, hI, hr', hfree, hn, hf, hw, hb, hgot⟩ ht hl
    obtain ⟨s, hs, h2, -⟩ := mounted level u env visit hv V msg lib href grow ops later addr fixed h route I a r hr' fSys hI hfree
      calls hcalls name hn base v.data v.time hf
    obtain ⟨e1, e2⟩ := answered level u env visit msg grow h2 hgot
    obtain ⟨s', hs', hA, -⟩ := resume_date lib href route name t hdate fSys r a.resp.http hn base v.data v.time hf hk hw hu got.length x hx hx' hr hir
    rw [hs] at hs'
    cases hs'
    obtain ⟨hP, hrest⟩ := hA ht hl
    obtain ⟨rest, b1, b2⟩ := hrest hm
    obtain ⟨-, a1, -⟩ := hP
    rw [e1] at a1 b1
    refine ⟨a1, ?_⟩
    rw [b1]
    show a.resp.body ++ rest = _
    rw [hb, List.nil_append]
    have : (v.data.take got.length).length = got.length := by rw [List.length_take]; omega
    rw [← b2, List.drop_append, this, Nat.sub_self]
    rw [List.drop_eq_nil_of_le (by omega)]
    rfl
  · rintro v r w t got hk hdate ⟨hm, hu, hir, x, hx, hx', hr⟩ ⟨I, a, fSys, base, hI, hr', hfree, hn, hf, hw, hb, hgot⟩ ht
    obtain ⟨s, hs, h2, -⟩ := mounted level u env visit hv V msg lib href grow ops later addr fixed h route I a r hr' fSys hI hfree
      calls hcalls name hn base v.data v.time hf
    obtain ⟨e1, e2⟩ := answered level u env visit msg grow h2 hgot
    obtain ⟨s', hs', -, hA⟩ := resume_date lib href route name t hdate fSys r a.resp.http hn base v.data v.time hf hk hw hu got.length x hx hx' hr hir
    rw [hs] at hs'
    cases hs'
    have hA := hA ht
    have hd := answer_date lib href fSys r a.resp.http route name hn base v.data v.time hf hk s hs e2 (by rw [hA.2.1]; decide)
    rw [e1] at hd
    obtain ⟨-, a1, -, a2⟩ := hA
    rw [e1] at a1 a2
    refine ⟨a1, ?_, hd⟩
    rw [a2, if_neg (by rw [hm]; decide)]
    show a.resp.body ++ _ = _
    rw [hb]; rfl

include hv in
/-- **C126** (one version).  A client downloads a file from a static route of a server, whatever else the program registers; it is
interrupted any number of times, after any number of bytes, and each time asks for the rest, If-Range the date it was told first; the file may
change between the requests. If no two versions of the file are from the same second, then at every moment what the client has is the beginning of one version, and
when an answer arrives completely it has one version of the file, whole: versions are never mixed. -/
theorem C126_one_version (hcalls : route.mount addr (progState grow ops).setVars.length fixed h = some calls)
    (vs : List FileVersion) (hk : ∀ v ∈ vs, KnownTime v.time ∧ DateLaw lib v.time)
    (hsame : ∀ v ∈ vs, ∀ v' ∈ vs, v.time / 10 ^ 9 = v'.time / 10 ^ 9 → v.data = v'.data) :
    (∀ date got, Download (servesVersion level u env visit V msg lib href grow ops later fixed h route calls name) vs (.part date got) →
      ∃ v ∈ vs, date = lib.format v.time ∧ got <+: v.data ∧ got ≠ [] ∧ got.length < v.data.length) ∧
    (∀ got, Download (servesVersion level u env visit V msg lib href grow ops later fixed h route calls name) vs (.whole got) → ∃ v ∈ vs, got = v.data) := by
  have hs := serves_parts level u env visit hv V msg lib href grow ops later addr fixed h route calls name hcalls
  exact ⟨fun date got hd => download_one lib _ hs vs _ hd hk hsame, fun got hd => download_one lib _ hs vs _ hd hk hsame⟩

include hv in
/-- **C126** (nothing twice).  If the client goes on while the file is still from the second of what it has, it is sent exactly the bytes it
does not have; if it is from another second, it is sent the file as it is now. -/
theorem C126_rest (hcalls : route.mount addr (progState grow ops).setVars.length fixed h = some calls)
    (vs : List FileVersion) (v : FileVersion) (hk : ∀ v' ∈ vs ++ [v], KnownTime v'.time ∧ DateLaw lib v'.time)
    (hsame : ∀ v1 ∈ vs ++ [v], ∀ v2 ∈ vs ++ [v], v1.time / 10 ^ 9 = v2.time / 10 ^ 9 → v1.data = v2.data) (date got : Str)
    (hd : Download (servesVersion level u env visit V msg lib href grow ops later fixed h route calls name) vs (.part date got))
    (r : HttpReq) (hr : (Copy.part date got).Asks r) (w : HttpResp)
    (hw : servesVersion level u env visit V msg lib href grow ops later fixed h route calls name v r w) :
    ∃ v0 ∈ vs, date = lib.format v0.time ∧ (v.time / 10 ^ 9 = v0.time / 10 ^ 9 → w.status = 206 ∧ got ++ w.body = v.data) ∧
      (v.time / 10 ^ 9 ≠ v0.time / 10 ^ 9 → w.status = 200 ∧ w.body = v.data) := by
  have hs := serves_parts level u env visit hv V msg lib href grow ops later addr fixed h route calls name hcalls
  obtain ⟨v0, hv0, rfl, g1, g2, g3⟩ := (C126_one_version level u env visit hv V msg lib href grow ops later addr fixed h route calls name hcalls vs
    (fun x hx => hk x (by simp [hx])) fun x hx y hy => hsame x (by simp [hx]) y (by simp [hy])).1 date got hd
  obtain ⟨k1, -⟩ := hk v (by simp)
  have hd0 := (hk v0 (by simp [hv0])).2
  refine ⟨v0, hv0, rfl, fun ht => ?_, fun ht => ?_⟩
  · have hdata : v.data = v0.data := hsame v (by simp) v0 (by simp [hv0]) ht
    obtain ⟨s1, s2⟩ := hs.same v r w v0.time got k1 hd0 hr hw ht (by rw [hdata]; exact g3)
    refine ⟨s1, ?_⟩
    obtain ⟨rest, hrest⟩ := g1
    rw [s2, hdata, ← hrest, List.drop_left]
  · obtain ⟨s1, s2, -⟩ := hs.other v r w v0.time got k1 hd0 hr hw ht
    exact ⟨s1, s2⟩

include hv in
/-- **C126** (it ends).  The next answer that arrives without interruption completes the download, whatever happened before and whatever the
file is then. -/
theorem C126_completes (hcalls : route.mount addr (progState grow ops).setVars.length fixed h = some calls)
    (vs : List FileVersion) (v : FileVersion) (hk : ∀ v' ∈ vs ++ [v], KnownTime v'.time ∧ DateLaw lib v'.time)
    (hsame : ∀ v1 ∈ vs ++ [v], ∀ v2 ∈ vs ++ [v], v1.time / 10 ^ 9 = v2.time / 10 ^ 9 → v1.data = v2.data) (c : Copy)
    (hd : Download (servesVersion level u env visit V msg lib href grow ops later fixed h route calls name) vs c)
    (r : HttpReq) (hr : c.Asks r) (w : HttpResp)
    (hw : servesVersion level u env visit V msg lib href grow ops later fixed h route calls name v r w) :
    c.takes w w.body = .whole v.data := by
  have hs := serves_parts level u env visit hv V msg lib href grow ops later addr fixed h route calls name hcalls
  have h200 : w.status = 200 → w.body = v.data → c.takes w w.body = .whole v.data := by
    intro h1 h2
    unfold Copy.takes
    rw [if_neg (by rw [h1]; decide), if_pos h1, if_pos rfl, h2]
  cases c with
  | nothing => obtain ⟨h1, h2, -⟩ := hs.plain v r w (hk v (by simp)).1 hr hw; exact h200 h1 h2
  | whole got => exact absurd hr id
  | part date got =>
    obtain ⟨v0, -, -, h1, h2⟩ := C126_rest level u env visit hv V msg lib href grow ops later addr fixed h route calls name hcalls vs v hk hsame date got hd r hr w hw
    by_cases ht : v.time / 10 ^ 9 = v0.time / 10 ^ 9
    · obtain ⟨g1, g2⟩ := h1 ht
      unfold Copy.takes
      rw [if_pos g1]
      dsimp only
      rw [if_pos rfl, g2]
    · exact h200 (h2 ht).1 (h2 ht).2

include hv in
/-- There is an answer. -/
theorem serves_exists (hcalls : route.mount addr (progState grow ops).setVars.length fixed h = some calls)
    (I : Handlers3 η υ) (a : Arrival υ) (fSys : RawFS) (base : Str) (v : FileVersion) (r : HttpReq)
    (hI : I.main h = some (route.main V msg lib href fSys)) (hr : a.Reads V r)
    (hfree : route.Reached fixed (ops ++ later) a.req) (hn : route.Names r.path name) (hf : HasFile fSys name base v.data v.time)
    (hw : NoEncoding a.resp.http) (hb : a.resp.body = []) (hu : a.ba.use = false) (hk : KnownTime v.time)
    (hask : Copy.nothing.Asks r ∨ ∃ t got, DateLaw lib t ∧ (Copy.part (lib.format t) got).Asks r ∧
      (v.time / 10 ^ 9 = t / 10 ^ 9 → got.length < v.data.length)) :
    ∃ w, servesVersion level u env visit V msg lib href grow ops later fixed h route calls name v r w := by
  obtain ⟨s, hs, h2, h3⟩ := mounted level u env visit hv V msg lib href grow ops later addr fixed h route I a r hr fSys hI hfree
    calls hcalls name hn base v.data v.time hf
  have he : s.err = none := by
    rcases hask with ⟨-, hc, hrange, hir⟩ | ⟨t, got, hdate, ⟨-, hc, hir, x, hx, hx', hrange⟩, hl⟩
    · have hpre := (uncond_pre lib r (setLastModified lib.toTimeLib a.resp.http v.time) v.time hc).2 (fun h => h.2.1 hir)
      rw [hrange] at hpre
      obtain ⟨s', hs', hA⟩ := whole_answer lib href fSys r a.resp.http route name hn base v.data v.time hf hw hpre
      rw [hs] at hs'
      cases hs'
      exact hA.1
    · obtain ⟨s', hs', hA, hB⟩ := resume_date lib href route name t hdate fSys r a.resp.http hn base v.data v.time hf hk hw hc got.length x hx hx' hrange hir
      rw [hs] at hs'
      cases hs'
      by_cases ht : v.time / 10 ^ 9 = t / 10 ^ 9
      · exact (hA ht (hl ht)).1.1
      · exact (hB ht).1
  obtain ⟨sv, d, i1, i2⟩ := h3 hu
  obtain ⟨g1, g2⟩ := h2 sv d i1 i2
  exact ⟨s.resp, I, a, fSys, base, hI, hr, hfree, hn, hf, hw, hb, sv, d, i1, i2, by rw [g2, (staticErr_none msg).2 he], g1⟩

end

/-! ### Two versions -/

namespace DownloadEx

/-- The file server of MountEx with this file. -/
def fsOf (v : FileVersion) : RawFS where
  opens n := if n = b!"static/a.txt" then
      .ok ⟨.ok ⟨b!"a.txt", v.data.length, false, v.time⟩, ⟨v.data, true⟩, ⟨[], false⟩, .error .notExist⟩
    else .error .notExist
  stats _ := .error .notExist

def handlers (v : FileVersion) : Handlers3 Nat HttpReq where
  hdl := fun _ => none
  main := fun k => if k = 3 then some (StaticRoute.main StaticMainEx.view StaticMainEx.msg seekLib id (fsOf v) (.fileFS b!"static" b!"/files"))
    else none
  last := fun _ => none

abbrev serves : FileVersion → HttpReq → HttpResp → Prop :=
  servesVersion 5 id StaticMainEx.env id StaticMainEx.view StaticMainEx.msg seekLib id (fun c _ => 2 * c) exStaticOps exStaticLater [] 3
    (.fileFS b!"static" b!"/files") MountEx.calls [b!"static", b!"a.txt"]

theorem has (v : FileVersion) (h : v.data.length < 2 ^ 63) : HasFile (fsOf v) [b!"static", b!"a.txt"] b!"a.txt" v.data v.time := ⟨h, _, rfl, rfl, rfl⟩

theorem answer (v : FileVersion) (h : v.data.length < 2 ^ 63) (hk : KnownTime v.time) (r : HttpReq) (hr : r = ⟨b!"GET", b!"/files/a.txt", [], r.header⟩)
    (hask : Copy.nothing.Asks r ∨ ∃ t got, DateLaw seekLib t ∧ (Copy.part (seekLib.format t) got).Asks r ∧
      (v.time / 10 ^ 9 = t / 10 ^ 9 → got.length < v.data.length)) : ∃ w, serves v r w := by
  refine serves_exists 5 id StaticMainEx.env id (fun _ => List.Perm.refl _) StaticMainEx.view StaticMainEx.msg seekLib id (fun c _ => 2 * c)
    exStaticOps exStaticLater 2 [] 3 (.fileFS b!"static" b!"/files") MountEx.calls _ MountEx.mountedCalls (handlers v) (MountEx.arrival r) (fsOf v) b!"a.txt" v r
    rfl ⟨fun _ => rfl, rfl, rfl⟩ ?_ ?_ (has v h) ⟨by show HttpResp.peek _ _ = _; rfl, by show HttpResp.peek _ _ = _; rfl⟩ rfl rfl hk hask
  · rw [hr]; exact MountEx.reached
  · rw [hr]; exact exNames

def first : HttpReq := seekReq [] []
def second : HttpReq := MountEx.again b!"Mon, 02 Jan 2006 15:04:05 GMT"

def old : FileVersion := ⟨b!"0123456789", exTime⟩
/-- Another content, within the same second. -/
def new_ : FileVersion := ⟨b!"abcdefghij", exTime + 1⟩

theorem asks1 : Copy.nothing.Asks first := ⟨rfl, ⟨.inl rfl, rfl, rfl, rfl, rfl⟩, rfl, rfl⟩
theorem asks2 : (Copy.part (seekLib.format exTime) b!"0123").Asks second :=
  ⟨rfl, ⟨.inl rfl, rfl, rfl, rfl, rfl⟩, rfl, b!"4", by unfold Digits; decide, by decide, rfl⟩

theorem parts : ServesParts seekLib serves :=
  serves_parts 5 id StaticMainEx.env id (fun _ => List.Perm.refl _) StaticMainEx.view StaticMainEx.msg seekLib id (fun c _ => 2 * c)
    exStaticOps exStaticLater 2 [] 3 (.fileFS b!"static" b!"/files") MountEx.calls _ MountEx.mountedCalls

theorem known2 : KnownTime new_.time := by unfold KnownTime; decide

/-- Four bytes of the first version have arrived. -/
theorem begun : Download serves [old] (.part (seekLib.format exTime) b!"0123") := by
  obtain ⟨w, hw⟩ := answer old (by decide) exKnown first rfl (.inl asks1)
  obtain ⟨h1, h2, h3⟩ := parts.plain old first w exKnown asks1 hw
  have := Download.ask (p := b!"0123") .start asks1 hw (by rw [h2]; exact ⟨b!"456789", rfl⟩)
  unfold Copy.takes at this
  rw [if_neg (by rw [h1]; decide), if_pos h1, if_neg (by rw [h2]; decide), if_neg (by decide), h3] at this
  exact this

/-- The hypotheses of the theorems hold: going on while the file stays completes it. -/
example : Download serves [old, old] (.whole b!"0123456789") ∧ ∃ w, serves old second w ∧ w.status = 206 ∧ w.body = b!"456789" := by
  obtain ⟨w, hw⟩ := answer old (by decide) exKnown second rfl (.inr ⟨exTime, b!"0123", exDate, asks2, fun _ => by decide⟩)
  have hl : ∀ v' ∈ [old] ++ [old], KnownTime v'.time ∧ DateLaw seekLib v'.time := by
    intro v hv
    simp only [List.mem_append, List.mem_singleton, or_self] at hv
    subst hv
    exact ⟨exKnown, exDate⟩
  have hs : ∀ v1 ∈ [old] ++ [old], ∀ v2 ∈ [old] ++ [old], v1.time / 10 ^ 9 = v2.time / 10 ^ 9 → v1.data = v2.data := by
    intro v1 h1 v2 h2 _
    simp only [List.mem_append, List.mem_singleton, or_self] at h1 h2
    rw [h1, h2]
  have := C126_completes 5 id StaticMainEx.env id (fun _ => List.Perm.refl _) StaticMainEx.view StaticMainEx.msg seekLib id (fun c _ => 2 * c)
    exStaticOps exStaticLater 2 [] 3 (.fileFS b!"static" b!"/files") MountEx.calls _ MountEx.mountedCalls [old] old hl hs _ begun second asks2 w hw
  have hd := Download.ask (p := w.body) begun asks2 hw (List.prefix_refl _)
  rw [this] at hd
  obtain ⟨h1, h2⟩ := parts.same old second w exTime b!"0123" exKnown exDate asks2 hw rfl (by decide)
  exact ⟨hd, w, hw, h1, h2⟩

end DownloadEx

open DownloadEx in
/-- **C126** (the proviso is needed).  If the file changes within a second, the client ends with a mixture: nothing tells it. -/
theorem C126_same_second : Download serves [old, new_] (.whole b!"0123efghij") := by
  obtain ⟨w, hw⟩ := answer new_ (by decide) known2 second rfl (.inr ⟨exTime, b!"0123", exDate, asks2, fun _ => by decide⟩)
  obtain ⟨h1, h2⟩ := parts.same new_ second w exTime b!"0123" known2 exDate asks2 hw (by decide) (by decide)
  have := Download.ask (p := w.body) begun asks2 hw (List.prefix_refl _)
  unfold Copy.takes at this
  rw [if_pos h1] at this
  dsimp only at this
  rw [if_pos rfl, h2] at this
  exact this

end Verif
