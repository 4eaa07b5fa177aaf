import Verif.Spec.Segments
import Verif.Props.Download
/-
C129: downloads in pieces, in any order, while the file changes.
-/
namespace Verif
open Spec
set_option linter.unusedSectionVars false

/-! ### Any server with these answers -/

/-- The answers that matter. -/
structure ServesSegments (lib : Lib) (serves : FileVersion → HttpReq → HttpResp → Prop) : Prop where
  size : ∀ v r w, KnownTime v.time → AsksSize r → serves v r w →
    w.status = 200 ∧ Number v.data.length (w.peek b!"Content-Length") ∧ w.peek b!"Last-Modified" = lib.format v.time
  same : ∀ v r w t a b, KnownTime v.time → DateLaw lib t → AsksPiece (lib.format t) a b r → serves v r w → a ≤ b →
    v.time / 10 ^ 9 = t / 10 ^ 9 → b < v.data.length → w.status = 206 ∧ w.body = slice v.data a (b + 1)
  other : ∀ v r w t a b, KnownTime v.time → DateLaw lib t → AsksPiece (lib.format t) a b r → serves v r w → a ≤ b →
    v.time / 10 ^ 9 ≠ t / 10 ^ 9 → w.status = 200 ∧ w.body = v.data

/-- What the client has is of one of the versions. -/
def PiecesOf (lib : Lib) (vs : List FileVersion) : Pieces → Prop
  | .nothing => True
  | .some date n at_ => ∃ v ∈ vs, date = lib.format v.time ∧ n = v.data.length ∧ ∀ i c, at_ i = some c → v.data[i]? = some c
  | .whole got => ∃ v ∈ vs, got = v.data

theorem piecesOf_mono {lib : Lib} {vs : List FileVersion} {c : Pieces} (v : FileVersion) (h : PiecesOf lib vs c) : PiecesOf lib (vs ++ [v]) c := by
  cases c with
  | nothing => exact True.intro
  | some date n at_ => obtain ⟨v0, h0, h1⟩ := h; exact ⟨v0, by simp [h0], h1⟩
  | whole got => obtain ⟨v0, h0, h1⟩ := h; exact ⟨v0, by simp [h0], h1⟩

theorem slice_get (data : Str) (a b i : Nat) (h : i < b - a) : (slice data a b)[i]? = data[a + i]? := by
  unfold slice
  rw [List.getElem?_drop, List.getElem?_take, if_pos (by omega)]

/-- A piece of the data at its place agrees with the data. -/
theorem put_slice {data : Str} {a b : Nat} {p : Str} (hb : b ≤ data.length) (hp : p <+: slice data a b) (i : Nat) (h : a ≤ i ∧ i < a + p.length) :
    p[i - a]? = data[i]? := by
  obtain ⟨q, hq⟩ := hp
  have hl : (slice data a b).length = b - a := by
    unfold slice
    rw [List.length_drop, List.length_take]
    omega
  have hpl : p.length ≤ b - a := by
    rw [← hl, ← hq, List.length_append]; omega
  have h1 : (slice data a b)[i - a]? = p[i - a]? := by rw [← hq, List.getElem?_append_left (by omega)]
  rw [← h1, slice_get data a b (i - a) (by omega)]
  congr 1
  omega

theorem segmented_one (lib : Lib) (serves : FileVersion → HttpReq → HttpResp → Prop) (hs : ServesSegments lib serves)
    (vs : List FileVersion) (c : Pieces) (h : Segmented serves vs c)
    (hk : ∀ v ∈ vs, KnownTime v.time ∧ DateLaw lib v.time)
    (hsame : ∀ v ∈ vs, ∀ v' ∈ vs, v.time / 10 ^ 9 = v'.time / 10 ^ 9 → v.data = v'.data) : PiecesOf lib vs c := by
  induction h with
  | start => exact True.intro
  | @size vs c v r w n hd ha hw h200 hn _ =>
    obtain ⟨k1, -⟩ := hk v (by simp)
    obtain ⟨-, g2, g3⟩ := hs.size v r w k1 ha hw
    exact ⟨v, by simp, g3, hn.2.1.symm.trans g2.2.1, by simp⟩
  | @piece vs date n a b at_ v r w p hd hab hbn ha hw hp ih =>
    have ih := ih (fun x hx => hk x (by simp [hx])) fun x hx y hy => hsame x (by simp [hx]) y (by simp [hy])
    obtain ⟨k1, k2⟩ := hk v (by simp)
    obtain ⟨v0, hv0, rfl, rfl, g⟩ := ih
    have hd0 := (hk v0 (by simp [hv0])).2
    unfold takesPiece
    by_cases ht : v.time / 10 ^ 9 = v0.time / 10 ^ 9
    · have hdata : v.data = v0.data := hsame v (by simp) v0 (by simp [hv0]) ht
      obtain ⟨s1, s2⟩ := hs.same v r w v0.time a b k1 hd0 ha hw hab ht (by rw [hdata]; exact hbn)
      rw [if_pos s1]
      refine ⟨v0, by simp [hv0], rfl, rfl, fun i c hc => ?_⟩
      unfold putAt at hc
      rw [s2, hdata] at hp
      by_cases hi : a ≤ i ∧ i < a + p.length
      · rw [if_pos hi, put_slice (by omega) hp i hi] at hc
        exact hc
      · rw [if_neg hi] at hc
        exact g i c hc
    · obtain ⟨s1, s2⟩ := hs.other v r w v0.time a b k1 hd0 ha hw hab ht
      rw [if_neg (by rw [s1]; decide), if_pos s1]
      by_cases e : p = w.body
      · rw [if_pos e]; exact ⟨v, by simp, by rw [e, s2]⟩
      · rw [if_neg e]; exact True.intro
  | @finish vs date n at_ got hd hl hg ih =>
    obtain ⟨v0, hv0, rfl, rfl, g⟩ := ih hk hsame
    refine ⟨v0, hv0, List.ext_getElem? fun i => ?_⟩
    by_cases hi : i < v0.data.length
    · have h1 := hg i hi
      have h2 : got[i]? = some got[i] := List.getElem?_eq_getElem (by omega)
      rw [h2] at h1
      rw [h2, g i _ h1]
    · rw [List.getElem?_eq_none (by omega), List.getElem?_eq_none (by omega)]

/-! ### A static route of a server -/

theorem digits_plain {x : Str} (hx : Digits x) : (45 : UInt8) ∉ x ∧ (44 : UInt8) ∉ x ∧ ∀ c ∈ x, ¬ Space c := by
  refine ⟨fun h => ?_, fun h => ?_, ?_⟩
  · have := hx.2 _ h; revert this; decide
  · have := hx.2 _ h; revert this; decide
  · intro c hc hspace
    have := hx.2 c hc
    unfold Space at hspace
    revert hspace this
    revert c
    intro c _
    exact u8_all (P := fun c => 48 ≤ c ∧ c ≤ 57 → c ∈ b!"\t\n\r " → False) (by decide +kernel) c |> fun h a b => h b a

/-- The answer to a range, If-Range the date of `t`. -/
theorem piece_date (lib : Lib) (href : Str → Str) (route : StaticRoute) (name : List Str) (t : Int) (hdate : DateLaw lib t)
    (fSys : RawFS) (r : HttpReq) (w : HttpResp) (hn : route.Names r.path name) (base data : Str) (t' : Int)
    (hf : HasFile fSys name base data t') (ht' : KnownTime t') (hw : NoEncoding w) (a b : Nat) (hab : a ≤ b) (ha : AsksPiece (lib.format t) a b r) :
    ∃ s, (route.run lib href fSys r w).result = .ret s ∧
      (t' / 10 ^ 9 = t / 10 ^ 9 → b < data.length → s.err = none ∧ s.resp.status = 206 ∧ s.resp.body = w.body ++ slice data a (b + 1)) ∧
      (t' / 10 ^ 9 ≠ t / 10 ^ 9 → WholeAnswer r w data s) := by
  obtain ⟨hm, hu, hir, x, y, hx, hy, hxa, hyb, hrange⟩ := ha
  obtain ⟨s', hs', -, hsc'⟩ := C105_content lib href fSys r w route name hn base data t' hf
  refine ⟨s', hs', ?_⟩
  obtain ⟨d1, d2, d3⟩ := hdate
  obtain ⟨q1, q2⟩ := uncond_pre lib r (setLastModified lib.toTimeLib w t') t' hu
  constructor
  · intro heq hlt
    have hpre := q2 (by
      rintro ⟨-, -, -, h⟩
      apply h
      refine ⟨?_, ht'.2, t / 10 ^ 9 * 10 ^ 9, ?_, ?_⟩
      · intro e
        show ¬ Question.StartsWithTag (r.header _) e
        rw [hir]; exact d3 e
      · show lib.parse (r.header _) = _; rw [hir]; exact d2
      · show _ = t' / 10 ^ 9
        omega)
    have hlen := hf.1
    obtain ⟨x1, x2, x3⟩ := digits_plain hx
    obtain ⟨y1, y2, y3⟩ := digits_plain hy
    have h44 : (44 : UInt8) ∉ x ++ b!"-" ++ y := by
      intro h
      simp only [List.mem_append] at h
      rcases h with (h | h) | h
      · exact x2 h
      · revert h; decide
      · exact y2 h
    have hparts : Parts (x ++ b!"-" ++ y) x y := by
      refine ⟨x, y, by simp, x1, ⟨[], [], by simp, by simp, by simp, ?_, ?_⟩, ⟨[], [], by simp, by simp, by simp, ?_, ?_⟩⟩
      · exact fun c hc => x3 c (List.mem_of_head? hc)
      · exact fun c hc => x3 c (List.mem_of_getLast? hc)
      · exact fun c hc => y3 c (List.mem_of_head? hc)
      · exact fun c hc => y3 c (List.mem_of_getLast? hc)
    obtain ⟨s'', a', n, k1, k2, k3, k4, k5⟩ := one_of_pre lib href fSys r w route name hn base data t' hf hpre hw
      (x ++ b!"-" ++ y) (.fromTo a b) hrange ⟨x, y, hparts, hx, hy, hxa, hyb⟩ (by show a ≤ b ∧ b < 2 ^ 63; omega) h44 ⟨a, by show a ≤ a ∧ _ ∧ _; omega⟩
    rw [hs'] at k1
    injection k1 with k1
    subst k1
    have h1 := (k4 a).mp (by show a ≤ a ∧ _ ∧ _; omega)
    have h2 : a ≤ a' ∧ a' ≤ b ∧ _ := (k4 a').mpr ⟨by omega, by omega⟩
    have h3 := (k4 b).mp (by show a ≤ b ∧ _ ∧ _; omega)
    have h4 : a ≤ a' + n - 1 ∧ a' + n - 1 ≤ b ∧ _ := (k4 (a' + n - 1)).mpr ⟨by omega, by omega⟩
    have e1 : a' = a := by omega
    have e2 : a + n = b + 1 := by omega
    subst e1
    refine ⟨k5.1, k5.2.1, ?_⟩
    rw [k5.2.2.2.2, if_neg (by rw [hm]; decide), e2]
  · intro hne
    have hpre := q1 ⟨hu.1, by show r.header _ ≠ _; rw [hir]; exact d1, by
      rintro ⟨e, h, -⟩
      have h : Question.StartsWithTag (r.header _) e := h
      rw [hir] at h
      exact d3 e h, by
      rintro ⟨-, -, u, h1, h2⟩
      have h1 : lib.parse (r.header _) = some u := h1
      rw [hir, d2] at h1
      injection h1 with h1
      subst h1
      have h2 : t / 10 ^ 9 * 10 ^ 9 / 10 ^ 9 = t' / 10 ^ 9 := h2
      omega⟩
    obtain ⟨s'', k1, k2⟩ := whole_answer lib href fSys r w route name hn base data t' hf hw hpre
    rw [hs'] at k1
    injection k1 with k1
    subst k1
    exact k2

section
variable {η υ : Type} [Inhabited η] (level : Int) (u : Str → Str) (env : Env υ)
  (visit : GoMap RxPtr (Option Nat) → List (RxPtr × Option Nat)) (hv : AnyOrder visit)
  (V : ReqView υ) (msg : ServeErr → Str) (lib : Lib) (href : Str → Str) (grow : Nat → Nat → Nat)
  (ops later : List (Op η RxPtr)) (addr : Nat) (fixed : Str) (h : η) (route : StaticRoute)
  (calls : List (Op η RxPtr)) (name : List Str)

include hv in
theorem serves_segments (hcalls : route.mount addr (progState grow ops).setVars.length fixed h = some calls) :
    ServesSegments lib (servesVersion level u env visit V msg lib href grow ops later fixed h route calls name) := by
  refine ⟨?_, ?_, ?_⟩
  · rintro v r w hk ⟨hm, hu, hr, hir⟩ ⟨I, a, fSys, base, hI, hr', hfree, hn, hf, hw, hb, hgot⟩
    obtain ⟨s, hs, h2, -⟩ := mounted level u env visit hv V msg lib href grow ops later addr fixed h route I a r hr' fSys hI hfree
      calls hcalls name hn base v.data v.time hf
    obtain ⟨e1, e2⟩ := answered level u env visit msg grow h2 hgot
    have hpre := (uncond_pre lib r (setLastModified lib.toTimeLib a.resp.http v.time) v.time hu).2 (fun h => h.2.1 hir)
    rw [hr] at hpre
    obtain ⟨s', hs', hA⟩ := whole_answer lib href fSys r a.resp.http route name hn base v.data v.time hf hw hpre
    rw [hs] at hs'
    cases hs'
    have hd := answer_date lib href fSys r a.resp.http route name hn base v.data v.time hf hk s hs e2 (by rw [hA.2.1]; decide)
    rw [e1] at hd
    obtain ⟨-, a1, a2, -⟩ := hA
    rw [e1] at a1 a2
    exact ⟨a1, a2, hd⟩
  · rintro v r w t a0 b0 hk hdate hask ⟨I, a, fSys, base, hI, hr', hfree, hn, hf, hw, hb, hgot⟩ hab ht hl
    obtain ⟨s, hs, h2, -⟩ := mounted level u env visit hv V msg lib href grow ops later addr fixed h route I a r hr' fSys hI hfree
      calls hcalls name hn base v.data v.time hf
    obtain ⟨e1, e2⟩ := answered level u env visit msg grow h2 hgot
    obtain ⟨s', hs', hA, -⟩ := piece_date lib href route name t hdate fSys r a.resp.http hn base v.data v.time hf hk hw a0 b0 hab hask
    rw [hs] at hs'
    cases hs'
    obtain ⟨-, a1, a2⟩ := hA ht hl
    rw [e1] at a1 a2
    refine ⟨a1, ?_⟩
    rw [a2]
    show a.resp.body ++ _ = _
    rw [hb]; rfl
  · rintro v r w t a0 b0 hk hdate hask ⟨I, a, fSys, base, hI, hr', hfree, hn, hf, hw, hb, hgot⟩ hab ht
    obtain ⟨s, hs, h2, -⟩ := mounted level u env visit hv V msg lib href grow ops later addr fixed h route I a r hr' fSys hI hfree
      calls hcalls name hn base v.data v.time hf
    obtain ⟨e1, e2⟩ := answered level u env visit msg grow h2 hgot
    obtain ⟨s', hs', -, hA⟩ := piece_date lib href route name t hdate fSys r a.resp.http hn base v.data v.time hf hk hw a0 b0 hab hask
    rw [hs] at hs'
    cases hs'
    obtain ⟨-, a1, -, a2⟩ := hA ht
    rw [e1] at a1 a2
    refine ⟨a1, ?_⟩
    rw [a2, if_neg (by rw [hask.1]; decide)]
    show a.resp.body ++ _ = _
    rw [hb]; rfl

include hv in
/-- **C129** (one version).  A client learns the size and the date of a file of a static route with HEAD and then fetches it in pieces of any size, in any order, some of them
twice or cut off, each If-Range that date; the file may change between the requests, and the client may start again.  If no two versions of the file with different bytes are from
the same second, then at every moment the bytes it has are at their positions in one version, whose size it knows, and a file it ends with is one version, whole. -/
theorem C129_one_version (hcalls : route.mount addr (progState grow ops).setVars.length fixed h = some calls)
    (vs : List FileVersion) (hk : ∀ v ∈ vs, KnownTime v.time ∧ DateLaw lib v.time)
    (hsame : ∀ v ∈ vs, ∀ v' ∈ vs, v.time / 10 ^ 9 = v'.time / 10 ^ 9 → v.data = v'.data) :
    (∀ date n at_, Segmented (servesVersion level u env visit V msg lib href grow ops later fixed h route calls name) vs (.some date n at_) →
      ∃ v ∈ vs, date = lib.format v.time ∧ n = v.data.length ∧ ∀ i c, at_ i = some c → v.data[i]? = some c) ∧
    (∀ got, Segmented (servesVersion level u env visit V msg lib href grow ops later fixed h route calls name) vs (.whole got) → ∃ v ∈ vs, got = v.data) := by
  have hs := serves_segments level u env visit hv V msg lib href grow ops later addr fixed h route calls name hcalls
  exact ⟨fun date n at_ hd => segmented_one lib _ hs vs _ hd hk hsame, fun got hd => segmented_one lib _ hs vs _ hd hk hsame⟩

include hv in
/-- **C129** (every piece arrives).  While the file is from the second of the date, an answer that is not cut off fills exactly the positions asked for, with the bytes of the file, and
leaves the others as they were; if it is from another second, the client has the file as it is now. -/
theorem C129_piece (hcalls : route.mount addr (progState grow ops).setVars.length fixed h = some calls)
    (vs : List FileVersion) (v : FileVersion) (hk : ∀ v' ∈ vs ++ [v], KnownTime v'.time ∧ DateLaw lib v'.time)
    (hsame : ∀ v1 ∈ vs ++ [v], ∀ v2 ∈ vs ++ [v], v1.time / 10 ^ 9 = v2.time / 10 ^ 9 → v1.data = v2.data)
    (date : Str) (n a b : Nat) (at_ : Nat → Option UInt8)
    (hd : Segmented (servesVersion level u env visit V msg lib href grow ops later fixed h route calls name) vs (.some date n at_))
    (hab : a ≤ b) (hbn : b < n) (r : HttpReq) (hr : AsksPiece date a b r) (w : HttpResp)
    (hw : servesVersion level u env visit V msg lib href grow ops later fixed h route calls name v r w) :
    ∃ v0 ∈ vs, date = lib.format v0.time ∧
      (v.time / 10 ^ 9 = v0.time / 10 ^ 9 → ∃ at', takesPiece date n at_ a w w.body = .some date n at' ∧
        ∀ i, at' i = if a ≤ i ∧ i ≤ b then v.data[i]? else at_ i) ∧
      (v.time / 10 ^ 9 ≠ v0.time / 10 ^ 9 → takesPiece date n at_ a w w.body = .whole v.data) := by
  have hs := serves_segments level u env visit hv V msg lib href grow ops later addr fixed h route calls name hcalls
  obtain ⟨v0, hv0, rfl, rfl, g⟩ := (C129_one_version level u env visit hv V msg lib href grow ops later addr fixed h route calls name hcalls vs
    (fun x hx => hk x (by simp [hx])) fun x hx y hy => hsame x (by simp [hx]) y (by simp [hy])).1 _ _ _ hd
  obtain ⟨k1, -⟩ := hk v (by simp)
  have hd0 := (hk v0 (by simp [hv0])).2
  refine ⟨v0, hv0, rfl, fun ht => ?_, fun ht => ?_⟩
  · have hdata : v.data = v0.data := hsame v (by simp) v0 (by simp [hv0]) ht
    have hbv : b < v.data.length := by rw [hdata]; exact hbn
    obtain ⟨s1, s2⟩ := hs.same v r w v0.time a b k1 hd0 hr hw hab ht hbv
    have hl : w.body.length = b + 1 - a := by
      rw [s2]; unfold slice
      rw [List.length_drop, List.length_take]
      omega
    refine ⟨putAt at_ a w.body, by unfold takesPiece; rw [if_pos s1], fun i => ?_⟩
    unfold putAt
    by_cases hi : a ≤ i ∧ i ≤ b
    · rw [if_pos ⟨hi.1, by omega⟩, if_pos hi]
      exact put_slice (b := b + 1) (by omega) (by rw [s2]; exact List.prefix_refl _) i ⟨hi.1, by omega⟩
    · rw [if_neg (by omega), if_neg hi]
  · obtain ⟨s1, s2⟩ := hs.other v r w v0.time a b k1 hd0 hr hw hab ht
    unfold takesPiece
    rw [if_neg (by rw [s1]; decide), if_pos s1, if_pos rfl, s2]

include hv in
/-- **C129** (any cover will do).  While the file stays as it is, a client that fetches pieces which together cover it, in any order, and puts them together has the file. -/
theorem C129_covered (hcalls : route.mount addr (progState grow ops).setVars.length fixed h = some calls)
    (v : FileVersion) (hk : KnownTime v.time ∧ DateLaw lib v.time)
    (r0 : HttpReq) (h0 : AsksSize r0) (w0 : HttpResp)
    (hw0 : servesVersion level u env visit V msg lib href grow ops later fixed h route calls name v r0 w0)
    (l : List (Nat × Nat)) (hl : ∀ p ∈ l, p.1 ≤ p.2 ∧ p.2 < v.data.length)
    (hall : ∀ p ∈ l, ∃ r w, AsksPiece (lib.format v.time) p.1 p.2 r ∧
      servesVersion level u env visit V msg lib href grow ops later fixed h route calls name v r w)
    (hcover : ∀ i, i < v.data.length → ∃ p ∈ l, p.1 ≤ i ∧ i ≤ p.2) :
    Segmented (servesVersion level u env visit V msg lib href grow ops later fixed h route calls name) (List.replicate (l.length + 1) v) (.whole v.data) := by
  have hs := serves_segments level u env visit hv V msg lib href grow ops later addr fixed h route calls name hcalls
  have key : ∀ l : List (Nat × Nat), (∀ p ∈ l, p.1 ≤ p.2 ∧ p.2 < v.data.length) →
      (∀ p ∈ l, ∃ r w, AsksPiece (lib.format v.time) p.1 p.2 r ∧
        servesVersion level u env visit V msg lib href grow ops later fixed h route calls name v r w) →
      ∃ at_, Segmented (servesVersion level u env visit V msg lib href grow ops later fixed h route calls name) (List.replicate (l.length + 1) v)
        (.some (lib.format v.time) v.data.length at_) ∧ ∀ i, (∃ p ∈ l, p.1 ≤ i ∧ i ≤ p.2) → at_ i = v.data[i]? := by
    intro l
    induction l with
    | nil =>
      intro _ _
      obtain ⟨g1, g2, g3⟩ := hs.size v r0 w0 hk.1 h0 hw0
      have := Segmented.size .start h0 hw0 g1 g2
      rw [g3] at this
      exact ⟨_, this, by rintro i ⟨p, hp, -⟩; cases hp⟩
    | cons p l ih =>
      intro hl hall
      obtain ⟨at_, h1, h2⟩ := ih (fun q hq => hl q (List.mem_cons_of_mem _ hq)) fun q hq => hall q (List.mem_cons_of_mem _ hq)
      obtain ⟨r, w, hr, hw⟩ := hall p (List.mem_cons_self ..)
      obtain ⟨l1, l2⟩ := hl p (List.mem_cons_self ..)
      obtain ⟨s1, s2⟩ := hs.same v r w v.time p.1 p.2 hk.1 hk.2 hr hw l1 rfl l2
      have hstep := Segmented.piece (p := w.body) h1 l1 l2 hr hw (List.prefix_refl _)
      unfold takesPiece at hstep
      rw [if_pos s1] at hstep
      rw [← List.replicate_succ'] at hstep
      have hlen : w.body.length = p.2 + 1 - p.1 := by
        rw [s2]; unfold slice
        rw [List.length_drop, List.length_take]
        omega
      refine ⟨_, hstep, fun i hi => ?_⟩
      unfold putAt
      by_cases hp : p.1 ≤ i ∧ i < p.1 + w.body.length
      · rw [if_pos hp]
        exact put_slice (b := p.2 + 1) (by omega) (by rw [s2]; exact List.prefix_refl _) i hp
      · rw [if_neg hp]
        obtain ⟨q, hq, hq'⟩ := hi
        rcases List.mem_cons.1 hq with rfl | hq
        · omega
        · exact h2 i ⟨q, hq, hq'⟩
  obtain ⟨at_, h1, h2⟩ := key l hl hall
  exact .finish h1 rfl fun i hi => h2 i (hcover i hi)

include hv in
/-- There is an answer. -/
theorem segments_exists (hcalls : route.mount addr (progState grow ops).setVars.length fixed h = some calls)
    (I : Handlers3 η υ) (a : Arrival υ) (fSys : RawFS) (base : Str) (v : FileVersion) (r : HttpReq)
    (hI : I.main h = some (route.main V msg lib href fSys)) (hr : a.Reads V r)
    (hfree : route.Reached fixed (ops ++ later) a.req) (hn : route.Names r.path name) (hf : HasFile fSys name base v.data v.time)
    (hw : NoEncoding a.resp.http) (hb : a.resp.body = []) (hu : a.ba.use = false) (hk : KnownTime v.time)
    (hask : AsksSize r ∨ ∃ t x y, DateLaw lib t ∧ AsksPiece (lib.format t) x y r ∧ x ≤ y ∧ (v.time / 10 ^ 9 = t / 10 ^ 9 → y < v.data.length)) :
    ∃ w, servesVersion level u env visit V msg lib href grow ops later fixed h route calls name v r w := by
  obtain ⟨s, hs, h2, h3⟩ := mounted level u env visit hv V msg lib href grow ops later addr fixed h route I a r hr fSys hI hfree
    calls hcalls name hn base v.data v.time hf
  have he : s.err = none := by
    rcases hask with ⟨-, hc, hrange, hir⟩ | ⟨t, x, y, hdate, hask, hxy, hl⟩
    · have hpre := (uncond_pre lib r (setLastModified lib.toTimeLib a.resp.http v.time) v.time hc).2 (fun h => h.2.1 hir)
      rw [hrange] at hpre
      obtain ⟨s', hs', hA⟩ := whole_answer lib href fSys r a.resp.http route name hn base v.data v.time hf hw hpre
      rw [hs] at hs'
      cases hs'
      exact hA.1
    · obtain ⟨s', hs', hA, hB⟩ := piece_date lib href route name t hdate fSys r a.resp.http hn base v.data v.time hf hk hw x y hxy hask
      rw [hs] at hs'
      cases hs'
      by_cases ht : v.time / 10 ^ 9 = t / 10 ^ 9
      · exact (hA ht (hl ht)).1
      · exact (hB ht).1
  obtain ⟨sv, d, i1, i2⟩ := h3 hu
  obtain ⟨g1, g2⟩ := h2 sv d i1 i2
  exact ⟨s.resp, I, a, fSys, base, hI, hr, hfree, hn, hf, hw, hb, sv, d, i1, i2, by rw [g2, (staticErr_none msg).2 he], g1⟩

end

/-! ### A file in two pieces, the second one first -/

namespace SegmentsEx
open DownloadEx

def sizeReq : HttpReq := ⟨b!"HEAD", b!"/files/a.txt", [], fun _ => []⟩
def pieceReq (range : Str) : HttpReq :=
  ⟨b!"GET", b!"/files/a.txt", [], fun k => if k = b!"Range" then range else if k = b!"If-Range" then seekLib.format exTime else []⟩

theorem asksSize : AsksSize sizeReq := ⟨rfl, ⟨.inr rfl, rfl, rfl, rfl, rfl⟩, rfl, rfl⟩
theorem asksFirst : AsksPiece (seekLib.format exTime) 0 5 (pieceReq b!"bytes=0-5") :=
  ⟨rfl, ⟨.inl rfl, rfl, rfl, rfl, rfl⟩, rfl, b!"0", b!"5", by unfold Digits; decide, by unfold Digits; decide, by decide, by decide, rfl⟩
theorem asksSecond : AsksPiece (seekLib.format exTime) 4 9 (pieceReq b!"bytes=4-9") :=
  ⟨rfl, ⟨.inl rfl, rfl, rfl, rfl, rfl⟩, rfl, b!"4", b!"9", by unfold Digits; decide, by unfold Digits; decide, by decide, by decide, rfl⟩

theorem reachedBy (m : Str) (hm : m = b!"GET" ∨ m = b!"HEAD") :
    StaticRoute.Reached [] (exStaticOps ++ exStaticLater) ⟨m, b!"/files/a.txt", []⟩ (.fileFS b!"static" b!"/files") := by
  refine ⟨plain_ascii _ (by decide +kernel), hm, ⟨?_, ?_, ?_⟩⟩
  · intro o ho m route hr
    have : ∀ o ∈ exStaticOps ++ exStaticLater,
        ((registers o).all fun x => (segs x.2).all fun s => decide (s.dropWhile (· == 58) ≠ [])) = true := by
      decide +kernel
    have := this o ho
    rw [hr] at this
    simpa using this
  · intro o ho m route hr _
    have : ∀ o ∈ exStaticOps ++ exStaticLater,
        ((registers o).all fun x => (matchRoute ((segs x.2).map segPat) (segs b!"/files/a.txt")).isNone) = true := by
      decide +kernel
    have := this o ho
    rw [hr] at this
    simpa using this
  · intro o ho m rx hr _
    have : ∀ o ∈ exStaticOps ++ exStaticLater,
        ((registersRx o).all fun x => x.2.matches b!"/files/a.txt" == false) = true := by
      decide +kernel
    have := this o ho
    rw [hr] at this
    simpa using this

theorem answer (v : FileVersion) (h : v.data.length < 2 ^ 63) (hk : KnownTime v.time) (r : HttpReq) (hr : r = ⟨r.method, b!"/files/a.txt", [], r.header⟩)
    (hm : r.method = b!"GET" ∨ r.method = b!"HEAD")
    (hask : AsksSize r ∨ ∃ t x y, DateLaw seekLib t ∧ AsksPiece (seekLib.format t) x y r ∧ x ≤ y ∧ (v.time / 10 ^ 9 = t / 10 ^ 9 → y < v.data.length)) :
    ∃ w, serves v r w := by
  refine segments_exists 5 id StaticMainEx.env id (fun _ => List.Perm.refl _) StaticMainEx.view StaticMainEx.msg seekLib id (fun c _ => 2 * c)
    exStaticOps exStaticLater 2 [] 3 (.fileFS b!"static" b!"/files") MountEx.calls _ MountEx.mountedCalls (handlers v) (MountEx.arrival r) (fsOf v) b!"a.txt" v r
    rfl ⟨fun _ => rfl, rfl, rfl⟩ ?_ ?_ (has v h) ⟨by show HttpResp.peek _ _ = _; rfl, by show HttpResp.peek _ _ = _; rfl⟩ rfl rfl hk hask
  · rw [hr]; exact reachedBy _ hm
  · rw [hr]; exact exNames

/-- The hypotheses of `C129_covered` hold. -/
example : Segmented serves [old, old, old] (.whole b!"0123456789") := by
  obtain ⟨w0, hw0⟩ := answer old (by decide) exKnown sizeReq rfl (.inr rfl) (.inl asksSize)
  obtain ⟨w1, hw1⟩ := answer old (by decide) exKnown (pieceReq b!"bytes=0-5") rfl (.inl rfl) (.inr ⟨exTime, 0, 5, exDate, asksFirst, by decide, fun _ => by decide⟩)
  obtain ⟨w2, hw2⟩ := answer old (by decide) exKnown (pieceReq b!"bytes=4-9") rfl (.inl rfl) (.inr ⟨exTime, 4, 9, exDate, asksSecond, by decide, fun _ => by decide⟩)
  refine C129_covered 5 id StaticMainEx.env id (fun _ => List.Perm.refl _) StaticMainEx.view StaticMainEx.msg seekLib id (fun c _ => 2 * c)
    exStaticOps exStaticLater 2 [] 3 (.fileFS b!"static" b!"/files") MountEx.calls _ MountEx.mountedCalls old ⟨exKnown, exDate⟩ sizeReq asksSize w0 hw0
    [(0, 5), (4, 9)] (by decide) ?_ ?_
  · intro p hp
    simp only [List.mem_cons, List.not_mem_nil, or_false] at hp
    rcases hp with rfl | rfl
    · exact ⟨_, w1, asksFirst, hw1⟩
    · exact ⟨_, w2, asksSecond, hw2⟩
  · intro i hi
    have : i < 10 := hi
    by_cases h : i ≤ 5
    · exact ⟨(0, 5), by simp, by simp, h⟩
    · exact ⟨(4, 9), by simp, by simp; omega, by simp; omega⟩

end SegmentsEx
end Verif
