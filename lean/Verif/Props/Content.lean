import Verif.Model.Content
import Verif.Spec.Content
import Verif.Props.Cond
import Verif.Props.Sniff
/-
C56, C68: what is sent.
-/
namespace Verif
open Spec

/-! ### Decimal numbers -/

theorem decVal_append (a b : Str) : decVal (a ++ b) = decVal a * 10 ^ b.length + decVal b := by
  induction a with
  | nil => simp [decVal]
  | cons c a ih =>
    simp only [List.cons_append, decVal, ih, List.length_append, Nat.add_mul]
    rw [Nat.pow_add, ← Nat.mul_assoc, Nat.add_assoc]

theorem digit_facts (d : Nat) (h : d < 10) : (48 : UInt8) ≤ UInt8.ofNat (48 + d) ∧ UInt8.ofNat (48 + d) ≤ 57 ∧
    (UInt8.ofNat (48 + d)).toNat - 48 = d ∧ (UInt8.ofNat (48 + d) = 48 → d = 0) := by
  revert d
  decide

theorem formatDigits_number : ∀ (fuel n : Nat), n < fuel → Number n (formatDigits fuel n) := by
  intro fuel
  induction fuel with
  | zero => intro n h; omega
  | succ fuel ih =>
    intro n h
    unfold formatDigits
    by_cases hn : n < 10
    · rw [if_pos hn]
      obtain ⟨h1, h2, h3, h4⟩ := digit_facts n hn
      refine ⟨⟨by simp, by intro c hc; simp only [List.mem_singleton] at hc; subst hc; exact ⟨h1, h2⟩⟩, ?_, ?_⟩
      · simp only [decVal, h3, List.length_nil]; omega
      · intro hh
        simp only [List.head?_cons, Option.some.injEq] at hh
        rw [h4 hh]; rfl
    · rw [if_neg hn]
      obtain ⟨h1, h2, h3, -⟩ := digit_facts (n % 10) (Nat.mod_lt _ (by omega))
      obtain ⟨⟨i1, i2⟩, i3, i4⟩ := ih (n / 10) (by omega)
      refine ⟨⟨by simp, ?_⟩, ?_, ?_⟩
      · intro c hc
        rcases List.mem_append.1 hc with hc | hc
        · exact i2 c hc
        · simp only [List.mem_singleton] at hc; subst hc; exact ⟨h1, h2⟩
      · rw [decVal_append, i3]
        simp only [decVal, h3, List.length_cons, List.length_nil]
        omega
      · intro hh
        exfalso
        have hne : (formatDigits fuel (n / 10)).head? = some 48 := by
          cases hf : formatDigits fuel (n / 10) with
          | nil => exact absurd hf i1
          | cons x xs => rw [hf] at hh; simpa using hh
        have := i4 hne
        rw [this] at i3
        have : decVal b!"0" = 0 := by decide
        omega

theorem formatNat_number (n : Nat) : Number n (formatNat n) := formatDigits_number _ _ (Nat.lt_succ_self n)

theorem formatInt_ofNat (n : Nat) : formatInt n = formatNat n := by
  unfold formatInt
  rw [if_neg (by omega)]
  rfl

theorem formatInt_number (n : Nat) : Number n (formatInt n) := formatInt_ofNat n ▸ formatNat_number n

/-- The Content-Range of a range that is not empty and lies in the content. -/
theorem contentRange_spec (a n size : Nat) (hn : 0 < n) (hs : a + n ≤ size) (hb : size < 2 ^ 63) :
    ContentRange a (a + n) size (contentRange ⟨a, n⟩ size) := by
  refine ⟨formatInt a, formatInt (a + n - 1 : Nat), formatInt size, formatInt_number a, formatInt_number _,
    formatInt_number size, ?_⟩
  unfold contentRange
  simp only
  rw [i64_id (x := (a : Int) + n) (by omega) (by omega), i64_id (by omega) (by omega)]
  have : ((a : Int) + n - 1) = ((a + n - 1 : Nat) : Int) := by omega
  rw [this]

/-! ### Headers of a response -/

theorem peek_set (w : HttpResp) (k v k' : Str) : (w.set k v).peek k' = if k' = k then v else w.peek k' := by
  unfold HttpResp.set HttpResp.peek
  simp only [GoMap.get?_set]
  split <;> rfl

theorem peek_code (w : HttpResp) (c : Nat) (k : Str) : (w.code c).peek k = w.peek k := rfl
theorem peek_write (w : HttpResp) (s k : Str) : (w.write s).peek k = w.peek k := rfl

theorem status_set (w : HttpResp) (k v : Str) : (w.set k v).status = w.status := rfl
theorem body_set (w : HttpResp) (k v : Str) : (w.set k v).body = w.body := rfl

theorem setLastModified_body (lib : TimeLib) (w : HttpResp) (t : Int) : (setLastModified lib w t).body = w.body := by
  unfold setLastModified; split <;> rfl

theorem setLastModified_peek (lib : TimeLib) (w : HttpResp) (t : Int) (k : Str) (h : k ≠ b!"Last-Modified") :
    (setLastModified lib w t).peek k = w.peek k := by
  unfold setLastModified
  split
  · rfl
  · rw [peek_set, if_neg h]

theorem lengthHeaders_facts (w : HttpResp) (n : Int) :
    (lengthHeaders w n).body = w.body ∧ (lengthHeaders w n).status = w.status ∧
    (lengthHeaders w n).peek b!"Accept-Ranges" = b!"bytes" ∧
    (w.peek b!"Content-Encoding" = [] → (lengthHeaders w n).peek b!"Content-Length" = formatInt n) ∧
    (∀ k, k ≠ b!"Accept-Ranges" → k ≠ b!"Content-Length" → (lengthHeaders w n).peek k = w.peek k) := by
  unfold lengthHeaders
  simp only
  have e : (w.set b!"Accept-Ranges" b!"bytes").peek b!"Content-Encoding" = w.peek b!"Content-Encoding" := by
    rw [peek_set, if_neg (by decide)]
  rw [e]
  by_cases h : w.peek b!"Content-Encoding" = []
  · rw [if_pos h]
    refine ⟨rfl, rfl, ?_, ?_, ?_⟩
    · rw [peek_set, if_neg (by decide), peek_set, if_pos rfl]
    · intro _; rw [peek_set, if_pos rfl]
    · intro k h1 h2; rw [peek_set, if_neg h2, peek_set, if_neg h1]
  · rw [if_neg h]
    refine ⟨rfl, rfl, ?_, ?_, ?_⟩
    · rw [peek_set, if_pos rfl]
    · intro hh; exact absurd hh h
    · intro k h1 h2; rw [peek_set, if_neg h1]

theorem sendBody_facts (r : HttpReq) (w : HttpResp) (code : Nat) (b : Str) (n : Int) :
    (sendBody r w code b n).status = code ∧ (∀ k, (sendBody r w code b n).peek k = w.peek k) ∧
    (r.method ≠ b!"HEAD" → (sendBody r w code b n).body = w.body ++ b.take n.toNat) ∧
    (r.method = b!"HEAD" → (sendBody r w code b n).body = w.body) := by
  unfold sendBody
  simp only
  by_cases h : r.method = b!"HEAD"
  · rw [if_neg (by simp [h])]
    exact ⟨rfl, fun _ => rfl, fun hh => absurd h hh, fun _ => rfl⟩
  · rw [if_pos h]
    exact ⟨rfl, fun _ => rfl, fun _ => rfl, fun hh => absurd hh h⟩

/-- The content type is found without a panic; only the Content-Type header changes. -/
theorem contentType_ret (lib : Lib) (r : HttpReq) (w : HttpResp) (name : Str) (c : Content) (hc : c.seekable = true) :
    ∃ ct w', contentType lib r w name c = .ret (.ok (ct, w')) ∧ w'.body = w.body ∧ w'.status = w.status ∧
      (∀ k, k ≠ b!"Content-Type" → w'.peek k = w.peek k) := by
  unfold contentType
  simp only
  by_cases h1 : r.header b!"Content-Type" = []
  · rw [if_pos h1]
    by_cases h2 : lib.typeByName name = []
    · rw [if_pos h2]
      obtain ⟨ct, h3, -⟩ := C59_exact (c.data.take 512)
      rw [h3, Outcome.bind_ret, if_pos hc]
      refine ⟨ct, _, rfl, rfl, rfl, ?_⟩
      intro k hk; rw [peek_set, if_neg hk]
    · rw [if_neg h2]
      refine ⟨_, _, rfl, rfl, rfl, ?_⟩
      intro k hk; rw [peek_set, if_neg hk]
  · rw [if_neg h1]
    exact ⟨_, _, rfl, rfl, rfl, fun _ _ => rfl⟩

/-- A request whose conditions are met. -/
theorem serve_reduces (lib : Lib) (r : HttpReq) (w : HttpResp) (name : Str) (modTime : Int) (size : Int) (c : Content) (rng : Str)
    (hc : c.seekable = true)
    (hpre : checkPreconditions lib.toTimeLib r (setLastModified lib.toTimeLib w modTime) modTime =
      .ret (some rng, setLastModified lib.toTimeLib w modTime)) :
    ∃ ct w', serveContent lib r w name modTime (some size) c = .ret (serveSized lib r w' ct rng size c) ∧
      contentType lib r (setLastModified lib.toTimeLib w modTime) name c = .ret (.ok (ct, w')) ∧ w'.body = w.body ∧
      (∀ k, k ≠ b!"Content-Type" → k ≠ b!"Last-Modified" → w'.peek k = w.peek k) := by
  obtain ⟨ct, w', h1, h2, h3, h4⟩ := contentType_ret lib r (setLastModified lib.toTimeLib w modTime) name c hc
  refine ⟨ct, w', ?_, h1, ?_, ?_⟩
  · unfold serveContent
    simp only
    rw [hpre, Outcome.bind_ret]
    simp only
    rw [h1, Outcome.bind_ret]
  · rw [h2, setLastModified_body]
  · intro k hk hl; rw [h4 k hk, setLastModified_peek _ _ _ _ hl]

/-- The lengths added up. -/
def totalLength (rs : List HttpRange) : Int := (rs.map (·.length)).sum

theorem sumRanges_go (rs : List HttpRange) (hn : ∀ r ∈ rs, 0 ≤ r.length) : ∀ acc : Int, 0 ≤ acc → acc + totalLength rs < 2 ^ 63 →
    rs.foldl (fun s r => i64 (s + r.length)) acc = acc + totalLength rs := by
  induction rs with
  | nil => intro acc _ _; simp [totalLength]
  | cons r rs ih =>
    intro acc h0 h1
    have hr := hn r (List.mem_cons_self ..)
    have hrs : 0 ≤ totalLength rs := by
      have : ∀ l : List HttpRange, (∀ r ∈ l, 0 ≤ r.length) → 0 ≤ totalLength l := by
        intro l
        induction l with
        | nil => intro _; simp [totalLength]
        | cons x l ih =>
          intro h
          have h1 := h x (List.mem_cons_self ..)
          have h2 := ih fun r hr => h r (List.mem_cons_of_mem _ hr)
          simp only [totalLength, List.map_cons, List.sum_cons] at h2 ⊢
          omega
      exact this rs fun r hr => hn r (List.mem_cons_of_mem _ hr)
    have e : totalLength (r :: rs) = r.length + totalLength rs := by simp [totalLength]
    rw [e] at h1 ⊢
    rw [List.foldl_cons, i64_id (by omega) (by omega), ih (fun r hr => hn r (List.mem_cons_of_mem _ hr)) _ (by omega) (by omega)]
    omega

theorem sumRanges_eq (rs : List HttpRange) (hn : ∀ r ∈ rs, 0 ≤ r.length) (ht : totalLength rs < 2 ^ 63) :
    sumRangesSize rs = totalLength rs := by
  unfold sumRangesSize
  rw [sumRanges_go rs hn 0 (by omega) (by omega)]
  omega

/-! ### C56 -/

section C56
variable (lib : Lib) (r : HttpReq) (w : HttpResp) (name : Str) (modTime : Int) (c : Content) (rng : Str)

/-- C56, whole content: without ranges, or with ranges that add up to more than the content, everything is sent. -/
theorem C56_whole (hc : c.seekable = true) (hb : c.data.length < 2 ^ 63)
    (hpre : checkPreconditions lib.toTimeLib r (setLastModified lib.toTimeLib w modTime) modTime =
      .ret (some rng, setLastModified lib.toTimeLib w modTime))
    (rs : List HttpRange) (hp : parseRange rng c.data.length = .ok rs)
    (ht : rs = [] ∨ ((c.data.length : Int) < totalLength rs ∧ totalLength rs < 2 ^ 63)) :
    ∃ w', serveContent lib r w name modTime (some c.data.length) c = .ret (w', none) ∧ w'.status = 200 ∧
      (r.method ≠ b!"HEAD" → w'.body = w.body ++ c.data) ∧ (r.method = b!"HEAD" → w'.body = w.body) ∧
      (w.peek b!"Content-Encoding" = [] → Number c.data.length (w'.peek b!"Content-Length")) ∧
      w'.peek b!"Accept-Ranges" = b!"bytes" ∧ w'.peek b!"Content-Range" = w.peek b!"Content-Range" := by
  obtain ⟨ct, w1, h1, -, h2, h3⟩ := serve_reduces lib r w name modTime c.data.length c rng hc hpre
  have hb' := C54_bounds rng c.data.length (by omega) (by omega) rs hp
  have hsend : serveSized lib r w1 ct rng c.data.length c = sendRanges lib r w1 ct c.data.length c [] := by
    unfold serveSized
    rw [if_pos (by omega), hp]
    simp only
    congr 1
    rcases ht with rfl | ⟨h4, h5⟩
    · split <;> rfl
    · rw [sumRanges_eq rs (fun r hr => (hb' r hr).2.1) h5, if_pos (by omega)]
  rw [h1, hsend]
  obtain ⟨l1, l2, l3, l4, l5⟩ := lengthHeaders_facts w1 c.data.length
  obtain ⟨s1, s2, s3, s4⟩ := sendBody_facts r (lengthHeaders w1 c.data.length) 200 c.data c.data.length
  refine ⟨_, rfl, s1, ?_, ?_, ?_, ?_, ?_⟩
  · intro hm; rw [s3 hm, l1, h2, Int.toNat_natCast, List.take_length]
  · intro hm; rw [s4 hm, l1, h2]
  · intro he
    rw [s2, l4 (by rw [h3 _ (by decide) (by decide)]; exact he)]
    exact formatInt_number _
  · rw [s2, l3]
  · rw [s2, l5 _ (by decide) (by decide), h3 _ (by decide) (by decide)]

/-- C56, one range: exactly those bytes are sent, and the headers say which. -/
theorem C56_single (hc : c.seekable = true) (hb : c.data.length < 2 ^ 63)
    (hpre : checkPreconditions lib.toTimeLib r (setLastModified lib.toTimeLib w modTime) modTime =
      .ret (some rng, setLastModified lib.toTimeLib w modTime))
    (a n : Int) (hp : parseRange rng c.data.length = .ok [⟨a, n⟩]) :
    ∃ (a' n' : Nat) (w' : HttpResp), a = a' ∧ n = n' ∧ a' + n' ≤ c.data.length ∧
      serveContent lib r w name modTime (some c.data.length) c = .ret (w', none) ∧ w'.status = 206 ∧
      (r.method ≠ b!"HEAD" → w'.body = w.body ++ slice c.data a' (a' + n')) ∧ (r.method = b!"HEAD" → w'.body = w.body) ∧
      (slice c.data a' (a' + n')).length = n' ∧
      (w.peek b!"Content-Encoding" = [] → Number n' (w'.peek b!"Content-Length")) ∧
      w'.peek b!"Accept-Ranges" = b!"bytes" ∧
      (0 < n' → ContentRange a' (a' + n') c.data.length (w'.peek b!"Content-Range")) := by
  obtain ⟨ct, w1, h1, -, h2, h3⟩ := serve_reduces lib r w name modTime c.data.length c rng hc hpre
  obtain ⟨b1, b2, b3⟩ := C54_bounds rng c.data.length (by omega) (by omega) _ hp ⟨a, n⟩ (List.mem_cons_self ..)
  simp only at b1 b2 b3
  obtain ⟨a', rfl⟩ := Int.eq_ofNat_of_zero_le b1
  obtain ⟨n', rfl⟩ := Int.eq_ofNat_of_zero_le b2
  have hsum : sumRangesSize [⟨(a' : Int), n'⟩] = n' := by
    rw [sumRanges_eq _ (by simp) (by simp [totalLength]; omega)]
    simp [totalLength]
  have hsend : serveSized lib r w1 ct rng c.data.length c = sendRanges lib r w1 ct c.data.length c [⟨a', n'⟩] := by
    unfold serveSized
    rw [if_pos (by omega), hp]
    simp only
    rw [hsum, if_neg (by omega)]
  rw [h1, hsend]
  unfold sendRanges
  simp only
  rw [if_neg (by simp [hc])]
  obtain ⟨l1, l2, l3, l4, l5⟩ := lengthHeaders_facts (w1.set b!"Content-Range" (contentRange ⟨a', n'⟩ c.data.length)) n'
  generalize lengthHeaders (w1.set b!"Content-Range" (contentRange ⟨a', n'⟩ c.data.length)) n' = w2 at l1 l2 l3 l4 l5
  obtain ⟨s1, s2, s3, s4⟩ := sendBody_facts r w2 206 (c.data.drop (a' : Int).toNat) n'
  refine ⟨a', n', _, rfl, rfl, by omega, rfl, s1, ?_, ?_, ?_, ?_, ?_, ?_⟩
  · intro hm
    rw [s3 hm, l1, body_set, h2, Int.toNat_natCast, Int.toNat_natCast, slice, List.drop_take, Nat.add_sub_cancel_left]
  · intro hm; rw [s4 hm, l1, body_set, h2]
  · rw [slice, List.length_drop, List.length_take]; omega
  · intro he
    rw [s2, l4 (by rw [peek_set, if_neg (by decide), h3 _ (by decide) (by decide)]; exact he)]
    exact formatInt_number _
  · rw [s2, l3]
  · intro hn
    rw [s2, l5 _ (by decide) (by decide), peek_set, if_pos rfl]
    exact contentRange_spec a' n' _ hn (by omega) hb

/-- C56, no satisfiable range, or a malformed header: an error is answered and returned. -/
theorem C56_unsatisfiable (hc : c.seekable = true)
    (hpre : checkPreconditions lib.toTimeLib r (setLastModified lib.toTimeLib w modTime) modTime =
      .ret (some rng, setLastModified lib.toTimeLib w modTime))
    (e : RangeErr) (hp : parseRange rng c.data.length = .error e) :
    ∃ w', serveContent lib r w name modTime (some c.data.length) c = .ret (w', some (.range e)) ∧ w'.status = 416 ∧
      w'.body = w.body ++ (if e = .noOverlap then b!"invalid range: failed to overlap" else b!"invalid range") ∧
      w'.peek b!"Content-Type" = b!"text/plain; charset=utf-8" ∧
      (e = .noOverlap → ∃ z, Number c.data.length z ∧ w'.peek b!"Content-Range" = b!"bytes */" ++ z) ∧
      (e = .invalid → w'.peek b!"Content-Range" = w.peek b!"Content-Range") := by
  obtain ⟨ct, w1, h1, -, h2, h3⟩ := serve_reduces lib r w name modTime c.data.length c rng hc hpre
  have hsend : serveSized lib r w1 ct rng c.data.length c =
      (httpError (if e = .noOverlap then w1.set b!"Content-Range" (b!"bytes */" ++ formatInt c.data.length) else w1)
        (rangeMsg e) 416, some (.range e)) := by
    unfold serveSized
    rw [if_pos (by omega), hp]
  rw [h1, hsend]
  clear hsend hp
  cases e with
  | noOverlap =>
    rw [if_pos rfl]
    refine ⟨_, rfl, rfl, ?_, ?_, ?_, by intro h; cases h⟩
    · show w1.body ++ _ = _
      rw [h2]; rfl
    · unfold httpError
      rw [peek_write, peek_code, peek_set, if_neg (by decide), peek_set, if_pos rfl]
    · intro _
      refine ⟨_, formatInt_number c.data.length, ?_⟩
      unfold httpError
      rw [peek_write, peek_code, peek_set, if_neg (by decide), peek_set, if_neg (by decide), peek_set, if_pos rfl]
  | invalid =>
    rw [if_neg (by decide)]
    refine ⟨_, rfl, rfl, ?_, ?_, (by intro h; cases h), ?_⟩
    · show w1.body ++ _ = _
      rw [h2]; rfl
    · unfold httpError
      rw [peek_write, peek_code, peek_set, if_neg (by decide), peek_set, if_pos rfl]
    · intro _
      unfold httpError
      rw [peek_write, peek_code, peek_set, if_neg (by decide), peek_set, if_neg (by decide), h3 _ (by decide) (by decide)]

/-! Multipart bodies -/

/-- The part for a range. -/
def partOf (c : Content) (ct : Str) (size : Int) (ra : HttpRange) : Part :=
  ⟨[(b!"Content-Range", contentRange ra size), (b!"Content-Type", ct)], readAt c ra.start ra.length⟩

theorem partHeader_false (b ct : Str) (size : Int) (ra : HttpRange) (c : Content) :
    partHeader b false ct size ra = b!"\r\n--" ++ b ++ b!"\r\n" ++ headerLines (partOf c ct size ra).headers ++ b!"\r\n" := by
  simp [partHeader, headerLines, partOf, List.append_assoc]

theorem partHeader_true (b ct : Str) (size : Int) (ra : HttpRange) :
    partHeader b true ct size ra = (partHeader b false ct size ra).drop 2 := by
  simp [partHeader]

theorem readAt_length {c : Content} {ra : HttpRange} (h : 0 ≤ ra.start ∧ 0 ≤ ra.length ∧ ra.start + ra.length ≤ c.data.length) :
    ((readAt c ra.start ra.length).length : Int) = ra.length := by
  unfold readAt
  rw [List.length_take, List.length_drop]
  omega

theorem pipeOut_false (c : Content) (hc : c.seekable = true) (b ct : Str) (size : Int) (rs : List HttpRange)
    (hb : ∀ ra ∈ rs, 0 ≤ ra.start ∧ 0 ≤ ra.length ∧ ra.start + ra.length ≤ c.data.length) :
    pipeOut c b ct size false rs = partLines b (rs.map (partOf c ct size)) ++ partClose b := by
  induction rs with
  | nil => rfl
  | cons ra rs ih =>
    have hra := readAt_length (hb ra (List.mem_cons_self ..))
    unfold pipeOut
    simp only [hc, Bool.true_eq_false, if_false]
    rw [if_neg (by omega), ih (fun x hx => hb x (List.mem_cons_of_mem _ hx)), partHeader_false b ct size ra c]
    simp only [List.map_cons, partLines]
    have : (partOf c ct size ra).data = readAt c ra.start ra.length := rfl
    rw [this]
    simp only [List.append_assoc]

theorem pipeOut_true (c : Content) (hc : c.seekable = true) (b ct : Str) (size : Int) (ra : HttpRange) (rs : List HttpRange)
    (hb : ∀ x ∈ ra :: rs, 0 ≤ x.start ∧ 0 ≤ x.length ∧ x.start + x.length ≤ c.data.length) :
    pipeOut c b ct size true (ra :: rs) = multipart b ((ra :: rs).map (partOf c ct size)) := by
  have h1 := pipeOut_false c hc b ct size (ra :: rs) hb
  have hra := readAt_length (hb ra (List.mem_cons_self ..))
  have hdrop : pipeOut c b ct size true (ra :: rs) = (pipeOut c b ct size false (ra :: rs)).drop 2 := by
    unfold pipeOut
    simp only [hc, Bool.true_eq_false, if_false]
    rw [if_neg (by omega), if_neg (by omega), partHeader_true]
    have : 2 ≤ (partHeader b false ct size ra).length := by simp [partHeader]
    rw [List.append_assoc, List.append_assoc, List.drop_append_of_le_length this]
  rw [hdrop, h1]
  unfold multipart
  have : 2 ≤ (partLines b ((ra :: rs).map (partOf c ct size))).length := by
    simp only [List.map_cons, partLines, List.length_append, List.length_cons]
    omega
  rw [List.drop_append_of_le_length this]
  simp [partClose, List.append_assoc]

/-- The length of all part headers. -/
def headersLength (b ct : Str) (size : Int) : Bool → List HttpRange → Nat
  | _, [] => 0
  | first, ra :: t => (partHeader b first ct size ra).length + headersLength b ct size false t

theorem headersLength_boundary (b b' ct : Str) (size : Int) (h : b.length = b'.length) (first : Bool) (rs : List HttpRange) :
    headersLength b ct size first rs = headersLength b' ct size first rs := by
  induction rs generalizing first with
  | nil => rfl
  | cons ra rs ih =>
    unfold headersLength
    rw [ih]
    congr 1
    simp [partHeader, h]

theorem totalLength_nonneg (rs : List HttpRange) (hn : ∀ r ∈ rs, 0 ≤ r.length) : 0 ≤ totalLength rs := by
  induction rs with
  | nil => simp [totalLength]
  | cons x l ih =>
    have h1 := hn x (List.mem_cons_self ..)
    have h2 := ih fun r hr => hn r (List.mem_cons_of_mem _ hr)
    simp only [totalLength, List.map_cons, List.sum_cons] at h2 ⊢
    omega

theorem mimeCount_eq (b ct : Str) (size : Int) (rs : List HttpRange) (hn : ∀ r ∈ rs, 0 ≤ r.length) :
    ∀ (first : Bool) (enc hd : Int), 0 ≤ enc → 0 ≤ hd → enc + totalLength rs < 2 ^ 63 →
      hd + headersLength b ct size first rs < 2 ^ 63 →
      mimeCount b ct size first rs enc hd = (enc + totalLength rs, hd + headersLength b ct size first rs) := by
  induction rs with
  | nil => intro first enc hd _ _ _ _; simp [mimeCount, totalLength, headersLength]
  | cons ra rs ih =>
    intro first enc hd h0 h1 h2 h3
    have hra := hn ra (List.mem_cons_self ..)
    have hrs := totalLength_nonneg rs fun r hr => hn r (List.mem_cons_of_mem _ hr)
    have e : totalLength (ra :: rs) = ra.length + totalLength rs := by simp [totalLength]
    have e2 : headersLength b ct size first (ra :: rs) =
      (partHeader b first ct size ra).length + headersLength b ct size false rs := rfl
    rw [e] at h2 ⊢
    rw [e2] at h3 ⊢
    generalize hP : (partHeader b first ct size ra).length = P at *
    generalize hH : headersLength b ct size false rs = H at *
    unfold mimeCount
    rw [hP, i64_id (x := enc + ra.length) (by omega) (by omega), i64_id (x := hd + (P : Int)) (by omega) (by omega),
      ih (fun r hr => hn r (List.mem_cons_of_mem _ hr)) false _ _ (by omega) (by omega) (by omega) (by omega)]
    rw [hH]
    congr 1 <;> omega

theorem pipeOut_length (c : Content) (hc : c.seekable = true) (b ct : Str) (size : Int) (rs : List HttpRange)
    (hb : ∀ ra ∈ rs, 0 ≤ ra.start ∧ 0 ≤ ra.length ∧ ra.start + ra.length ≤ c.data.length) (first : Bool) :
    ((pipeOut c b ct size first rs).length : Int) =
      totalLength rs + headersLength b ct size first rs + (partClose b).length := by
  induction rs generalizing first with
  | nil => simp [pipeOut, totalLength, headersLength]
  | cons ra rs ih =>
    have hra := readAt_length (hb ra (List.mem_cons_self ..))
    have e : totalLength (ra :: rs) = ra.length + totalLength rs := by simp [totalLength]
    have e2 : headersLength b ct size first (ra :: rs) =
      (partHeader b first ct size ra).length + headersLength b ct size false rs := rfl
    have ih' := ih (fun x hx => hb x (List.mem_cons_of_mem _ hx)) false
    unfold pipeOut
    simp only [hc, Bool.true_eq_false, if_false]
    rw [if_neg (by omega), e, e2]
    simp only [List.length_append]
    omega

theorem areParts (c : Content) (ct : Str) (hs : c.data.length < 2 ^ 63) (rs : List HttpRange)
    (hb : ∀ ra ∈ rs, 0 ≤ ra.start ∧ 0 ≤ ra.length ∧ ra.start + ra.length ≤ c.data.length) :
    AreParts c.data ct (rs.map fun ra => (ra.start.toNat, ra.length.toNat)) (rs.map (partOf c ct c.data.length)) := by
  induction rs with
  | nil => exact .nil
  | cons ra rs ih =>
    refine .cons ⟨?_, contentRange ra c.data.length, rfl, ?_⟩ (ih fun x hx => hb x (List.mem_cons_of_mem _ hx))
    · show readAt c ra.start ra.length = _
      unfold readAt slice
      rw [List.drop_take, Nat.add_sub_cancel_left]
    · intro hn
      obtain ⟨h1, h2, h3⟩ := hb ra (List.mem_cons_self ..)
      obtain ⟨a, n⟩ := ra
      simp only at h1 h2 h3 hn ⊢
      have := contentRange_spec a.toNat n.toNat c.data.length hn (by omega) hs
      rw [Int.toNat_of_nonneg h1, Int.toNat_of_nonneg h2] at this
      exact this

/-- C56, several ranges: the body is a multipart body with one part for each range, in order, and the Content-Length is
its length. -/
theorem C56_multi (hc : c.seekable = true) (hb : c.data.length < 2 ^ 63)
    (hpre : checkPreconditions lib.toTimeLib r (setLastModified lib.toTimeLib w modTime) modTime =
      .ret (some rng, setLastModified lib.toTimeLib w modTime))
    (hbound : lib.boundary.length = lib.countBoundary.length)
    (rs : List HttpRange) (hp : parseRange rng c.data.length = .ok rs) (hmany : 2 ≤ rs.length)
    (htot : totalLength rs ≤ c.data.length) :
    ∃ ct w1 parts w', contentType lib r (setLastModified lib.toTimeLib w modTime) name c = .ret (.ok (ct, w1)) ∧
      AreParts c.data ct (rs.map fun ra => (ra.start.toNat, ra.length.toNat)) parts ∧
      serveContent lib r w name modTime (some c.data.length) c = .ret (w', none) ∧ w'.status = 206 ∧
      w'.peek b!"Content-Type" = b!"multipart/byteranges; boundary=" ++ lib.boundary ∧
      w'.peek b!"Content-Range" = w.peek b!"Content-Range" ∧
      (r.method = b!"HEAD" → w'.body = w.body) ∧
      ((multipart lib.boundary parts).length < 2 ^ 63 →
        (r.method ≠ b!"HEAD" → w'.body = w.body ++ multipart lib.boundary parts) ∧
        (w.peek b!"Content-Encoding" = [] → Number (multipart lib.boundary parts).length (w'.peek b!"Content-Length"))) := by
  obtain ⟨ct, w1, h1, hct, h2, h3⟩ := serve_reduces lib r w name modTime c.data.length c rng hc hpre
  have hbounds := C54_bounds rng c.data.length (by omega) (by omega) rs hp
  have hsum := sumRanges_eq rs (fun r hr => (hbounds r hr).2.1) (by omega)
  have hsend : serveSized lib r w1 ct rng c.data.length c = sendRanges lib r w1 ct c.data.length c rs := by
    unfold serveSized
    rw [if_pos (by omega), hp]
    simp only
    rw [hsum, if_neg (by omega)]
  obtain ⟨ra, rb, t, rfl⟩ : ∃ ra rb t, rs = ra :: rb :: t := by
    match rs, hmany with
    | ra :: rb :: t, _ => exact ⟨ra, rb, t, rfl⟩
  refine ⟨ct, w1, _, _, hct, areParts c ct hb _ hbounds, by rw [h1, hsend]; rfl, ?_⟩
  have hpipe := pipeOut_true c hc lib.boundary ct c.data.length ra (rb :: t) hbounds
  have hlen := pipeOut_length c hc lib.boundary ct c.data.length (ra :: rb :: t) hbounds true
  have hhl := headersLength_boundary lib.boundary lib.countBoundary ct c.data.length hbound true (ra :: rb :: t)
  have hpc : (partClose lib.countBoundary).length = (partClose lib.boundary).length := by simp [partClose, hbound]
  have htn := totalLength_nonneg (ra :: rb :: t) fun r hr => (hbounds r hr).2.1
  rw [hpipe]
  have hsize : (multipart lib.boundary ((ra :: rb :: t).map (partOf c ct c.data.length))).length < 2 ^ 63 →
      rangesMIMESize lib.countBoundary (ra :: rb :: t) ct c.data.length =
        (multipart lib.boundary ((ra :: rb :: t).map (partOf c ct c.data.length))).length := by
    intro hl
    rw [← hpipe] at hl ⊢
    unfold rangesMIMESize
    simp only
    rw [mimeCount_eq lib.countBoundary ct c.data.length _ (fun r hr => (hbounds r hr).2.1) true 0 0 (by omega) (by omega)
      (by omega) (by rw [← hhl]; omega)]
    simp only
    rw [← hhl, hpc]
    generalize headersLength lib.boundary ct c.data.length true (ra :: rb :: t) = H at *
    generalize (partClose lib.boundary).length = P at *
    generalize totalLength (ra :: rb :: t) = T at *
    rw [i64_id (x := 0 + (H : Int) + P) (by omega) (by omega), i64_id (by omega) (by omega)]
    omega
  generalize multipart lib.boundary ((ra :: rb :: t).map (partOf c ct c.data.length)) = M at hsize
  generalize rangesMIMESize lib.countBoundary (ra :: rb :: t) ct c.data.length = S at hsize
  obtain ⟨l1, l2, l3, l4, l5⟩ :=
    lengthHeaders_facts (w1.set b!"Content-Type" (b!"multipart/byteranges; boundary=" ++ lib.boundary)) S
  generalize lengthHeaders (w1.set b!"Content-Type" (b!"multipart/byteranges; boundary=" ++ lib.boundary)) S = w2 at l1 l2 l3 l4 l5
  obtain ⟨s1, s2, s3, s4⟩ := sendBody_facts r w2 206 M S
  refine ⟨s1, ?_, ?_, ?_, ?_⟩
  · rw [s2, l5 _ (by decide) (by decide), peek_set, if_pos rfl]
  · rw [s2, l5 _ (by decide) (by decide), peek_set, if_neg (by decide), h3 _ (by decide) (by decide)]
  · intro hm; rw [s4 hm, l1, body_set, h2]
  · intro hl
    have hS := hsize hl
    constructor
    · intro hm
      rw [s3 hm, l1, body_set, h2, hS, Int.toNat_natCast, List.take_length]
    · intro he
      rw [s2, l4 (by rw [peek_set, if_neg (by decide), h3 _ (by decide) (by decide)]; exact he), hS]
      exact formatInt_number _

/-- The same request with method HEAD. -/
def HttpReq.head (r : HttpReq) : HttpReq := { r with method := b!"HEAD" }

theorem checkPreconditions_head (lib : TimeLib) (r : HttpReq) (hm : r.method = b!"GET") (w : HttpResp) (t : Int) :
    checkPreconditions lib r.head w t = checkPreconditions lib r w t := by
  have h1 : checkIfMatch r.head w = checkIfMatch r w := rfl
  have h2 : checkIfNoneMatch r.head w = checkIfNoneMatch r w := rfl
  have h3 : checkIfUnmodifiedSince lib r.head t = checkIfUnmodifiedSince lib r t := rfl
  have h4 : checkIfModifiedSince lib r.head t = checkIfModifiedSince lib r t := by
    unfold checkIfModifiedSince
    rw [if_neg (show ¬ (r.head.method ≠ b!"GET" ∧ r.head.method ≠ b!"HEAD") from fun h => h.2 rfl),
      if_neg (show ¬ (r.method ≠ b!"GET" ∧ r.method ≠ b!"HEAD") from fun h => h.1 hm)]
    rfl
  have h5 : checkIfRange lib r.head w t = checkIfRange lib r w t := by
    unfold checkIfRange
    rw [if_pos (show r.head.method = b!"GET" ∨ r.head.method = b!"HEAD" from .inr rfl),
      if_pos (show r.method = b!"GET" ∨ r.method = b!"HEAD" from .inl hm)]
    rfl
  have h6 : rangeHeader lib r.head w t = rangeHeader lib r w t := by
    unfold rangeHeader
    rw [h5]
    rfl
  have h7 : noneResult lib r.head w t = noneResult lib r w t := by
    funext c
    cases c with
    | true => exact h6
    | false =>
      unfold noneResult
      simp only
      rw [if_pos (.inr rfl), if_pos (.inl hm)]
    | none =>
      unfold noneResult
      simp only
      rw [h4, h6]
  unfold checkPreconditions checkNone
  rw [h1, h2, h3, h7]

theorem checkPreconditions_ret (lib : TimeLib) (r : HttpReq) (w : HttpResp) (t : Int) :
    ∃ p, checkPreconditions lib r w t = .ret p ∧ p.2.body = w.body ∧ (p.1 ≠ none → p.2 = w) := by
  have hC := C57_conditions lib r w t
  simp only at hC
  have hw : (writeNotModified w).body = w.body := (C57_not_modified w).2.1
  by_cases h1 : (question lib r w t).MatchFails ∨ (question lib r w t).ModifiedSince
  · exact ⟨_, hC.1 h1, rfl, fun h => absurd rfl h⟩
  · obtain ⟨c1, c2, c3, c4, c5⟩ := hC.2 h1
    by_cases h2 : (question lib r w t).NoneMatchFails
    · by_cases h3 : (question lib r w t).Safe
      · exact ⟨_, c1 h2 h3, hw, fun h => absurd rfl h⟩
      · exact ⟨_, c2 h2 h3, rfl, fun h => absurd rfl h⟩
    · by_cases h3 : (question lib r w t).NotModified
      · exact ⟨_, c3 h2 h3, hw, fun h => absurd rfl h⟩
      · by_cases h4 : (question lib r w t).RangeFails
        · exact ⟨_, c4 h2 h3 h4, rfl, fun _ => rfl⟩
        · exact ⟨_, c5 h2 h3 h4, rfl, fun _ => rfl⟩

/-- Two responses that differ only in the body. -/
def SameHead (a b : HttpResp) : Prop := a.status = b.status ∧ a.headers = b.headers

theorem sendBody_same (r : HttpReq) (w : HttpResp) (code : Nat) (s : Str) (n : Int) :
    SameHead (sendBody r w code s n) (sendBody r.head w code s n) := by
  unfold sendBody SameHead
  simp only
  constructor
  · split <;> split <;> rfl
  · split <;> split <;> rfl

theorem serveSized_head (r : HttpReq) (w : HttpResp) (ct rng : Str) (size : Int) (c : Content) :
    ∃ w1 w2 e, serveSized lib r w ct rng size c = (w1, e) ∧ serveSized lib r.head w ct rng size c = (w2, e) ∧ SameHead w1 w2 ∧
      (e = none → w2.body = w.body) := by
  have hbody : ∀ (w : HttpResp) code s n, (sendBody r.head w code s n).body = w.body := by
    intro w code s n
    exact (sendBody_facts r.head w code s n).2.2.2 rfl
  have hlen : ∀ (w : HttpResp) n, (lengthHeaders w n).body = w.body := fun w n => (lengthHeaders_facts w n).1
  unfold serveSized
  by_cases hs : size ≥ 0
  · rw [if_pos hs, if_pos hs]
    cases parseRange rng size with
    | error e => exact ⟨_, _, _, rfl, rfl, ⟨rfl, rfl⟩, by intro h; cases h⟩
    | ok rs =>
      simp only
      generalize (if sumRangesSize rs > size then [] else rs) = rs'
      unfold sendRanges
      match rs' with
      | [] =>
        refine ⟨_, _, _, rfl, rfl, sendBody_same _ _ _ _ _, ?_⟩
        intro _; rw [hbody, hlen]
      | [ra] =>
        simp only
        by_cases hk : c.seekable = false
        · rw [if_pos hk, if_pos hk]
          exact ⟨_, _, _, rfl, rfl, ⟨rfl, rfl⟩, by intro h; cases h⟩
        · rw [if_neg hk, if_neg hk]
          refine ⟨_, _, _, rfl, rfl, sendBody_same _ _ _ _ _, ?_⟩
          intro _; rw [hbody, hlen]; rfl
      | ra :: rb :: t =>
        refine ⟨_, _, _, rfl, rfl, sendBody_same _ _ _ _ _, ?_⟩
        intro _; rw [hbody, hlen]; rfl
  · rw [if_neg hs, if_neg hs]
    exact ⟨_, _, _, rfl, rfl, sendBody_same _ _ _ _ _, fun _ => hbody _ _ _ _⟩

/-- C56, HEAD: the status, the headers and the returned error are those of GET; without an error nothing is added to the
body. -/
theorem C56_head (hm : r.method = b!"GET") (size : Option Int) :
    ∃ w1 w2 e, serveContent lib r w name modTime size c = .ret (w1, e) ∧
      serveContent lib r.head w name modTime size c = .ret (w2, e) ∧ w1.status = w2.status ∧ w1.headers = w2.headers ∧
      (e = none → w2.body = w.body) := by
  unfold serveContent
  simp only
  rw [checkPreconditions_head lib.toTimeLib r hm]
  obtain ⟨⟨o, w'⟩, h1, h2, h3⟩ := checkPreconditions_ret lib.toTimeLib r (setLastModified lib.toTimeLib w modTime) modTime
  rw [h1, Outcome.bind_ret, Outcome.bind_ret]
  rw [setLastModified_body] at h2
  cases o with
  | none => exact ⟨_, _, _, rfl, rfl, rfl, rfl, fun _ => h2⟩
  | some rng =>
    simp only
    have hct : contentType lib r.head w' name c = contentType lib r w' name c := rfl
    have hret : ∃ x, contentType lib r w' name c = .ret x ∧ (∀ ct w2, x = .ok (ct, w2) → w2.body = w'.body) := by
      unfold contentType
      simp only
      by_cases e1 : r.header b!"Content-Type" = []
      · rw [if_pos e1]
        by_cases e2 : lib.typeByName name = []
        · rw [if_pos e2]
          obtain ⟨ct, e3, -⟩ := C59_exact (c.data.take 512)
          rw [e3, Outcome.bind_ret]
          by_cases e4 : c.seekable = true
          · rw [if_pos e4]
            refine ⟨_, rfl, ?_⟩
            intro ct' w2 h; injection h with h; injection h with _ h; subst h; rfl
          · rw [if_neg e4]
            refine ⟨_, rfl, ?_⟩
            intro ct' w2 h; cases h
        · rw [if_neg e2]
          refine ⟨_, rfl, ?_⟩
          intro ct' w2 h; injection h with h; injection h with _ h; subst h; rfl
      · rw [if_neg e1]
        refine ⟨_, rfl, ?_⟩
        intro ct' w2 h; injection h with h; injection h with _ h; subst h; rfl
    rw [hct]
    obtain ⟨x, hx, hxb⟩ := hret
    rw [hx, Outcome.bind_ret, Outcome.bind_ret]
    cases x with
    | error w2 => exact ⟨_, _, _, rfl, rfl, rfl, rfl, by intro h; cases h⟩
    | ok p =>
      obtain ⟨ct, w2⟩ := p
      have hb2 := hxb ct w2 rfl
      simp only at h2
      cases size with
      | none => exact ⟨_, _, _, rfl, rfl, rfl, rfl, by intro h; cases h⟩
      | some size =>
        obtain ⟨w3, w4, e, h4, h5, h6, h7⟩ := serveSized_head lib r w2 ct rng size c
        simp only
        rw [h4, h5]
        exact ⟨w3, w4, e, rfl, rfl, h6.1, h6.2, fun h => (h7 h).trans (hb2.trans h2)⟩

/-! ### C68: the type of the answer -/

/-- The type used for an answer: the one the request names, else that of the file name, else the one its first bytes show. -/
def UsedType (lib : Lib) (r : HttpReq) (name data t : Str) : Prop :=
  (r.header b!"Content-Type" ≠ [] → t = r.header b!"Content-Type") ∧
  (r.header b!"Content-Type" = [] → lib.typeByName name ≠ [] → t = lib.typeByName name) ∧
  (r.header b!"Content-Type" = [] → lib.typeByName name = [] → FirstMatch rules (data.take 512) t)

theorem contentType_used (hc : c.seekable = true) (ct : Str) (w1 : HttpResp)
    (h2 : contentType lib r w name c = .ret (.ok (ct, w1))) :
    UsedType lib r name c.data ct ∧ (r.header b!"Content-Type" = [] → w1.peek b!"Content-Type" = ct) ∧
      (r.header b!"Content-Type" ≠ [] → w1 = w) := by
  unfold contentType at h2
  simp only at h2
  by_cases hct : r.header b!"Content-Type" = []
  · rw [if_pos hct] at h2
    by_cases e2 : lib.typeByName name = []
    · rw [if_pos e2] at h2
      obtain ⟨ct', e3, -, e4⟩ := C59_exact (c.data.take 512)
      rw [e3, Outcome.bind_ret, if_pos hc] at h2
      injection h2 with h2; injection h2 with h2; injection h2 with h2 h3
      subst h2 h3
      rw [List.take_take, Nat.min_self] at e4
      exact ⟨⟨fun h => absurd hct h, fun _ h => absurd e2 h, fun _ _ => e4⟩, fun _ => by rw [peek_set, if_pos rfl],
        fun h => absurd hct h⟩
    · rw [if_neg e2] at h2
      injection h2 with h2; injection h2 with h2; injection h2 with h2 h3
      subst h2 h3
      exact ⟨⟨fun h => absurd hct h, fun _ _ => rfl, fun _ h => absurd h e2⟩, fun _ => by rw [peek_set, if_pos rfl],
        fun h => absurd hct h⟩
  · rw [if_neg hct] at h2
    injection h2 with h2; injection h2 with h2; injection h2 with h2 h3
    subst h2 h3
    exact ⟨⟨fun _ => rfl, fun h => absurd h hct, fun h => absurd h hct⟩, fun h => absurd h hct, fun _ => rfl⟩

/-- C68, exactly, for answers with the whole content or one range: the type is that of the file name, else found in the first
bytes, if the request has no Content-Type; otherwise the header of the answer stays as it was. -/
theorem C68_exact (hc : c.seekable = true)
    (hpre : checkPreconditions lib.toTimeLib r (setLastModified lib.toTimeLib w modTime) modTime =
      .ret (some rng, setLastModified lib.toTimeLib w modTime))
    (rs : List HttpRange) (hp : parseRange rng c.data.length = .ok rs) (hone : rs.length ≤ 1) :
    ∃ w', serveContent lib r w name modTime (some c.data.length) c = .ret (w', none) ∧
      (r.header b!"Content-Type" = [] → UsedType lib r name c.data (w'.peek b!"Content-Type")) ∧
      (r.header b!"Content-Type" ≠ [] → w'.peek b!"Content-Type" = w.peek b!"Content-Type") := by
  obtain ⟨ct, w1, h1, h2, -, -⟩ := serve_reduces lib r w name modTime c.data.length c rng hc hpre
  obtain ⟨u1, u2, u3⟩ := contentType_used lib r _ name c hc ct w1 h2
  have hw1 : (r.header b!"Content-Type" = [] → UsedType lib r name c.data (w1.peek b!"Content-Type")) ∧
      (r.header b!"Content-Type" ≠ [] → w1.peek b!"Content-Type" = w.peek b!"Content-Type") :=
    ⟨fun h => by rw [u2 h]; exact u1, fun h => by rw [u3 h, setLastModified_peek _ _ _ _ (by decide)]⟩
  rw [h1]
  unfold serveSized
  rw [if_pos (by omega)]
  rw [hp]
  simp only
  have hl : (if sumRangesSize rs > (c.data.length : Int) then [] else rs).length ≤ 1 := by
    split
    · simp
    · exact hone
  generalize (if sumRangesSize rs > (c.data.length : Int) then [] else rs) = rs' at hl
  match rs', hl with
  | [], _ =>
    refine ⟨_, rfl, ?_⟩
    rw [(sendBody_facts _ _ _ _ _).2.1, (lengthHeaders_facts _ _).2.2.2.2 _ (by decide) (by decide)]
    exact hw1
  | [ra], _ =>
    unfold sendRanges
    simp only
    rw [if_neg (by simp [hc])]
    refine ⟨_, rfl, ?_⟩
    rw [(sendBody_facts _ _ _ _ _).2.1, (lengthHeaders_facts _ _).2.2.2.2 _ (by decide) (by decide), peek_set,
      if_neg (by decide)]
    exact hw1

/-- C68 for a request that names no content type: the type is that of the name, or else found in the first bytes. -/
theorem C68_type_partial (hc : c.seekable = true)
    (hpre : checkPreconditions lib.toTimeLib r (setLastModified lib.toTimeLib w modTime) modTime =
      .ret (some rng, setLastModified lib.toTimeLib w modTime))
    (hct : r.header b!"Content-Type" = [])
    (rs : List HttpRange) (hp : parseRange rng c.data.length = .ok rs) (hone : rs.length ≤ 1) :
    ∃ w' t, serveContent lib r w name modTime (some c.data.length) c = .ret (w', none) ∧ w'.peek b!"Content-Type" = t ∧
      (lib.typeByName name ≠ [] → t = lib.typeByName name) ∧
      (lib.typeByName name = [] → FirstMatch rules (c.data.take 512) t) := by
  obtain ⟨w', h1, h2, -⟩ := C68_exact lib r w name modTime c rng hc hpre rs hp hone
  exact ⟨w', _, h1, rfl, (h2 hct).2.1 hct, (h2 hct).2.2 hct⟩

/-- C68, several ranges: the answer is a multipart answer whatever the request says; the type that each of its parts carries
is the one the request names, if any, else that of the file. -/
theorem C68_parts (hc : c.seekable = true) (hb : c.data.length < 2 ^ 63)
    (hpre : checkPreconditions lib.toTimeLib r (setLastModified lib.toTimeLib w modTime) modTime =
      .ret (some rng, setLastModified lib.toTimeLib w modTime))
    (hbound : lib.boundary.length = lib.countBoundary.length)
    (rs : List HttpRange) (hp : parseRange rng c.data.length = .ok rs) (hmany : 2 ≤ rs.length)
    (htot : totalLength rs ≤ c.data.length) :
    ∃ t parts w', UsedType lib r name c.data t ∧
      AreParts c.data t (rs.map fun ra => (ra.start.toNat, ra.length.toNat)) parts ∧
      serveContent lib r w name modTime (some c.data.length) c = .ret (w', none) ∧
      w'.peek b!"Content-Type" = b!"multipart/byteranges; boundary=" ++ lib.boundary ∧
      (r.method ≠ b!"HEAD" → (multipart lib.boundary parts).length < 2 ^ 63 →
        w'.body = w.body ++ multipart lib.boundary parts) := by
  obtain ⟨ct, w1, parts, w', h1, h2, h3, -, h4, -, -, h5⟩ :=
    C56_multi lib r w name modTime c rng hc hb hpre hbound rs hp hmany htot
  exact ⟨ct, parts, w', (contentType_used lib r _ name c hc ct w1 h1).1, h2, h3, h4, fun hm hl => (h5 hl).1 hm⟩

end C56

/-! ### C57, the whole answer -/

/-- Everything but the Last-Modified header is as the response came in. -/
theorem question_lastModified (lib : TimeLib) (r : HttpReq) (w : HttpResp) (t : Int) :
    question lib r (setLastModified lib w t) t = question lib r w t := by
  unfold question
  rw [setLastModified_peek lib w t _ (by decide)]

/-- C57: a request whose conditions fail is answered 412 or 304 without content and without an error, whatever the content
is and whether its size can be found out or not. -/
theorem C57_answer (lib : Lib) (r : HttpReq) (w : HttpResp) (name : Str) (modTime : Int) (size : Option Int) (c : Content) :
    let q := question lib.toTimeLib r w modTime
    let refused := q.MatchFails ∨ q.ModifiedSince
    (refused ∨ (q.NoneMatchFails ∧ ¬ q.Safe) →
      ∃ w', serveContent lib r w name modTime size c = .ret (w', none) ∧ w'.status = 412 ∧ w'.body = w.body ∧
        (q.Known → w'.peek b!"Last-Modified" = lib.format modTime) ∧
        ∀ k, k ≠ b!"Last-Modified" → w'.peek k = w.peek k) ∧
    (¬ refused → (q.NoneMatchFails ∧ q.Safe) ∨ (¬ q.NoneMatchFails ∧ q.NotModified) →
      ∃ w', serveContent lib r w name modTime size c = .ret (w', none) ∧ w'.status = 304 ∧ w'.body = w.body ∧
        (q.Known → w.peek b!"Etag" = [] → w'.peek b!"Last-Modified" = lib.format modTime) ∧
        (∀ k, k = b!"Content-Type" ∨ k = b!"Content-Length" ∨ k = b!"Content-Encoding" → w'.peek k = []) ∧
        ∀ k, k ≠ b!"Content-Type" → k ≠ b!"Content-Length" → k ≠ b!"Content-Encoding" → k ≠ b!"Last-Modified" →
          w'.peek k = w.peek k) := by
  simp only
  have hC := C57_conditions lib.toTimeLib r (setLastModified lib.toTimeLib w modTime) modTime
  simp only [question_lastModified] at hC
  have hlm : (question lib.toTimeLib r w modTime).Known →
      (setLastModified lib.toTimeLib w modTime).peek b!"Last-Modified" = lib.format modTime := by
    intro hk
    unfold setLastModified
    rw [if_neg (fun h => (isZeroTime_iff lib.toTimeLib r w modTime).1 h hk), peek_set, if_pos rfl]
  have go : ∀ w2, checkPreconditions lib.toTimeLib r (setLastModified lib.toTimeLib w modTime) modTime = .ret (none, w2) →
      serveContent lib r w name modTime size c = .ret (w2, none) := by
    intro w2 h
    unfold serveContent
    simp only
    rw [h, Outcome.bind_ret]
  constructor
  · intro h
    have h412 : checkPreconditions lib.toTimeLib r (setLastModified lib.toTimeLib w modTime) modTime =
        .ret (none, (setLastModified lib.toTimeLib w modTime).code 412) := by
      by_cases hr : (question lib.toTimeLib r w modTime).MatchFails ∨ (question lib.toTimeLib r w modTime).ModifiedSince
      · exact hC.1 hr
      · rcases h with h | h
        · exact absurd h hr
        · exact (hC.2 hr).2.1 h.1 h.2
    refine ⟨_, go _ h412, rfl, setLastModified_body .., ?_, ?_⟩
    · intro hk; rw [peek_code]; exact hlm hk
    · intro k hk; rw [peek_code]; exact setLastModified_peek _ _ _ _ hk
  · intro hr h
    have h304 : checkPreconditions lib.toTimeLib r (setLastModified lib.toTimeLib w modTime) modTime =
        .ret (none, writeNotModified (setLastModified lib.toTimeLib w modTime)) := by
      rcases h with h | h
      · exact (hC.2 hr).1 h.1 h.2
      · exact (hC.2 hr).2.2.1 h.1 h.2
    obtain ⟨n1, n2, n3, -, n5, n6⟩ := C57_not_modified (setLastModified lib.toTimeLib w modTime)
    refine ⟨_, go _ h304, n1, ?_, ?_, n3, ?_⟩
    · rw [n2, setLastModified_body]
    · intro hk he
      rw [n5 (by rw [setLastModified_peek _ _ _ _ (by decide)]; exact he)]
      exact hlm hk
    · intro k h1 h2 h3 h4
      rw [n6 k h1 h2 h3 h4, setLastModified_peek _ _ _ _ h4]

theorem httpError_peek (w : HttpResp) (m : Str) (n : Nat) (k : Str) (h1 : k ≠ b!"Content-Type")
    (h2 : k ≠ b!"X-Content-Type-Options") : (httpError w m n).peek k = w.peek k := by
  unfold httpError
  rw [peek_write, peek_code, peek_set, if_neg h2, peek_set, if_neg h1]

theorem serveSized_lastModified (lib : Lib) (r : HttpReq) (w : HttpResp) (ct rng : Str) (size : Int) (c : Content) :
    (serveSized lib r w ct rng size c).1.peek b!"Last-Modified" = w.peek b!"Last-Modified" := by
  have body : ∀ (w : HttpResp) code b n m, (sendBody r (lengthHeaders w m) code b n).peek b!"Last-Modified" =
      w.peek b!"Last-Modified" := by
    intro w code b n m
    rw [(sendBody_facts r (lengthHeaders w m) code b n).2.1, (lengthHeaders_facts w m).2.2.2.2 _ (by decide) (by decide)]
  unfold serveSized
  split
  · split
    · simp only
      rw [httpError_peek _ _ _ _ (by decide) (by decide)]
      split
      · rw [peek_set, if_neg (by decide)]
      · rfl
    · rename_i rs0 _
      generalize (if sumRangesSize rs0 > size then [] else rs0 : List HttpRange) = rs
      unfold sendRanges
      split
      · exact body ..
      · split
        · exact httpError_peek _ _ _ _ (by decide) (by decide)
        · simp only
          rw [body, peek_set, if_neg (by decide)]
      · simp only
        rw [body, peek_set, if_neg (by decide)]
  · exact (sendBody_facts r w 200 c.data size).2.1 _

/-- C57: content with a known modification time that is sent, whole or in parts, carries it. -/
theorem C57_last_modified (lib : Lib) (r : HttpReq) (w : HttpResp) (name : Str) (modTime : Int) (size : Int) (c : Content)
    (hc : c.seekable = true) (hk : (question lib.toTimeLib r w modTime).Known) (w' : HttpResp)
    (h : serveContent lib r w name modTime (some size) c = .ret (w', none)) (hne : w'.status ≠ 304) :
    w'.peek b!"Last-Modified" = lib.format modTime := by
  have hlm : (setLastModified lib.toTimeLib w modTime).peek b!"Last-Modified" = lib.format modTime := by
    unfold setLastModified
    rw [if_neg (fun h => (isZeroTime_iff lib.toTimeLib r w modTime).1 h hk), peek_set, if_pos rfl]
  have hC := C57_conditions lib.toTimeLib r (setLastModified lib.toTimeLib w modTime) modTime
  simp only at hC
  have served : ∀ rng, checkPreconditions lib.toTimeLib r (setLastModified lib.toTimeLib w modTime) modTime =
      .ret (some rng, setLastModified lib.toTimeLib w modTime) → w'.peek b!"Last-Modified" = lib.format modTime := by
    intro rng hp
    obtain ⟨ct, w1, h1, h2, h3, h4⟩ := contentType_ret lib r (setLastModified lib.toTimeLib w modTime) name c hc
    have : serveContent lib r w name modTime (some size) c = .ret (serveSized lib r w1 ct rng size c) := by
      unfold serveContent
      simp only
      rw [hp, Outcome.bind_ret]
      simp only
      rw [h1, Outcome.bind_ret]
    rw [this] at h
    have hw : (serveSized lib r w1 ct rng size c).1 = w' := by
      injection h with h; rw [h]
    rw [← hw, serveSized_lastModified, h4 _ (by decide), hlm]
  have done : ∀ w2, checkPreconditions lib.toTimeLib r (setLastModified lib.toTimeLib w modTime) modTime = .ret (none, w2) →
      w' = w2 := by
    intro w2 hp
    unfold serveContent at h
    simp only at h
    rw [hp, Outcome.bind_ret] at h
    injection h with h
    injection h with h
    exact h.symm
  by_cases hr : (question lib.toTimeLib r (setLastModified lib.toTimeLib w modTime) modTime).MatchFails ∨
      (question lib.toTimeLib r (setLastModified lib.toTimeLib w modTime) modTime).ModifiedSince
  · rw [done _ (hC.1 hr), peek_code]; exact hlm
  · obtain ⟨c1, c2, c3, c4, c5⟩ := hC.2 hr
    by_cases h2 : (question lib.toTimeLib r (setLastModified lib.toTimeLib w modTime) modTime).NoneMatchFails
    · by_cases h3 : (question lib.toTimeLib r (setLastModified lib.toTimeLib w modTime) modTime).Safe
      · exact absurd (by rw [done _ (c1 h2 h3)]; rfl) hne
      · rw [done _ (c2 h2 h3), peek_code]; exact hlm
    · by_cases h3 : (question lib.toTimeLib r (setLastModified lib.toTimeLib w modTime) modTime).NotModified
      · exact absurd (by rw [done _ (c3 h2 h3)]; rfl) hne
      · by_cases h4 : (question lib.toTimeLib r (setLastModified lib.toTimeLib w modTime) modTime).RangeFails
        · exact served _ (c4 h2 h3 h4)
        · exact served _ (c5 h2 h3 h4)

section Examples
/-- Types: ".html" names are pages. -/
def exLib : Lib := ⟨condLib, fun n => if hasSuffix n b!".html" then b!"text/html" else [], b!"BBBB", b!"CCCC", id⟩

def exContent : Content := ⟨b!"0123456789", true⟩

/-- A whole file: GET and HEAD. -/
example : serveContent exLib (condReq b!"GET" [] [] [] []) .fresh b!"a.html" 0 (some 10) exContent =
    .ret (⟨200, [(b!"Content-Length", b!"10"), (b!"Accept-Ranges", b!"bytes"), (b!"Content-Type", b!"text/html")],
      b!"0123456789"⟩, none) := by decide +kernel
example : serveContent exLib (condReq b!"HEAD" [] [] [] []) .fresh b!"a.html" 0 (some 10) exContent =
    .ret (⟨200, [(b!"Content-Length", b!"10"), (b!"Accept-Ranges", b!"bytes"), (b!"Content-Type", b!"text/html")], []⟩, none) := by
  decide +kernel
example : serveContent exLib (condReq b!"GET" b!"Range" b!"bytes=2-4" [] []) .fresh b!"a.html" 0 (some 10) exContent =
    .ret (⟨206, [(b!"Content-Length", b!"3"), (b!"Accept-Ranges", b!"bytes"), (b!"Content-Range", b!"bytes 2-4/10"),
      (b!"Content-Type", b!"text/html")], b!"234"⟩, none) := by decide +kernel
example : serveContent exLib (condReq b!"GET" b!"Range" b!"bytes=2-4,-1" [] []) .fresh b!"a.html" 0 (some 10) exContent =
    .ret (⟨206, [(b!"Content-Length", b!"146"), (b!"Accept-Ranges", b!"bytes"),
      (b!"Content-Type", b!"multipart/byteranges; boundary=BBBB")],
      b!"--BBBB\r\nContent-Range: bytes 2-4/10\r\nContent-Type: text/html\r\n\r\n234\r\n--BBBB\r\nContent-Range: bytes 9-9/10\r\nContent-Type: text/html\r\n\r\n9\r\n--BBBB--\r\n"⟩, none) := by
  decide +kernel
/-- C57: a refused and an unneeded request. -/
example : serveContent exLib (condReq b!"POST" b!"If-None-Match" b!"*" [] []) .fresh b!"a.html" 5000000001 (some 10) exContent =
    .ret (⟨412, [(b!"Last-Modified", exLib.format 5000000001)], []⟩, none) := by decide +kernel
example : serveContent exLib (condReq b!"GET" b!"If-None-Match" b!"*" [] []) .fresh b!"a.html" 5000000001 none exContent =
    .ret (⟨304, [(b!"Last-Modified", exLib.format 5000000001)], []⟩, none) := by decide +kernel
/-- Overlapping ranges are ignored. -/
example : ((fun x : Outcome (HttpResp × Option ServeErr) => match x with | .ret (w, e) => (w.status, w.body, e) | _ => (0, [], none))
    (serveContent exLib (condReq b!"GET" b!"Range" b!"bytes=0-9,0-9" [] []) .fresh b!"a.html" 0 (some 10) exContent)) =
    (200, b!"0123456789", none) := by decide +kernel
example : ((fun x : Outcome (HttpResp × Option ServeErr) => match x with | .ret (w, e) => (w.status, w.body, e) | _ => (0, [], none))
    (serveContent exLib (condReq b!"GET" b!"Range" b!"bytes=10-" [] []) .fresh b!"a.html" 0 (some 10) exContent)) =
    (416, b!"invalid range: failed to overlap", some (.range .noOverlap)) := by decide +kernel

/-- C68 fails otherwise: a Content-Type header in the *request* suppresses the type of the answer (and becomes the type
of the parts of a multipart answer). -/
theorem C68_violated :
    (∃ w, serveContent exLib (condReq b!"GET" b!"Content-Type" b!"x/y" [] []) .fresh b!"a.html" 0 (some 10) exContent = .ret (w, none) ∧
      w.peek b!"Content-Type" = []) ∧
    (∃ w, serveContent exLib (condReq b!"GET" [] [] [] []) .fresh b!"a.html" 0 (some 10) exContent = .ret (w, none) ∧
      w.peek b!"Content-Type" = b!"text/html") :=
  ⟨⟨_, rfl, by decide +kernel⟩, ⟨_, rfl, by decide +kernel⟩⟩

/-- C56 depends on the total not reaching 2^63: with a file of 2^62 bytes, four ranges of the whole file add up to 0. -/
theorem C56_wraps : sumRangesSize [⟨0, 2 ^ 62⟩, ⟨0, 2 ^ 62⟩, ⟨0, 2 ^ 62⟩, ⟨0, 2 ^ 62⟩] = 0 := by decide +kernel
end Examples

end Verif
