import Verif.Props.UniqId
import Verif.Spec.UniqId
/-
C85_exact: exactly which requests have the same id.
-/
namespace Verif
open Spec

/-! ### The register, bit by bit -/

def regBit (s : BitVec 64) (b : Bool) : BitVec 64 := crcShift (s ^^^ (if b then 1#64 else 0#64))

/-- The register after `n` bits of `d`. -/
def regState (d : Nat → Bool) : Nat → BitVec 64
  | 0 => 0#64
  | n + 1 => regBit (regState d n) (d n)

/-- The bit that leaves the register at step `n`. -/
def regOut (d : Nat → Bool) (n : Nat) : Bool := (regState d n).getLsbD 0 ^^ d n

theorem regState_bit (d : Nat → Bool) (n k : Nat) :
    (regState d (n + 1)).getLsbD k = ((regState d n).getLsbD (k + 1) ^^ (regOut d n && crcPoly.getLsbD k)) := by
  show (regBit _ _).getLsbD k = _
  unfold regBit regOut
  rw [crcShift_eq]
  generalize regState d n = s
  have e : s.getLsbD 0 = s[0] := rfl
  rw [e]
  cases d n <;> cases hs : s[0] <;>
    simp [BitVec.getLsbD_ushiftRight, BitVec.getLsbD_one, hs, Nat.add_comm 1 k]

/-- The bit that left `p + 1 - k` steps ago. -/
def tap (q : Nat → Bool) (n p k : Nat) : Bool := decide (k ≤ p) && back q n (p + 1 - k)

theorem tap_succ (q : Nat → Bool) (n p k : Nat) : tap q (n + 1) p k = (tap q n p (k + 1) ^^ (decide (k = p) && q n)) := by
  unfold tap back
  by_cases h : k < p
  · have e1 : (k ≤ p) = True := by simp; omega
    have e2 : (k + 1 ≤ p) = True := by simp; omega
    have e3 : (k = p) = False := by simp; omega
    have e4 : (p + 1 - k ≤ n + 1) = (p + 1 - (k + 1) ≤ n) := by apply propext; omega
    have e5 : n + 1 - (p + 1 - k) = n - (p + 1 - (k + 1)) := by omega
    simp only [e1, e2, e3, e4, e5]
    simp
  · by_cases h2 : k = p
    · subst h2
      have e2 : (k + 1 ≤ k) = False := by simp
      have e4 : k + 1 - k = 1 := by omega
      simp [e2, e4]
    · have e1 : (k ≤ p) = False := by simp; omega
      have e2 : (k + 1 ≤ p) = False := by simp; omega
      simp [e1, e2, h2]

theorem crcPoly_bit : ∀ k, k < 64 → crcPoly.getLsbD k = (decide (k = 63) ^^ decide (k = 62) ^^ decide (k = 60) ^^ decide (k = 59)) := by
  decide

/-- The four taps. -/
def taps (q : Nat → Bool) (n k : Nat) : Bool := tap q n 63 k ^^ tap q n 62 k ^^ tap q n 60 k ^^ tap q n 59 k

theorem regState_taps (d : Nat → Bool) (n : Nat) : ∀ k, k < 64 → (regState d n).getLsbD k = taps (regOut d) n k := by
  induction n with
  | zero =>
    intro k hk
    have : ∀ p, tap (regOut d) 0 p k = false := by
      intro p
      unfold tap back
      by_cases h : k ≤ p
      · have : ¬ (p + 1 - k ≤ 0) := by omega
        simp [this]
      · simp [h]
    simp [taps, this, regState]
  | succ n ih =>
    intro k hk
    rw [regState_bit, crcPoly_bit k hk]
    unfold taps
    simp only [tap_succ]
    have h1 : (regState d n).getLsbD (k + 1) = taps (regOut d) n (k + 1) := by
      by_cases h : k + 1 < 64
      · exact ih _ h
      · have e : k = 63 := by omega
        subst e
        rw [BitVec.getLsbD_of_ge _ _ (by omega)]
        simp [taps, tap]
    rw [h1]
    unfold taps
    cases regOut d n <;> simp
    generalize tap (regOut d) n 63 (k + 1) = a1
    generalize tap (regOut d) n 62 (k + 1) = a2
    generalize tap (regOut d) n 60 (k + 1) = a3
    generalize tap (regOut d) n 59 (k + 1) = a4
    generalize decide (k = 63) = b1
    generalize decide (k = 62) = b2
    generalize decide (k = 60) = b3
    generalize decide (k = 59) = b4
    revert a1 a2 a3 a4 b1 b2 b3 b4
    decide

/-- What leaves the register determines what came in. -/
theorem regOut_rec (d : Nat → Bool) (i : Nat) :
    d i = (regOut d i ^^ back (regOut d) i 60 ^^ back (regOut d) i 61 ^^ back (regOut d) i 63 ^^ back (regOut d) i 64) := by
  have h : regOut d i = ((regState d i).getLsbD 0 ^^ d i) := rfl
  rw [regState_taps d i 0 (by omega)] at h
  unfold taps tap at h
  simp only [Nat.zero_le, decide_true, Bool.true_and, Nat.sub_zero] at h
  rw [h]
  generalize back (regOut d) i 60 = a1
  generalize back (regOut d) i 61 = a2
  generalize back (regOut d) i 63 = a3
  generalize back (regOut d) i 64 = a4
  generalize d i = b
  revert a1 a2 a3 a4 b
  decide

/-- The register is empty exactly if nothing left it in the last 64 steps. -/
theorem regState_zero (d : Nat → Bool) (n : Nat) : regState d n = 0#64 ↔ ∀ i, i < n → n ≤ i + 64 → regOut d i = false := by
  constructor
  · intro h
    have key : ∀ j, j < 64 → j < n → regOut d (n - 1 - j) = false := by
      intro j
      induction j using Nat.strongRecOn with
      | _ j ih =>
        intro hj hn
        have h1 := regState_taps d n (63 - j) (by omega)
        rw [h] at h1
        simp only [BitVec.getLsbD_zero] at h1
        have hz : ∀ p, p < 63 → tap (regOut d) n p (63 - j) = false := by
          intro p hp
          unfold tap back
          by_cases h2 : 63 - j ≤ p
          · have e : n - (p + 1 - (63 - j)) = n - 1 - (j - (63 - p)) := by omega
            rw [e, ih (j - (63 - p)) (by omega) (by omega) (by omega)]
            simp
          · simp [h2]
        unfold taps at h1
        rw [hz 62 (by omega), hz 60 (by omega), hz 59 (by omega)] at h1
        unfold tap back at h1
        have e1 : 63 + 1 - (63 - j) = j + 1 := by omega
        have e2 : j + 1 ≤ n := by omega
        have e3 : n - (j + 1) = n - 1 - j := by omega
        rw [e1, e3] at h1
        simpa [e2] using h1.symm
    intro i hi hn
    have := key (n - 1 - i) (by omega) (by omega)
    have e : n - 1 - (n - 1 - i) = i := by omega
    rwa [e] at this
  · intro h
    apply BitVec.eq_of_getLsbD_eq
    intro k hk
    rw [regState_taps d n k hk]
    have hz : ∀ p, p < 64 → tap (regOut d) n p k = false := by
      intro p hp
      unfold tap back
      by_cases h2 : k ≤ p
      · by_cases h3 : p + 1 - k ≤ n
        · rw [h _ (by omega) (by omega)]; simp
        · simp [h3]
      · simp [h2]
    simp [taps, hz]

theorem regState_pattern (d : Nat → Bool) (n : Nat) : regState d n = 0#64 ↔ PatternSum n d := by
  rw [regState_zero]
  constructor
  · intro h
    refine ⟨fun i => decide (i < n) && regOut d i, ?_, ?_⟩
    · intro i hi
      by_cases h2 : i < n
      · simp [h i h2 hi]
      · simp [h2]
    · intro i hi
      rw [regOut_rec d i]
      have e : ∀ k, back (fun i => decide (i < n) && regOut d i) i k = back (regOut d) i k := by
        intro k
        have : i - k < n := by omega
        simp [back, this]
      simp [e, hi]
  · rintro ⟨q, h1, h2⟩
    have key : ∀ i, i < n → regOut d i = q i := by
      intro i
      induction i using Nat.strongRecOn with
      | _ i ih =>
        intro hi
        have e : ∀ k, 0 < k → back (regOut d) i k = back q i k := by
          intro k hk
          unfold back
          by_cases h3 : k ≤ i
          · rw [ih (i - k) (by omega) (by omega)]
          · simp [h3]
        have a := regOut_rec d i
        rw [h2 i hi, e 60 (by omega), e 61 (by omega), e 63 (by omega), e 64 (by omega)] at a
        generalize back q i 60 = a1 at a
        generalize back q i 61 = a2 at a
        generalize back q i 63 = a3 at a
        generalize back q i 64 = a4 at a
        generalize regOut d i = b at a ⊢
        generalize q i = c at a ⊢
        revert a
        revert a1 a2 a3 a4 b c
        decide
    intro i hi hn
    rw [key i hi, h1 i hn]

/-! ### From bytes to bits -/

theorem regState_congr {d d' : Nat → Bool} {n : Nat} (h : ∀ i, i < n → d i = d' i) : regState d n = regState d' n := by
  induction n with
  | zero => rfl
  | succ n ih =>
    show regBit _ _ = regBit _ _
    rw [ih (fun i hi => h i (by omega)), h n (by omega)]

/-- Eight steps of the register from `s`. -/
def regByte (s : BitVec 64) (v : UInt8) : BitVec 64 :=
  regBit (regBit (regBit (regBit (regBit (regBit (regBit (regBit s (v.toNat.testBit 0)) (v.toNat.testBit 1)) (v.toNat.testBit 2))
    (v.toNat.testBit 3)) (v.toNat.testBit 4)) (v.toNat.testBit 5)) (v.toNat.testBit 6)) (v.toNat.testBit 7)

theorem regBit_xor (s : BitVec 64) (b : Bool) : regBit s b = crcShift s ^^^ regBit 0#64 b := by
  unfold regBit
  rw [crcShift_xor, BitVec.zero_xor]

theorem crcShifts_succ' (n : Nat) (x : BitVec 64) : crcShifts (n + 1) x = crcShift (crcShifts n x) := by
  rw [Nat.add_comm, crcShifts_add]; rfl

theorem regByte_eq (s : BitVec 64) (v : UInt8) : regByte s v = crcByte s v := by
  have h0 : ∀ v : UInt8, regByte 0#64 v = crcByte 0#64 v := u8_all (P := fun v => regByte 0#64 v = crcByte 0#64 v) (by decide +kernel)
  have hx : ∀ s t b, regBit (s ^^^ t) b = crcShift s ^^^ regBit t b := by
    intro s t b
    unfold regBit
    rw [BitVec.xor_assoc, crcShift_xor]
  have h1 : regByte s v = crcShifts 8 s ^^^ regByte 0#64 v := by
    unfold regByte
    generalize v.toNat.testBit 0 = b0
    rw [regBit_xor s b0]
    simp only [hx]
    rfl
  rw [h1, h0, crcByte_eq, crcByte_eq, BitVec.zero_xor, crcShifts_xor]

theorem regState_bytes (s : Str) : regState (bitAt s) (8 * s.length) = s.foldl crcByte 0#64 := by
  have key : ∀ n, ∀ s : Str, s.length = n → regState (bitAt s) (8 * s.length) = s.foldl crcByte 0#64 := by
    intro n
    induction n with
    | zero => intro s hl; rw [List.length_eq_zero_iff.1 hl]; rfl
    | succ n ih =>
      intro s hl
      rcases List.eq_nil_or_concat s with rfl | ⟨b, v, rfl⟩
      · simp at hl
      · simp only [List.concat_eq_append, List.length_append, List.length_singleton] at hl ⊢
        rw [List.foldl_append]
        have hb : ∀ i, i < 8 * b.length → bitAt (b ++ [v]) i = bitAt b i := by
          intro i hi
          unfold bitAt
          rw [List.getD_eq_getElem?_getD, List.getD_eq_getElem?_getD, List.getElem?_append_left (by omega)]
        have hv : ∀ j, j < 8 → bitAt (b ++ [v]) (8 * b.length + j) = v.toNat.testBit j := by
          intro j hj
          unfold bitAt
          have e1 : (8 * b.length + j) / 8 = b.length := by omega
          have e2 : (8 * b.length + j) % 8 = j := by omega
          rw [e1, e2, List.getD_eq_getElem?_getD]
          simp
        show regState (bitAt (b ++ [v])) (8 * b.length + 8) = crcByte (b.foldl crcByte 0#64) v
        rw [← ih b (by omega), ← regByte_eq]
        rw [← regState_congr hb]
        unfold regByte
        rw [← hv 0 (by omega), ← hv 1 (by omega), ← hv 2 (by omega), ← hv 3 (by omega), ← hv 4 (by omega), ← hv 5 (by omega),
          ← hv 6 (by omega), ← hv 7 (by omega)]
        rfl
  exact key _ s rfl

theorem bitAt_xor : ∀ (vs ws : Str), vs.length = ws.length → ∀ i, bitAt (vs.zipWith (· ^^^ ·) ws) i = (bitAt vs i ^^ bitAt ws i) := by
  intro vs ws hl i
  unfold bitAt
  rw [List.getD_eq_getElem?_getD, List.getD_eq_getElem?_getD, List.getD_eq_getElem?_getD, List.getElem?_zipWith]
  by_cases h : i / 8 < vs.length
  · rw [List.getElem?_eq_getElem h, List.getElem?_eq_getElem (hl ▸ h)]
    simp [Nat.testBit_xor]
  · rw [List.getElem?_eq_none (by omega), List.getElem?_eq_none (by omega)]
    simp

/-- Equal registers after texts of one length. -/
theorem crc_same_iff (vs ws : Str) (hl : vs.length = ws.length) (s : BitVec 64) :
    vs.foldl crcByte s = ws.foldl crcByte s ↔ PatternSum (8 * vs.length) (fun i => bitAt vs i ^^ bitAt ws i) := by
  rw [← BitVec.xor_eq_zero_iff, crc_diff vs ws hl, BitVec.xor_self, ← regState_bytes, regState_pattern]
  rw [List.length_zipWith, ← hl, Nat.min_self]
  have e : bitAt (vs.zipWith (· ^^^ ·) ws) = fun i => bitAt vs i ^^ bitAt ws i := funext (bitAt_xor vs ws hl)
  rw [e]

theorem crc_zeros (n : Nat) : (List.replicate n (0 : UInt8)).foldl crcByte 0#64 = 0#64 := by
  induction n with
  | zero => rfl
  | succ n ih =>
    rw [List.replicate_succ, List.foldl_cons]
    have : crcByte 0#64 0 = 0#64 := by decide +kernel
    rw [this, ih]

theorem crc_framed (n : Nat) (s : Str) : (framed n s).foldl crcByte 0#64 = s.foldl crcByte (~~~0#64) := by
  unfold framed
  rw [List.foldl_append, List.foldl_append, crc_zeros]
  have : crcLead.foldl crcByte 0#64 = ~~~0#64 := by decide +kernel
  rw [this]

theorem checksum_collide (a b : Str) : crcChecksum a = crcChecksum b ↔ Collide a b := by
  unfold crcChecksum Collide
  rw [BitVec.not_inj, ← crc_framed (max a.length b.length) a, ← crc_framed (max a.length b.length) b]
  have h1 : ∀ s : Str, s.length ≤ max a.length b.length → (framed (max a.length b.length) s).length = max a.length b.length + 8 := by
    intro s hs
    simp only [framed, List.length_append, List.length_replicate, crcLead, List.length_cons, List.length_nil]
    omega
  have ha := h1 a (by omega)
  have hb := h1 b (by omega)
  rw [crc_same_iff _ _ (ha.trans hb.symm), ha]

/-- **C85** (exactly).  For all times and paths: two requests have the same id exactly if the texts made of time and path differ
by a sum of shifted copies of the pattern of CRC-64/ISO. -/
theorem C85_exact (t t' : Int) (p p' : Str) : uniqId t p = uniqId t' p' ↔ Collide (formatInt t ++ p) (formatInt t' ++ p') :=
  checksum_collide _ _

/-- **C85** (one length).  If the texts are equally long, the initial value plays no role. -/
theorem C85_exact_length (t t' : Int) (p p' : Str) (hl : (formatInt t ++ p).length = (formatInt t' ++ p').length) :
    uniqId t p = uniqId t' p' ↔
    PatternSum (8 * (formatInt t ++ p).length) (fun i => bitAt (formatInt t ++ p) i ^^ bitAt (formatInt t' ++ p') i) := by
  unfold uniqId crcChecksum
  rw [BitVec.not_inj, crc_same_iff _ _ hl]

theorem text_of_bits (a b : Str) (hl : a.length = b.length) (h : ∀ i, bitAt a i = bitAt b i) : a = b := by
  apply List.ext_getElem hl
  intro i ha hb
  apply UInt8.toNat_inj.1
  apply Nat.eq_of_testBit_eq
  intro j
  by_cases hj : j < 8
  · have := h (8 * i + j)
    unfold bitAt at this
    have e1 : (8 * i + j) / 8 = i := by omega
    have e2 : (8 * i + j) % 8 = j := by omega
    rw [e1, e2, List.getD_eq_getElem?_getD, List.getD_eq_getElem?_getD, List.getElem?_eq_getElem ha, List.getElem?_eq_getElem hb] at this
    exact this
  · have hp : 2 ^ 8 ≤ 2 ^ j := Nat.pow_le_pow_right (by decide) (by omega)
    have l : ∀ x : UInt8, x.toNat.testBit j = false := by
      intro x
      apply Nat.testBit_lt_two_pow
      have := x.toNat_lt
      omega
    rw [l, l]

/-- **C85** (short texts).  No two requests of which the texts have at most eight bytes and one length collide, and in general none whose
texts of one length differ only in 64 consecutive bits, wherever these begin. -/
theorem C85_burst (t t' : Int) (p p' : Str) (hl : (formatInt t ++ p).length = (formatInt t' ++ p').length) (k : Nat)
    (hd : ∀ i, bitAt (formatInt t ++ p) i ≠ bitAt (formatInt t' ++ p') i → k ≤ i ∧ i < k + 64)
    (hne : formatInt t ++ p ≠ formatInt t' ++ p') : uniqId t p ≠ uniqId t' p' := by
  intro h
  refine hne (text_of_bits _ _ hl ?_)
  rw [C85_exact_length t t' p p' hl] at h
  obtain ⟨q, h1, h2⟩ := h
  dsimp only at h2
  have z : ∀ i, ¬ (k ≤ i ∧ i < k + 64) → (bitAt (formatInt t ++ p) i ^^ bitAt (formatInt t' ++ p') i) = false := by
    intro i hi
    by_cases e : bitAt (formatInt t ++ p) i = bitAt (formatInt t' ++ p') i
    · rw [e, Bool.xor_self]
    · exact absurd (hd i e) hi
  generalize hnl : 8 * (formatInt t ++ p).length = n at h1 h2
  -- before the burst nothing begins
  have lo : ∀ i, i < k → q i = false := by
    intro i
    induction i using Nat.strongRecOn with
    | _ i ih =>
      intro hi
      by_cases hn : i < n
      · have a := h2 i hn
        rw [z i (by omega)] at a
        have e : ∀ j, 0 < j → back q i j = false := by
          intro j hj
          unfold back
          by_cases h3 : j ≤ i
          · rw [ih (i - j) (by omega) (by omega)]; simp
          · simp [h3]
        rw [e 60 (by omega), e 61 (by omega), e 63 (by omega), e 64 (by omega)] at a
        simpa using a.symm
      · exact h1 i (by omega)
  -- after it, nothing can have begun
  have hi' : ∀ m, ∀ i, k ≤ i → n - i ≤ m → q i = false := by
    intro m
    induction m with
    | zero => intro i hk hm; exact h1 i (by omega)
    | succ m ih =>
      intro i hk hm
      by_cases hn : i + 64 < n
      · have a := h2 (i + 64) hn
        rw [z (i + 64) (by omega)] at a
        have e : ∀ j, j < 64 → back q (i + 64) j = false := by
          intro j hj
          unfold back
          rw [ih (i + 64 - j) (by omega) (by omega)]; simp
        rw [ih (i + 64) (by omega) (by omega), e 60 (by omega), e 61 (by omega), e 63 (by omega)] at a
        have e5 : back q (i + 64) 64 = q i := by unfold back; simp
        rw [e5] at a
        simpa using a.symm
      · exact h1 i (by omega)
  have all : ∀ i, q i = false := fun i => if h : i < k then lo i h else hi' (n - i) i (by omega) (Nat.le_refl _)
  intro i
  by_cases hn : i < n
  · have a := h2 i hn
    simp only [all, back, Bool.and_false, Bool.xor_false] at a
    generalize bitAt (formatInt t ++ p) i = x at a ⊢
    generalize bitAt (formatInt t' ++ p') i = y at a ⊢
    revert a; revert x y; decide
  · unfold bitAt
    rw [List.getD_eq_getElem?_getD, List.getD_eq_getElem?_getD, List.getElem?_eq_none (by omega), List.getElem?_eq_none (by omega)]

/-- The collision of C85_violated, seen with `C85_exact_length`. -/
example : PatternSum (8 * 10) (fun i => bitAt b!"0aaaaaaaaa" i ^^ bitAt b!"0qaaaaaaaz" i) :=
  (C85_exact_length 0 0 b!"aaaaaaaaa" b!"qaaaaaaaz" (by decide +kernel)).1 (by decide +kernel)

/-- Texts of different lengths that do not collide. -/
example : ¬ Collide b!"5/a" b!"17/a" := by
  have h := C85_exact 5 17 b!"/a" b!"/a"
  have e : formatInt 5 = b!"5" ∧ formatInt 17 = b!"17" := by decide +kernel
  rw [e.1, e.2] at h
  exact fun c => absurd (h.2 c) (by decide +kernel)

/-- Only bits 16 to 79 of the texts differ. -/
example : uniqId 0 b!"/abcdefg/x" ≠ uniqId 0 b!"/hijkl12/x" := by
  refine C85_burst 0 0 b!"/abcdefg/x" b!"/hijkl12/x" (by decide +kernel) 16 ?_ (by decide +kernel)
  intro i hi
  by_cases h : i < 96
  · have key : ∀ i, i < 96 → bitAt (formatInt 0 ++ b!"/abcdefg/x") i ≠ bitAt (formatInt 0 ++ b!"/hijkl12/x") i → 16 ≤ i ∧ i < 16 + 64 := by
      decide +kernel
    exact key i h hi
  · have l1 : (formatInt 0 ++ b!"/abcdefg/x").length = 11 := by decide +kernel
    have l2 : (formatInt 0 ++ b!"/hijkl12/x").length = 11 := by decide +kernel
    refine absurd ?_ hi
    unfold bitAt
    rw [List.getD_eq_getElem?_getD, List.getD_eq_getElem?_getD, List.getElem?_eq_none (by omega), List.getElem?_eq_none (by omega)]

end Verif
