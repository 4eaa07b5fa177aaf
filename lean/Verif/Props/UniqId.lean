import Verif.Model.UniqId
import Verif.Base.U8
/-
C85: request ids.
-/
namespace Verif

/-! ### crc64 is linear and injective -/

theorem crcShift_eq (x : BitVec 64) : crcShift x = (x >>> 1) ^^^ (if x.getLsbD 0 then crcPoly else 0#64) := by
  have h : (x &&& 1 = 1) ↔ x.getLsbD 0 = true := by
    constructor
    · intro h
      have := congrArg (fun y => BitVec.getLsbD y 0) h
      simpa using this
    · intro h
      apply BitVec.eq_of_getLsbD_eq
      intro i hi
      by_cases h0 : i = 0
      · subst h0; simp [h]
      · simp [BitVec.getLsbD_one, h0]
  unfold crcShift
  by_cases c : x.getLsbD 0 = true
  · rw [if_pos (h.2 c), if_pos c]
  · rw [if_neg (fun a => c (h.1 a)), if_neg c]; simp

theorem xor_cancel4 (a b p : BitVec 64) : a ^^^ b = (a ^^^ p) ^^^ (b ^^^ p) := by
  rw [show (a ^^^ p) ^^^ (b ^^^ p) = a ^^^ b ^^^ (p ^^^ p) by ac_rfl, BitVec.xor_self, BitVec.xor_zero]

theorem crcShift_xor (x y : BitVec 64) : crcShift (x ^^^ y) = crcShift x ^^^ crcShift y := by
  simp only [crcShift_eq, BitVec.ushiftRight_xor_distrib, BitVec.getLsbD_xor]
  cases x.getLsbD 0 <;> cases y.getLsbD 0 <;> simp <;> first | exact xor_cancel4 _ _ _ | ac_rfl

theorem crcShift_zero {x : BitVec 64} (h : crcShift x = 0#64) : x = 0#64 := by
  rw [crcShift_eq] at h
  have h0 : x.getLsbD 0 = false := by
    cases c : x.getLsbD 0 with
    | false => rfl
    | true =>
      rw [c, if_pos rfl] at h
      have := congrArg (fun y => BitVec.getLsbD y 63) h
      simp [crcPoly] at this
  rw [h0] at h
  simp only [Bool.false_eq_true, if_false, BitVec.xor_zero] at h
  apply BitVec.eq_of_getLsbD_eq
  intro i hi
  by_cases hi0 : i = 0
  · subst hi0; rw [h0]; simp
  · have := congrArg (fun y => BitVec.getLsbD y (i - 1)) h
    simp only [BitVec.getLsbD_ushiftRight, BitVec.getLsbD_zero] at this
    rw [show 1 + (i - 1) = i by omega] at this
    rw [this]; simp

theorem crcShifts_xor (n : Nat) (x y : BitVec 64) : crcShifts n (x ^^^ y) = crcShifts n x ^^^ crcShifts n y := by
  induction n generalizing x y with
  | zero => rfl
  | succ n ih => simp only [crcShifts, crcShift_xor, ih]

theorem crcShifts_zero {n : Nat} {x : BitVec 64} (h : crcShifts n x = 0#64) : x = 0#64 := by
  induction n generalizing x with
  | zero => exact h
  | succ n ih => exact crcShift_zero (ih h)

theorem crcShifts_add (n m : Nat) (x : BitVec 64) : crcShifts (n + m) x = crcShifts n (crcShifts m x) := by
  induction m generalizing x with
  | zero => rfl
  | succ m ih => rw [Nat.add_succ]; simp only [crcShifts, ih]

/-- A number with low bits zero is only shifted. -/
theorem crcShifts_low (n : Nat) (x : BitVec 64) (h : ∀ i, i < n → x.getLsbD i = false) : crcShifts n x = x >>> n := by
  induction n generalizing x with
  | zero => simp [crcShifts]
  | succ n ih =>
    have h1 : crcShift x = x >>> 1 := by rw [crcShift_eq, h 0 (by omega)]; simp
    rw [crcShifts, h1, ih, Nat.add_comm n 1, BitVec.shiftRight_add]
    intro i hi
    simp only [BitVec.getLsbD_ushiftRight]
    exact h _ (by omega)

/-- A byte as a number of 64 bits. -/
def crcWord (v : UInt8) : BitVec 64 := BitVec.ofNat 64 v.toNat

theorem crcWord_xor (a b : UInt8) : crcWord (a ^^^ b) = crcWord a ^^^ crcWord b := by
  apply BitVec.eq_of_toNat_eq
  have ha := a.toNat_lt
  have hb := b.toNat_lt
  have hab := (a ^^^ b).toNat_lt
  simp only [crcWord, BitVec.toNat_xor, BitVec.toNat_ofNat]
  rw [Nat.mod_eq_of_lt (by omega), Nat.mod_eq_of_lt (by omega), Nat.mod_eq_of_lt (by omega), UInt8.toNat_xor]

theorem crcByte_eq (s : BitVec 64) (v : UInt8) : crcByte s v = crcShifts 8 (s ^^^ crcWord v) := by
  have hs : s = crcWord (UInt8.ofNat s.toNat) ^^^ ((s >>> 8) <<< 8) := by
    apply BitVec.eq_of_getLsbD_eq
    intro i hi
    simp only [BitVec.getLsbD_xor, BitVec.getLsbD_shiftLeft, BitVec.getLsbD_ushiftRight, crcWord, BitVec.getLsbD_ofNat,
      hi, decide_true, Bool.true_and]
    have ht : (UInt8.ofNat s.toNat).toNat = s.toNat % 2 ^ 8 := by simp
    rw [ht, Nat.testBit_mod_two_pow]
    by_cases h8 : i < 8
    · simp [h8, BitVec.getLsbD]
    · simp only [h8, decide_false, Bool.false_and, Bool.not_false, Bool.true_and, Bool.false_xor]
      rw [show 8 + (i - 8) = i by omega]
  have hl : crcShifts 8 ((s >>> 8) <<< 8) = s >>> 8 := by
    rw [crcShifts_low]
    · apply BitVec.eq_of_getLsbD_eq
      intro i hi
      simp only [BitVec.getLsbD_shiftLeft, BitVec.getLsbD_ushiftRight]
      by_cases h56 : 8 + i < 64
      · simp only [h56, decide_true, Bool.true_and]
        have h1 : ¬ (8 + i < 8) := by omega
        simp only [h1, decide_false, Bool.not_false, Bool.true_and]
        rw [show 8 + (8 + i - 8) = 8 + i by omega]
      · simp only [h56, decide_false, Bool.false_and]
        rw [BitVec.getLsbD_of_ge _ _ (by omega)]
    · intro i hi
      simp only [BitVec.getLsbD_shiftLeft, hi, decide_true, Bool.not_true, Bool.and_false, Bool.false_and]
  conv => rhs; rw [hs]
  have e : crcWord (UInt8.ofNat s.toNat) ^^^ ((s >>> 8) <<< 8) ^^^ crcWord v =
      crcWord (UInt8.ofNat s.toNat ^^^ v) ^^^ ((s >>> 8) <<< 8) := by rw [crcWord_xor]; ac_rfl
  rw [e, crcShifts_xor, hl]
  rfl

/-- The difference of two checksums is the checksum, begun with 0, of the difference. -/
theorem crc_diff : ∀ (vs ws : Str), vs.length = ws.length → ∀ s t : BitVec 64,
    vs.foldl crcByte s ^^^ ws.foldl crcByte t = (vs.zipWith (· ^^^ ·) ws).foldl crcByte (s ^^^ t) := by
  intro vs
  induction vs with
  | nil => intro ws h s t; cases ws with
    | nil => rfl
    | cons w ws => simp at h
  | cons v vs ih => intro ws h s t; cases ws with
    | nil => simp at h
    | cons w ws =>
      simp only [List.length_cons, Nat.add_right_cancel_iff] at h
      simp only [List.foldl_cons, List.zipWith_cons_cons, ih ws h]
      congr 1
      rw [crcByte_eq, crcByte_eq, crcByte_eq, ← crcShifts_xor, crcWord_xor]
      congr 1; ac_rfl

theorem crc_inj (b : Str) {s t : BitVec 64} (h : b.foldl crcByte s = b.foldl crcByte t) : s = t := by
  induction b generalizing s t with
  | nil => exact h
  | cons v b ih =>
    have := ih h
    rw [crcByte_eq, crcByte_eq] at this
    have h2 : crcShifts 8 ((s ^^^ crcWord v) ^^^ (t ^^^ crcWord v)) = 0#64 := by rw [crcShifts_xor, this, BitVec.xor_self]
    have h3 := crcShifts_zero h2
    have h4 : s ^^^ t = 0#64 := by
      rw [← h3, show s ^^^ crcWord v ^^^ (t ^^^ crcWord v) = s ^^^ t ^^^ (crcWord v ^^^ crcWord v) by ac_rfl]
      simp
    exact BitVec.xor_eq_zero_iff.1 h4

/-! ### Recovering short differences -/

/-- The combination of the vectors `ls` selected by the bits of `y`. -/
def crcComb : List (BitVec 64) → BitVec 64 → BitVec 64
  | [], _ => 0#64
  | l :: ls, y => (if y.getLsbD 0 then l else 0#64) ^^^ crcComb ls (y >>> 1)

theorem crcComb_xor (ls : List (BitVec 64)) (x y : BitVec 64) : crcComb ls (x ^^^ y) = crcComb ls x ^^^ crcComb ls y := by
  induction ls generalizing x y with
  | nil => simp [crcComb]
  | cons l ls ih =>
    simp only [crcComb, BitVec.ushiftRight_xor_distrib, ih, BitVec.getLsbD_xor]
    cases x.getLsbD 0 <;> cases y.getLsbD 0 <;> simp <;> first
      | ac_rfl
      | (rw [BitVec.xor_comm l, BitVec.xor_comm l]; exact xor_cancel4 _ _ _)

/-- Inverses of "checksum of a difference of 16 half bytes" and "of 8 bytes", found by Gaussian elimination. -/
def crcInv4 : List (BitVec 64) :=
  [0x4000000070000004, 0x80000000e0000008, 0x700000003000000b, 0x900000002000000d, 0x57000000b4000001, 0xa90000006c000002,
   0x4500000077000004, 0x8a000000ee000008, 0x740000003700000b, 0x980000002e00000d, 0x57000000b3000001, 0xa900000062000002,
   0x457000007b400004, 0x8a900000e6c00008, 0x745000003770000b, 0x98a000002ee0000d, 0x57400000b3700001, 0xa980000062e00002,
   0x457000007b300004, 0x8a900000e6200008, 0x7457000037b4000b, 0x98a900002e6c000d, 0x57450000b3770001, 0xa98a000062ee0002,
   0x457400007b370004, 0x8a980000e62e0008, 0x7457000037b3000b, 0x98a900002e62000d, 0x57457000b37b4001, 0xa98a900062e6c002,
   0x457450007b377004, 0x8a98a000e62ee008, 0x7457400037b3700b, 0x98a980002e62e00d, 0x57457000b37b3001, 0xa98a900062e62002,
   0x457457007b37b404, 0x8a98a900e62e6c08, 0x7457450037b3770b, 0x98a98a002e62ee0d, 0x57457400b37b3701, 0xa98a980062e62e02,
   0x457457007b37b304, 0x8a98a900e62e6208, 0x7457457037b37b4b, 0x98a98a902e62e6cd, 0x57457450b37b3771, 0xa98a98a062e62ee2,
   0x457457407b37b374, 0x8a98a980e62e62e8, 0x7457457037b37b3b, 0x98a98a902e62e62d, 0x57457457b37b37b5, 0xa98a98a962e62e6e,
   0x457457457b37b373, 0x8a98a98ae62e62e6, 0x7457457437b37b3c, 0x98a98a982e62e623, 0x57457457b37b37b2, 0xa98a98a962e62e60,
   0x357457453b37b374, 0x6a98a98a662e62e8, 0xc4574574c7b37b3b, 0xf8a98a987e62e62d]

def crcInv8 : List (BitVec 64) :=
  [0x1000000000000b0, 0x3000000000000d0, 0x700000000000010, 0xe00000000000020, 0x1c00000000000040, 0x3800000000000080,
   0x71000000000000b0, 0xe3000000000000d0, 0xc701000000000010, 0x8e03000000000020, 0x1c07000000000040, 0x380e000000000080,
   0x711c0000000000b0, 0xe3380000000000d0, 0xc771000000000010, 0x8ee3000000000020, 0x1cc7010000000040, 0x388e030000000080,
   0x711c0700000000b0, 0xe3380e00000000d0, 0xc7711c0000000010, 0x8ee3380000000020, 0x1cc7710000000040, 0x388ee30000000080,
   0x711cc701000000b0, 0xe3388e03000000d0, 0xc7711c0700000010, 0x8ee3380e00000020, 0x1cc7711c00000040, 0x388ee33800000080,
   0x711cc771000000b0, 0xe3388ee3000000d0, 0xc7711cc701000010, 0x8ee3388e03000020, 0x1cc7711c07000040, 0x388ee3380e000080,
   0x711cc7711c0000b0, 0xe3388ee3380000d0, 0xc7711cc771000010, 0x8ee3388ee3000020, 0x1cc7711cc7010040, 0x388ee3388e030080,
   0x711cc7711c0700b0, 0xe3388ee3380e00d0, 0xc7711cc7711c0010, 0x8ee3388ee3380020, 0x1cc7711cc7710040, 0x388ee3388ee30080,
   0x711cc7711cc701b0, 0xe3388ee3388e03d0, 0xc7711cc7711c0710, 0x8ee3388ee3380e20, 0x1cc7711cc7711c40, 0x388ee3388ee33880,
   0x711cc7711cc771b0, 0xe3388ee3388ee3d0, 0xc7711cc7711cc711, 0x8ee3388ee3388e23, 0x1cc7711cc7711c47, 0x388ee3388ee3388e,
   0x711cc7711cc771ac, 0xe3388ee3388ee3e8, 0xc7711cc7711cc761, 0x8ee3388ee3388ec3]

theorem crcInv4_spec : ∀ n : Fin 16, ∀ x : Fin 16,
    crcComb crcInv4 (crcShifts (8 * (n.val + 1)) (crcWord (UInt8.ofNat x))) = BitVec.ofNat 64 (x * 2 ^ (4 * n.val)) := by
  decide +kernel

theorem crcInv8_half : ∀ n : Fin 8, ∀ x : Fin 16,
    crcComb crcInv8 (crcShifts (8 * (n.val + 1)) (crcWord (UInt8.ofNat x))) = BitVec.ofNat 64 (x * 2 ^ (8 * n.val)) ∧
    crcComb crcInv8 (crcShifts (8 * (n.val + 1)) (crcWord (UInt8.ofNat (16 * x)))) =
      BitVec.ofNat 64 (16 * x * 2 ^ (8 * n.val)) := by
  decide +kernel

theorem byte_halves : ∀ x : Fin 256, UInt8.ofNat x = UInt8.ofNat (16 * (x.val / 16)) ^^^ UInt8.ofNat (x.val % 16) := by
  decide +kernel

theorem word_halves : ∀ n : Fin 8, ∀ x : Fin 256, BitVec.ofNat 64 (x * 2 ^ (8 * n.val)) =
    BitVec.ofNat 64 (16 * (x.val / 16) * 2 ^ (8 * n.val)) ^^^ BitVec.ofNat 64 (x.val % 16 * 2 ^ (8 * n.val)) := by
  decide +kernel

theorem crcInv8_spec (n : Fin 8) (x : Fin 256) :
    crcComb crcInv8 (crcShifts (8 * (n.val + 1)) (crcWord (UInt8.ofNat x))) = BitVec.ofNat 64 (x * 2 ^ (8 * n.val)) := by
  rw [byte_halves x, crcWord_xor, crcShifts_xor, crcComb_xor, word_halves n x,
    (crcInv8_half n ⟨x.val / 16, by omega⟩).2, (crcInv8_half n ⟨x.val % 16, by omega⟩).1]

theorem crc_cons (x : UInt8) (xs : Str) :
    (x :: xs).foldl crcByte 0#64 = crcShifts (8 * (xs.length + 1)) (crcWord x) ^^^ xs.foldl crcByte 0#64 := by
  have key : ∀ (xs : Str) (d : BitVec 64), xs.foldl crcByte d = crcShifts (8 * xs.length) d ^^^ xs.foldl crcByte 0#64 := by
    intro xs
    induction xs with
    | nil => intro d; simp [crcShifts]
    | cons x xs ih =>
      intro d
      simp only [List.foldl_cons, List.length_cons]
      rw [ih (crcByte d x), ih (crcByte 0#64 x), ← BitVec.xor_assoc]
      congr 1
      rw [show 8 * (xs.length + 1) = 8 * xs.length + 8 by omega, crcShifts_add, ← crcShifts_xor]
      congr 1
      rw [crcByte_eq, crcByte_eq, ← crcShifts_xor]
      congr 1
      simp
  rw [List.foldl_cons, key xs]
  congr 1
  rw [show 8 * (xs.length + 1) = 8 * xs.length + 8 by omega, crcShifts_add, crcByte_eq]
  simp

/-- If the contributions of single places can be recovered, a checksum begun with 0 is 0 only for zeros. -/
theorem crc_zero (w m : Nat) (hwm : w * m ≤ 64) (L : List (BitVec 64))
    (hL : ∀ n x : Nat, n < m → x < 2 ^ w → x < 256 →
      crcComb L (crcShifts (8 * (n + 1)) (crcWord (UInt8.ofNat x))) = BitVec.ofNat 64 (x * 2 ^ (w * n))) :
    ∀ xs : Str, xs.length ≤ m → (∀ x ∈ xs, x.toNat < 2 ^ w) →
      (crcComb L (xs.foldl crcByte 0#64)).toNat < 2 ^ (w * xs.length) ∧ (xs.foldl crcByte 0#64 = 0#64 → ∀ x ∈ xs, x = 0) := by
  have hz : crcComb L 0#64 = 0#64 := by
    have := crcComb_xor L 0#64 0#64
    simpa using this
  intro xs
  induction xs with
  | nil => intro _ _; simp [hz]
  | cons x xs ih =>
    intro hlen hx
    simp only [List.length_cons] at hlen
    obtain ⟨i1, i2⟩ := ih (by omega) (fun y hy => hx y (List.mem_cons_of_mem _ hy))
    have hx0 := hx x (List.mem_cons_self ..)
    have hc := hL xs.length x.toNat (by omega) hx0 x.toNat_lt
    rw [UInt8.ofNat_toNat] at hc
    have hle : w * (xs.length + 1) ≤ 64 := Nat.le_trans (Nat.mul_le_mul_left w hlen) hwm
    have hlt : x.toNat * 2 ^ (w * xs.length) < 2 ^ (w * (xs.length + 1)) := by
      rw [Nat.mul_succ, Nat.pow_add, Nat.mul_comm]
      exact Nat.mul_lt_mul_of_pos_left hx0 (Nat.two_pow_pos _)
    have h64 : (2 : Nat) ^ (w * (xs.length + 1)) ≤ 2 ^ 64 := Nat.pow_le_pow_right (by omega) hle
    have hn : (BitVec.ofNat 64 (x.toNat * 2 ^ (w * xs.length))).toNat = x.toNat * 2 ^ (w * xs.length) := by
      rw [BitVec.toNat_ofNat, Nat.mod_eq_of_lt (by omega)]
    refine ⟨?_, ?_⟩
    · rw [crc_cons, crcComb_xor, hc, BitVec.toNat_xor, hn]
      refine Nat.xor_lt_two_pow hlt (Nat.lt_of_lt_of_le i1 ?_)
      exact Nat.pow_le_pow_right (by omega) (Nat.mul_le_mul_left w (by simp))
    · intro h0
      rw [crc_cons] at h0
      have heq := BitVec.xor_eq_zero_iff.1 h0
      have hx' : x = 0 := by
        rw [heq] at hc
        have h2 := congrArg BitVec.toNat hc
        rw [hn] at h2
        rw [h2] at i1
        have : x.toNat = 0 := by
          rcases Nat.eq_zero_or_pos x.toNat with h | h
          · exact h
          · have := Nat.mul_le_mul_right (2 ^ (w * xs.length)) h
            omega
        exact UInt8.toNat_inj.1 this
      subst hx'
      have : xs.foldl crcByte 0#64 = 0#64 := by
        rw [← heq]
        have : ∀ n, crcShifts n 0#64 = 0#64 := by
          intro n
          have := crcShifts_xor n 0#64 0#64
          simpa using this
        exact this _
      intro y hy
      rcases List.mem_cons.1 hy with rfl | hy
      · rfl
      · exact i2 this y hy

theorem crc_zero4 (xs : Str) (hl : xs.length ≤ 16) (hx : ∀ x ∈ xs, x.toNat < 16) (h : xs.foldl crcByte 0#64 = 0#64) :
    ∀ x ∈ xs, x = 0 :=
  (crc_zero 4 16 (by omega) crcInv4 (fun n x hn hx _ => crcInv4_spec ⟨n, hn⟩ ⟨x, hx⟩) xs hl hx).2 h

theorem crc_zero8 (xs : Str) (hl : xs.length ≤ 8) (h : xs.foldl crcByte 0#64 = 0#64) : ∀ x ∈ xs, x = 0 :=
  (crc_zero 8 8 (by omega) crcInv8 (fun n x hn hx _ => crcInv8_spec ⟨n, hn⟩ ⟨x, hx⟩) xs hl (fun x _ => x.toNat_lt)).2 h

theorem zipXor_zero : ∀ (x y : Str), x.length = y.length → (∀ d ∈ x.zipWith (· ^^^ ·) y, d = 0) → x = y := by
  intro x
  induction x with
  | nil => intro y h _; cases y with
    | nil => rfl
    | cons => simp at h
  | cons a x ih => intro y h hz; cases y with
    | nil => simp at h
    | cons b y =>
      simp only [List.length_cons, Nat.add_right_cancel_iff] at h
      have h1 := hz (a ^^^ b) (by simp)
      have h2 := ih y h (fun d hd => hz d (by simp [hd]))
      rw [UInt8.xor_eq_zero_iff.1 h1, h2]

/-- Texts that differ in one place only: `a ++ x ++ b` and `a ++ y ++ b`. -/
theorem checksum_window (a x y b : Str) (hl : x.length = y.length)
    (h : crcChecksum (a ++ x ++ b) = crcChecksum (a ++ y ++ b)) :
    (x.zipWith (· ^^^ ·) y).foldl crcByte 0#64 = 0#64 := by
  unfold crcChecksum at h
  have h1 := BitVec.not_inj.1 h
  simp only [List.foldl_append] at h1
  have h2 := crc_inj b h1
  have h3 := crc_diff x y hl (a.foldl crcByte (~~~0#64)) (a.foldl crcByte (~~~0#64))
  rw [h2, BitVec.xor_self, BitVec.xor_self] at h3
  exact h3.symm

/-! ### The decimal digits of a time -/

theorem formatDigits_fuel : ∀ (f n : Nat), n < f → ∀ g, n < g → formatDigits f n = formatDigits g n := by
  intro f
  induction f with
  | zero => intro n h; omega
  | succ f ih =>
    intro n h g hg
    obtain ⟨g, rfl⟩ : ∃ g', g = g' + 1 := ⟨g - 1, by omega⟩
    unfold formatDigits
    by_cases hn : n < 10
    · rw [if_pos hn, if_pos hn]
    · rw [if_neg hn, if_neg hn, ih (n / 10) (by omega) g (by omega)]

/-- The last `k` digits. -/
def lastDigits : Nat → Nat → Str
  | 0, _ => []
  | k + 1, n => lastDigits k (n / 10) ++ [UInt8.ofNat (48 + n % 10)]

theorem lastDigits_length (k n : Nat) : (lastDigits k n).length = k := by
  induction k generalizing n with
  | zero => rfl
  | succ k ih => simp [lastDigits, ih]

theorem formatNat_split (k n : Nat) (h : 10 ^ k ≤ n) : formatNat n = formatNat (n / 10 ^ k) ++ lastDigits k n := by
  induction k generalizing n with
  | zero => simp [lastDigits]
  | succ k ih =>
    have h10 : 10 ≤ n := Nat.le_trans (by rw [Nat.pow_succ]; have := Nat.pow_pos (n := k) (show 0 < 10 by omega); omega) h
    have h1 : formatNat n = formatNat (n / 10) ++ [UInt8.ofNat (48 + n % 10)] := by
      conv => lhs; unfold formatNat formatDigits
      rw [if_neg (by omega)]
      congr 1
      exact formatDigits_fuel _ _ (by omega) _ (by omega)
    rw [h1, ih (n / 10) (by rw [Nat.pow_succ] at h; omega), lastDigits, List.append_assoc, Nat.div_div_eq_div_mul,
      Nat.pow_succ, Nat.mul_comm]

theorem digit_inj : ∀ a, a < 10 → ∀ b, b < 10 → UInt8.ofNat (48 + a) = UInt8.ofNat (48 + b) → a = b := by decide

theorem digit_xor : ∀ a, a < 10 → ∀ b, b < 10 → (UInt8.ofNat (48 + a) ^^^ UInt8.ofNat (48 + b)).toNat < 16 := by decide

theorem lastDigits_inj (k n m : Nat) (h : lastDigits k n = lastDigits k m) : n % 10 ^ k = m % 10 ^ k := by
  induction k generalizing n m with
  | zero => omega
  | succ k ih =>
    simp only [lastDigits] at h
    obtain ⟨h1, h2⟩ := List.append_inj' h rfl
    have h3 := ih _ _ h1
    simp only [List.cons.injEq, and_true] at h2
    have h4 := digit_inj _ (Nat.mod_lt _ (by omega)) _ (Nat.mod_lt _ (by omega)) h2
    rw [Nat.pow_succ, Nat.mul_comm, Nat.mod_mul, Nat.mod_mul, h3, h4]

theorem lastDigits_xor (k n m : Nat) : ∀ x ∈ (lastDigits k n).zipWith (· ^^^ ·) (lastDigits k m), x.toNat < 16 := by
  induction k generalizing n m with
  | zero => intro x hx; simp [lastDigits] at hx
  | succ k ih =>
    intro x hx
    simp only [lastDigits] at hx
    rw [List.zipWith_append (by rw [lastDigits_length, lastDigits_length])] at hx
    rcases List.mem_append.1 hx with hx | hx
    · exact ih _ _ x hx
    · simp only [List.zipWith_cons_cons, List.zipWith_nil_right, List.mem_singleton] at hx
      rw [hx]
      exact digit_xor _ (Nat.mod_lt _ (by omega)) _ (Nat.mod_lt _ (by omega))

/-! ### C85 -/

/-- **C85**, same path: requests for one path at different times have different ids, if the times (in nanoseconds since 1970)
agree but for the last 16 digits, that is, lie in the same interval of 10^16 nanoseconds (115 days). -/
theorem C85_times_partial (t t' : Nat) (path : Str) (hmin : 10 ^ 16 ≤ t) (hspan : t / 10 ^ 16 = t' / 10 ^ 16) (hne : t ≠ t') :
    uniqId t path ≠ uniqId t' path := by
  intro h
  have hmin' : 10 ^ 16 ≤ t' := by
    have : 1 ≤ t' / 10 ^ 16 := by rw [← hspan]; exact (Nat.le_div_iff_mul_le (by decide)).2 (by omega)
    have := (Nat.le_div_iff_mul_le (by decide)).1 this
    omega
  have f : ∀ n : Nat, formatInt n = formatNat n := by
    intro n; unfold formatInt; rw [if_neg (by omega)]; rfl
  unfold uniqId at h
  rw [f, f, formatNat_split 16 t hmin, formatNat_split 16 t' hmin', ← hspan] at h
  have hz := checksum_window _ (lastDigits 16 t) (lastDigits 16 t') path (by simp [lastDigits_length]) h
  have h0 := crc_zero4 _ (by simp [lastDigits_length]) (lastDigits_xor 16 t t') hz
  have he := lastDigits_inj 16 t t' (zipXor_zero _ _ (by simp [lastDigits_length]) h0)
  have e1 := Nat.div_add_mod t (10 ^ 16)
  have e2 := Nat.div_add_mod t' (10 ^ 16)
  rw [hspan, he, e2] at e1
  exact hne e1.symm

/-- **C85**, same time: requests at the same nanosecond whose paths have the same length and differ only within eight
consecutive bytes have different ids. -/
theorem C85_paths_partial (t : Int) (a x y b : Str) (hl : x.length = y.length) (h8 : x.length ≤ 8) (hne : x ≠ y) :
    uniqId t (a ++ x ++ b) ≠ uniqId t (a ++ y ++ b) := by
  intro h
  unfold uniqId at h
  have hz := checksum_window (formatInt t ++ a) x y b hl (by simpa only [List.append_assoc] using h)
  exact hne (zipXor_zero x y hl (crc_zero8 _ (by simp [hl]; omega) hz))

example : uniqId 1700000000123456789 b!"/a" ≠ uniqId (1700000000123456790 : Nat) b!"/a" :=
  C85_times_partial 1700000000123456789 1700000000123456790 b!"/a" (by decide) (by decide) (by decide)
example : uniqId 1700000000123456789 b!"/user/7/x" ≠ uniqId 1700000000123456789 b!"/user/8/x" :=
  C85_paths_partial 1700000000123456789 b!"/user/" b!"7" b!"8" b!"/x" rfl (by decide) (by decide)

/-- **C85** is false of the code: requests for one path at one time have the same id; so do requests for one path at
different times (14 November 2023 and 19 February 2025), and requests for different paths at one time, whatever comes before
and after. -/
theorem C85_violated :
    (∀ path, uniqId (1700000000000000000 : Nat) path = uniqId (1740000000700000041 : Nat) path) ∧
    (∀ (t : Int) (a b : Str), uniqId t (a ++ b!"aaaaaaaaa" ++ b) = uniqId t (a ++ b!"qaaaaaaaz" ++ b)) := by
  have key : ∀ (a x y b : Str), x.length = y.length → (x.zipWith (· ^^^ ·) y).foldl crcByte 0#64 = 0#64 →
      crcChecksum (a ++ x ++ b) = crcChecksum (a ++ y ++ b) := by
    intro a x y b hl h
    unfold crcChecksum
    simp only [List.foldl_append]
    congr 2
    have h3 := crc_diff x y hl (a.foldl crcByte (~~~0#64)) (a.foldl crcByte (~~~0#64))
    rw [BitVec.xor_self, h] at h3
    exact BitVec.xor_eq_zero_iff.1 h3
  refine ⟨?_, ?_⟩
  · intro path
    have h := key [] (formatInt (1700000000000000000 : Nat)) (formatInt (1740000000700000041 : Nat)) path
      (by decide +kernel) (by decide +kernel)
    exact h
  · intro t a b
    have h := key (formatInt t ++ a) b!"aaaaaaaaa" b!"qaaaaaaaz" b rfl (by decide +kernel)
    unfold uniqId
    simpa only [List.append_assoc] using h

end Verif
