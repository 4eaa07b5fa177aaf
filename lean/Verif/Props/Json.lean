import Verif.Spec.Json
import Verif.Props.Logger
import Verif.Base.U8
import Verif.Props.Content
/-
C86: log records.
-/
namespace Verif
open Spec

/-! ### UTF-8 -/

theorem u8_ofNat_eq {n : Nat} {b : UInt8} (h : n = b.toNat) : UInt8.ofNat n = b := by
  subst h; simp

theorem u8n (n : Nat) (h : n < 256) : (UInt8.ofNat n).toNat = n := by
  simp only [UInt8.toNat_ofNat']; omega

/-- The decoder reads every character of two or more bytes. -/
theorem decodeRune_utf8 (c : Nat) (hc : scalar c) (h : 0x80 ≤ c) (s : Str) :
    decodeRune (utf8 c ++ s) = (c, (utf8 c).length) ∧ 2 ≤ (utf8 c).length ∧
      ∀ b ∈ utf8 c, 0x80 ≤ b := by
  unfold scalar at hc
  unfold utf8
  rw [if_neg (by omega)]
  by_cases h2 : c < 0x800
  · rw [if_pos h2]
    have e1 := u8n (0xC0 + c / 64) (by omega)
    have e2 := u8n (0x80 + c % 64) (by omega)
    refine ⟨?_, by simp, ?_⟩
    · simp only [List.cons_append, List.nil_append, decodeRune, UInt8.lt_iff_toNat_lt, e1, e2, UInt8.reduceToNat]
      rw [if_neg (by omega), if_neg (by omega), if_pos (by omega), if_neg (by omega)]
      simp only [List.length_cons, List.length_nil, Prod.mk.injEq, and_true]; omega
    · intro b hb
      simp only [List.mem_cons, List.not_mem_nil, or_false] at hb
      rcases hb with rfl | rfl <;> simp only [UInt8.le_iff_toNat_le, e1, e2, UInt8.reduceToNat] <;> omega
  · rw [if_neg h2]
    by_cases h3 : c < 0x10000
    · rw [if_pos h3]
      have e1 := u8n (0xE0 + c / 4096) (by omega)
      have e2 := u8n (0x80 + c / 64 % 64) (by omega)
      have e3 := u8n (0x80 + c % 64) (by omega)
      refine ⟨?_, by simp, ?_⟩
      · have ee : ∀ k : UInt8, (UInt8.ofNat (0xE0 + c / 4096) = k) ↔ 0xE0 + c / 4096 = k.toNat := by
          intro k; rw [← UInt8.toNat_inj, e1]
        simp only [List.cons_append, List.nil_append, decodeRune, UInt8.lt_iff_toNat_lt, e1, e2, e3, ee, UInt8.reduceToNat]
        rw [if_neg (by omega), if_neg (by omega), if_neg (by omega), if_pos (by omega)]
        have g1 : ¬ (128 + c / 64 % 64 < (if 224 + c / 4096 = 224 then (160 : UInt8) else 128).toNat ∨
            (if 224 + c / 4096 = 237 then (159 : UInt8) else 191).toNat < 128 + c / 64 % 64) := by
          split <;> split <;> simp only [UInt8.reduceToNat] <;> omega
        rw [if_neg g1, if_neg (by omega)]
        simp only [List.length_cons, List.length_nil, Prod.mk.injEq, and_true]; omega
      · intro b hb
        simp only [List.mem_cons, List.not_mem_nil, or_false] at hb
        rcases hb with rfl | rfl | rfl <;> simp only [UInt8.le_iff_toNat_le, e1, e2, e3, UInt8.reduceToNat] <;> omega
    · rw [if_neg h3]
      have e1 := u8n (0xF0 + c / 262144) (by omega)
      have e2 := u8n (0x80 + c / 4096 % 64) (by omega)
      have e3 := u8n (0x80 + c / 64 % 64) (by omega)
      have e4 := u8n (0x80 + c % 64) (by omega)
      refine ⟨?_, by simp, ?_⟩
      · have ee : ∀ k : UInt8, (UInt8.ofNat (0xF0 + c / 262144) = k) ↔ 0xF0 + c / 262144 = k.toNat := by
          intro k; rw [← UInt8.toNat_inj, e1]
        simp only [List.cons_append, List.nil_append, decodeRune, UInt8.lt_iff_toNat_lt, e1, e2, e3, e4, ee, UInt8.reduceToNat]
        rw [if_neg (by omega), if_neg (by omega), if_neg (by omega), if_neg (by omega)]
        have g1 : ¬ (128 + c / 4096 % 64 < (if 240 + c / 262144 = 240 then (144 : UInt8) else 128).toNat ∨
            (if 240 + c / 262144 = 244 then (143 : UInt8) else 191).toNat < 128 + c / 4096 % 64) := by
          split <;> split <;> simp only [UInt8.reduceToNat] <;> omega
        rw [if_neg g1, if_neg (by omega), if_neg (by omega)]
        simp only [List.length_cons, List.length_nil, Prod.mk.injEq, and_true]; omega
      · intro b hb
        simp only [List.mem_cons, List.not_mem_nil, or_false] at hb
        rcases hb with rfl | rfl | rfl | rfl <;> simp only [UInt8.le_iff_toNat_le, e1, e2, e3, e4, UInt8.reduceToNat] <;> omega

/-- What the decoder reads is a character, or it reports an error. -/
theorem decodeRune_cases (b : UInt8) (t : Str) (hb : ¬ b < 0x80) :
    decodeRune (b :: t) = (65533, 1) ∨
    ∃ c, scalar c ∧ 0x80 ≤ c ∧ decodeRune (b :: t) = (c, (utf8 c).length) ∧ b :: t = utf8 c ++ (b :: t).drop (utf8 c).length := by
  have hb' : 128 ≤ b.toNat := by simp only [UInt8.lt_iff_toNat_lt, UInt8.reduceToNat] at hb; omega
  have hb2 := b.toNat_lt
  have two : ∀ s1 : UInt8, 0xC2 ≤ b.toNat → b.toNat < 0xE0 → 0x80 ≤ s1.toNat → s1.toNat ≤ 0xBF →
      utf8 ((b.toNat % 32) * 64 + s1.toNat % 64) = [b, s1] := by
    intro s1 h1 h2 h3 h4
    unfold utf8
    rw [if_neg (by omega), if_pos (by omega)]
    rw [u8_ofNat_eq (b := b) (by omega), u8_ofNat_eq (b := s1) (by omega)]
  have three : ∀ s1 s2 : UInt8, 0xE0 ≤ b.toNat → b.toNat < 0xF0 → 0x80 ≤ s1.toNat → s1.toNat ≤ 0xBF →
      (b.toNat = 0xE0 → 0xA0 ≤ s1.toNat) → 0x80 ≤ s2.toNat → s2.toNat ≤ 0xBF →
      utf8 ((b.toNat % 16) * 4096 + (s1.toNat % 64) * 64 + s2.toNat % 64) = [b, s1, s2] := by
    intro s1 s2 h1 h2 h3 h4 h5 h6 h7
    unfold utf8
    rw [if_neg (by omega), if_neg (by omega), if_pos (by omega)]
    rw [u8_ofNat_eq (b := b) (by omega), u8_ofNat_eq (b := s1) (by omega), u8_ofNat_eq (b := s2) (by omega)]
  have four : ∀ s1 s2 s3 : UInt8, 0xF0 ≤ b.toNat → b.toNat ≤ 0xF4 → 0x80 ≤ s1.toNat → s1.toNat ≤ 0xBF →
      (b.toNat = 0xF0 → 0x90 ≤ s1.toNat) → 0x80 ≤ s2.toNat → s2.toNat ≤ 0xBF → 0x80 ≤ s3.toNat → s3.toNat ≤ 0xBF →
      utf8 ((b.toNat % 8) * 262144 + (s1.toNat % 64) * 4096 + (s2.toNat % 64) * 64 + s3.toNat % 64) = [b, s1, s2, s3] := by
    intro s1 s2 s3 h1 h2 h3 h4 h5 h6 h7 h8 h9
    unfold utf8
    rw [if_neg (by omega), if_neg (by omega), if_neg (by omega)]
    rw [u8_ofNat_eq (b := b) (by omega), u8_ofNat_eq (b := s1) (by omega), u8_ofNat_eq (b := s2) (by omega),
      u8_ofNat_eq (b := s3) (by omega)]
  simp only [decodeRune]
  rw [if_neg hb]
  simp only [UInt8.lt_iff_toNat_lt, UInt8.reduceToNat]
  have eb : ∀ k : UInt8, (b = k) ↔ b.toNat = k.toNat := fun k => UInt8.toNat_inj.symm
  simp only [eb, UInt8.reduceToNat]
  by_cases c1 : b.toNat < 194 ∨ 244 < b.toNat
  · rw [if_pos c1]; exact Or.inl rfl
  rw [if_neg c1]
  by_cases c2 : b.toNat < 224
  · rw [if_pos c2]
    cases t with
    | nil => exact Or.inl rfl
    | cons s1 t =>
      simp only
      by_cases c3 : s1.toNat < 128 ∨ 191 < s1.toNat
      · rw [if_pos c3]; exact Or.inl rfl
      · rw [if_neg c3]
        have e := two s1 (by omega) c2 (by omega) (by omega)
        refine Or.inr ⟨(b.toNat % 32) * 64 + s1.toNat % 64, ?_, ?_, ?_, ?_⟩
        · left; omega
        · omega
        · rw [e]; rfl
        · rw [e]; rfl
  rw [if_neg c2]
  by_cases c3 : b.toNat < 240
  · rw [if_pos c3]
    rcases t with _ | ⟨s1, _ | ⟨s2, t⟩⟩
    · exact Or.inl rfl
    · exact Or.inl rfl
    · simp only
      by_cases g1 : s1.toNat < (if b.toNat = 224 then (160 : UInt8) else 128).toNat ∨
          (if b.toNat = 237 then (159 : UInt8) else 191).toNat < s1.toNat
      · rw [if_pos g1]; exact Or.inl rfl
      · rw [if_neg g1]
        by_cases g2 : s2.toNat < 128 ∨ 191 < s2.toNat
        · rw [if_pos g2]; exact Or.inl rfl
        · rw [if_neg g2]
          have g3 : 0x80 ≤ s1.toNat ∧ s1.toNat ≤ 0xBF ∧ (b.toNat = 0xE0 → 0xA0 ≤ s1.toNat) ∧
              (b.toNat = 0xED → s1.toNat ≤ 0x9F) := by
            revert g1
            split <;> split <;> simp only [UInt8.reduceToNat] <;> omega
          obtain ⟨g3, g4, g5, g6⟩ := g3
          have e := three s1 s2 (by omega) c3 g3 g4 g5 (by omega) (by omega)
          refine Or.inr ⟨(b.toNat % 16) * 4096 + (s1.toNat % 64) * 64 + s2.toNat % 64, ?_, ?_, ?_, ?_⟩
          · unfold scalar; omega
          · omega
          · rw [e]; rfl
          · rw [e]; rfl
  rw [if_neg c3]
  rcases t with _ | ⟨s1, _ | ⟨s2, _ | ⟨s3, t⟩⟩⟩
  · exact Or.inl rfl
  · exact Or.inl rfl
  · exact Or.inl rfl
  · simp only
    by_cases g1 : s1.toNat < (if b.toNat = 240 then (144 : UInt8) else 128).toNat ∨
        (if b.toNat = 244 then (143 : UInt8) else 191).toNat < s1.toNat
    · rw [if_pos g1]; exact Or.inl rfl
    · rw [if_neg g1]
      by_cases g2 : s2.toNat < 128 ∨ 191 < s2.toNat
      · rw [if_pos g2]; exact Or.inl rfl
      · rw [if_neg g2]
        by_cases g2' : s3.toNat < 128 ∨ 191 < s3.toNat
        · rw [if_pos g2']; exact Or.inl rfl
        · rw [if_neg g2']
          have g3 : 0x80 ≤ s1.toNat ∧ s1.toNat ≤ 0xBF ∧ (b.toNat = 0xF0 → 0x90 ≤ s1.toNat) ∧
              (b.toNat = 0xF4 → s1.toNat ≤ 0x8F) := by
            revert g1
            split <;> split <;> simp only [UInt8.reduceToNat] <;> omega
          obtain ⟨g3, g4, g5, g6⟩ := g3
          have e := four s1 s2 s3 (by omega) (by omega) g3 g4 g5 (by omega) (by omega) (by omega) (by omega)
          refine Or.inr ⟨(b.toNat % 8) * 262144 + (s1.toNat % 64) * 4096 + (s2.toNat % 64) * 64 + s3.toNat % 64, ?_, ?_, ?_, ?_⟩
          · unfold scalar; omega
          · omega
          · rw [e]; rfl
          · rw [e]; rfl

/-- Repairing is a function. -/
theorem Repaired.functional {s t t' : Str} (h : Repaired s t) (h' : Repaired s t') : t = t' := by
  have inj : ∀ (c c' : Nat) (s s' : Str), scalar c → scalar c' → utf8 c ++ s = utf8 c' ++ s' → c = c' ∧ s = s' := by
    intro c c' s s' hc hc' he
    have low : ∀ c, c < 0x80 → utf8 c = [UInt8.ofNat c] := fun c h => by unfold utf8; rw [if_pos h]
    have mixed : ∀ c c' s s', scalar c' → c < 0x80 → 0x80 ≤ c' → utf8 c ++ s = utf8 c' ++ s' → False := by
      intro c c' s s' h1 h2 h3 h4
      obtain ⟨-, hl, hb⟩ := decodeRune_utf8 c' h1 h3 s'
      rw [low c h2] at h4
      cases hu : utf8 c' with
      | nil => rw [hu] at hl; simp at hl
      | cons x xs =>
        rw [hu] at h4 hb
        simp only [List.cons_append, List.cons.injEq] at h4
        have := hb x (List.mem_cons_self ..)
        rw [← h4.1, UInt8.le_iff_toNat_le, u8n c (by omega)] at this
        simp only [UInt8.reduceToNat] at this; omega
    by_cases a : c < 0x80
    · by_cases b : c' < 0x80
      · rw [low c a, low c' b] at he
        simp only [List.cons_append, List.nil_append, List.cons.injEq] at he
        have := congrArg UInt8.toNat he.1
        rw [u8n c (by omega), u8n c' (by omega)] at this
        exact ⟨this, he.2⟩
      · exact (mixed c c' s s' hc' a (by omega) he).elim
    · by_cases b : c' < 0x80
      · exact (mixed c' c s' s hc b (by omega) he.symm).elim
      · have e1 := (decodeRune_utf8 c hc (by omega) s).1
        have e2 := (decodeRune_utf8 c' hc' (by omega) s').1
        rw [he, e2] at e1
        simp only [Prod.mk.injEq] at e1
        have hcc := e1.1
        subst hcc
        exact ⟨rfl, List.append_cancel_left he⟩
  have ne : ∀ c, utf8 c ≠ [] := by
    intro c; unfold utf8
    split
    · simp
    · split
      · simp
      · split <;> simp
  induction h generalizing t' with
  | nil =>
    generalize hs : ([] : Str) = s at h'
    cases h' with
    | nil => rfl
    | char hc r => exact absurd (List.append_eq_nil_iff.1 hs.symm).1 (ne _)
    | bad hb r => cases hs
  | @char c s t hc r ih =>
    generalize hs : utf8 c ++ s = s0 at h'
    cases h' with
    | nil => exact absurd (List.append_eq_nil_iff.1 hs).1 (ne _)
    | @char c' s' t'' hc' r' =>
      obtain ⟨e1, e2⟩ := inj c c' s s' hc hc' hs
      subst e1; subst e2
      rw [ih r']
    | @bad b s' t'' hb r' => exact absurd hs.symm (hb c s hc)
  | @bad b s t hb r ih =>
    generalize hs : b :: s = s0 at h'
    cases h' with
    | nil => cases hs
    | @char c' s' t'' hc' r' => exact absurd hs (hb c' s' hc')
    | @bad b' s' t'' hb' r' =>
      simp only [List.cons.injEq] at hs
      obtain ⟨-, rfl⟩ := hs
      rw [ih r']

/-! ### Reading back a string -/

theorem readString_plain (b : UInt8) (r : Str) (h1 : b ≠ 34) (h2 : b ≠ 92) (h3 : ¬ b < 32) :
    readString (b :: r) = (readString r).map fun p => (b :: p.1, p.2) := by
  rw [readString.eq_def]
  split
  · rename_i h; cases h
  · rename_i h; simp only [List.cons.injEq] at h; exact absurd h.1 h1
  · rename_i h; simp only [List.cons.injEq] at h; exact absurd h.1 h2
  · rename_i h; simp only [List.cons.injEq] at h; exact absurd h.1 h2
  · rename_i h; simp only [List.cons.injEq] at h; exact absurd h.1 h2
  · rename_i h; simp only [List.cons.injEq] at h
    obtain ⟨rfl, rfl⟩ := h
    rw [if_neg h3]

theorem readString_esc (e x : UInt8) (r : Str) (h : e ≠ 117) (hx : escChar e = some x) :
    readString (92 :: e :: r) = (readString r).map fun p => (x :: p.1, p.2) := by
  rw [readString.eq_def]
  split
  · rename_i h'; cases h'
  · rename_i h'; simp only [List.cons.injEq] at h'; exact absurd h'.1 (by decide)
  · rename_i h'; simp only [List.cons.injEq] at h'; exact absurd h'.2.1 h
  · rename_i h'; simp only [List.cons.injEq] at h'
    obtain ⟨-, rfl, rfl⟩ := h'
    rw [hx]
  · rename_i h'; simp only [List.cons.injEq] at h'; exact absurd h'.2 (by simp)
  · rename_i h1 h2 h'; simp only [List.cons.injEq] at h'
    exact (h1 e r h'.1.symm h'.2.symm).elim

theorem readString_u (a b c d : UInt8) (n : Nat) (r : Str) (h : hex4 a b c d = some n) (hs : scalar n) :
    readString (92 :: 117 :: a :: b :: c :: d :: r) = (readString r).map fun p => (utf8 n ++ p.1, p.2) := by
  rw [readString.eq_def]
  simp only [h, hs, if_true]

theorem readString_high (p : Str) (hp : ∀ b ∈ p, 0x80 ≤ b) (r : Str) :
    readString (p ++ r) = (readString r).map fun q => (p ++ q.1, q.2) := by
  induction p with
  | nil => simp
  | cons b p ih =>
    have hb := hp b (List.mem_cons_self ..)
    have hb' : 128 ≤ b.toNat := by simpa [UInt8.le_iff_toNat_le] using hb
    rw [List.cons_append, readString_plain b _ (by rintro rfl; simp at hb') (by rintro rfl; simp at hb')
      (by simp only [UInt8.lt_iff_toNat_lt, UInt8.reduceToNat]; omega), ih (fun x hx => hp x (List.mem_cons_of_mem _ hx))]
    cases readString r <;> rfl

theorem hex_byte : ∀ b : UInt8, b < 0x80 → hex4 48 48 (hexLower (b.toNat / 16)) (hexLower (b.toNat % 16)) = some b.toNat := by
  apply u8_all; decide +kernel

theorem readString_jsonByte (b : UInt8) (hb : b < 0x80) (r : Str) :
    readString (jsonByte b ++ r) = (readString r).map fun p => (b :: p.1, p.2) := by
  unfold jsonByte
  by_cases h1 : htmlSafe b = true
  · rw [if_pos h1]
    simp only [htmlSafe, Bool.and_eq_true, bne_iff_ne, decide_eq_true_eq] at h1
    obtain ⟨⟨⟨⟨⟨a1, a2⟩, a3⟩, a4⟩, a5⟩, a6⟩ := h1
    exact readString_plain b r a2 a6 (by simp only [UInt8.lt_iff_toNat_lt, UInt8.le_iff_toNat_le, UInt8.reduceToNat] at *; omega)
  rw [if_neg h1]
  by_cases h2 : b = 92 ∨ b = 34
  · rw [if_pos h2]
    cases h2 with
    | inl h => subst h; exact readString_esc 92 92 r (by decide) (by decide)
    | inr h => subst h; exact readString_esc 34 34 r (by decide) (by decide)
  rw [if_neg h2]
  by_cases h3 : b = 10
  · rw [if_pos h3]; subst h3; exact readString_esc 110 10 r (by decide) (by decide)
  rw [if_neg h3]
  by_cases h4 : b = 13
  · rw [if_pos h4]; subst h4; exact readString_esc 114 13 r (by decide) (by decide)
  rw [if_neg h4]
  by_cases h5 : b = 9
  · rw [if_pos h5]; subst h5; exact readString_esc 116 9 r (by decide) (by decide)
  rw [if_neg h5]
  have hlt : b.toNat < 128 := by simpa [UInt8.lt_iff_toNat_lt] using hb
  have hu : utf8 b.toNat = [b] := by unfold utf8; rw [if_pos hlt]; simp
  have := readString_u 48 48 (hexLower (b.toNat / 16)) (hexLower (b.toNat % 16)) b.toNat r (hex_byte b hb) (Or.inl (by omega))
  rw [hu] at this
  exact this

/-- Bytes that may occur inside a string of an encoded record. -/
def quiet (b : UInt8) : Prop := 32 ≤ b ∧ b ≠ 38 ∧ b ≠ 60 ∧ b ≠ 62

instance (b : UInt8) : Decidable (quiet b) := inferInstanceAs (Decidable (_ ∧ _))

theorem jsonByte_quiet : ∀ b : UInt8, ∀ x ∈ jsonByte b, b < 0x80 → quiet x := by
  have : ∀ b : UInt8, (jsonByte b).all (fun x => decide (b < 0x80 → quiet x)) = true := by apply u8_all; decide +kernel
  intro b x hx
  exact of_decide_eq_true (List.all_eq_true.1 (this b) x hx)

/-- The escaped text of a string: quiet bytes, read back as the repaired string. -/
theorem escape_spec : ∀ (n : Nat) (s : Str), s.length ≤ n → ∀ fuel, s.length ≤ fuel →
    ∃ t, Repaired s t ∧ (∀ b ∈ jsonEscape fuel s, quiet b) ∧
      ∀ rest, readString (jsonEscape fuel s ++ 34 :: rest) = some (t, rest) := by
  intro n
  induction n with
  | zero =>
    intro s hs fuel _
    have : s = [] := List.length_eq_zero_iff.1 (by omega)
    subst this
    refine ⟨[], .nil, ?_, ?_⟩
    · cases fuel <;> simp [jsonEscape]
    · intro rest; cases fuel <;> simp [jsonEscape, readString]
  | succ n ih =>
    intro s hs fuel hf
    cases s with
    | nil =>
      refine ⟨[], .nil, ?_, ?_⟩
      · cases fuel <;> simp [jsonEscape]
      · intro rest; cases fuel <;> simp [jsonEscape, readString]
    | cons b t =>
      obtain ⟨fuel, rfl⟩ : ∃ f, fuel = f + 1 := ⟨fuel - 1, by simp at hf; omega⟩
      simp only [List.length_cons] at hs hf
      unfold jsonEscape
      by_cases hb : b < 0x80
      · rw [if_pos hb]
        obtain ⟨t', h1, h2, h3⟩ := ih t (by omega) fuel (by omega)
        have hlt : b.toNat < 128 := by simpa [UInt8.lt_iff_toNat_lt] using hb
        have hu : utf8 b.toNat = [b] := by unfold utf8; rw [if_pos hlt]; simp
        refine ⟨b :: t', ?_, ?_, ?_⟩
        · have := Repaired.char (c := b.toNat) (Or.inl (by omega)) h1
          rw [hu] at this; exact this
        · intro x hx
          rcases List.mem_append.1 hx with hx | hx
          · exact jsonByte_quiet b x hx hb
          · exact h2 x hx
        · intro rest
          rw [List.append_assoc, readString_jsonByte b hb, h3]; rfl
      · rw [if_neg hb]
        have bad : decodeRune (b :: t) = (65533, 1) → ∀ c s', scalar c → b :: t ≠ utf8 c ++ s' := by
          intro hd c s' hc he
          by_cases hc0 : c < 0x80
          · have hu : utf8 c = [UInt8.ofNat c] := by unfold utf8; rw [if_pos hc0]
            rw [hu] at he
            simp only [List.cons_append, List.cons.injEq] at he
            rw [he.1, UInt8.lt_iff_toNat_lt, u8n c (by omega)] at hb
            simp only [UInt8.reduceToNat] at hb; omega
          · obtain ⟨e1, e2, -⟩ := decodeRune_utf8 c hc (by omega) s'
            rw [← he, hd] at e1
            simp only [Prod.mk.injEq] at e1
            omega
        rcases decodeRune_cases b t hb with hd | ⟨c, hc, hc0, hd, hsplit⟩
        · rw [hd]
          simp only [and_self, if_true]
          obtain ⟨t', h1, h2, h3⟩ := ih t (by omega) fuel (by omega)
          refine ⟨utf8 0xFFFD ++ t', .bad (bad hd) h1, ?_, ?_⟩
          · intro x hx
            rcases List.mem_append.1 hx with hx | hx
            · have hall : ∀ y ∈ b!"\\ufffd", quiet y := by decide
              exact hall x hx
            · exact h2 x hx
          · intro rest
            rw [List.append_assoc]
            have := readString_u 102 102 102 100 0xFFFD (jsonEscape fuel t ++ 34 :: rest) (by decide) (by decide)
            rw [h3] at this
            exact this
        · rw [hd]
          obtain ⟨-, hlen, hhigh⟩ := decodeRune_utf8 c hc hc0 []
          simp only
          rw [if_neg (by omega)]
          have hdl : ((b :: t).drop (utf8 c).length).length ≤ t.length := by
            rw [List.length_drop, List.length_cons]; omega
          obtain ⟨t', h1, h2, h3⟩ := ih ((b :: t).drop (utf8 c).length) (by omega) fuel (by omega)
          have hrep : Repaired (b :: t) (utf8 c ++ t') := by
            have := Repaired.char hc h1
            rw [← hsplit] at this; exact this
          by_cases hls : c = 0x2028 ∨ c = 0x2029
          · rw [if_pos hls]
            refine ⟨utf8 c ++ t', hrep, ?_, ?_⟩
            · intro x hx
              rcases List.mem_append.1 hx with hx | hx
              · cases hls with
                | inl h =>
                  subst h
                  have hall : ∀ y ∈ b!"\\u202" ++ [hexLower (0x2028 % 16)], quiet y := by decide
                  exact hall x hx
                | inr h =>
                  subst h
                  have hall : ∀ y ∈ b!"\\u202" ++ [hexLower (0x2029 % 16)], quiet y := by decide
                  exact hall x hx
              · exact h2 x hx
            · intro rest
              cases hls with
              | inl h =>
                subst h
                have := readString_u 50 48 50 56 0x2028 (jsonEscape fuel ((b :: t).drop (utf8 0x2028).length) ++ 34 :: rest)
                  (by decide) (by decide)
                rw [h3] at this
                rw [List.append_assoc]
                exact this
              | inr h =>
                subst h
                have := readString_u 50 48 50 57 0x2029 (jsonEscape fuel ((b :: t).drop (utf8 0x2029).length) ++ 34 :: rest)
                  (by decide) (by decide)
                rw [h3] at this
                rw [List.append_assoc]
                exact this
          · rw [if_neg hls]
            have htake : (b :: t).take (utf8 c).length = utf8 c := by
              conv => lhs; rw [hsplit]
              exact List.take_left' rfl
            rw [htake]
            refine ⟨utf8 c ++ t', hrep, ?_, ?_⟩
            · intro x hx
              rcases List.mem_append.1 hx with hx | hx
              · have := hhigh x hx
                have hx' : 128 ≤ x.toNat := by simpa [UInt8.le_iff_toNat_le] using this
                refine ⟨by simp only [UInt8.le_iff_toNat_le, UInt8.reduceToNat]; omega, ?_, ?_, ?_⟩ <;>
                  (rintro rfl; simp at hx')
              · exact h2 x hx
            · intro rest
              rw [List.append_assoc, readString_high (utf8 c) hhigh, h3]; rfl

theorem jsonString_quiet (s : Str) : ∀ b ∈ jsonString s, quiet b := by
  intro b hb
  obtain ⟨-, -, h, -⟩ := escape_spec s.length s (Nat.le_refl _) s.length (Nat.le_refl _)
  simp only [jsonString, List.cons_append, List.mem_cons, List.mem_append, List.not_mem_nil, or_false] at hb
  rcases hb with hb | hb | hb
  · subst hb; decide
  · exact h b hb
  · subst hb; decide

/-! ### Reading back a number -/

/-- What may follow a number. -/
def ends (rest : Str) : Prop := ∀ b, rest.head? = some b → isDigit b = false

theorem isDigit_iff (b : UInt8) : isDigit b = true ↔ 48 ≤ b ∧ b ≤ 57 := by
  simp [isDigit]

theorem takeWhile_digits (d rest : Str) (hd : ∀ c ∈ d, isDigit c = true) (hr : ends rest) :
    (d ++ rest).takeWhile isDigit = d ∧ (d ++ rest).dropWhile isDigit = rest := by
  induction d with
  | nil =>
    cases rest with
    | nil => exact ⟨rfl, rfl⟩
    | cons b t =>
      have := hr b rfl
      simp [List.takeWhile_cons, List.dropWhile_cons, this]
  | cons c d ih =>
    have hc := hd c (List.mem_cons_self ..)
    obtain ⟨h1, h2⟩ := ih fun x hx => hd x (List.mem_cons_of_mem _ hx)
    simp [List.takeWhile_cons, List.dropWhile_cons, hc, h1, h2]

theorem formatNat_digits (n : Nat) : ∀ c ∈ formatNat n, isDigit c = true :=
  fun c hc => (isDigit_iff c).2 ((formatNat_number n).1.2 c hc)

theorem readInt_format (n : Int) (rest : Str) (hr : ends rest) : readInt (formatInt n ++ rest) = some (n, rest) := by
  obtain ⟨⟨h1, h2⟩, h3, h4⟩ := formatNat_number n.natAbs
  obtain ⟨t1, t2⟩ := takeWhile_digits (formatNat n.natAbs) rest (formatNat_digits _) hr
  have hbad : ¬(formatNat n.natAbs = [] ∨ ((formatNat n.natAbs).head? = some 48 ∧ (formatNat n.natAbs).length > 1)) := by
    rintro (h | ⟨h, h'⟩)
    · exact h1 h
    · rw [h4 h] at h'; exact absurd h' (by decide)
  unfold formatInt readInt
  by_cases hn : n < 0
  · rw [if_pos hn]
    simp only [List.cons_append, readSign, t1, t2]
    rw [if_neg hbad, h3]
    simp only [if_true, Option.some.injEq, Prod.mk.injEq, and_true]
    omega
  · rw [if_neg hn]
    obtain ⟨c, t, hc⟩ : ∃ c t, formatNat n.natAbs = c :: t := by
      cases hf : formatNat n.natAbs with
      | nil => exact absurd hf h1
      | cons c t => exact ⟨c, t, rfl⟩
    have hne : c ≠ 45 := by
      rintro rfl
      have := (h2 45 (by rw [hc]; exact List.mem_cons_self ..)).1
      exact absurd this (by decide)
    have hm : readSign (formatNat n.natAbs ++ rest) = (false, formatNat n.natAbs ++ rest) := by
      rw [hc, List.cons_append, readSign.eq_def]
      split
      · rename_i h; simp only [List.cons.injEq] at h; exact absurd h.1 hne
      · rfl
    rw [hm]
    simp only [t1, t2]
    rw [if_neg hbad, h3]
    simp only [Bool.false_eq_true, if_false, Option.some.injEq, Prod.mk.injEq, and_true]
    omega

/-! ### Reading back a value -/

theorem readVal_other (n : Nat) (c : UInt8) (t : Str) (h1 : c ≠ 34) (h2 : c ≠ 91) (h3 : c ≠ 123) :
    readVal (n + 1) (c :: t) =
      if hasPrefix (c :: t) b!"null" then some (.null, (c :: t).drop 4)
      else if hasPrefix (c :: t) b!"true" then some (.bool true, (c :: t).drop 4)
      else if hasPrefix (c :: t) b!"false" then some (.bool false, (c :: t).drop 5)
      else (readInt (c :: t)).map fun p => (.num p.1, p.2) := by
  rw [readVal.eq_def]
  simp only
  split
  · rename_i h; simp only [List.cons.injEq] at h; exact absurd h.1 h1
  · rename_i h; simp only [List.cons.injEq] at h; exact absurd h.1 h2
  · rename_i h; simp only [List.cons.injEq] at h; exact absurd h.1 h2
  · rename_i h; simp only [List.cons.injEq] at h; exact absurd h.1 h3
  · rename_i h; simp only [List.cons.injEq] at h; exact absurd h.1 h3
  · rfl

theorem readVal_arr (n : Nat) (c : UInt8) (t : Str) (h : c ≠ 93) :
    readVal (n + 1) (91 :: c :: t) = (readElems n (c :: t)).map fun p => (.arr p.1, p.2) := by
  rw [readVal.eq_def]
  simp only
  split
  · rename_i h'; simp at h'
  · rename_i h'; simp only [List.cons.injEq] at h'; exact absurd h'.2.1 h
  · rename_i h'; simp only [List.cons.injEq] at h'; obtain ⟨-, rfl⟩ := h'; rfl
  · rename_i h'; simp at h'
  · rename_i h'; simp at h'
  · rename_i h1 h2 h3 h4 h5; exact absurd rfl (h3 _)

theorem readVal_obj (n : Nat) (c : UInt8) (t : Str) (h : c ≠ 125) :
    readVal (n + 1) (123 :: c :: t) = (readMembers n (c :: t)).map fun p => (.obj p.1, p.2) := by
  rw [readVal.eq_def]
  simp only
  split
  · rename_i h'; simp at h'
  · rename_i h'; simp at h'
  · rename_i h'; simp at h'
  · rename_i h'; simp only [List.cons.injEq] at h'; exact absurd h'.2.1 h
  · rename_i h'; simp only [List.cons.injEq] at h'; obtain ⟨-, rfl⟩ := h'; rfl
  · rename_i h1 h2 h3 h4 h5; exact absurd rfl (h5 _)

/-- The first byte of a number. -/
theorem formatInt_head (n : Int) : ∃ c t, formatInt n = c :: t ∧ (c = 45 ∨ isDigit c = true) := by
  unfold formatInt
  by_cases h : n < 0
  · rw [if_pos h]; exact ⟨_, _, rfl, Or.inl rfl⟩
  · rw [if_neg h]
    cases hf : formatNat n.natAbs with
    | nil => exact absurd hf (formatNat_number n.natAbs).1.1
    | cons c t => exact ⟨c, t, rfl, Or.inr (formatNat_digits n.natAbs c (by rw [hf]; exact List.mem_cons_self ..))⟩

theorem head_plain : ∀ c : UInt8, (c = 45 ∨ isDigit c = true) →
    c ≠ 34 ∧ c ≠ 91 ∧ c ≠ 93 ∧ c ≠ 123 ∧ c ≠ 110 ∧ c ≠ 116 ∧ c ≠ 102 ∧ quiet c := by
  apply u8_all; decide +kernel

theorem jsonVal_head (v : JVal) : ∃ c t, jsonVal v = c :: t ∧ c ≠ 93 := by
  cases v with
  | null => exact ⟨_, _, rfl, by decide⟩
  | bool b => cases b <;> exact ⟨_, _, rfl, by decide⟩
  | num n =>
    obtain ⟨c, t, h, hc⟩ := formatInt_head n
    exact ⟨c, t, h, (head_plain c hc).2.2.1⟩
  | str s => exact ⟨_, _, rfl, by decide⟩
  | arr l => exact ⟨_, _, rfl, by decide⟩
  | obj m => exact ⟨_, _, rfl, by decide⟩

theorem hasPrefix_head (c : UInt8) (t : Str) (d : UInt8) (u : Str) (h : c ≠ d) : hasPrefix (c :: t) (d :: u) = false := by
  unfold hasPrefix
  simp [List.isPrefixOf, Ne.symm h]

/-- The text read back. -/
def ReadsAs (r : Str → Str) : Prop := ∀ s rest, readString (jsonEscape s.length s ++ 34 :: rest) = some (r s, rest)

theorem jsonString_append (s rest : Str) : jsonString s ++ rest = 34 :: (jsonEscape s.length s ++ 34 :: rest) := by
  simp [jsonString]

theorem ends_cons {b : UInt8} {t : Str} (h : isDigit b = false) : ends (b :: t) := by
  intro x hx
  simp only [List.head?_cons, Option.some.injEq] at hx
  rw [← hx]; exact h

mutual
theorem readVal_json (r : Str → Str) (hr : ReadsAs r) : ∀ (v : JVal) (fuel : Nat) (rest : Str),
    (jsonVal v).length ≤ fuel → ends rest → readVal fuel (jsonVal v ++ rest) = some (JVal.mapStr r v, rest)
  | .null, fuel, rest, hf, he => by
    obtain ⟨fuel, rfl⟩ : ∃ f, fuel = f + 1 := ⟨fuel - 1, by simp [jsonVal] at hf; omega⟩
    simp only [jsonVal]
    rw [List.cons_append, readVal_other _ _ _ (by decide) (by decide) (by decide)]
    rfl
  | .bool b, fuel, rest, hf, he => by
    obtain ⟨fuel, rfl⟩ : ∃ f, fuel = f + 1 := ⟨fuel - 1, by cases b <;> simp [jsonVal] at hf <;> omega⟩
    cases b
    · simp only [jsonVal, Bool.false_eq_true, if_false]
      rw [List.cons_append, readVal_other _ _ _ (by decide) (by decide) (by decide)]
      rfl
    · simp only [jsonVal, if_true]
      rw [List.cons_append, readVal_other _ _ _ (by decide) (by decide) (by decide)]
      rfl
  | .num n, fuel, rest, hf, he => by
    obtain ⟨c, t, hct, hc⟩ := formatInt_head n
    obtain ⟨fuel, rfl⟩ : ∃ f, fuel = f + 1 := ⟨fuel - 1, by simp [jsonVal, hct] at hf; omega⟩
    obtain ⟨h1, h2, -, h3, h4, h5, h6, -⟩ := head_plain c hc
    have hi := readInt_format n rest he
    simp only [jsonVal]
    rw [hct, List.cons_append] at hi ⊢
    rw [readVal_other _ _ _ h1 h2 h3, hasPrefix_head _ _ _ _ h4, hasPrefix_head _ _ _ _ h5, hasPrefix_head _ _ _ _ h6, hi]
    rfl
  | .str s, fuel, rest, hf, he => by
    obtain ⟨fuel, rfl⟩ : ∃ f, fuel = f + 1 := ⟨fuel - 1, by simp [jsonVal, jsonString] at hf; omega⟩
    simp only [jsonVal]
    rw [jsonString_append, readVal.eq_def]
    simp only [hr s rest]
    rfl
  | .arr l, fuel, rest, hf, he => by
    simp only [jsonVal, List.length_cons, List.length_append, List.length_nil] at hf
    obtain ⟨fuel, rfl⟩ : ∃ f, fuel = f + 1 := ⟨fuel - 1, by omega⟩
    simp only [jsonVal]
    cases l with
    | nil => simp only [jsonElems, JVal.mapStr, JVal.mapStrs]; rfl
    | cons v l =>
      have hh : ∃ c t, jsonElems (v :: l) = c :: t ∧ c ≠ 93 := by
        obtain ⟨c, t, h1, h2⟩ := jsonVal_head v
        cases l with
        | nil => exact ⟨c, t, by simp only [jsonElems, h1], h2⟩
        | cons w l => exact ⟨c, t ++ 44 :: jsonElems (w :: l), by simp only [jsonElems, h1, List.cons_append], h2⟩
      obtain ⟨c, t, hct, hc⟩ := hh
      have ih := readElems_json r hr (v :: l) fuel rest (by simp) (by omega)
      rw [show 91 :: jsonElems (v :: l) ++ [93] ++ rest = 91 :: (jsonElems (v :: l) ++ 93 :: rest) by simp]
      rw [hct] at ih ⊢
      rw [List.cons_append] at ih ⊢
      rw [readVal_arr _ _ _ hc, ih]
      simp only [JVal.mapStr, Option.map_some]
  | .obj m, fuel, rest, hf, he => by
    simp only [jsonVal, List.length_cons, List.length_append, List.length_nil] at hf
    obtain ⟨fuel, rfl⟩ : ∃ f, fuel = f + 1 := ⟨fuel - 1, by omega⟩
    simp only [jsonVal]
    cases m with
    | nil => simp only [jsonMembers, JVal.mapStr, JVal.mapMembers]; rfl
    | cons e m =>
      have hh : ∃ t, jsonMembers (e :: m) = 34 :: t := by
        cases m with
        | nil => exact ⟨_, by simp only [jsonMembers, jsonString, List.cons_append]; rfl⟩
        | cons w l => exact ⟨_, by simp only [jsonMembers, jsonString, List.cons_append]; rfl⟩
      obtain ⟨t, hct⟩ := hh
      have ih := readMembers_json r hr (e :: m) fuel rest (by simp) (by omega)
      rw [show 123 :: jsonMembers (e :: m) ++ [125] ++ rest = 123 :: (jsonMembers (e :: m) ++ 125 :: rest) by simp]
      rw [hct] at ih ⊢
      rw [List.cons_append] at ih ⊢
      rw [readVal_obj _ _ _ (by decide), ih]
      simp only [JVal.mapStr, Option.map_some]

theorem readElems_json (r : Str → Str) (hr : ReadsAs r) : ∀ (l : List JVal) (fuel : Nat) (rest : Str), l ≠ [] →
    (jsonElems l).length + 1 ≤ fuel → readElems fuel (jsonElems l ++ 93 :: rest) = some (JVal.mapStrs r l, rest)
  | [], _, _, h, _ => absurd rfl h
  | [v], fuel, rest, _, hf => by
    obtain ⟨fuel, rfl⟩ : ∃ f, fuel = f + 1 := ⟨fuel - 1, by omega⟩
    simp only [jsonElems] at hf ⊢
    have ih := readVal_json r hr v fuel (93 :: rest) (by omega) (ends_cons (by decide))
    rw [readElems.eq_def]
    simp only [ih]
    simp only [JVal.mapStrs]
  | v :: w :: l, fuel, rest, _, hf => by
    obtain ⟨fuel, rfl⟩ : ∃ f, fuel = f + 1 := ⟨fuel - 1, by omega⟩
    simp only [jsonElems, List.length_append, List.length_cons] at hf ⊢
    have ih := readVal_json r hr v fuel (44 :: (jsonElems (w :: l) ++ 93 :: rest)) (by omega) (ends_cons (by decide))
    have ih2 := readElems_json r hr (w :: l) fuel rest (by simp) (by omega)
    rw [readElems.eq_def]
    rw [List.append_assoc, List.cons_append]
    simp only [ih, ih2]
    rw [JVal.mapStrs]
    rfl

theorem readMembers_json (r : Str → Str) (hr : ReadsAs r) : ∀ (m : List (Str × JVal)) (fuel : Nat) (rest : Str), m ≠ [] →
    (jsonMembers m).length + 1 ≤ fuel → readMembers fuel (jsonMembers m ++ 125 :: rest) = some (JVal.mapMembers r m, rest)
  | [], _, _, h, _ => absurd rfl h
  | [(k, v)], fuel, rest, _, hf => by
    obtain ⟨fuel, rfl⟩ : ∃ f, fuel = f + 1 := ⟨fuel - 1, by omega⟩
    simp only [jsonMembers, List.length_append, List.length_cons] at hf ⊢
    have ih := readVal_json r hr v fuel (125 :: rest) (by omega) (ends_cons (by decide))
    rw [List.append_assoc, List.cons_append, jsonString_append, readMembers.eq_def]
    simp only [hr k, ih]
    simp only [JVal.mapMembers]
  | (k, v) :: e :: m, fuel, rest, _, hf => by
    obtain ⟨fuel, rfl⟩ : ∃ f, fuel = f + 1 := ⟨fuel - 1, by omega⟩
    simp only [jsonMembers, List.length_append, List.length_cons] at hf ⊢
    have ih := readVal_json r hr v fuel (44 :: (jsonMembers (e :: m) ++ 125 :: rest)) (by omega) (ends_cons (by decide))
    have ih2 := readMembers_json r hr (e :: m) fuel rest (by simp) (by omega)
    rw [show jsonString k ++ 58 :: jsonVal v ++ 44 :: jsonMembers (e :: m) ++ 125 :: rest =
      jsonString k ++ 58 :: (jsonVal v ++ 44 :: (jsonMembers (e :: m) ++ 125 :: rest)) by simp]
    rw [jsonString_append, readMembers.eq_def]
    simp only [hr k, ih, ih2]
    rw [JVal.mapMembers]
    rfl
end

mutual
theorem jsonVal_quiet : ∀ v : JVal, ∀ b ∈ jsonVal v, quiet b
  | .null, b, hb => by
    have hall : ∀ y ∈ b!"null", quiet y := by decide
    exact hall b (by simpa only [jsonVal] using hb)
  | .bool true, b, hb => by
    have hall : ∀ y ∈ b!"true", quiet y := by decide
    exact hall b (by simpa only [jsonVal, if_true] using hb)
  | .bool false, b, hb => by
    have hall : ∀ y ∈ b!"false", quiet y := by decide
    exact hall b (by simpa only [jsonVal, Bool.false_eq_true, if_false] using hb)
  | .num n, b, hb => by
    simp only [jsonVal, formatInt] at hb
    have : b = 45 ∨ isDigit b = true := by
      split at hb
      · rcases List.mem_cons.1 hb with h | h
        · exact Or.inl h
        · exact Or.inr (formatNat_digits _ _ h)
      · exact Or.inr (formatNat_digits _ _ hb)
    exact (head_plain b this).2.2.2.2.2.2.2
  | .str s, b, hb => jsonString_quiet s b (by simpa only [jsonVal] using hb)
  | .arr l, b, hb => by
    simp only [jsonVal, List.cons_append, List.mem_cons, List.mem_append, List.not_mem_nil, or_false] at hb
    rcases hb with h | h | h
    · subst h; decide
    · exact jsonElems_quiet l b h
    · subst h; decide
  | .obj m, b, hb => by
    simp only [jsonVal, List.cons_append, List.mem_cons, List.mem_append, List.not_mem_nil, or_false] at hb
    rcases hb with h | h | h
    · subst h; decide
    · exact jsonMembers_quiet m b h
    · subst h; decide
theorem jsonElems_quiet : ∀ l : List JVal, ∀ b ∈ jsonElems l, quiet b
  | [], b, hb => by simp [jsonElems] at hb
  | [v], b, hb => jsonVal_quiet v b (by simpa only [jsonElems] using hb)
  | v :: w :: l, b, hb => by
    simp only [jsonElems, List.mem_cons, List.mem_append] at hb
    rcases hb with h | h | h
    · exact jsonVal_quiet v b h
    · subst h; decide
    · exact jsonElems_quiet (w :: l) b h
theorem jsonMembers_quiet : ∀ m : List (Str × JVal), ∀ b ∈ jsonMembers m, quiet b
  | [], b, hb => by simp [jsonMembers] at hb
  | [(k, v)], b, hb => by
    simp only [jsonMembers, List.mem_cons, List.mem_append] at hb
    rcases hb with h | h | h
    · exact jsonString_quiet k b h
    · subst h; decide
    · exact jsonVal_quiet v b h
  | (k, v) :: e :: m, b, hb => by
    simp only [jsonMembers, List.mem_cons, List.mem_append] at hb
    rcases hb with (h | h | h) | h | h
    · exact jsonString_quiet k b h
    · subst h; decide
    · exact jsonVal_quiet v b h
    · subst h; decide
    · exact jsonMembers_quiet (e :: m) b h
end

/-- Every value is read back with its texts repaired. -/
theorem readJson_json : ∃ r : Str → Str, (∀ s, Repaired s (r s)) ∧
    ∀ v : JVal, readJson (jsonVal v) = some (JVal.mapStr r v) := by
  have hex : ∀ s : Str, ∃ t, Repaired s t ∧ ∀ rest, readString (jsonEscape s.length s ++ 34 :: rest) = some (t, rest) := by
    intro s
    obtain ⟨t, h1, -, h3⟩ := escape_spec s.length s (Nat.le_refl _) s.length (Nat.le_refl _)
    exact ⟨t, h1, h3⟩
  refine ⟨fun s => (hex s).choose, fun s => (hex s).choose_spec.1, fun v => ?_⟩
  have h := readVal_json (fun s => (hex s).choose) (fun s rest => (hex s).choose_spec.2 rest) v
    ((jsonVal v).length + 1) [] (by omega) (by intro b hb; simp at hb)
  rw [List.append_nil] at h
  unfold readJson
  rw [h]

/-! ### Records -/

theorem mem_iff_get? {β : Type} {m : GoMap Str β} (h : (m.map (·.1)).Nodup) (k : Str) (v : β) :
    (k, v) ∈ m ↔ GoMap.get? m k = some v := by
  induction m with
  | nil => simp
  | cons e m ih =>
    rw [List.map_cons, List.nodup_cons] at h
    rw [GoMap.get?_cons, List.mem_cons]
    by_cases he : e.1 = k
    · rw [if_pos he]
      constructor
      · rintro (h' | h')
        · rw [← h']
        · exact absurd (List.mem_map.2 ⟨_, h', he.symm⟩) h.1
      · intro h'
        simp only [Option.some.injEq] at h'
        exact Or.inl (by rw [← he, ← h'])
    · rw [if_neg he, ← ih h.2]
      constructor
      · rintro (h' | h')
        · rw [← h'] at he; exact absurd rfl he
        · exact h'
      · exact Or.inr

/-- `t` is a line of log output that describes the record `f`: no control characters (so no line breaks) and none of
`<`, `>`, `&`; read as JSON it is an object that has every field of the record once, keys and texts repaired. -/
def Describes (t : Str) (f : Fields JVal) : Prop :=
  (∀ b ∈ t, 32 ≤ b ∧ b ≠ 38 ∧ b ≠ 60 ∧ b ≠ 62) ∧
  ∃ (r : Str → Str) (members : List (Str × JVal)), (∀ s, Repaired s (r s)) ∧ readJson t = some (.obj members) ∧
    members.Perm (f.map fun e => (r e.1, JVal.mapStr r (fieldValue e.2)))

theorem mapMembers_eq (r : Str → Str) (m : List (Str × JVal)) :
    JVal.mapMembers r m = m.map fun e => (r e.1, JVal.mapStr r e.2) := by
  induction m with
  | nil => simp [JVal.mapMembers]
  | cons e m ih => obtain ⟨k, v⟩ := e; simp [JVal.mapMembers, ih]

theorem encoder_describes {enc : (Str → Option (FV JVal)) → Option Str} (he : JsonEncoder enc) (f : Fields JVal)
    (hf : (f.map (·.1)).Nodup) : ∃ t, line enc (GoMap.get? f) = t ++ [10] ∧ Describes t f := by
  obtain ⟨g, hp, hg⟩ := he f hf
  refine ⟨jsonVal (.obj (g.map fun e => (e.1, e.2.toJ))), by simp only [line, hg], jsonVal_quiet _, ?_⟩
  obtain ⟨r, hr, hj⟩ := readJson_json
  refine ⟨r, _, hr, by rw [hj, JVal.mapStr], ?_⟩
  have hv : ∀ v : FV JVal, v.toJ = fieldValue v := by intro v; cases v <;> rfl
  rw [mapMembers_eq, List.map_map]
  simp only [hv]
  exact hp.map _

/-- **C86.** Everything a history of calls writes is lines; each is one JSON object on one line, for some record
without duplicate fields. -/
theorem C86_lines (enc : (Str → Option (FV JVal)) → Option Str) (he : JsonEncoder enc) (ops : List (LogOp JVal)) :
    ∀ e ∈ (logRun enc ops).out, ∃ t f, e.2 = t ++ [10] ∧ (f.map (·.1)).Nodup ∧ Describes t f := by
  have snoc : ∀ (ops : List (LogOp JVal)) op, logRun enc (ops ++ [op]) = logStep enc (logRun enc ops) op := by
    intro ops op; simp [logRun]
  suffices h : ∀ n (ops : List (LogOp JVal)), ops.length = n →
      ∀ e ∈ (logRun enc ops).out, ∃ t f, e.2 = t ++ [10] ∧ (f.map (·.1)).Nodup ∧ Describes t f from h _ ops rfl
  intro n
  induction n with
  | zero =>
    intro ops h e hm
    have : ops = [] := List.length_eq_zero_iff.1 h
    subst this
    simp [logRun] at hm
  | succ n ih =>
    intro ops h
    have hne : ops ≠ [] := by rintro rfl; simp at h
    obtain ⟨init, op, rfl⟩ : ∃ init op, ops = init ++ [op] := ⟨ops.dropLast, ops.getLast hne, (List.dropLast_concat_getLast hne).symm⟩
    have ih := ih init (by simp at h; exact h)
    have hi := (logRun_val enc init).1
    have wr : ∀ (l : Nat) (lvl : Int) (msg : Option Str), ∀ e ∈ ((logRun enc init).updLg l fun c x => match msg with
        | none => x.log enc c lvl
        | some m => x.logf enc c lvl m).out, ∃ t f, e.2 = t ++ [10] ∧ (f.map (·.1)).Nodup ∧ Describes t f := by
      intro l lvl msg e hm
      unfold LogHeap.updLg at hm
      cases hl : (logRun enc init).logs[l]? with
      | none => rw [hl] at hm; exact ih e hm
      | some o =>
        rw [hl] at hm
        simp only [List.mem_append] at hm
        cases hm with
        | inl hm => exact ih e hm
        | inr hm =>
          have hn := hi.fields o (List.mem_of_getElem? hl)
          have one : ∀ g : Fields JVal, (g.map (·.1)).Nodup → ∀ w, e = (w, jsonLine enc g) →
              ∃ t f, e.2 = t ++ [10] ∧ (f.map (·.1)).Nodup ∧ Describes t f := by
            intro g hg w hw
            obtain ⟨t, h1, h2⟩ := encoder_describes he g hg
            exact ⟨t, g, by rw [hw]; exact h1, hg, h2⟩
          cases msg with
          | none =>
            simp only [Lg.log] at hm
            split at hm
            · simp at hm
            · simp only [List.mem_singleton] at hm
              exact one _ (nodup_set (nodup_set hn _ _) _ _) _ hm
          | some m =>
            simp only [Lg.logf, Lg.log] at hm
            split at hm
            · simp at hm
            · simp only [List.mem_singleton] at hm
              exact one _ (nodup_set (nodup_set (nodup_set hn _ _) _ _) _ _) _ hm
    by_cases hlog : logs op = true
    · rw [snoc]
      cases op with
      | log l lvl => exact wr l lvl none
      | logf l lvl msg => exact wr l lvl (some msg)
      | _ => cases hlog
    · have := C47_only enc init op (by simpa using hlog)
      rw [this]; exact ih

/-- **C86.** What one formatted message writes: one line, a JSON object whose members are the fields the record has
(C50), each once. -/
theorem C86_record (enc : (Str → Option (FV JVal)) → Option Str) (he : JsonEncoder enc) (ops : List (LogOp JVal)) (l : Nat)
    (lvl : Int) (msg : Str) (x : LgVal JVal) (hx : (logVals enc ops).logs[l]? = some x) (hle : lvl ≤ x.cfg.level) :
    ∃ (t : Str) (f : Fields JVal),
      (logRun enc (ops ++ [.logf l lvl msg])).out = (logRun enc ops).out ++ [(x.cfg.writer, t ++ [10])] ∧
      Describes t f ∧ (f.map (·.1)).Nodup ∧
      ∀ k v, (k, v) ∈ f ↔
        (if k = x.cfg.key b!"error.message" then some (.str (x.err.getD []))
        else if k = x.cfg.key b!"@level" then some (.str (levelString x.cfg.level))
        else if k = b!"message" then some (.str msg)
        else x.fields k) = some v := by
  obtain ⟨rec, ho, hf, hr⟩ := C50_record enc ops l lvl msg x hx hle
  have hi := (logRun_val enc (ops ++ [.logf l lvl msg])).1
  simp only [LogHeap.val, List.getElem?_map, Option.map_map] at hf
  cases hl : (logRun enc (ops ++ [.logf l lvl msg])).logs[l]? with
  | none => rw [hl] at hf; simp at hf
  | some o =>
    rw [hl] at hf
    simp only [Option.map_some, Function.comp_apply, Option.some.injEq, LgObj.val] at hf
    have hn := hi.fields o (List.mem_of_getElem? hl)
    obtain ⟨t, h1, h2⟩ := encoder_describes he o.lg.fields hn
    refine ⟨t, o.lg.fields, ?_, h2, hn, fun k v => ?_⟩
    · rw [ho, ← hf, h1]
    · rw [← hr k, ← hf]
      exact mem_iff_get? hn k v

/-- Text that is valid UTF-8. -/
inductive Valid : Str → Prop
  | nil : Valid []
  | char {c : Nat} {s : Str} (h : scalar c) (r : Valid s) : Valid (utf8 c ++ s)

/-- Valid text is not changed by the repair. -/
theorem repaired_valid (s t : Str) (h : Valid s) (hr : Repaired s t) : t = s := by
  have : Repaired s s := by
    clear hr
    induction h with
    | nil => exact .nil
    | char h r ih => exact .char h ih
  exact Repaired.functional hr this

/-- **C86.** Every text, whatever its bytes, is written as one JSON string that reads back as its repair; valid text is
read back exactly. -/
theorem C86_string (s : Str) : ∃ t, Repaired s t ∧ (Valid s → t = s) ∧ readJson (jsonString s) = some (.str t) := by
  obtain ⟨r, h1, h2⟩ := readJson_json
  refine ⟨r s, h1 s, fun hv => repaired_valid s _ hv (h1 s), ?_⟩
  have := h2 (.str s)
  simpa only [jsonVal, JVal.mapStr] using this

/-- Such an encoder exists. -/
theorem jsonEncoder_exists : ∃ enc, JsonEncoder enc := by
  classical
  refine ⟨fun F => if h : ∃ f : Fields JVal, (f.map (·.1)).Nodup ∧ GoMap.get? f = F then
    some (jsonVal (.obj (h.choose.map fun e => (e.1, e.2.toJ)))) else none, ?_⟩
  intro f hf
  have h : ∃ g : Fields JVal, (g.map (·.1)).Nodup ∧ GoMap.get? g = GoMap.get? f := ⟨f, hf, rfl⟩
  refine ⟨h.choose, ?_, dif_pos h⟩
  have nd : ∀ {g : Fields JVal}, (g.map (·.1)).Nodup → g.Nodup := fun hg => List.Pairwise.of_map _ (fun a b h => fun he => h (he ▸ rfl)) hg
  refine (List.perm_ext_iff_of_nodup (nd h.choose_spec.1) (nd hf)).2 fun e => ?_
  obtain ⟨k, v⟩ := e
  rw [mem_iff_get? h.choose_spec.1, mem_iff_get? hf, h.choose_spec.2]

/-- **C86.** A message that tries to add a line and a field: the hypotheses hold, and the record has it as one text. -/
example : ∃ enc, JsonEncoder enc ∧ ∃ (t : Str) (f : Fields JVal),
    (logRun enc [.new b!"t", .add 0 b!"n" (.val (.arr [.num (-7), .null])), .logf 0 4 b!"a\n{\"x\":1}"]).out = [(0, t ++ [10])] ∧
    Describes t f ∧ (b!"message", .str b!"a\n{\"x\":1}") ∈ f ∧ (b!"n", .val (.arr [.num (-7), .null])) ∈ f := by
  obtain ⟨enc, he⟩ := jsonEncoder_exists
  refine ⟨enc, he, ?_⟩
  obtain ⟨t, f, h1, h2, -, h4⟩ := C86_record enc he [.new b!"t", .add 0 b!"n" (.val (.arr [.num (-7), .null]))] 0 4
    b!"a\n{\"x\":1}" _ rfl (by decide)
  exact ⟨t, f, h1, h2, (h4 _ _).2 rfl, (h4 _ _).2 rfl⟩

end Verif
