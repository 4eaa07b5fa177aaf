import Verif.Spec.Auth
import Verif.Base.U8
/-
Base64: decoding inverts encoding; the decoder accepts exactly well-formed text.
-/
namespace Verif
open Spec

theorem b64Char_table : ∀ n : Fin 64, b64Val (b64Char n) = some n.1 ∧ b64Char n ≠ 10 ∧ b64Char n ≠ 13 ∧
    b64Char n ≠ 61 ∧ b64Char n ∈ b64Alphabet := by decide +kernel

theorem b64Val_char {n : Nat} (h : n < 64) : b64Val (b64Char n) = some n := (b64Char_table ⟨n, h⟩).1

theorem b64Val_none (c : UInt8) : b64Val c = none ↔ c ∉ b64Alphabet := by
  unfold b64Val
  rw [List.findIdx?_eq_none_iff]
  constructor
  · intro h hm
    have := h c hm
    simp at this
  · intro h x hx
    simp only [beq_eq_false_iff_ne, ne_eq]
    rintro rfl; exact h hx

theorem pad_val : b64Val 61 = none := by decide +kernel

theorem u8_ext {a : UInt8} {n : Nat} (h : n = a.toNat) : UInt8.ofNat n = a := by subst h; simp

theorem b64_groups (s : Str) : b64Groups (b64Encode s) = some s := by
  induction s using b64Encode.induct with
  | case1 => rfl
  | case2 a =>
    have ha := a.toNat_lt
    simp only [b64Encode, b64Groups]
    rw [b64Val_char (by omega), b64Val_char (by omega), pad_val]
    simp only [and_self, if_true, Option.some.injEq, List.cons.injEq, and_true]
    exact u8_ext (by omega)
  | case3 a b =>
    have ha := a.toNat_lt; have hb := b.toNat_lt
    simp only [b64Encode, b64Groups]
    rw [b64Val_char (by omega), b64Val_char (by omega), b64Val_char (by omega), pad_val]
    simp only [and_self, if_true, Option.some.injEq, List.cons.injEq, and_true]
    exact ⟨u8_ext (by omega), u8_ext (by omega)⟩
  | case4 a b c t ih =>
    have ha := a.toNat_lt; have hb := b.toNat_lt; have hc := c.toNat_lt
    simp only [b64Encode, b64Groups]
    rw [b64Val_char (by omega), b64Val_char (by omega), b64Val_char (by omega), b64Val_char (by omega), ih]
    simp only [Option.some.injEq, List.cons.injEq, and_true]
    exact ⟨u8_ext (by omega), u8_ext (by omega), u8_ext (by omega)⟩

theorem b64Encode_clean (s : Str) : ∀ c ∈ b64Encode s, c ≠ 10 ∧ c ≠ 13 := by
  have hch : ∀ n, n < 64 → b64Char n ≠ 10 ∧ b64Char n ≠ 13 := fun n h => ⟨(b64Char_table ⟨n, h⟩).2.1, (b64Char_table ⟨n, h⟩).2.2.1⟩
  induction s using b64Encode.induct with
  | case1 => simp [b64Encode]
  | case2 a =>
    have ha := a.toNat_lt
    simp only [b64Encode, List.mem_cons, List.not_mem_nil, or_false]
    rintro c (rfl | rfl | rfl | rfl)
    · exact hch _ (by omega)
    · exact hch _ (by omega)
    · decide
    · decide
  | case3 a b =>
    have ha := a.toNat_lt; have hb := b.toNat_lt
    simp only [b64Encode, List.mem_cons, List.not_mem_nil, or_false]
    rintro c (rfl | rfl | rfl | rfl)
    · exact hch _ (by omega)
    · exact hch _ (by omega)
    · exact hch _ (by omega)
    · decide
  | case4 a b c t ih =>
    have ha := a.toNat_lt; have hb := b.toNat_lt; have hc := c.toNat_lt
    simp only [b64Encode, List.mem_cons]
    rintro d (rfl | rfl | rfl | rfl | h)
    · exact hch _ (by omega)
    · exact hch _ (by omega)
    · exact hch _ (by omega)
    · exact hch _ (by omega)
    · exact ih d h

/-- Decoding inverts encoding. -/
theorem b64Decode_encode (s : Str) : b64Decode (b64Encode s) = some s := by
  unfold b64Decode
  rw [List.filter_eq_self.2 (by intro c hc; simpa using b64Encode_clean s c hc), b64_groups]

theorem b64Val_some {c : UInt8} (h : c ∈ b64Alphabet) : ∃ n, b64Val c = some n := by
  cases hv : b64Val c with
  | none => exact absurd h ((b64Val_none c).1 hv)
  | some n => exact ⟨n, rfl⟩

theorem b64Val_mem {c : UInt8} {n : Nat} (h : b64Val c = some n) : c ∈ b64Alphabet := by
  by_cases hm : c ∈ b64Alphabet
  · exact hm
  · rw [(b64Val_none c).2 hm] at h; simp at h

/-- Well-formed text without line breaks. -/
def B64Plain (t : Str) : Prop :=
  ∃ body pad, t = body ++ pad ∧ (∀ c ∈ body, c ∈ b64Alphabet) ∧
      pad ∈ [[], [61], [61, 61]] ∧ (body ++ pad).length % 4 = 0

theorem b64Val_61 {c : UInt8} {n : Nat} (h : b64Val c = some n) : c ≠ 61 := by
  rintro rfl; rw [pad_val] at h; simp at h

theorem B64Plain.step {e : UInt8} {n : Nat} {l body pad : Str} (h3 : pad ∈ [[], [61], [61, 61]])
    (he : b64Val e = some n) (h : e :: l = body ++ pad) : ∃ body', body = e :: body' ∧ l = body' ++ pad := by
  have hpad : ∀ e ∈ pad, e = 61 := by
    intro e he
    simp only [List.mem_cons, List.not_mem_nil, or_false] at h3
    rcases h3 with rfl | rfl | rfl <;> simp at he <;> exact he
  cases body with
  | nil =>
    exfalso
    simp only [List.nil_append] at h
    exact b64Val_61 he (hpad e (by rw [← h]; simp))
  | cons f body' =>
    simp only [List.cons_append, List.cons.injEq] at h
    exact ⟨body', by rw [h.1], h.2⟩

/-- The decoder on text without line breaks. -/
theorem b64Groups_isSome (n : Nat) : ∀ t : Str, t.length ≤ n → ((b64Groups t).isSome = true ↔ B64Plain t) := by
  induction n with
  | zero =>
    intro t ht
    have : t = [] := List.length_eq_zero_iff.1 (by omega)
    subst this
    simp only [b64Groups, Option.isSome_some, true_iff]
    exact ⟨[], [], rfl, by simp, by simp, by simp⟩
  | succ n ih =>
    intro t ht
    rcases t with _ | ⟨a, _ | ⟨b, _ | ⟨c, _ | ⟨d, t⟩⟩⟩⟩
    · simp only [b64Groups, Option.isSome_some, true_iff]
      exact ⟨[], [], rfl, by simp, by simp, by simp⟩
    · simp only [b64Groups, Option.isSome_none, Bool.false_eq_true, false_iff]
      rintro ⟨body, pad, g1, _, _, g4⟩
      rw [← g1] at g4; simp at g4
    · simp only [b64Groups, Option.isSome_none, Bool.false_eq_true, false_iff]
      rintro ⟨body, pad, g1, _, _, g4⟩
      rw [← g1] at g4; simp at g4
    · simp only [b64Groups, Option.isSome_none, Bool.false_eq_true, false_iff]
      rintro ⟨body, pad, g1, _, _, g4⟩
      rw [← g1] at g4; simp at g4
    · have hab : B64Plain (a :: b :: c :: d :: t) → a ∈ b64Alphabet ∧ b ∈ b64Alphabet := by
        rintro ⟨body, pad, h1, h2, h3, h4⟩
        have : a ∈ body ∧ b ∈ body := by
          simp only [List.mem_cons, List.not_mem_nil, or_false] at h3
          rcases h3 with rfl | rfl | rfl <;> rcases body with _ | ⟨e1, _ | ⟨e2, body⟩⟩ <;> simp at h1 <;> simp [h1]
        exact ⟨h2 a this.1, h2 b this.2⟩
      cases hx : b64Val a with
      | none =>
        have hn : b64Groups (a :: b :: c :: d :: t) = none := by simp [b64Groups, hx]
        rw [hn]
        simp only [Option.isSome_none, Bool.false_eq_true, false_iff]
        intro h; exact (b64Val_none a).1 hx (hab h).1
      | some x =>
      cases hy : b64Val b with
      | none =>
        have hn : b64Groups (a :: b :: c :: d :: t) = none := by simp [b64Groups, hx, hy]
        rw [hn]
        simp only [Option.isSome_none, Bool.false_eq_true, false_iff]
        intro h; exact (b64Val_none b).1 hy (hab h).2
      | some y =>
      cases hz : b64Val c with
      | none =>
        have hc : c ∉ b64Alphabet := (b64Val_none c).1 hz
        simp only [b64Groups, hx, hy, hz]
        split
        · rename_i h
          simp only [Option.isSome_some, true_iff]
          obtain ⟨rfl, rfl, rfl⟩ := h
          refine ⟨[a, b], [61, 61], rfl, ?_, by simp, by simp⟩
          simp only [List.mem_cons, List.not_mem_nil, or_false]
          rintro e (rfl | rfl)
          · exact b64Val_mem hx
          · exact b64Val_mem hy
        · rename_i h
          simp only [Option.isSome_none, Bool.false_eq_true, false_iff]
          rintro ⟨body, pad, h1, h2, h3, h4⟩
          obtain ⟨b1, rfl, k1⟩ := B64Plain.step h3 hx h1
          obtain ⟨b2, rfl, k2⟩ := B64Plain.step h3 hy k1
          cases b2 with
          | cons e b2 =>
            simp only [List.cons_append, List.cons.injEq] at k2
            exact hc (h2 c (by simp [k2.1]))
          | nil =>
            simp only [List.nil_append] at k2
            simp only [List.mem_cons, List.not_mem_nil, or_false] at h3
            rcases h3 with rfl | rfl | rfl
            · simp at k2
            · simp at k2
            · simp at k2; exact h k2
      | some z =>
      cases hw : b64Val d with
      | none =>
        have hd : d ∉ b64Alphabet := (b64Val_none d).1 hw
        simp only [b64Groups, hx, hy, hz, hw]
        split
        · rename_i h
          simp only [Option.isSome_some, true_iff]
          obtain ⟨rfl, rfl⟩ := h
          refine ⟨[a, b, c], [61], rfl, ?_, by simp, by simp⟩
          simp only [List.mem_cons, List.not_mem_nil, or_false]
          rintro e (rfl | rfl | rfl)
          · exact b64Val_mem hx
          · exact b64Val_mem hy
          · exact b64Val_mem hz
        · rename_i h
          simp only [Option.isSome_none, Bool.false_eq_true, false_iff]
          rintro ⟨body, pad, h1, h2, h3, h4⟩
          obtain ⟨b1, rfl, k1⟩ := B64Plain.step h3 hx h1
          obtain ⟨b2, rfl, k2⟩ := B64Plain.step h3 hy k1
          obtain ⟨b3, rfl, k3⟩ := B64Plain.step h3 hz k2
          cases b3 with
          | cons e b3 =>
            simp only [List.cons_append, List.cons.injEq] at k3
            exact hd (h2 d (by simp [k3.1]))
          | nil =>
            simp only [List.nil_append] at k3
            simp only [List.mem_cons, List.not_mem_nil, or_false] at h3
            rcases h3 with rfl | rfl | rfl
            · simp at k3
            · simp at k3; exact h k3
            · simp at h4
      | some w =>
        have iht := ih t (by simp at ht; omega)
        have hl : (b64Groups (a :: b :: c :: d :: t)).isSome = (b64Groups t).isSome := by
          simp only [b64Groups, hx, hy, hz, hw]
          cases b64Groups t <;> rfl
        rw [hl, iht]
        constructor
        · rintro ⟨body, pad, h1, h2, h3, h4⟩
          refine ⟨a :: b :: c :: d :: body, pad, by rw [h1]; rfl, ?_, h3, ?_⟩
          · simp only [List.mem_cons]
            rintro e (rfl | rfl | rfl | rfl | h)
            · exact b64Val_mem hx
            · exact b64Val_mem hy
            · exact b64Val_mem hz
            · exact b64Val_mem hw
            · exact h2 e h
          · simp only [List.cons_append, List.length_cons] at h4 ⊢; omega
        · rintro ⟨body, pad, h1, h2, h3, h4⟩
          obtain ⟨b1, rfl, k1⟩ := B64Plain.step h3 hx h1
          obtain ⟨b2, rfl, k2⟩ := B64Plain.step h3 hy k1
          obtain ⟨b3, rfl, k3⟩ := B64Plain.step h3 hz k2
          obtain ⟨b4, rfl, k4⟩ := B64Plain.step h3 hw k3
          exact ⟨b4, pad, k4, fun c hc => h2 c (by simp [hc]), h3, by simp at h4 ⊢; omega⟩

/-- The decoder accepts exactly well-formed text. -/
theorem b64Decode_isSome (s : Str) : (b64Decode s).isSome = true ↔ B64Text s := b64Groups_isSome _ _ (Nat.le_refl _)

theorem lower_inv : ∀ c : UInt8, ∀ p ∈ b!"basic", (lowerByte c == p) = true → c = p ∨ c = p - 32 :=
  u8_all (by decide +kernel)

theorem equalFold_cons {p : UInt8} {ps s : Str} (hp : p ∈ b!"basic") (h : equalFold s (p :: ps) = true) :
    (∃ c s', s = c :: s' ∧ (c = p ∨ c = p - 32) ∧ equalFold s' ps = true) ∨
    (p = 115 ∧ ∃ s', s = 0xC5 :: 0xBF :: s' ∧ equalFold s' ps = true) := by
  generalize hq : p :: ps = q at h
  unfold equalFold at h
  split at h
  · simp at hq
  · simp only [List.cons.injEq] at hq
    obtain ⟨rfl, rfl⟩ := hq
    simp only [Bool.and_eq_true, beq_iff_eq] at h
    exact Or.inr ⟨h.1, _, rfl, h.2⟩
  · simp only [List.cons.injEq] at hq
    obtain ⟨rfl, rfl⟩ := hq
    simp only [Bool.and_eq_true] at h
    exact Or.inl ⟨_, _, rfl, lower_inv _ _ hp h.1, h.2⟩
  · simp at h

theorem equalFold_nil {s : Str} (h : equalFold s [] = true) : s = [] := by
  generalize hq : ([] : Str) = q at h
  unfold equalFold at h
  split at h
  · rfl
  · simp at hq
  · simp at hq
  · simp at h

theorem equalFold_basic (s : Str) : equalFold s b!"basic" = true ↔ s ∈ basicSpellings := by
  have one : ∀ (p : UInt8) (ps : Str), p ∈ b!"basic" → p ≠ 115 → ∀ s, equalFold s (p :: ps) = true →
      ∃ c s', s = c :: s' ∧ (c = p ∨ c = p - 32) ∧ equalFold s' ps = true := by
    intro p ps hp h115 s h
    rcases equalFold_cons hp h with h | h
    · exact h
    · exact absurd h.1 h115
  constructor
  · intro h
    obtain ⟨c1, s1, rfl, h1, h⟩ := one 98 _ (by decide) (by decide) s h
    obtain ⟨c2, s2, rfl, h2, h⟩ := one 97 _ (by decide) (by decide) s1 h
    have h3 : ∃ x s3, s2 = x ++ s3 ∧ x ∈ [b!"s", b!"S", [0xC5, 0xBF]] ∧ equalFold s3 b!"ic" = true := by
      rcases equalFold_cons (by decide) h with ⟨c, s', rfl, hc, h⟩ | ⟨_, s', rfl, h⟩
      · rcases hc with rfl | rfl
        · exact ⟨b!"s", s', rfl, by decide, h⟩
        · exact ⟨b!"S", s', rfl, by decide, h⟩
      · exact ⟨[0xC5, 0xBF], s', rfl, by decide, h⟩
    obtain ⟨x, s3, rfl, hx, h⟩ := h3
    obtain ⟨c4, s4, rfl, h4, h⟩ := one 105 _ (by decide) (by decide) s3 h
    obtain ⟨c5, s5, rfl, h5, h⟩ := one 99 _ (by decide) (by decide) s4 h
    have h6 := equalFold_nil h
    subst h6
    simp only [List.mem_cons, List.not_mem_nil, or_false] at hx
    rcases h1 with rfl | rfl <;> rcases h2 with rfl | rfl <;> rcases hx with rfl | rfl | rfl <;>
      rcases h4 with rfl | rfl <;> rcases h5 with rfl | rfl <;> decide +kernel
  · have : ∀ s ∈ basicSpellings, equalFold s b!"basic" = true := by decide +kernel
    exact this s

end Verif
