import Verif.Spec.DateForms
import Verif.Props.Dates
import Verif.Base.U8
/-
C114: how names, blanks and numbers of dates are read.
-/
namespace Verif
open Spec

theorem letter_low : ∀ a : UInt8, 97 ≤ (a ||| 32) → (a ||| 32) ≤ 122 →
    (65 ≤ a ∧ a ≤ 90 ∧ a ||| 32 = a + 32) ∨ (97 ≤ a ∧ a ≤ 122 ∧ a ||| 32 = a ∧ 65 ≤ a - 32 ∧ a - 32 ≤ 90 ∧ a = a - 32 + 32) := by
  apply u8_all; decide +kernel

theorem letter_cap : ∀ a : UInt8, 65 ≤ a → a ≤ 90 → a ||| 32 = a + 32 ∧ 97 ≤ a + 32 ∧ a + 32 ≤ 122 ∧ (a + 32) ||| 32 = a + 32 := by
  apply u8_all; decide +kernel

theorem letter_back : ∀ a b : UInt8, a + 32 = b + 32 → a = b := by
  intro a b h
  have : a + 32 - 32 = b + 32 - 32 := by rw [h]
  simpa using this

theorem fold_letter (a b : UInt8) :
    (a == b || (a ||| 32 == b ||| 32 && 97 ≤ (a ||| 32) && (a ||| 32) ≤ 122)) = true ↔ SameLetter a b := by
  simp only [Bool.or_eq_true, beq_iff_eq, Bool.and_eq_true, decide_eq_true_eq]
  constructor
  · rintro (h | ⟨⟨h1, h2⟩, h3⟩)
    · exact .inl h
    · have hb := letter_low b (h1 ▸ h2) (h1 ▸ h3)
      rcases letter_low a h2 h3 with ⟨a1, a2, a3⟩ | ⟨a1, a2, a3, a4, a5, a6⟩ <;>
        rcases hb with ⟨b1, b2, b3⟩ | ⟨b1, b2, b3, b4, b5, b6⟩
      · rw [a3, b3] at h1; exact .inl (letter_back _ _ h1)
      · rw [a3, b3] at h1; exact .inr (.inl ⟨a1, a2, h1.symm⟩)
      · rw [a3, b3] at h1; exact .inr (.inr ⟨b1, b2, h1⟩)
      · rw [a3, b3] at h1; exact .inl h1
  · rintro (h | ⟨h1, h2, rfl⟩ | ⟨h1, h2, rfl⟩)
    · exact .inl h
    · obtain ⟨e1, e2, e3, e4⟩ := letter_cap a h1 h2
      rw [e1, e4]; exact .inr ⟨⟨rfl, e2⟩, e3⟩
    · obtain ⟨e1, e2, e3, e4⟩ := letter_cap b h1 h2
      rw [e1, e4]; exact .inr ⟨⟨rfl, e2⟩, e3⟩

theorem sameLetter_symm {a b : UInt8} (h : SameLetter a b) : SameLetter b a := by
  rcases h with rfl | h | h
  · exact .inl rfl
  · exact .inr (.inr h)
  · exact .inr (.inl h)

theorem sameLetter_trans {a b c : UInt8} (h : SameLetter a b) (h' : SameLetter b c) : SameLetter a c := by
  rw [← fold_letter] at *
  simp only [Bool.or_eq_true, beq_iff_eq, Bool.and_eq_true, decide_eq_true_eq] at *
  rcases h with rfl | ⟨⟨h1, h2⟩, h3⟩
  · exact h'
  · rcases h' with rfl | ⟨⟨h4, h5⟩, h6⟩
    · exact .inr ⟨⟨h1, h2⟩, h3⟩
    · exact .inr ⟨⟨h1.trans h4, h2⟩, h3⟩

theorem foldMatch_iff : ∀ s t : Str, s.length = t.length → (foldMatch s t = true ↔ SameName s t)
  | [], [], _ => ⟨fun _ => .nil, fun _ => rfl⟩
  | a :: s, b :: t, h => by
    rw [foldMatch, Bool.and_eq_true, fold_letter, foldMatch_iff s t (by simpa using h)]
    exact ⟨fun h => .cons h.1 h.2, fun h => by cases h with | cons h1 h2 => exact ⟨h1, h2⟩⟩

theorem sameName_length {s t : Str} (h : SameName s t) : s.length = t.length := by
  induction h with
  | nil => rfl
  | cons _ _ ih => rw [List.length_cons, List.length_cons, ih]

/-- A text in other letters clashes with the same names. -/
theorem clash_same {s n : Str} (h : SameName s n) : ∀ v, clash n v = true → clash s v = true := by
  induction h with
  | nil => exact fun _ h => h
  | cons hl _ ih =>
    rename_i a b s t
    intro v hv
    cases v with
    | nil => simp [clash] at hv
    | cons c v =>
      simp only [clash, Bool.or_eq_true, Bool.not_eq_true'] at hv ⊢
      rcases hv with hv | hv
      · left
        rw [← Bool.not_eq_true, fold_letter] at hv ⊢
        exact fun h' => hv (sameLetter_trans (sameLetter_symm hl) h')
      · exact .inr (ih v hv)

theorem lookup_iff_from : ∀ (tab : List Str) (i : Nat) (v : Str) (k : Nat) (r : Str),
    (∀ a ∈ tab, ∀ b ∈ tab, a = b ∨ clash a b = true) → tab.Nodup →
    (lookupName i tab v = some (k, r) ↔ ∃ j n s, k = i + j ∧ tab[j]? = some n ∧ v = s ++ r ∧ SameName s n)
  | [], i, v, k, r, _, _ => by simp [lookupName]
  | x :: tab, i, v, k, r, hc, hn => by
    rw [List.nodup_cons] at hn
    have ih := lookup_iff_from tab (i + 1) v k r (fun a ha b hb => hc a (by simp [ha]) b (by simp [hb])) hn.2
    have self : ∀ s r', v = s ++ r' → SameName s x → x.length ≤ v.length ∧ foldMatch (v.take x.length) x = true := by
      rintro s r' rfl hs
      have hl := sameName_length hs
      refine ⟨by rw [List.length_append]; omega, ?_⟩
      rw [← hl, List.take_left]
      exact (foldMatch_iff _ _ hl).2 hs
    unfold lookupName
    by_cases h : x.length ≤ v.length ∧ foldMatch (v.take x.length) x = true
    · rw [if_pos h]
      have hl : (v.take x.length).length = x.length := by rw [List.length_take]; omega
      have hs := (foldMatch_iff _ _ hl).1 h.2
      constructor
      · intro e
        cases e
        exact ⟨0, x, _, rfl, rfl, (List.take_append_drop x.length v).symm, hs⟩
      · rintro ⟨j, n, s, rfl, hj, e, hs'⟩
        cases j with
        | zero =>
          cases hj
          have : s.length = x.length := sameName_length hs'
          rw [Nat.add_zero, e, ← this, List.drop_left]
        | succ j =>
          exfalso
          have hmem : n ∈ tab := List.mem_of_getElem? hj
          rcases hc n (by simp [hmem]) x (by simp) with rfl | hcl
          · exact hn.1 hmem
          · have := foldMatch_clash s x r (clash_same hs' x hcl)
            rw [← e] at this
            rw [this] at h
            exact absurd h.2 (by decide)
    · rw [if_neg h, ih]
      constructor
      · rintro ⟨j, n, s, rfl, hj, e, hs⟩
        exact ⟨j + 1, n, s, by omega, hj, e, hs⟩
      · rintro ⟨j, n, s, rfl, hj, e, hs⟩
        cases j with
        | zero => cases hj; exact absurd (self s r e hs) h
        | succ j => exact ⟨j, n, s, by omega, hj, e, hs⟩

theorem lookup_day_iff (v : Str) (k : Nat) (r : Str) :
    lookupName 0 shortDayNames v = some (k, r) ↔ k < 7 ∧ ∃ s, v = s ++ r ∧ SameName s (dayName k) := by
  rw [lookup_iff_from _ _ _ _ _ (by decide +kernel) (by decide +kernel)]
  have name : ∀ j < 7, shortDayNames[j]? = some (dayName j) := by decide +kernel
  constructor
  · rintro ⟨j, n, s, rfl, hj, e, hs⟩
    have hlt : j < 7 := (List.getElem?_eq_some_iff.1 hj).1
    rw [name j hlt] at hj
    cases hj
    rw [Nat.zero_add]; exact ⟨hlt, s, e, hs⟩
  · rintro ⟨h, s, e, hs⟩
    exact ⟨k, _, s, by omega, name k h, e, hs⟩

theorem lookup_full_iff (v : Str) (k : Nat) (r : Str) :
    lookupName 0 longDayNames v = some (k, r) ↔ k < 7 ∧ ∃ s, v = s ++ r ∧ SameName s (fullDayName k) := by
  rw [lookup_iff_from _ _ _ _ _ (by decide +kernel) (by decide +kernel)]
  have name : ∀ j < 7, longDayNames[j]? = some (fullDayName j) := by decide +kernel
  constructor
  · rintro ⟨j, n, s, rfl, hj, e, hs⟩
    have hlt : j < 7 := (List.getElem?_eq_some_iff.1 hj).1
    rw [name j hlt] at hj
    cases hj
    rw [Nat.zero_add]; exact ⟨hlt, s, e, hs⟩
  · rintro ⟨h, s, e, hs⟩
    exact ⟨k, _, s, by omega, name k h, e, hs⟩

theorem lookup_month_iff (v : Str) (k : Nat) (r : Str) :
    lookupName 0 shortMonthNames v = some (k, r) ↔ k < 12 ∧ ∃ s, v = s ++ r ∧ SameName s (monthName (k + 1)) := by
  rw [lookup_iff_from _ _ _ _ _ (by decide +kernel) (by decide +kernel)]
  have name : ∀ j < 12, shortMonthNames[j]? = some (monthName (j + 1)) := by decide +kernel
  constructor
  · rintro ⟨j, n, s, rfl, hj, e, hs⟩
    have hlt : j < 12 := (List.getElem?_eq_some_iff.1 hj).1
    rw [name j hlt] at hj
    cases hj
    rw [Nat.zero_add]; exact ⟨hlt, s, e, hs⟩
  · rintro ⟨h, s, e, hs⟩
    exact ⟨k, _, s, by omega, name k h, e, hs⟩

/-! ### Skipping -/

theorem skip_char_iff (c : UInt8) (hc : c ≠ 32) (v p r : Str) : skipText v (c :: p) = some r ↔ ∃ u, v = c :: u ∧ skipText u p = some r := by
  cases v with
  | nil => simp [skipText, hc]
  | cons a v =>
    rw [skipText, if_neg hc]
    by_cases h : a = c
    · subst h; simp
    · simp [h]

theorem cutSpace_blanks (k : Nat) (r : Str) (h : r.head? ≠ some 32) : cutSpace (List.replicate k 32 ++ r) = r := by
  unfold cutSpace
  induction k with
  | zero =>
    cases r with
    | nil => rfl
    | cons a r => rw [List.replicate_zero, List.nil_append, List.dropWhile_cons_of_neg]; simpa using h
  | succ k ih => rw [List.replicate_succ, List.cons_append, List.dropWhile_cons_of_pos (by decide), ih]

theorem cutSpace_shape (v : Str) : ∃ k, v = List.replicate k 32 ++ cutSpace v ∧ (cutSpace v).head? ≠ some 32 := by
  unfold cutSpace
  induction v with
  | nil => exact ⟨0, rfl, by simp⟩
  | cons a v ih =>
    by_cases h : a = 32
    · subst h
      obtain ⟨k, h1, h2⟩ := ih
      rw [List.dropWhile_cons_of_pos (by decide)]
      exact ⟨k + 1, by rw [List.replicate_succ, List.cons_append, ← h1], h2⟩
    · rw [List.dropWhile_cons_of_neg (by simpa using h)]
      exact ⟨0, rfl, by simpa using h⟩

/-- A blank of the layout, when something follows. -/
theorem skip_blank_iff (v p r : Str) (hne : skipText [] p ≠ some r) :
    skipText v (32 :: p) = some r ↔ ∃ b u, Blanks b ∧ v = b ++ u ∧ u.head? ≠ some 32 ∧ skipText u p = some r := by
  cases v with
  | nil =>
    rw [skipText, if_pos rfl]
    constructor
    · intro h; exact absurd h hne
    · rintro ⟨b, u, ⟨k, rfl⟩, h, -⟩; simp [List.replicate_succ] at h
  | cons a v =>
    rw [skipText, if_pos rfl]
    by_cases h : a = 32
    · subst h
      simp only [ne_eq, not_true_eq_false, if_false]
      constructor
      · intro h
        obtain ⟨k, h1, h2⟩ := cutSpace_shape (32 :: v)
        cases k with
        | zero =>
          exfalso
          rw [List.replicate_zero, List.nil_append] at h1
          rw [← h1] at h2
          exact h2 rfl
        | succ k => exact ⟨_, _, ⟨k, rfl⟩, h1, h2, h⟩
      · rintro ⟨b, u, ⟨k, rfl⟩, h1, h2, h3⟩
        rw [h1, cutSpace_blanks _ _ h2]; exact h3
    · simp only [ne_eq, h, not_false_eq_true, if_true]
      constructor
      · intro h; cases h
      · rintro ⟨b, u, ⟨k, rfl⟩, h1, -⟩
        rw [List.replicate_succ, List.cons_append] at h1
        exact absurd (List.cons.inj h1).1 h

theorem skip_last_blank (v r : Str) (hr : r ≠ []) :
    skipText v b!" " = some r ↔ ∃ b, Blanks b ∧ v = b ++ r ∧ r.head? ≠ some 32 := by
  show skipText v [32] = some r ↔ _
  rw [skip_blank_iff v [] r (by rw [skip_nil]; intro e; cases e; exact hr rfl)]
  constructor
  · rintro ⟨b, u, h1, h2, h3, h4⟩
    rw [skip_nil] at h4; cases h4; exact ⟨b, h1, h2, h3⟩
  · rintro ⟨b, h1, h2, h3⟩
    exact ⟨b, r, h1, h2, h3, skip_nil r⟩

/-! ### Numbers -/

theorem digit_of {a : UInt8} (h : 48 ≤ a ∧ a ≤ 57) : ∃ n < 10, a = digitByte n ∧ a.toNat - 48 = n := by
  obtain ⟨h1, h2⟩ := h
  rw [UInt8.le_iff_toNat_le] at h1 h2
  have e1 : (48 : UInt8).toNat = 48 := rfl
  have e2 : (57 : UInt8).toNat = 57 := rfl
  refine ⟨a.toNat - 48, by omega, ?_, rfl⟩
  apply UInt8.toNat_inj.1
  rw [digitByte_nat]; omega

theorem digitAt_zero (a : UInt8) (t : Str) : digitAt (a :: t) 0 = true ↔ 48 ≤ a ∧ a ≤ 57 := by
  simp [digitAt]

theorem digitAt_one (a b : UInt8) (t : Str) : digitAt (a :: b :: t) 1 = true ↔ 48 ≤ b ∧ b ≤ 57 := by
  simp [digitAt]

theorem two_digits {a b : Nat} (_ha : a < 10) (hb : b < 10) : two (a * 10 + b) = [digitByte a, digitByte b] := by
  have e1 : (a * 10 + b) / 10 = a := by omega
  have e2 : digitByte (a * 10 + b) = digitByte b := by unfold digitByte; congr 1; omega
  unfold two
  rw [e1, e2]

theorem getNum_fixed_iff (v : Str) (n : Nat) (r : Str) : getNum v true = some (n, r) ↔ n < 100 ∧ v = two n ++ r := by
  constructor
  · intro h
    unfold getNum at h
    split at h
    · cases h
    · rename_i a t
      split at h
      · cases h
      · rename_i h0
        split at h
        · cases h
        · rename_i h1
          split at h
          · cases h
          · rename_i b u
            rw [Bool.not_eq_false, digitAt_zero] at h0
            rw [Bool.not_eq_false, digitAt_one] at h1
            obtain ⟨x, hx, e1, e2⟩ := digit_of h0
            obtain ⟨y, hy, e3, e4⟩ := digit_of h1
            rw [e2, e4] at h
            cases h
            exact ⟨by omega, by rw [two_digits hx hy, e1, e3]; rfl⟩
  · rintro ⟨h, rfl⟩
    exact getNum_two n h true r

theorem getNum_free_iff (v : Str) (n : Nat) (r : Str) :
    getNum v false = some (n, r) ↔ (n < 100 ∧ v = two n ++ r) ∨ (n < 10 ∧ v = digitByte n :: r ∧ digitAt r 0 = false) := by
  have shift : ∀ (a : UInt8) (t : Str), digitAt (a :: t) 1 = digitAt t 0 := fun a t => rfl
  constructor
  · intro h
    unfold getNum at h
    split at h
    · cases h
    · rename_i a t
      split at h
      · cases h
      · rename_i h0
        rw [Bool.not_eq_false, digitAt_zero] at h0
        obtain ⟨x, hx, e1, e2⟩ := digit_of h0
        split at h
        · rename_i h1
          rw [if_neg (by decide), e2] at h
          cases h
          exact .inr ⟨hx, by rw [e1], by rw [← shift a]; exact h1⟩
        · rename_i h1
          split at h
          · cases h
          · rename_i b u
            rw [Bool.not_eq_false, digitAt_one] at h1
            obtain ⟨y, hy, e3, e4⟩ := digit_of h1
            rw [e2, e4] at h
            cases h
            exact .inl ⟨by omega, by rw [two_digits hx hy, e1, e3]; rfl⟩
  · rintro (⟨h, rfl⟩ | ⟨h, rfl, h'⟩)
    · exact getNum_two n h false r
    · have hd := digitByte_range n
      have e := digitByte_nat n
      unfold getNum
      simp only
      rw [if_neg (by rw [Bool.not_eq_false, digitAt_zero]; exact hd), if_pos (by rw [shift]; exact h'), if_neg (by decide), e]
      congr 2
      omega

theorem leadingInt_rest (acc : Nat) (s : Str) : (leadingInt acc s).2 = [] ↔ ∀ c ∈ s, 48 ≤ c ∧ c ≤ 57 := by
  induction s generalizing acc with
  | nil => simp [leadingInt]
  | cons c t ih =>
    rw [leadingInt]
    by_cases h : 48 ≤ c ∧ c ≤ 57
    · rw [if_pos h, ih]; simp [h]
    · rw [if_neg h]; simp [h]

theorem leadingInt_value (acc : Nat) (s : Str) (h : ∀ c ∈ s, 48 ≤ c ∧ c ≤ 57) (r : Str) (hr : digitAt r 0 = false) :
    leadingInt acc (s ++ r) = (acc * 10 ^ s.length + decVal s, r) := by
  induction s generalizing acc with
  | nil =>
    cases r with
    | nil => simp [leadingInt, decVal]
    | cons c r =>
      rw [List.nil_append, leadingInt, if_neg]
      · simp [decVal]
      · intro h'; rw [(digitAt_zero c r).2 h'] at hr; cases hr
  | cons c t ih =>
    rw [List.cons_append, leadingInt, if_pos (h c (by simp)), ih _ (fun x hx => h x (by simp [hx])), decVal, List.length_cons, Nat.pow_succ]
    congr 1
    rw [Nat.add_mul, Nat.mul_assoc, Nat.mul_comm 10, Nat.add_assoc]

theorem atoi_short_iff (s : Str) (hl : s.length = 2) (y : Int) :
    atoiText s = some y ↔ (∃ n : Nat, n < 100 ∧ s = two n ∧ y = n) ∨ (∃ n : Nat, n < 10 ∧ s = [43, digitByte n] ∧ y = n) ∨
      (∃ n : Nat, n < 10 ∧ s = [45, digitByte n] ∧ y = -(n : Int)) := by
  have one : ∀ n : Nat, n < 10 → leadingInt 0 [digitByte n] = (n, []) := by
    intro n hn
    rw [leadingInt_digit, leadingInt]; congr 1; omega
  constructor
  · match s, hl with
    | [a, b], _ =>
      intro h
      unfold atoiText at h
      simp only at h
      by_cases hs : a = 45 ∨ a = 43
      · rw [if_pos hs] at h
        by_cases hq : (leadingInt 0 [b]).2 = []
        · rw [if_neg (not_not_intro hq)] at h
          rw [leadingInt_rest] at hq
          obtain ⟨n, hn, e, -⟩ := digit_of (hq b (by simp))
          rw [e, one n hn] at h
          rcases hs with rfl | rfl
          · rw [if_pos (by decide)] at h
            cases h
            exact .inr (.inr ⟨n, hn, by rw [e], rfl⟩)
          · rw [if_neg (by decide)] at h
            cases h
            exact .inr (.inl ⟨n, hn, by rw [e], rfl⟩)
        · rw [if_pos hq] at h; cases h
      · rw [if_neg hs] at h
        by_cases hq : (leadingInt 0 [a, b]).2 = []
        · rw [if_neg (not_not_intro hq)] at h
          rw [leadingInt_rest] at hq
          obtain ⟨x, hx, e1, -⟩ := digit_of (hq a (by simp))
          obtain ⟨z, hz, e2, -⟩ := digit_of (hq b (by simp))
          have hn : a ≠ 45 := fun e => hs (.inl e)
          rw [if_neg (by simpa using hn), e1, e2, leadingInt_digit, leadingInt_digit, leadingInt] at h
          cases h
          refine .inl ⟨x * 10 + z, by omega, by rw [two_digits hx hz, e1, e2], ?_⟩
          simp only
          omega
        · rw [if_pos hq] at h; cases h
  · rintro (⟨n, hn, rfl, rfl⟩ | ⟨n, hn, rfl, rfl⟩ | ⟨n, hn, rfl, rfl⟩)
    · exact atoi_two n hn
    · unfold atoiText
      simp [one n hn]
    · unfold atoiText
      simp [one n hn]

theorem atoi_year_iff (s : Str) (hl : s.length = 4) (hd : digitAt s 0 = true) (y : Int) :
    atoiText s = some y ↔ ∃ n : Nat, n < 10000 ∧ s = four n ∧ y = n := by
  constructor
  · match s, hl with
    | [a, b, c, d], _ =>
      intro h
      rw [digitAt_zero] at hd
      have hs : ¬ (a = 45 ∨ a = 43) := by
        rintro (rfl | rfl) <;> exact absurd hd (by decide)
      unfold atoiText at h
      simp only at h
      rw [if_neg hs] at h
      split at h
      · cases h
      · rename_i hq
        rw [ne_eq, Decidable.not_not, leadingInt_rest] at hq
        have hn : a ≠ 45 := fun e => hs (.inl e)
        obtain ⟨x, hx, e1, -⟩ := digit_of (hq a (by simp))
        obtain ⟨z, hz, e2, -⟩ := digit_of (hq b (by simp))
        obtain ⟨u, hu, e3, -⟩ := digit_of (hq c (by simp))
        obtain ⟨w, hw, e4, -⟩ := digit_of (hq d (by simp))
        rw [if_neg (by simpa using hn), e1, e2, e3, e4, leadingInt_digit, leadingInt_digit, leadingInt_digit, leadingInt_digit, leadingInt] at h
        cases h
        have f : ∀ k j : Nat, k % 10 = j % 10 → digitByte k = digitByte j := by
          intro k j e; unfold digitByte; rw [e]
        refine ⟨((x * 10 + z) * 10 + u) * 10 + w, by omega, ?_, ?_⟩
        · rw [e1, e2, e3, e4]
          unfold four
          rw [f (_ / 1000) x (by omega), f (_ / 100) z (by omega), f (_ / 10) u (by omega), f (_ * 10 + w) w (by omega)]
        · simp only
          omega
  · rintro ⟨n, hn, rfl, rfl⟩
    exact atoi_four n hn

end Verif
