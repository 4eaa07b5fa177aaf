import Verif.Model.Range
import Verif.Spec.Range
import Verif.Props.Text
import Verif.Lemmas.SplitPath
/-
C54, C55: byte ranges.
-/
namespace Verif
open Spec

/-! ### Numbers -/

theorem parseDigits_iff (s : Str) : ∀ (acc n : Nat), parseDigits acc s = some n ↔
    (∀ c ∈ s, 48 ≤ c ∧ c ≤ 57) ∧ n = acc * 10 ^ s.length + decVal s := by
  induction s with
  | nil => intro acc n; simp [parseDigits, decVal, eq_comm]
  | cons c s ih =>
    intro acc n
    unfold parseDigits
    by_cases hc : 48 ≤ c ∧ c ≤ 57
    · rw [if_pos hc, ih]
      simp only [List.mem_cons, forall_eq_or_imp, hc, true_and, List.length_cons, decVal]
      rw [Nat.pow_succ, Nat.add_mul, Nat.mul_assoc, Nat.mul_comm 10, Nat.add_assoc]
    · rw [if_neg hc]
      simp only [List.mem_cons, forall_eq_or_imp, hc, false_and]
      simp

theorem parseNat_iff (s : Str) (n : Nat) : parseNat s = some n ↔ Digits s ∧ n = decVal s := by
  unfold parseNat Digits
  by_cases h : s = []
  · simp [h]
  · rw [if_neg h, parseDigits_iff]
    simp [h]

/-- strconv.ParseInt accepts exactly the numbers with an optional sign that fit. -/
theorem parseInt64_iff (s : Str) (v : Int) : parseInt64 s = some v ↔ IntText s v := by
  constructor
  · intro h
    cases s with
    | nil => cases h
    | cons c t =>
      simp only [parseInt64] at h
      by_cases hm : c = 45
      · subst hm
        rw [if_pos rfl] at h
        cases hp : parseNat t with
        | none => simp [hp] at h
        | some n =>
          obtain ⟨hd, hn⟩ := (parseNat_iff t n).1 hp
          simp only [hp] at h
          split at h
          · rename_i hle
            injection h with h
            subst h hn
            exact .minus hd (by omega)
          · cases h
      · rw [if_neg hm] at h
        by_cases hpl : c = 43
        · subst hpl
          rw [if_pos rfl] at h
          cases hp : parseNat t with
          | none => simp [hp] at h
          | some n =>
            obtain ⟨hd, hn⟩ := (parseNat_iff t n).1 hp
            simp only [hp] at h
            split at h
            · injection h with h
              subst h hn
              exact .plus hd (by omega)
            · cases h
        · rw [if_neg hpl] at h
          cases hp : parseNat (c :: t) with
          | none => simp [hp] at h
          | some n =>
            obtain ⟨hd, hn⟩ := (parseNat_iff _ n).1 hp
            simp only [hp] at h
            split at h
            · injection h with h
              subst h hn
              exact .plain hd (by omega)
            · cases h
  · intro h
    cases h with
    | plain hd hv =>
      cases s with
      | nil => exact absurd rfl hd.1
      | cons c t =>
        have hc := hd.2 c (List.mem_cons_self ..)
        have h1 : c ≠ 45 := by rintro rfl; exact absurd hc.1 (by decide)
        have h2 : c ≠ 43 := by rintro rfl; exact absurd hc.1 (by decide)
        simp only [parseInt64, if_neg h1, if_neg h2, (parseNat_iff (c :: t) _).2 ⟨hd, rfl⟩]
        rw [if_pos (by omega)]
    | @plus s hd hv =>
      simp only [parseInt64]
      rw [if_neg (by decide)]
      simp only [if_true, (parseNat_iff s _).2 ⟨hd, rfl⟩]
      rw [if_pos (by omega)]
    | @minus s hd hv =>
      unfold parseInt64
      simp only [(parseNat_iff s _).2 ⟨hd, rfl⟩, if_true]
      rw [if_pos (by omega)]

theorem IntText.range {s : Str} {v : Int} (h : IntText s v) : -2 ^ 63 ≤ v ∧ v < 2 ^ 63 := by
  cases h <;> omega

theorem IntText.nonneg {s : Str} {v : Int} (h : IntText s v) (hs : s.head? ≠ some 45) : 0 ≤ v := by
  cases h with
  | plain => omega
  | plus => omega
  | minus => exact absurd rfl hs

theorem IntText.ne_nil {s : Str} {v : Int} (h : IntText s v) : s ≠ [] := by
  cases h with
  | plain h => exact h.1
  | plus => simp
  | minus => simp

theorem IntText.unique {s : Str} {v w : Int} (h : IntText s v) (h' : IntText s w) : v = w := by
  have h1 := (parseInt64_iff s v).2 h
  rw [(parseInt64_iff s w).2 h'] at h1
  injection h1 with h1
  exact h1.symm

theorem i64_id {x : Int} (h1 : -2 ^ 63 ≤ x) (h2 : x < 2 ^ 63) : i64 x = x := by
  unfold i64
  omega

/-! ### Trimming and cutting -/

theorem Trimmed.pad {s t l r : Str} (h : Trimmed s t) (hl : ∀ c ∈ l, Space c) (hr : ∀ c ∈ r, Space c) :
    Trimmed (l ++ s ++ r) t := by
  obtain ⟨l', r', rfl, h1, h2, h3, h4⟩ := h
  refine ⟨l ++ l', r' ++ r, by simp, ?_, ?_, h3, h4⟩
  · intro c hc; rcases List.mem_append.1 hc with hc | hc
    · exact hl c hc
    · exact h1 c hc
  · intro c hc; rcases List.mem_append.1 hc with hc | hc
    · exact h2 c hc
    · exact hr c hc

theorem trimString_eq {s t : Str} (h : Trimmed s t) : trimString s = t := trimmed_unique (trimString_trimmed s) h

theorem cutByte_iff (c : UInt8) (s a b : Str) : cutByte c s = some (a, b) ↔ s = a ++ c :: b ∧ c ∉ a := by
  induction s generalizing a with
  | nil => simp [cutByte]
  | cons x s ih =>
    unfold cutByte
    by_cases hx : x = c
    · rw [if_pos hx]
      subst hx
      constructor
      · intro h; injection h with h; injection h with h1 h2; subst h1 h2; simp
      · rintro ⟨h1, h2⟩
        cases a with
        | nil => injection h1 with _ h1; rw [h1]
        | cons y a => injection h1 with h1 _; exact absurd (h1 ▸ List.mem_cons_self ..) h2
    · rw [if_neg hx]
      cases hc : cutByte c s with
      | none =>
        constructor
        · intro h; cases h
        · rintro ⟨h1, h2⟩
          cases a with
          | nil => injection h1 with h1 _; exact absurd h1 hx
          | cons y a =>
            injection h1 with _ h1
            have := (ih a).2 ⟨h1, fun h => h2 (List.mem_cons_of_mem _ h)⟩
            rw [hc] at this; cases this
      | some p =>
        obtain ⟨a', b'⟩ := p
        constructor
        · intro h
          injection h with h; injection h with h1 h2
          subst h1 h2
          obtain ⟨h3, h4⟩ := (ih a').1 hc
          refine ⟨by rw [h3]; rfl, ?_⟩
          intro h
          rcases List.mem_cons.1 h with h | h
          · exact hx h.symm
          · exact h4 h
        · rintro ⟨h1, h2⟩
          cases a with
          | nil => injection h1 with h1 _; exact absurd h1 hx
          | cons y a =>
            injection h1 with h1 h3
            have := (ih a).2 ⟨h3, fun h => h2 (List.mem_cons_of_mem _ h)⟩
            rw [hc] at this
            injection this with this
            injection this with e1 e2
            subst e1 e2 h1
            rfl

theorem cutByte_none (c : UInt8) (s : Str) : cutByte c s = none ↔ c ∉ s := by
  constructor
  · intro h hm
    obtain ⟨a, b, hs⟩ := List.append_of_mem hm
    -- take the first occurrence
    have : ∃ a b, s = a ++ c :: b ∧ c ∉ a := by
      clear h hs a b
      induction s with
      | nil => cases hm
      | cons x s ih =>
        by_cases hx : x = c
        · exact ⟨[], s, by rw [hx]; rfl, by simp⟩
        · have : c ∈ s := by
            rcases List.mem_cons.1 hm with h | h
            · exact absurd h.symm hx
            · exact h
          obtain ⟨a, b, h1, h2⟩ := ih this
          refine ⟨x :: a, b, by rw [h1]; rfl, ?_⟩
          intro h
          rcases List.mem_cons.1 h with h | h
          · exact hx h.symm
          · exact h2 h
    obtain ⟨a, b, h1, h2⟩ := this
    rw [(cutByte_iff c s a b).2 ⟨h1, h2⟩] at h
    cases h
  · intro h
    cases hc : cutByte c s with
    | none => rfl
    | some p =>
      obtain ⟨h1, -⟩ := (cutByte_iff c s p.1 p.2).1 hc
      exact absurd (by rw [h1]; simp) h

theorem first_unique {c : UInt8} {a b a' b' : Str} (h : a ++ c :: b = a' ++ c :: b') (h1 : c ∉ a) (h2 : c ∉ a') :
    a = a' ∧ b = b' := by
  have e1 := (cutByte_iff c (a ++ c :: b) a b).2 ⟨rfl, h1⟩
  rw [h, (cutByte_iff c _ a' b').2 ⟨rfl, h2⟩] at e1
  injection e1 with e1
  injection e1 with e2 e3
  exact ⟨e2.symm, e3.symm⟩

theorem not_space_dash : ¬ Space 45 := by unfold Space; decide

/-- Cutting the trimmed text and trimming the parts gives the parts of the text. -/
theorem parts_iff (t start stop : Str) :
    (∃ a b, cutByte 45 (trimString t) = some (a, b) ∧ trimString a = start ∧ trimString b = stop) ↔ Parts t start stop := by
  obtain ⟨l, r, ht, hl, hr, -, -⟩ := trimString_trimmed t
  generalize trimString t = u at *
  constructor
  · rintro ⟨a, b, hc, rfl, rfl⟩
    obtain ⟨h1, h2⟩ := (cutByte_iff _ _ _ _).1 hc
    refine ⟨l ++ a, b ++ r, by rw [ht, h1]; simp, ?_, ?_, ?_⟩
    · intro h
      rcases List.mem_append.1 h with h | h
      · exact not_space_dash (hl _ h)
      · exact h2 h
    · simpa using Trimmed.pad (trimString_trimmed a) hl (r := []) (by simp)
    · simpa using Trimmed.pad (trimString_trimmed b) (l := []) (by simp) hr
  · rintro ⟨a, b, h1, h2, h3, h4⟩
    have hmem : (45 : UInt8) ∈ u := by
      have : (45 : UInt8) ∈ t := by rw [h1]; simp
      rw [ht] at this
      rcases List.mem_append.1 this with h | h
      · rcases List.mem_append.1 h with h | h
        · exact absurd (hl _ h) not_space_dash
        · exact h
      · exact absurd (hr _ h) not_space_dash
    cases hc : cutByte 45 u with
    | none => exact absurd hmem ((cutByte_none _ _).1 hc)
    | some p =>
      obtain ⟨a', b'⟩ := p
      obtain ⟨h5, h6⟩ := (cutByte_iff _ _ _ _).1 hc
      have hla : (45 : UInt8) ∉ l ++ a' := by
        intro h
        rcases List.mem_append.1 h with h | h
        · exact not_space_dash (hl _ h)
        · exact h6 h
      have : a ++ 45 :: b = (l ++ a') ++ 45 :: (b' ++ r) := by rw [← h1, ht, h5]; simp
      obtain ⟨rfl, rfl⟩ := first_unique this h2 hla
      refine ⟨a', b', rfl, ?_, ?_⟩
      · have := Trimmed.pad (trimString_trimmed a') hl (r := []) (by simp)
        rw [List.append_nil] at this
        exact trimmed_unique this h3
      · have := Trimmed.pad (trimString_trimmed b') (l := []) (by simp) hr
        rw [List.nil_append] at this
        exact trimmed_unique this h4

theorem Parts.unique {t a b a' b' : Str} (h : Parts t a b) (h' : Parts t a' b') : a = a' ∧ b = b' := by
  obtain ⟨x, y, h1, h2, h3, h4⟩ := h
  obtain ⟨x', y', h1', h2', h3', h4'⟩ := h'
  obtain ⟨rfl, rfl⟩ := first_unique (h1.symm.trans h1') h2 h2'
  exact ⟨trimmed_unique h3 h3', trimmed_unique h4 h4'⟩

theorem Parts.start_no_dash {t a b : Str} (h : Parts t a b) : 45 ∉ a := by
  obtain ⟨x, y, -, h2, ⟨l, r, rfl, -⟩, -⟩ := h
  intro hm
  exact h2 (by simp [hm])

theorem Parts.not_blank {t a b : Str} (h : Parts t a b) : ¬ Trimmed t [] := by
  rintro ⟨l, r, rfl, hl, hr, -⟩
  obtain ⟨x, y, h1, -⟩ := h
  have : (45 : UInt8) ∈ l ++ [] ++ r := by rw [h1]; simp
  rcases List.mem_append.1 this with h | h
  · rw [List.append_nil] at h; exact not_space_dash (hl _ h)
  · exact not_space_dash (hr _ h)

/-! ### One element -/

/-- The effect of a round. -/
def Round.effect : Round → Option Effect
  | .skip => some .nothing
  | .past => some .beyond
  | .range r => some (.bytes r.start r.length)
  | .err => none

theorem round_means (size : Int) (h0 : 0 ≤ size) (h1 : size < 2 ^ 63) (t : Str) (e : Effect) :
    (rangeRound size t).effect = some e ↔ Means size t e := by
  by_cases hb : trimString t = []
  · -- an empty element
    have ht : Trimmed t [] := hb ▸ trimString_trimmed t
    have hr : rangeRound size t = .skip := by simp [rangeRound, hb]
    rw [hr]
    constructor
    · intro h; injection h with h; subst h; exact .blank ht
    · intro h
      cases h with
      | blank => rfl
      | suffix h => exact absurd ht (Parts.not_blank h)
      | past h => exact absurd ht (Parts.not_blank h)
      | «from» h => exact absurd ht (Parts.not_blank h)
      | fromTo h => exact absurd ht (Parts.not_blank h)
  · have hnb : ¬ Trimmed t [] := fun h => hb (trimString_eq h)
    cases hc : cutByte 45 (trimString t) with
    | none =>
      have hr : rangeRound size t = .err := by simp [rangeRound, hb, hc]
      rw [hr]
      have hno : ∀ a b, ¬ Parts t a b := by
        intro a b h
        obtain ⟨x, y, h2, -⟩ := (parts_iff t a b).2 h
        rw [hc] at h2; cases h2
      constructor
      · intro h; cases h
      · intro h
        cases h with
        | blank h => exact absurd h hnb
        | suffix h => exact absurd h (hno _ _)
        | past h => exact absurd h (hno _ _)
        | «from» h => exact absurd h (hno _ _)
        | fromTo h => exact absurd h (hno _ _)
    | some p =>
      obtain ⟨a, b⟩ := p
      have hp : Parts t (trimString a) (trimString b) := (parts_iff _ _ _).1 ⟨a, b, hc, rfl, rfl⟩
      have hr : rangeRound size t = rangeParts size (trimString a) (trimString b) := by
        simp only [rangeRound, if_neg hb, hc]
      rw [hr]
      clear hr
      unfold rangeParts
      generalize hA : trimString a = A at *
      generalize hB : trimString b = B at *
      -- every rule but the blank one is about these parts
      have hrules : Means size t e ↔
          (A = [] ∧ B.head? ≠ some 45 ∧ ∃ n, IntText B n ∧ e = .bytes (size - min n size) (min n size)) ∨
          (∃ x, IntText A x ∧ size ≤ x ∧ e = .beyond) ∨
          (B = [] ∧ ∃ x, IntText A x ∧ x < size ∧ e = .bytes x (size - x)) ∨
          (∃ x y, IntText A x ∧ IntText B y ∧ x < size ∧ x ≤ y ∧ e = .bytes x (min y (size - 1) - x + 1)) := by
        constructor
        · intro h
          cases h with
          | blank h => exact absurd h hnb
          | suffix h h2 h3 =>
            obtain ⟨rfl, rfl⟩ := Parts.unique hp h
            exact .inl ⟨rfl, h2, _, h3, rfl⟩
          | past h h2 h3 =>
            obtain ⟨rfl, rfl⟩ := Parts.unique hp h
            exact .inr (.inl ⟨_, h2, h3, rfl⟩)
          | «from» h h2 h3 =>
            obtain ⟨rfl, rfl⟩ := Parts.unique hp h
            exact .inr (.inr (.inl ⟨rfl, _, h2, h3, rfl⟩))
          | fromTo h h2 h3 h4 h5 =>
            obtain ⟨rfl, rfl⟩ := Parts.unique hp h
            exact .inr (.inr (.inr ⟨_, _, h2, h3, h4, h5, rfl⟩))
        · rintro (⟨rfl, h2, n, h3, rfl⟩ | ⟨x, h2, h3, rfl⟩ | ⟨rfl, x, h2, h3, rfl⟩ | ⟨x, y, h2, h3, h4, h5, rfl⟩)
          · exact .suffix hp h2 h3
          · exact .past hp h2 h3
          · exact .from hp h2 h3
          · exact .fromTo hp h2 h3 h4 h5
      rw [hrules]
      by_cases hAe : A = []
      · have hnoA : ∀ x, ¬ IntText A x := fun x h => IntText.ne_nil h hAe
        rw [if_pos hAe]
        by_cases hBe : B = [] ∨ B.head? = some 45
        · rw [if_pos hBe]
          constructor
          · intro h; cases h
          · rintro (⟨-, h2, n, h3, -⟩ | ⟨x, h2, -⟩ | ⟨-, x, h2, -⟩ | ⟨x, y, h2, -⟩)
            · rcases hBe with h | h
              · exact absurd h (IntText.ne_nil h3)
              · exact absurd h h2
            all_goals exact absurd h2 (hnoA x)
        · rw [if_neg hBe]
          rw [not_or] at hBe
          cases hpi : parseInt64 B with
          | none =>
            constructor
            · intro h; cases h
            · rintro (⟨-, h2, n, h3, -⟩ | ⟨x, h2, -⟩ | ⟨-, x, h2, -⟩ | ⟨x, y, h2, -⟩)
              · rw [(parseInt64_iff B n).2 h3] at hpi; cases hpi
              all_goals exact absurd h2 (hnoA x)
          | some n =>
            have hn := (parseInt64_iff B n).1 hpi
            have hn0 := IntText.nonneg hn hBe.2
            have hnr := IntText.range hn
            simp only
            rw [if_neg (by omega)]
            have e1 : (if n > size then size else n) = min n size := by split <;> omega
            rw [e1, i64_id (by omega) (by omega), i64_id (by omega) (by omega)]
            have e2 : size - (size - min n size) = min n size := by omega
            rw [e2]
            constructor
            · intro h; injection h with h; exact .inl ⟨hAe, hBe.2, n, hn, h.symm⟩
            · rintro (⟨-, h2, m, h3, rfl⟩ | ⟨x, h2, -⟩ | ⟨-, x, h2, -⟩ | ⟨x, y, h2, -⟩)
              · rw [IntText.unique h3 hn]; rfl
              all_goals exact absurd h2 (hnoA x)
      · rw [if_neg hAe]
        have hdash : A.head? ≠ some 45 := by
          intro h
          exact Parts.start_no_dash hp (List.mem_of_mem_head? h)
        cases hpi : parseInt64 A with
        | none =>
          have hnoA : ∀ x, ¬ IntText A x := by
            intro x h; rw [(parseInt64_iff A x).2 h] at hpi; cases hpi
          constructor
          · intro h; cases h
          · rintro (⟨h2, -⟩ | ⟨x, h2, -⟩ | ⟨-, x, h2, -⟩ | ⟨x, y, h2, -⟩)
            · exact absurd h2 hAe
            all_goals exact absurd h2 (hnoA x)
        | some i =>
          have hi := (parseInt64_iff A i).1 hpi
          have hi0 := IntText.nonneg hi hdash
          have hir := IntText.range hi
          simp only
          rw [if_neg (by omega)]
          by_cases hge : i ≥ size
          · rw [if_pos hge]
            constructor
            · intro h; injection h with h; exact .inr (.inl ⟨i, hi, hge, h.symm⟩)
            · rintro (⟨h2, -⟩ | ⟨x, h2, h3, rfl⟩ | ⟨-, x, h2, h3, -⟩ | ⟨x, y, h2, -, h3, -⟩)
              · exact absurd h2 hAe
              · rfl
              · rw [IntText.unique h2 hi] at h3; omega
              · rw [IntText.unique h2 hi] at h3; omega
          · rw [if_neg hge]
            by_cases hBe : B = []
            · rw [if_pos hBe, i64_id (by omega) (by omega)]
              constructor
              · intro h; injection h with h; exact .inr (.inr (.inl ⟨hBe, i, hi, by omega, h.symm⟩))
              · rintro (⟨h2, -⟩ | ⟨x, h2, h3, -⟩ | ⟨-, x, h2, h3, rfl⟩ | ⟨x, y, -, h2, -⟩)
                · exact absurd h2 hAe
                · rw [IntText.unique h2 hi] at h3; omega
                · rw [IntText.unique h2 hi]; rfl
                · exact absurd hBe (IntText.ne_nil h2)
            · rw [if_neg hBe]
              cases hpe : parseInt64 B with
              | none =>
                constructor
                · intro h; cases h
                · rintro (⟨h2, -⟩ | ⟨x, h2, h3, -⟩ | ⟨h2, -⟩ | ⟨x, y, -, h2, -⟩)
                  · exact absurd h2 hAe
                  · rw [IntText.unique h2 hi] at h3; omega
                  · exact absurd h2 hBe
                  · rw [(parseInt64_iff B y).2 h2] at hpe; cases hpe
              | some y =>
                have hy := (parseInt64_iff B y).1 hpe
                have hyr := IntText.range hy
                simp only
                by_cases hgt : i > y
                · rw [if_pos hgt]
                  constructor
                  · intro h; cases h
                  · rintro (⟨h2, -⟩ | ⟨x, h2, h3, -⟩ | ⟨h2, -⟩ | ⟨x, z, h2, h3, h4, h5, -⟩)
                    · exact absurd h2 hAe
                    · rw [IntText.unique h2 hi] at h3; omega
                    · exact absurd h2 hBe
                    · rw [IntText.unique h2 hi, IntText.unique h3 hy] at h5; omega
                · rw [if_neg hgt]
                  have e0 : i64 (size - 1) = size - 1 := i64_id (by omega) (by omega)
                  have e1 : (if y ≥ size then i64 (size - 1) else y) = min y (size - 1) := by
                    rw [e0]; split <;> omega
                  rw [e1, i64_id (x := min y (size - 1) - i) (by omega) (by omega), i64_id (by omega) (by omega)]
                  constructor
                  · intro h; injection h with h
                    exact .inr (.inr (.inr ⟨i, y, hi, hy, by omega, by omega, h.symm⟩))
                  · rintro (⟨h2, -⟩ | ⟨x, h2, h3, -⟩ | ⟨h2, -⟩ | ⟨x, z, h2, h3, h4, h5, rfl⟩)
                    · exact absurd h2 hAe
                    · rw [IntText.unique h2 hi] at h3; omega
                    · exact absurd h2 hBe
                    · rw [IntText.unique h2 hi, IntText.unique h3 hy]; rfl

/-! ### The list -/

theorem rangeLoop_eq (size : Int) (h0 : 0 ≤ size) (h1 : size < 2 ^ 63) {ts : List Str} {es : List Effect}
    (h : AllMean size ts es) (past : Bool) (rs : List HttpRange) :
    rangeLoop size ts past rs =
      if (past = true ∨ .beyond ∈ es) ∧ rs ++ (selected es).map (fun p => HttpRange.mk p.1 p.2) = [] then .error .noOverlap
      else .ok (rs ++ (selected es).map (fun p => HttpRange.mk p.1 p.2)) := by
  induction h generalizing past rs with
  | nil => cases past <;> simp [rangeLoop, selected]
  | @cons t e ts es hm _ ih =>
    have hr := (round_means size h0 h1 t e).2 hm
    unfold rangeLoop
    cases hrr : rangeRound size t with
    | skip => rw [hrr] at hr; injection hr with hr; subst hr; simp [ih, selected]
    | past => rw [hrr] at hr; injection hr with hr; subst hr; simp [ih, selected]
    | range r => rw [hrr] at hr; injection hr with hr; subst hr; simp [ih, selected]
    | err => rw [hrr] at hr; cases hr

theorem rangeLoop_invalid (size : Int) (h0 : 0 ≤ size) (h1 : size < 2 ^ 63) {ts : List Str}
    (h : ∃ t ∈ ts, ∀ e, ¬ Means size t e) (past : Bool) (rs : List HttpRange) :
    rangeLoop size ts past rs = .error .invalid := by
  induction ts generalizing past rs with
  | nil => obtain ⟨t, ht, -⟩ := h; cases ht
  | cons t ts ih =>
    unfold rangeLoop
    obtain ⟨u, hu, hno⟩ := h
    rcases List.mem_cons.1 hu with rfl | hu
    · cases hrr : rangeRound size u with
      | err => rfl
      | skip => exact absurd ((round_means size h0 h1 u .nothing).1 (by rw [hrr]; rfl)) (hno _)
      | past => exact absurd ((round_means size h0 h1 u .beyond).1 (by rw [hrr]; rfl)) (hno _)
      | range r => exact absurd ((round_means size h0 h1 u (.bytes r.start r.length)).1 (by rw [hrr]; rfl)) (hno _)
    · have := fun p q => ih ⟨u, hu, hno⟩ p q
      cases rangeRound size t <;> simp [this]

theorem parseRange_join (ts : List Str) (hne : ts ≠ []) (hc : ∀ t ∈ ts, 44 ∉ t) (size : Int) :
    parseRange (b!"bytes=" ++ joinByte 44 ts) size = rangeLoop size ts false [] := by
  unfold parseRange
  rw [if_neg (by simp), if_neg (by simp [hasPrefix])]
  have : (b!"bytes=" ++ joinByte 44 ts).drop 6 = joinByte 44 ts := rfl
  rw [this, splitByte_join 44 ts hne hc]

/-- C55: a Range header is an error unless every element between the commas has a meaning; then the ranges are those of
the elements, in order, and "no overlap" is reported iff some element lies beyond the content and there is no range. -/
theorem C55_exact (size : Int) (h0 : 0 ≤ size) (h1 : size < 2 ^ 63) :
    parseRange [] size = .ok [] ∧
    (∀ s, s ≠ [] → ¬ (∃ t, s = b!"bytes=" ++ t) → parseRange s size = .error .invalid) ∧
    (∀ ts : List Str, ts ≠ [] → (∀ t ∈ ts, 44 ∉ t) →
      ((∃ t ∈ ts, ∀ e, ¬ Means size t e) → parseRange (b!"bytes=" ++ joinByte 44 ts) size = .error .invalid) ∧
      (∀ es, AllMean size ts es → .beyond ∈ es → selected es = [] →
        parseRange (b!"bytes=" ++ joinByte 44 ts) size = .error .noOverlap) ∧
      (∀ es, AllMean size ts es → (.beyond ∉ es ∨ selected es ≠ []) →
        parseRange (b!"bytes=" ++ joinByte 44 ts) size = .ok ((selected es).map fun p => ⟨p.1, p.2⟩))) := by
  refine ⟨rfl, ?_, ?_⟩
  · intro s hs hn
    unfold parseRange
    rw [if_neg hs, if_pos]
    cases hp : hasPrefix s b!"bytes=" with
    | false => rfl
    | true =>
      obtain ⟨t, ht⟩ := List.isPrefixOf_iff_prefix.1 hp
      exact absurd ⟨t, ht.symm⟩ hn
  · intro ts hne hc
    rw [parseRange_join ts hne hc]
    refine ⟨fun h => rangeLoop_invalid size h0 h1 h _ _, ?_, ?_⟩
    · intro es he hb hs
      rw [rangeLoop_eq size h0 h1 he, if_pos ⟨.inr hb, by simp [hs]⟩]
    · intro es he hb
      rw [rangeLoop_eq size h0 h1 he, if_neg]
      · simp
      · rintro ⟨h2, h3⟩
        rcases hb with hb | hb
        · rcases h2 with h2 | h2
          · cases h2
          · exact hb h2
        · exact hb (by simpa using h3)

theorem joinByte_splitByte (c : UInt8) (s : Str) : joinByte c (splitByte c s) = s := by
  induction s with
  | nil => rfl
  | cons x s ih =>
    unfold splitByte
    by_cases hx : x = c
    · rw [if_pos hx]
      cases hsp : splitByte c s with
      | nil => exact absurd hsp (splitByte_ne_nil c s)
      | cons y ys => rw [hsp] at ih; simp [joinByte, ih, hx]
    · rw [if_neg hx]
      cases hsp : splitByte c s with
      | nil => exact absurd hsp (splitByte_ne_nil c s)
      | cons y ys =>
        rw [hsp] at ih
        cases ys with
        | nil => simp only [joinByte] at ih ⊢; rw [ih]
        | cons z zs => simp only [joinByte] at ih ⊢; rw [← ih]; rfl

/-- The header of any request: every comma-separated list arises in `C55_exact`. -/
theorem rangeHeader_total (size : Int) (h0 : 0 ≤ size) (h1 : size < 2 ^ 63) (s : Str) (hs : s ≠ []) :
    ¬ (∃ t, s = b!"bytes=" ++ t) ∨
    ∃ ts, ts ≠ [] ∧ (∀ t ∈ ts, 44 ∉ t) ∧ s = b!"bytes=" ++ joinByte 44 ts ∧
      ((∃ t ∈ ts, ∀ e, ¬ Means size t e) ∨ ∃ es, AllMean size ts es) := by
  by_cases h : ∃ t, s = b!"bytes=" ++ t
  · right
    obtain ⟨t, rfl⟩ := h
    refine ⟨splitByte 44 t, splitByte_ne_nil 44 t, splitByte_not_mem 44 t, by rw [joinByte_splitByte], ?_⟩
    generalize splitByte 44 t = ts
    clear hs t
    induction ts with
    | nil => exact .inr ⟨[], .nil⟩
    | cons t ts ih =>
      by_cases hm : ∃ e, Means size t e
      · obtain ⟨e, hm⟩ := hm
        rcases ih with ⟨u, hu, hn⟩ | ⟨es, he⟩
        · exact .inl ⟨u, List.mem_cons_of_mem _ hu, hn⟩
        · exact .inr ⟨e :: es, .cons hm he⟩
      · exact .inl ⟨t, List.mem_cons_self .., fun e he => hm ⟨e, he⟩⟩
  · exact .inl h

example : Means 10 b!" 2 - 5 " (.bytes 2 4) :=
  (round_means 10 (by omega) (by omega) _ _).1 (by decide +kernel)
example : Means 10 b!"-3" (.bytes 7 3) := (round_means 10 (by omega) (by omega) _ _).1 (by decide +kernel)
example : Means 10 b!"10-" .beyond := (round_means 10 (by omega) (by omega) _ _).1 (by decide +kernel)
example : ∀ e, ¬ Means 10 b!"5-2" e := by
  intro e h
  have := (round_means 10 (by omega) (by omega) _ _).2 h
  have hn : (rangeRound 10 b!"5-2").effect = none := by decide +kernel
  rw [hn] at this; cases this

/-! ### C54 -/

theorem Means.bounds {size : Int} {t : Str} {a n : Int} (h0 : 0 ≤ size) (h : Means size t (.bytes a n)) :
    0 ≤ a ∧ 0 ≤ n ∧ a + n ≤ size := by
  cases h with
  | suffix h h2 h3 => have := IntText.nonneg h3 h2; omega
  | «from» h h2 h3 =>
    have := IntText.nonneg h2 (fun hh => Parts.start_no_dash h (List.mem_of_mem_head? hh)); omega
  | fromTo h h2 h3 h4 h5 =>
    have := IntText.nonneg h2 (fun hh => Parts.start_no_dash h (List.mem_of_mem_head? hh)); omega

/-- C54: whatever the header, every range returned lies inside the content. -/
theorem C54_bounds (s : Str) (size : Int) (h0 : 0 ≤ size) (h1 : size < 2 ^ 63) (rs : List HttpRange)
    (h : parseRange s size = .ok rs) :
    ∀ r ∈ rs, 0 ≤ r.start ∧ 0 ≤ r.length ∧ r.start + r.length ≤ size := by
  by_cases hs : s = []
  · subst hs; injection h with h; subst h; simp
  · rcases rangeHeader_total size h0 h1 s hs with hn | ⟨ts, hne, hc, rfl, hm⟩
    · rw [(C55_exact size h0 h1).2.1 s hs hn] at h; cases h
    · obtain ⟨e1, e2, e3⟩ := (C55_exact size h0 h1).2.2 ts hne hc
      rcases hm with hm | ⟨es, he⟩
      · rw [e1 hm] at h; cases h
      · by_cases hb : .beyond ∉ es ∨ selected es ≠ []
        · rw [e3 es he hb] at h
          injection h with h
          subst h
          clear hb e1 e2 e3 hne hc hs
          induction he with
          | nil => simp [selected]
          | @cons t e ts es hm _ ih =>
            cases e with
            | nothing => exact ih
            | beyond => exact ih
            | bytes a n =>
              intro r hr
              simp only [selected, List.map_cons] at hr
              rcases List.mem_cons.1 hr with rfl | hr
              · exact Means.bounds h0 hm
              · exact ih r hr
        · rw [not_or, Classical.not_not, Classical.not_not] at hb
          rw [e2 es he hb.1 hb.2] at h; cases h

example : parseRange b!"bytes=0-99,-4" 10 = .ok [⟨0, 10⟩, ⟨6, 4⟩] := by decide +kernel

/-! ### RFC 7233 -/

theorem Digits.int {s : Str} (h : Digits s) (hv : decVal s < 2 ^ 63) : IntText s (decVal s) := .plain h hv

theorem Digits.head {s : Str} (h : Digits s) : s.head? ≠ some 45 := by
  intro hh
  have := h.2 45 (List.mem_of_mem_head? hh)
  exact absurd this.1 (by decide)

/-- One specification: what its text means. -/
theorem spec_means (size : Nat) (hs : 0 < size) {b : ByteSpec} {t : Str} (ht : b.Text t) (hv : b.Valid) :
    ((∀ i, ¬ b.Selects size i) ∧ Means size t .beyond) ∨
    ∃ a n : Int, (∃ i, b.Selects size i) ∧ (∀ i : Nat, b.Selects size i ↔ a ≤ i ∧ (i : Int) < a + n) ∧ 0 ≤ a ∧ 0 < n ∧
      Means size t (.bytes a n) := by
  cases b with
  | fromTo a b =>
    obtain ⟨x, y, hp, hx, hy, rfl, rfl⟩ := ht
    have hv' : decVal x ≤ decVal y ∧ decVal y < 2 ^ 63 := hv
    by_cases hlt : decVal x < size
    · right
      refine ⟨_, _, ?_, ?_, ?_, ?_, .fromTo hp (Digits.int hx (by omega)) (Digits.int hy hv'.2) (by omega) (by omega)⟩
      · exact ⟨decVal x, by simp only [ByteSpec.Selects]; omega⟩
      · intro i; simp only [ByteSpec.Selects]; omega
      · omega
      · omega
    · left
      refine ⟨?_, .past hp (Digits.int hx (by omega)) (by omega)⟩
      intro i; simp only [ByteSpec.Selects]; omega
  | «from» a =>
    obtain ⟨x, hp, hx, rfl⟩ := ht
    have hv' : decVal x < 2 ^ 63 := hv
    by_cases hlt : decVal x < size
    · right
      refine ⟨_, _, ?_, ?_, ?_, ?_, .from hp (Digits.int hx (by omega)) (by omega)⟩
      · exact ⟨decVal x, by simp only [ByteSpec.Selects]; omega⟩
      · intro i; simp only [ByteSpec.Selects]; omega
      · omega
      · omega
    · left
      refine ⟨?_, .past hp (Digits.int hx (by omega)) (by omega)⟩
      intro i; simp only [ByteSpec.Selects]; omega
  | last n =>
    obtain ⟨y, hp, hy, rfl⟩ := ht
    have hv' : 0 < decVal y ∧ decVal y < 2 ^ 63 := hv
    right
    refine ⟨_, _, ?_, ?_, ?_, ?_, .suffix hp (Digits.head hy) (Digits.int hy hv'.2)⟩
    · exact ⟨size - 1, by simp only [ByteSpec.Selects]; omega⟩
    · intro i; simp only [ByteSpec.Selects]; omega
    · omega
    · omega

theorem Texts.covers (size : Nat) (hs : 0 < size) {ts : List Str} {bs : List ByteSpec} (h : Texts ts bs) :
    ∃ es, AllMean size ts es ∧ Covers size bs (selected es) ∧
      (.beyond ∈ es ↔ ∃ b ∈ bs, ∀ i, ¬ b.Selects size i) ∧ (bs ≠ [] → .beyond ∈ es ∨ selected es ≠ []) := by
  induction h with
  | nil => exact ⟨[], .nil, .nil, by simp, by simp⟩
  | @cons t b ts bs ht hv _ ih =>
    obtain ⟨es, h1, h2, h3, h4⟩ := ih
    rcases spec_means size hs ht hv with ⟨hno, hm⟩ | ⟨a, n, hsome, hall, ha, hn, hm⟩
    · refine ⟨.beyond :: es, .cons hm h1, .drop hno h2, ?_, ?_⟩
      · simp only [List.mem_cons, true_or, true_iff]; exact ⟨b, .inl rfl, hno⟩
      · simp
    · refine ⟨.bytes a n :: es, .cons hm h1, .take hsome hall ha hn h2, ?_, ?_⟩
      · simp only [List.mem_cons, h3]
        constructor
        · rintro (h | ⟨x, hx, h⟩)
          · cases h
          · exact ⟨x, .inr hx, h⟩
        · rintro ⟨x, rfl | hx, h⟩
          · obtain ⟨i, hi⟩ := hsome; exact absurd hi (h i)
          · exact .inr ⟨x, hx, h⟩
      · simp [selected]

/-- C55 for headers as RFC 7233 writes them: the ranges returned are, in order, the positions the specifications select,
without those that select nothing; if none selects anything the result is "no overlap". -/
theorem C55_rfc (size : Nat) (hs : 0 < size) (hs' : size < 2 ^ 63) (ts : List Str) (bs : List ByteSpec)
    (h : Texts ts bs) (hne : bs ≠ []) (hc : ∀ t ∈ ts, 44 ∉ t) :
    ((∀ b ∈ bs, ∀ i, ¬ b.Selects size i) → parseRange (b!"bytes=" ++ joinByte 44 ts) size = .error .noOverlap) ∧
    ((∃ b ∈ bs, ∃ i, b.Selects size i) → ∃ rs, Covers size bs rs ∧
      parseRange (b!"bytes=" ++ joinByte 44 ts) size = .ok (rs.map fun p => ⟨p.1, p.2⟩)) := by
  obtain ⟨es, h1, h2, h3, h4⟩ := Texts.covers size hs h
  have hts : ts ≠ [] := by
    rintro rfl
    cases h
    exact hne rfl
  obtain ⟨-, e2, e3⟩ := (C55_exact (size : Int) (by omega) (by omega)).2.2 ts hts hc
  constructor
  · intro hall
    refine e2 es h1 ?_ ?_
    · cases bs with
      | nil => exact absurd rfl hne
      | cons b bs => exact h3.2 ⟨b, List.mem_cons_self .., hall b (List.mem_cons_self ..)⟩
    · generalize selected es = rs at h2
      clear h h1 h3 h4 hne
      induction h2 with
      | nil => rfl
      | drop _ _ ih => exact ih fun b hb => hall b (List.mem_cons_of_mem _ hb)
      | @take b _ _ _ _ hsome =>
        obtain ⟨i, hi⟩ := hsome
        exact absurd hi (hall b (List.mem_cons_self ..) i)
  · rintro ⟨b, hb, i, hi⟩
    refine ⟨selected es, h2, e3 es h1 (.inr ?_)⟩
    generalize selected es = rs at h2
    clear h h1 h3 h4 hne
    induction h2 with
    | nil => cases hb
    | @drop b' _ _ hno _ ih =>
      rcases List.mem_cons.1 hb with rfl | hb
      · exact absurd hi (hno i)
      · exact ih hb
    | take => simp

example : Texts [b!"0-4", b!" 20-", b!"-3"] [.fromTo 0 4, .from 20, .last 3] := by
  refine .cons ?_ (by simp only [ByteSpec.Valid]; omega) (.cons ?_ (by simp only [ByteSpec.Valid]; omega)
    (.cons ?_ (by simp only [ByteSpec.Valid]; omega) .nil))
  · exact ⟨b!"0", b!"4", (parts_iff _ _ _).1 ⟨b!"0", b!"4", by decide +kernel⟩,
      ⟨by decide, by decide⟩, ⟨by decide, by decide⟩, by decide +kernel, by decide +kernel⟩
  · exact ⟨b!"20", (parts_iff _ _ _).1 ⟨b!"20", [], by decide +kernel⟩, ⟨by decide, by decide⟩, by decide +kernel⟩
  · exact ⟨b!"3", (parts_iff _ _ _).1 ⟨[], b!"3", by decide +kernel⟩, ⟨by decide, by decide⟩, by decide +kernel⟩

/-- C55 fails outside those: a sign is accepted before a number, `-0` selects an empty range instead of nothing, and
an element that starts beyond the content may end with anything, or before it starts. -/
theorem C55_violated :
    parseRange b!"bytes=+1-2" 10 = .ok [⟨1, 2⟩] ∧
    parseRange b!"bytes=-0" 10 = .ok [⟨10, 0⟩] ∧
    parseRange b!"bytes=99-abc" 10 = .error .noOverlap ∧
    parseRange b!"bytes=0-1,99-3" 10 = .ok [⟨0, 2⟩] := by decide +kernel

end Verif
