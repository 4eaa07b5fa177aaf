import Verif.Spec.Dates
/-
Lemmas about Model/Dates: the calendar computation is the Gregorian calendar.
-/
namespace Verif
open Spec

theorem isLeap_iff (y : Int) : isLeapYear y = true ↔ Leap y := by
  unfold isLeapYear Leap
  simp only [Bool.and_eq_true, Bool.or_eq_true, beq_iff_eq, bne_iff_ne, ne_eq, Int.dvd_iff_emod_eq_zero]

/-- Days from 1 January of the year 1 to that of the year `y`. -/
def yearStart (y : Int) : Int := 365 * (y - 1) + (y - 1) / 4 - (y - 1) / 100 + (y - 1) / 400

theorem yearDay_parts (d : Int) : ∃ a b c e r : Int, yearDay d = (400 * a + 100 * b + 4 * c + e + 1, r.toNat) ∧
    146097 * a + 36524 * b + 1461 * c + 365 * e + r = d ∧ 0 ≤ b ∧ b ≤ 3 ∧ 0 ≤ c ∧ c ≤ 24 ∧ 0 ≤ e ∧ e ≤ 3 ∧ 0 ≤ r ∧ r ≤ 365 ∧
    (e < 3 → r < 365) ∧ (e = 3 → c = 24 → b < 3 → r < 365) := by
  refine ⟨_, _, _, _, _, rfl, ?_⟩
  generalize ha : d / 146097 = a
  generalize hd1 : d - 146097 * a = d1
  generalize hb0 : d1 / 36524 = b0
  generalize hb : b0 - b0 / 4 = b
  generalize hd2 : d1 - 36524 * b = d2
  generalize hc : d2 / 1461 = c
  generalize hd3 : d2 - 1461 * c = d3
  generalize he0 : d3 / 365 = e0
  generalize he : e0 - e0 / 4 = e
  have h1 : 0 ≤ d1 ∧ d1 < 146097 := by omega
  have h2 : 0 ≤ b ∧ b ≤ 3 := by omega
  have h3 : 0 ≤ d2 ∧ d2 ≤ 36524 ∧ (b < 3 → d2 < 36524) := by omega
  have h4 : 0 ≤ c ∧ c ≤ 24 := by omega
  have h5 : 0 ≤ d3 ∧ d3 < 1461 ∧ (c = 24 → b < 3 → d3 < 1460) := by omega
  have h6 : 0 ≤ e ∧ e ≤ 3 := by omega
  refine ⟨by omega, h2.1, h2.2, h4.1, h4.2, h6.1, h6.2, by omega, by omega, by omega, by omega⟩

theorem yearDay_spec (d : Int) : yearStart (yearDay d).1 + ((yearDay d).2 : Int) = d ∧
    ((yearDay d).2 : Int) < 365 + (if Leap (yearDay d).1 then 1 else 0) := by
  obtain ⟨a, b, c, e, r, h, hd, hb, hb', hc, hc', he, he', hr, hr', h1, h2⟩ := yearDay_parts d
  rw [h]
  dsimp only
  have hn : ((r.toNat : Nat) : Int) = r := Int.toNat_of_nonneg hr
  have hl : Leap (400 * a + 100 * b + 4 * c + e + 1) ↔ e = 3 ∧ (c ≠ 24 ∨ b = 3) := by
    unfold Leap
    omega
  have hy4 : (400 * a + 100 * b + 4 * c + e + 1 - 1) / 4 = 100 * a + 25 * b + c := by omega
  have hy100 : (400 * a + 100 * b + 4 * c + e + 1 - 1) / 100 = 4 * a + b := by omega
  have hy400 : (400 * a + 100 * b + 4 * c + e + 1 - 1) / 400 = a := by omega
  unfold yearStart
  rw [hy4, hy100, hy400, hn]
  constructor
  · omega
  · split <;> rename_i hL
    · omega
    · rw [hl] at hL
      omega

theorem daysInMonth_eq {m : Nat} (h1 : 1 ≤ m) (h2 : m ≤ 12) (y : Int) : daysInMonth m y = monthLength y m := by
  unfold daysInMonth monthLength
  have hb := isLeap_iff y
  by_cases hL : Leap y
  · simp only [hL, hb.2 hL, if_true, and_true]
    have : ∀ m : Nat, m ≤ 12 → 1 ≤ m → (if m = 2 then 29 else daysBefore m - daysBefore (m - 1)) =
        if m = 2 then 29 else if m = 4 ∨ m = 6 ∨ m = 9 ∨ m = 11 then 30 else 31 := by decide
    exact this m h2 h1
  · have hf : isLeapYear y = false := by
      cases h : isLeapYear y
      · rfl
      · exact absurd (hb.1 h) hL
    simp only [hL, hf, if_false, and_false, Bool.false_eq_true]
    have : ∀ m : Nat, m ≤ 12 → 1 ≤ m → daysBefore m - daysBefore (m - 1) =
        if m = 2 then 28 else if m = 4 ∨ m = 6 ∨ m = 9 ∨ m = 11 then 30 else 31 := by decide
    exact this m h2 h1

/-- Days of the year before a month. -/
def before (leap : Bool) (m : Nat) : Nat := daysBefore (m - 1) + if leap = true ∧ m ≥ 3 then 1 else 0

theorem monthDay_spec (leap : Bool) (n : Nat) (h : n < 365 + (if leap = true then 1 else 0)) :
    let r := monthDay leap n
    1 ≤ r.1 ∧ r.1 ≤ 12 ∧ 1 ≤ r.2 ∧ r.2 ≤ (if r.1 = 2 then (if leap = true then 29 else 28) else daysBefore r.1 - daysBefore (r.1 - 1)) ∧
      before leap r.1 + r.2 = n + 1 := by
  have key : ∀ (leap : Bool) (n : Nat), n < 366 → n < 365 + (if leap = true then 1 else 0) →
      1 ≤ (monthDay leap n).1 ∧ (monthDay leap n).1 ≤ 12 ∧ 1 ≤ (monthDay leap n).2 ∧
      (monthDay leap n).2 ≤ (if (monthDay leap n).1 = 2 then (if leap = true then 29 else 28)
        else daysBefore (monthDay leap n).1 - daysBefore ((monthDay leap n).1 - 1)) ∧
      before leap (monthDay leap n).1 + (monthDay leap n).2 = n + 1 := by decide +kernel
  refine key leap n ?_ h
  split at h <;> omega

theorem civilOf_good (n : Int) : GoodDate (civilOf n) ∧ dayNumber (civilOf n) = n := by
  obtain ⟨h1, h2⟩ := yearDay_spec (n + 719162)
  unfold civilOf
  dsimp only
  generalize (yearDay (n + 719162)).1 = y at h1 h2
  generalize (yearDay (n + 719162)).2 = k at h1 h2
  have hk : k < 365 + (if isLeapYear y = true then 1 else 0) := by
    by_cases hL : Leap y
    · rw [if_pos hL] at h2; rw [if_pos ((isLeap_iff y).2 hL)]; omega
    · rw [if_neg hL] at h2; rw [if_neg (fun h => hL ((isLeap_iff y).1 h))]; omega
  obtain ⟨g1, g2, g3, g4, g5⟩ := monthDay_spec (isLeapYear y) k hk
  generalize (monthDay (isLeapYear y) k).1 = m at g1 g2 g3 g4 g5
  generalize (monthDay (isLeapYear y) k).2 = d at g1 g2 g3 g4 g5
  constructor
  · refine ⟨g1, g2, g3, ?_⟩
    dsimp only
    rw [← daysInMonth_eq g1 g2]
    unfold daysInMonth
    by_cases hm : m = 2
    · subst hm
      by_cases hl : isLeapYear y = true
      · simp only [hl, and_self, if_true] at g4 ⊢; exact g4
      · rw [if_neg (fun h => hl h.2)]
        rw [if_pos rfl, if_neg hl] at g4
        exact g4
    · rw [if_neg (fun h => hm h.1)]
      rw [if_neg hm] at g4
      exact g4
  · unfold dayNumber
    unfold before at g5
    unfold yearStart at h1
    dsimp only
    split at g5 <;> rename_i hc
    · rw [if_pos hc]; omega
    · rw [if_neg hc]; omega

/-- The day number grows by one from a day to the next. -/
theorem dayNumber_tomorrow (c : Civil) (h : GoodDate c) : dayNumber (tomorrow c) = dayNumber c + 1 ∧ GoodDate (tomorrow c) := by
  obtain ⟨y, m, d⟩ := c
  obtain ⟨h1, h2, h3, h4⟩ := h
  dsimp only at h1 h2 h3 h4
  unfold tomorrow
  dsimp only
  by_cases hd : d < monthLength y m
  · rw [if_pos hd]
    refine ⟨?_, h1, h2, by dsimp only; omega, by dsimp only; omega⟩
    unfold dayNumber; dsimp only; omega
  · rw [if_neg hd]
    have hdm : d = monthLength y m := by omega
    by_cases hm : m < 12
    · rw [if_pos hm]
      refine ⟨?_, by dsimp only; omega, by dsimp only; omega, by dsimp only; omega, ?_⟩
      · unfold dayNumber
        dsimp only
        rw [hdm, ← daysInMonth_eq h1 h2]
        have key : ∀ (leap : Bool) (m : Nat), m < 12 → 1 ≤ m →
            daysBefore (m + 1 - 1) + (if leap = true ∧ m + 1 ≥ 3 then 1 else 0) =
            daysBefore (m - 1) + (if leap = true ∧ m ≥ 3 then 1 else 0) +
              (if m = 2 ∧ leap = true then 29 else daysBefore m - daysBefore (m - 1)) := by decide
        have := key (isLeapYear y) m hm h1
        unfold daysInMonth
        have hc1 : (((if isLeapYear y = true ∧ m + 1 ≥ 3 then 1 else 0 : Nat)) : Int) = (if isLeapYear y = true ∧ m + 1 ≥ 3 then 1 else 0) := by
          split <;> rfl
        have hc2 : (((if isLeapYear y = true ∧ m ≥ 3 then 1 else 0 : Nat)) : Int) = (if isLeapYear y = true ∧ m ≥ 3 then 1 else 0) := by
          split <;> rfl
        rw [← hc1, ← hc2]
        omega
      · dsimp only
        unfold monthLength
        split
        · split <;> omega
        · split <;> omega
    · rw [if_neg hm]
      have hm12 : m = 12 := by omega
      subst hm12
      have hd31 : d = 31 := by rw [hdm]; rfl
      subst hd31
      refine ⟨?_, Nat.le_refl 1, by show 1 ≤ 12; decide, Nat.le_refl 1, by show 1 ≤ monthLength (y + 1) 1; simp [monthLength]⟩
      unfold dayNumber
      have hb := isLeap_iff y
      dsimp only
      rw [if_neg (fun h => absurd h.2 (by decide))]
      have e1 : daysBefore (12 - 1) = 334 := rfl
      have e2 : daysBefore (1 - 1) = 0 := rfl
      rw [e1, e2]
      by_cases hL : Leap y
      · rw [if_pos ⟨hb.2 hL, by decide⟩]
        unfold Leap at hL
        omega
      · rw [if_neg (fun h => hL (hb.1 h.1))]
        unfold Leap at hL
        omega

theorem dayNumber_bounds (c : Civil) (h : GoodDate c) :
    yearStart c.year ≤ dayNumber c + 719162 ∧ dayNumber c + 719162 < yearStart (c.year + 1) := by
  obtain ⟨y, m, d⟩ := c
  obtain ⟨h1, h2, h3, h4⟩ := h
  dsimp only at h1 h2 h3 h4
  rw [← daysInMonth_eq h1 h2] at h4
  have hb := isLeap_iff y
  have key : ∀ (leap : Bool) (m : Nat), m < 13 → 1 ≤ m →
      daysBefore (m - 1) + (if leap = true ∧ m ≥ 3 then 1 else 0) +
        (if m = 2 ∧ leap = true then 29 else daysBefore m - daysBefore (m - 1)) ≤ 365 + (if leap = true then 1 else 0) := by decide
  have hk := key (isLeapYear y) m (by omega) h1
  unfold daysInMonth at h4
  have hc2 : (((if isLeapYear y = true ∧ m ≥ 3 then 1 else 0 : Nat)) : Int) = (if isLeapYear y = true ∧ m ≥ 3 then 1 else 0) := by
    split <;> rfl
  unfold dayNumber yearStart
  dsimp only
  rw [← hc2]
  refine ⟨by omega, ?_⟩
  by_cases hL : Leap y
  · rw [if_pos (hb.2 hL)] at hk
    unfold Leap at hL
    omega
  · rw [if_neg (fun h => hL (hb.1 h))] at hk
    unfold Leap at hL
    omega

theorem yearStart_mono {a b : Int} (h : a < b) : yearStart (a + 1) ≤ yearStart b := by
  unfold yearStart
  omega

theorem dayNumber_inj {a b : Civil} (ha : GoodDate a) (hb : GoodDate b) (h : dayNumber a = dayNumber b) : a = b := by
  have h1 := dayNumber_bounds a ha
  have h2 := dayNumber_bounds b hb
  have hy : a.year = b.year := by
    rcases Int.lt_trichotomy a.year b.year with hl | hl | hl
    · have := yearStart_mono hl; omega
    · exact hl
    · have := yearStart_mono hl; omega
  obtain ⟨y, m, d⟩ := a
  obtain ⟨y', m', d'⟩ := b
  dsimp only at hy
  subst hy
  obtain ⟨a1, a2, a3, a4⟩ := ha
  obtain ⟨b1, b2, b3, b4⟩ := hb
  dsimp only at a1 a2 a3 a4 b1 b2 b3 b4
  rw [← daysInMonth_eq a1 a2] at a4
  rw [← daysInMonth_eq b1 b2] at b4
  unfold daysInMonth at a4 b4
  have key : ∀ (leap : Bool) (m : Nat), m < 13 → ∀ m', m' < 13 → 1 ≤ m → 1 ≤ m' → m < m' →
      daysBefore (m - 1) + (if leap = true ∧ m ≥ 3 then 1 else 0) +
        (if m = 2 ∧ leap = true then 29 else daysBefore m - daysBefore (m - 1)) ≤
      daysBefore (m' - 1) + (if leap = true ∧ m' ≥ 3 then 1 else 0) := by decide
  have hc : ∀ m, (((if isLeapYear y = true ∧ m ≥ 3 then 1 else 0 : Nat)) : Int) = (if isLeapYear y = true ∧ m ≥ 3 then 1 else 0) := by
    intro m; split <;> rfl
  unfold dayNumber at h
  dsimp only at h
  rw [← hc m, ← hc m'] at h
  have hm : m = m' := by
    rcases Nat.lt_trichotomy m m' with hl | hl | hl
    · have := key (isLeapYear y) m (by omega) m' (by omega) a1 b1 hl
      omega
    · exact hl
    · have := key (isLeapYear y) m' (by omega) m (by omega) b1 a1 hl
      omega
  subst hm
  have : d = d' := by omega
  rw [this]

theorem civilOf_calendar : Calendar civilOf := by
  refine ⟨by decide +kernel, fun n => (civilOf_good n).1, fun n => ?_⟩
  have h1 := civilOf_good n
  have h2 := civilOf_good (n + 1)
  have h3 := dayNumber_tomorrow _ h1.1
  exact dayNumber_inj h2.1 h3.2 (by rw [h3.1, h2.2, h1.2])

theorem tomorrow_inj {a b : Civil} (ha : GoodDate a) (hb : GoodDate b) (h : tomorrow a = tomorrow b) : a = b := by
  have h1 := (dayNumber_tomorrow a ha).1
  have h2 := (dayNumber_tomorrow b hb).1
  exact dayNumber_inj ha hb (by rw [h] at h1; omega)

theorem calendar_unique {f g : Int → Civil} (hf : Calendar f) (hg : Calendar g) (n : Int) : f n = g n := by
  have up : ∀ k : Nat, f k = g k := by
    intro k
    induction k with
    | zero => exact hf.1.trans hg.1.symm
    | succ k ih =>
      have e : ((k + 1 : Nat) : Int) = (k : Int) + 1 := by omega
      rw [e, hf.2.2, hg.2.2, ih]
  have down : ∀ k : Nat, f (-(k : Int)) = g (-(k : Int)) := by
    intro k
    induction k with
    | zero => exact hf.1.trans hg.1.symm
    | succ k ih =>
      have e : -(k : Int) = -((k + 1 : Nat) : Int) + 1 := by omega
      rw [e, hf.2.2, hg.2.2] at ih
      exact tomorrow_inj (hf.2.1 _) (hg.2.1 _) ih
  rcases Int.le_total 0 n with h | h
  · have := up n.toNat
    rwa [Int.toNat_of_nonneg h] at this
  · have := down (-n).toNat
    rwa [Int.toNat_of_nonneg (by omega), Int.neg_neg] at this

theorem weekdayOf_week : Week weekdayOf := by
  refine ⟨by decide, fun n => ?_, fun n => ?_⟩
  · unfold weekdayOf; omega
  · unfold weekdayOf; omega

theorem week_unique {f g : Int → Nat} (hf : Week f) (hg : Week g) (n : Int) : f n = g n := by
  have up : ∀ k : Nat, f k = g k := by
    intro k
    induction k with
    | zero => exact hf.1.trans hg.1.symm
    | succ k ih =>
      have e : ((k + 1 : Nat) : Int) = (k : Int) + 1 := by omega
      rw [e, hf.2.2, hg.2.2, ih]
  have down : ∀ k : Nat, f (-(k : Int)) = g (-(k : Int)) := by
    intro k
    induction k with
    | zero => exact hf.1.trans hg.1.symm
    | succ k ih =>
      have e : -(k : Int) = -((k + 1 : Nat) : Int) + 1 := by omega
      rw [e, hf.2.2, hg.2.2] at ih
      have h1 := hf.2.1 (-((k + 1 : Nat) : Int))
      have h2 := hg.2.1 (-((k + 1 : Nat) : Int))
      omega
  rcases Int.le_total 0 n with h | h
  · have := up n.toNat
    rwa [Int.toNat_of_nonneg h] at this
  · have := down (-n).toNat
    rwa [Int.toNat_of_nonneg (by omega), Int.neg_neg] at this

end Verif
