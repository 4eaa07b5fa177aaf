import Verif.Props.DateNames
import Verif.Props.DatesHttp
/-
C114: which texts are understood as dates, and as which times.
-/
namespace Verif
open Spec

/-! ### The parts -/

theorem read_step (pre : Str) (std : Std) (t : List (Str × Std)) (tail v : Str) (f f' : DateFields) :
    readChunks ((pre, std) :: t) tail v f = some f' ↔
      ∃ u r g, skipText v pre = some u ∧ readStd std u f = some (r, g) ∧ readChunks t tail r g = some f' := by
  rw [readChunks]
  constructor
  · intro h
    obtain ⟨u, h1, h⟩ := Option.bind_eq_some_iff.1 h
    obtain ⟨⟨r, g⟩, h2, h3⟩ := Option.bind_eq_some_iff.1 h
    exact ⟨u, r, g, h1, h2, h3⟩
  · rintro ⟨u, r, g, h1, h2, h3⟩
    rw [h1, Option.bind_some, h2, Option.bind_some]; exact h3

theorem read_end (tail v : Str) (f f' : DateFields) : readChunks [] tail v f = some f' ↔ skipText v tail = some [] ∧ f = f' := by
  rw [readChunks]
  split
  · rename_i h; rw [h]; simp
  · rename_i h
    constructor
    · intro e; cases e
    · rintro ⟨e, -⟩; exact absurd e h

theorem digitByte_head (n : Nat) (r : Str) : digitAt (digitByte n :: r) 0 = true := (digitAt_zero _ _).2 (digitByte_range n)

theorem two_head (n : Nat) (r : Str) : (two n ++ r).head? ≠ some 32 := digit_head _ _

theorem oneTwo_head {s : Str} {n : Nat} (h : OneTwo s n) (r : Str) : (s ++ r).head? ≠ some 32 ∧ s ++ r ≠ [] := by
  rcases h with ⟨-, rfl⟩ | ⟨-, rfl⟩
  · exact ⟨digit_head _ _, by simp [two]⟩
  · exact ⟨digit_head _ _, by simp⟩

theorem digits_take {d : Str} (h : ∀ c ∈ d, 48 ≤ c ∧ c ≤ 57) (r : Str) (hr : digitAt r 0 = false) :
    ((d ++ r).takeWhile fun c => 48 ≤ c && c ≤ 57) = d := by
  induction d with
  | nil =>
    cases r with
    | nil => rfl
    | cons c r =>
      rw [List.nil_append, List.takeWhile_cons_of_neg]
      intro h'
      simp only [Bool.and_eq_true, decide_eq_true_eq] at h'
      rw [(digitAt_zero c r).2 h'] at hr
      cases hr
  | cons c d ih =>
    rw [List.cons_append, List.takeWhile_cons_of_pos (by simpa using h c (by simp)), ih fun x hx => h x (by simp [hx])]

theorem digits_split (v : Str) : ∃ d r, v = d ++ r ∧ (∀ c ∈ d, 48 ≤ c ∧ c ≤ 57) ∧ digitAt r 0 = false := by
  induction v with
  | nil => exact ⟨[], [], rfl, by simp, rfl⟩
  | cons c v ih =>
    by_cases h : 48 ≤ c ∧ c ≤ 57
    · obtain ⟨d, r, rfl, h1, h2⟩ := ih
      refine ⟨c :: d, r, rfl, ?_, h2⟩
      intro x hx
      rcases List.mem_cons.1 hx with rfl | hx
      · exact h
      · exact h1 x hx
    · exact ⟨[], c :: v, rfl, by simp, by rw [← Bool.not_eq_true, digitAt_zero]; exact h⟩

theorem fraction_value {d : Str} (hd : Digits d) (c : UInt8) (r : Str) :
    fraction (c :: d ++ r) (1 + d.length) = decVal (d.take 9) * 10 ^ (9 - (d.take 9).length) := by
  unfold fraction
  dsimp only
  have hall : ∀ x ∈ d.take 9, 48 ≤ x ∧ x ≤ 57 := fun x hx => hd.2 x (List.mem_of_mem_take hx)
  have val : leadingInt 0 (d.take 9) = (decVal (d.take 9), []) := by
    have := leadingInt_value 0 (d.take 9) hall [] rfl
    rwa [List.append_nil, Nat.zero_mul, Nat.zero_add] at this
  by_cases h : 1 + d.length > 10
  · rw [if_pos h]
    have e : ((c :: d ++ r).take 10).drop 1 = d.take 9 := by
      rw [List.cons_append, List.take_succ_cons, List.drop_succ_cons, List.drop_zero, List.take_append_of_le_length (by omega)]
    have el : (d.take 9).length = 9 := by rw [List.length_take]; omega
    rw [e, val, el]
  · rw [if_neg h]
    have et : d.take 9 = d := List.take_of_length_le (by omega)
    have e : ((c :: d ++ r).take (1 + d.length)).drop 1 = d.take 9 := by
      rw [et, List.cons_append, Nat.add_comm, List.take_succ_cons, List.drop_succ_cons, List.drop_zero, List.take_left]
    rw [e, val, et]
    congr 2
    omega

theorem second_fwd {u r : Str} {f g : DateFields} (h0 : readStd .zeroSecond u f = some (r, g)) (hf : f.nsec = 0) :
    ∃ s fs ns, s < 60 ∧ Fraction fs ns ∧ u = two s ++ fs ++ r ∧ g = { f with sec := s, nsec := ns } := by
  rw [readStd] at h0
  obtain ⟨⟨s, v⟩, h1, h⟩ := Option.bind_eq_some_iff.1 h0
  obtain ⟨-, rfl⟩ := (getNum_fixed_iff _ _ _).1 h1
  dsimp only at h
  split at h
  · cases h
  · rename_i hs
    split at h
    · rename_i hv
      obtain ⟨hl, hc, hd⟩ := hv
      cases v with
      | nil => simp at hl
      | cons c v =>
        obtain ⟨d, r', rfl, h2, h3⟩ := digits_split v
        rw [List.drop_succ_cons, List.drop_zero, digits_take h2 r' h3] at h
        have hne : d ≠ [] := by
          rintro rfl
          have : digitAt (c :: ([] ++ r')) 1 = digitAt r' 0 := rfl
          rw [this, h3] at hd
          cases hd
        have hv := fraction_value ⟨hne, h2⟩ c r'
        rw [List.cons_append] at hv
        rw [hv, Option.some.injEq, Prod.mk.injEq] at h
        obtain ⟨e1, e2⟩ := h
        have e3 : (c :: (d ++ r')).drop (1 + d.length) = r' := by
          rw [Nat.add_comm, List.drop_succ_cons, List.drop_left]
        rw [e3] at e1
        subst e1
        refine ⟨s, c :: d, _, by omega, .digits ?_ ⟨hne, h2⟩, by simp, e2.symm⟩
        simpa using hc
    · cases h
      exact ⟨s, [], 0, by omega, .none, by simp, by rw [← hf]⟩

theorem second_bwd {s ns : Nat} {fs r : Str} (f : DateFields) (hs : s < 60) (hf : Fraction fs ns) (hn : f.nsec = 0) (hr : r.head? = some 32) :
    readStd .zeroSecond (two s ++ fs ++ r) f = some (r, { f with sec := s, nsec := ns }) := by
  have hr0 : digitAt r 0 = false := by
    cases r with
    | nil => cases hr
    | cons c r => cases hr; rfl
  rw [readStd, List.append_assoc, (getNum_fixed_iff _ s (fs ++ r)).2 ⟨by omega, rfl⟩, Option.bind_some]
  dsimp only
  rw [if_neg (by omega)]
  cases hf with
  | none =>
    rw [List.nil_append, if_neg]
    · rw [← hn]
    · rintro ⟨-, h, -⟩
      rw [hr] at h
      revert h; decide
  | digits hc hd =>
    rename_i c d
    have hv := fraction_value hd c r
    rw [List.cons_append] at hv ⊢
    rw [if_pos, List.drop_succ_cons, List.drop_zero, digits_take hd.2 r hr0, hv]
    · rw [Nat.add_comm 1, List.drop_succ_cons, List.drop_left]
    · obtain ⟨h1, h2⟩ := hd
      cases d with
      | nil => exact absurd rfl h1
      | cons x d =>
        refine ⟨by simp, by simpa using hc, ?_⟩
        rw [List.cons_append, digitAt_one]; exact h2 x (by simp)

/-- Blanks, a time of day, and what follows. -/
theorem clock_fwd {tl : List (Str × Std)} {tail v : Str} {f f' : DateFields} (hn : f.nsec = 0)
    (h : readChunks ((b!" ", .hour) :: (b!":", .zeroMinute) :: (b!":", .zeroSecond) :: tl) tail v f = some f') :
    ∃ b cl r hh m s ns, Blanks b ∧ ClockText cl hh m s ns ∧ v = b ++ cl ++ r ∧
      readChunks tl tail r { f with hour := hh, min := m, sec := s, nsec := ns } = some f' := by
  obtain ⟨u1, r1, g1, a1, a2, h'⟩ := (read_step ..).1 h
  obtain ⟨u2, r2, g2, b1, b2, h''⟩ := (read_step ..).1 h'
  obtain ⟨u3, r3, g3, c1, c2, hlast⟩ := (read_step ..).1 h''
  rw [readStd] at a2
  obtain ⟨⟨hh, x⟩, a3, a4⟩ := Option.bind_eq_some_iff.1 a2
  dsimp only at a4
  split at a4
  · cases a4
  rename_i hlt
  cases a4
  rw [readStd] at b2
  obtain ⟨⟨m, y⟩, b3, b4⟩ := Option.bind_eq_some_iff.1 b2
  dsimp only at b4
  split at b4
  · cases b4
  rename_i mlt
  cases b4
  obtain ⟨s, fs, ns, hs, hfr, rfl, rfl⟩ := second_fwd c2 (by exact hn)
  have hu1 : u1 ≠ [] := by rintro rfl; simp [getNum] at a3
  obtain ⟨b, hb, rfl, -⟩ := (skip_last_blank _ _ hu1).1 a1
  obtain ⟨w, rfl, hw⟩ := (skip_char_iff 58 (by decide) _ _ _).1 b1
  rw [skip_nil] at hw; cases hw
  obtain ⟨w, rfl, hw⟩ := (skip_char_iff 58 (by decide) _ _ _).1 c1
  rw [skip_nil] at hw; cases hw
  obtain ⟨-, rfl⟩ := (getNum_fixed_iff _ _ _).1 b3
  have : ∃ hs, OneTwo hs hh ∧ u1 = hs ++ 58 :: (two m ++ 58 :: (two s ++ fs ++ r3)) := by
    rcases (getNum_free_iff _ _ _).1 a3 with ⟨h1, h2⟩ | ⟨h1, h2, -⟩
    · exact ⟨_, .inl ⟨h1, rfl⟩, h2⟩
    · exact ⟨_, .inr ⟨h1, rfl⟩, h2⟩
  obtain ⟨hs', ho, rfl⟩ := this
  exact ⟨b, _, r3, hh, m, s, ns, hb, .mk ho (by omega) (by omega) hs hfr, by simp, hlast⟩

theorem clock_head {cl : Str} {hh m s ns : Nat} (h : ClockText cl hh m s ns) (r : Str) : (cl ++ r).head? ≠ some 32 ∧ cl ++ r ≠ [] := by
  cases h with
  | mk ho h1 h2 h3 hf =>
    rename_i hs fs
    have := oneTwo_head ho (b!":" ++ two m ++ b!":" ++ two s ++ fs ++ r)
    simpa [List.append_assoc] using this

theorem clock_bwd {tl : List (Str × Std)} {tail : Str} {f f' : DateFields} {b cl r : Str} {hh m s ns : Nat} (hn : f.nsec = 0) (hb : Blanks b)
    (hc : ClockText cl hh m s ns) (hr : r.head? = some 32)
    (h : readChunks tl tail r { f with hour := hh, min := m, sec := s, nsec := ns } = some f') :
    readChunks ((b!" ", .hour) :: (b!":", .zeroMinute) :: (b!":", .zeroSecond) :: tl) tail (b ++ cl ++ r) f = some f' := by
  have hhd := clock_head hc r
  cases hc with
  | mk ho h1 h2 h3 hf =>
    rename_i hs fs
    have e : hs ++ b!":" ++ two m ++ b!":" ++ two s ++ fs ++ r = hs ++ 58 :: (two m ++ 58 :: (two s ++ fs ++ r)) := by simp
    rw [List.append_assoc, e]
    rw [e] at hhd
    refine (read_step ..).2 ⟨hs ++ 58 :: (two m ++ 58 :: (two s ++ fs ++ r)), 58 :: (two m ++ 58 :: (two s ++ fs ++ r)),
      { f with hour := hh }, (skip_last_blank _ _ hhd.2).2 ⟨b, hb, rfl, hhd.1⟩, ?_, ?_⟩
    · rw [readStd]
      have : getNum (hs ++ 58 :: (two m ++ 58 :: (two s ++ fs ++ r))) false = some (hh, 58 :: (two m ++ 58 :: (two s ++ fs ++ r))) := by
        rw [getNum_free_iff]
        rcases ho with ⟨o1, rfl⟩ | ⟨o1, rfl⟩
        · exact .inl ⟨o1, rfl⟩
        · exact .inr ⟨o1, rfl, rfl⟩
      rw [this, Option.bind_some]
      dsimp only
      rw [if_neg (by omega)]
    · refine (read_step ..).2 ⟨_, 58 :: (two s ++ fs ++ r), { f with hour := hh, min := m },
        (skip_char_iff 58 (by decide) _ _ _).2 ⟨_, rfl, skip_nil _⟩, ?_, ?_⟩
      · rw [readStd, (getNum_fixed_iff _ m _).2 ⟨by omega, rfl⟩, Option.bind_some]
        dsimp only
        rw [if_neg (by omega)]
      · exact (read_step ..).2 ⟨_, r, _, (skip_char_iff 58 (by decide) _ _ _).2 ⟨_, rfl, skip_nil _⟩,
          second_bwd (f := { f with hour := hh, min := m }) (s := s) (ns := ns) h3 hf hn hr, h⟩

/-! ### Zones -/

theorem signedOffset_iff (u : Str) (hne : u ≠ []) : u.length ≤ signedOffset u ↔ SmallOffset u := by
  cases u with
  | nil => exact absurd rfl hne
  | cons c t =>
    obtain ⟨d, r, rfl, hd, hr⟩ := digits_split t
    have val : leadingInt 0 (d ++ r) = (decVal d, r) := by
      have := leadingInt_value 0 d hd r hr
      rwa [Nat.zero_mul, Nat.zero_add] at this
    unfold signedOffset
    dsimp only
    rw [val]
    dsimp only
    constructor
    · intro h
      split at h
      · simp at h
      · rename_i hc
        split at h
        · simp at h
        · rename_i hs
          split at h
          · simp at h
          · rename_i hle
            have hr0 : r = [] := by
              cases r with
              | nil => rfl
              | cons x r => exfalso; simp only [List.length_cons, List.length_append] at h; omega
            subst hr0
            refine ⟨c, d, by simp, ?_, ⟨by rintro rfl; exact hs rfl, hd⟩, by omega⟩
            by_cases e : c = 45
            · exact .inr e
            · by_cases e' : c = 43
              · exact .inl e'
              · exact absurd ⟨e, e'⟩ hc
    · rintro ⟨c', d', e, hc, hd', hle⟩
      obtain ⟨rfl, e'⟩ := List.cons.inj e
      have val' := leadingInt_value 0 d' hd'.2 [] rfl
      rw [List.append_nil, ← e', val, Nat.zero_mul, Nat.zero_add, Prod.mk.injEq] at val'
      obtain ⟨v1, rfl⟩ := val'
      rw [e'] at v1
      have hdne : d ≠ [] := by rintro rfl; exact hd'.1 (by rw [← e']; rfl)
      rw [if_neg, if_neg, if_neg]
      · simp
      · omega
      · intro h'; exact hdne (by simpa using h'.symm)
      · rintro ⟨h1, h2⟩
        rcases hc with h | h
        · exact h2 h
        · exact h1 h

theorem signedOffset_pos (u : Str) (h : SmallOffset u) : 0 < signedOffset u := by
  obtain ⟨c, d, rfl, -⟩ := id h
  have := (signedOffset_iff (c :: d) (by simp)).2 h
  simp only [List.length_cons] at this
  omega

theorem upperCount_all (u : Str) (hl : u.length ≤ 6) (h : ∀ c ∈ u, Capital c) : upperCount u = u.length := by
  unfold upperCount
  rw [List.take_of_length_le hl]
  have : u.takeWhile (fun c => 65 ≤ c && c ≤ 90) = u := by
    clear hl
    induction u with
    | nil => rfl
    | cons c u ih =>
      rw [List.takeWhile_cons_of_pos (by simpa [Capital] using h c (by simp)), ih fun x hx => h x (by simp [hx])]
  rw [this]

theorem upperCount_take (u : Str) : upperCount u ≤ u.length ∧ ∀ c ∈ u.take (upperCount u), Capital c := by
  unfold upperCount
  have hp : (u.take 6).takeWhile (fun c => 65 ≤ c && c ≤ 90) <+: u := (List.takeWhile_prefix _).trans (List.take_prefix _ _)
  refine ⟨hp.length_le, ?_⟩
  rw [← List.prefix_iff_eq_take.1 hp]
  intro c hc
  have := List.all_eq_true.1 (List.all_takeWhile (p := fun c : UInt8 => 65 ≤ c && c ≤ 90) (l := u.take 6)) c hc
  simpa [Capital] using this

theorem capital_not_sign {c : UInt8} (h : Capital c) : c ≠ 43 ∧ c ≠ 45 := by
  constructor <;> rintro rfl <;> exact absurd h (by unfold Capital; decide)

/-- The whole of what is left is taken for the zone. -/
theorem zone_iff (u : Str) : (u = b!"UTC" ∨ (u.take 3 ≠ b!"UTC" ∧ ∃ n, zoneLength u = some n ∧ u.length ≤ n)) ↔ ZoneText u := by
  constructor
  · rintro (rfl | ⟨hu, n, hz, hn⟩)
    · exact .three rfl (by unfold Capital; decide)
    · unfold zoneLength at hz
      split at hz
      · cases hz
      rename_i hl
      split at hz
      · rename_i hm
        cases hz
        have : u.take 4 = u := List.take_of_length_le hn
        rw [this] at hm
        exact .mixed hm.2
      rename_i hmix
      split at hz
      · rename_i hg
        cases hz
        have e : u = b!"GMT" ++ u.drop 3 := by rw [← hg, List.take_append_drop]
        by_cases hd : u.drop 3 = []
        · rw [hd, List.append_nil] at e
          rw [e]; exact .three rfl (by unfold Capital; decide)
        · rw [e]
          refine .gmt ((signedOffset_iff _ hd).1 ?_)
          rw [List.length_drop]; omega
      rename_i hg
      split at hz
      · split at hz
        · cases hz
          have hne : u ≠ [] := by rintro rfl; exact hl (by decide)
          exact .offset ((signedOffset_iff _ hne).1 hn) (by omega)
        · cases hz
      rename_i hs
      obtain ⟨k1, k2⟩ := upperCount_take u
      split at hz
      · rename_i hk
        split at hz
        · rename_i h4
          cases hz
          rw [hk] at k1 k2
          have hlen : u.length = 5 := by omega
          rw [List.take_of_length_le (by omega)] at k2
          exact .five hlen k2 (by rw [List.getLast?_eq_getElem?, hlen]; exact h4) ⟨hg, hu⟩
        · cases hz
      · rename_i hk
        split at hz
        · rename_i h3
          cases hz
          rw [hk] at k1 k2
          have hlen : u.length = 4 := by omega
          rw [List.take_of_length_le (by omega)] at k2 h3
          refine .four hlen k2 ?_ ⟨hg, hu⟩
          rw [List.getLast?_eq_getElem?, hlen]; exact h3
        · cases hz
      · rename_i hk
        cases hz
        rw [hk] at k1 k2
        have hlen : u.length = 3 := by omega
        rw [List.take_of_length_le (by omega)] at k2
        exact .three hlen k2
      · cases hz
  · -- capitals are neither a mixed name nor a sign
    have caps : ∀ u : Str, (∀ c ∈ u, Capital c) → 3 ≤ u.length → u.length ≤ 5 → u.take 3 ≠ b!"GMT" →
        zoneLength u = match u.length with
          | 5 => if u[4]? = some 84 then some 5 else none
          | 4 => if u[3]? = some 84 ∨ u.take 4 = b!"WITA" then some 4 else none
          | 3 => some 3
          | _ => none := by
      intro u hc h1 h2 hg
      unfold zoneLength
      rw [if_neg (by omega), if_neg, if_neg hg, if_neg, upperCount_all u (by omega) hc]
      · rfl
      · intro hs
        cases u with
        | nil => simp at h1
        | cons a u =>
          have := capital_not_sign (hc a (by simp))
          simp only [List.head?_cons, Option.some.injEq] at hs
          rcases hs with h | h
          · exact this.1 h
          · exact this.2 h
      · rintro ⟨-, hm⟩
        have : ∀ c ∈ u.take 4, Capital c := fun c hcm => hc c (List.mem_of_mem_take hcm)
        rcases hm with e | e <;> rw [e] at this <;> exact absurd this (by unfold Capital; decide)
    intro h
    cases h with
    | three hl hc =>
      by_cases hu : u = b!"UTC"
      · exact .inl hu
      · have ht : u.take 3 = u := List.take_of_length_le (by omega)
        refine .inr ⟨by rw [ht]; exact hu, 3, ?_, by omega⟩
        by_cases hg : u = b!"GMT"
        · subst hg; decide
        · rw [caps u hc (by omega) (by omega) (by rw [ht]; exact hg), hl]
          rfl
    | four hl hc he hn =>
      refine .inr ⟨hn.2, 4, ?_, by omega⟩
      rw [caps u hc (by omega) (by omega) hn.1, hl]
      rw [List.getLast?_eq_getElem?, hl] at he
      have ht : u.take 4 = u := List.take_of_length_le (by omega)
      simp only [ht]
      rw [if_pos he]
    | five hl hc he hn =>
      refine .inr ⟨hn.2, 5, ?_, by omega⟩
      rw [caps u hc (by omega) (by omega) hn.1, hl]
      rw [List.getLast?_eq_getElem?, hl] at he
      simp only
      rw [if_pos he]
    | mixed h => rcases h with rfl | rfl <;> exact .inr ⟨by decide, 4, by decide, by decide⟩
    | gmt h =>
      rename_i s
      refine .inr ⟨by simp, 3 + signedOffset s, ?_, ?_⟩
      · unfold zoneLength
        rw [if_neg (by simp), if_neg, if_pos (by simp)]
        · simp
        · rintro ⟨-, hm⟩
          simp at hm
      · obtain ⟨c, d, rfl, -⟩ := id h
        have := (signedOffset_iff (c :: d) (by simp)).2 h
        rw [List.length_append]; show 3 + _ ≤ _; omega
    | offset h hl =>
      obtain ⟨c, d, rfl, hc, hd, hle⟩ := id h
      refine .inr ⟨?_, signedOffset (c :: d), ?_, (signedOffset_iff _ (by simp)).2 h⟩
      · intro e
        rw [List.take_succ_cons] at e
        obtain ⟨rfl, -⟩ := List.cons.inj e
        rcases hc with h | h <;> exact absurd h (by decide)
      · unfold zoneLength
        rw [if_neg (by omega), if_neg, if_neg, if_pos, if_pos (signedOffset_pos _ h)]
        · simpa using hc
        · intro e
          rw [List.take_succ_cons] at e
          obtain ⟨rfl, -⟩ := List.cons.inj e
          rcases hc with h | h <;> exact absurd h (by decide)
        · rintro ⟨-, e | e⟩ <;> rw [List.take_succ_cons] at e <;> obtain ⟨rfl, -⟩ := List.cons.inj e <;>
            rcases hc with h | h <;> exact absurd h (by decide)

/-! ### Day and time -/

theorem finish_iff (local_ : Str → Int → Option Int) (y : Int) (mo d h m s ns : Nat) (z : Str) (h1 : 1 ≤ mo) (h2 : mo ≤ 12) (hz : z ≠ b!"UTC")
    (t : Int) : finishDate local_ ⟨y, mo, d, h, m, s, ns, z⟩ = some t ↔ GoodDate ⟨y, mo, d⟩ ∧
      let sec : Int := dayNumber ⟨y, mo, d⟩ * 86400 + h * 3600 + m * 60 + s
      t = (sec - zoneShift local_ (if z = [] then b!"UTC" else z) sec) * 1000000000 + ns := by
  unfold finishDate
  dsimp only
  have e1 : ¬ (mo : Int) < 0 := by omega
  have e2 : ¬ (d : Int) < 0 := by omega
  rw [if_neg e1, if_neg e2]
  simp only [Int.toNat_natCast]
  rw [daysInMonth_eq h1 h2]
  by_cases hg : GoodDate ⟨y, mo, d⟩
  · obtain ⟨-, -, g1, g2⟩ := id hg
    dsimp only at g1 g2
    rw [if_neg (by omega)]
    unfold zoneShift
    generalize dayNumber ⟨y, mo, d⟩ * 86400 + h * 3600 + m * 60 + s = sec
    by_cases hz0 : z = []
    · subst hz0
      simp only [if_true, Option.some.injEq, Int.sub_zero]
      exact ⟨fun h => ⟨hg, h.symm⟩, fun h => h.2.symm⟩
    · simp only [if_neg hz0, if_neg hz, Option.some.injEq]
      cases local_ z sec with
      | none => simp only [Option.getD_none, Int.sub_zero]; exact ⟨fun h => ⟨hg, h.symm⟩, fun h => h.2.symm⟩
      | some off => simp only [Option.getD_some]; exact ⟨fun h => ⟨hg, h.symm⟩, fun h => h.2.symm⟩
  · rw [if_pos]
    · exact ⟨fun h => (by cases h), fun h => absurd h.1 hg⟩
    · have : ¬ (1 ≤ d ∧ d ≤ monthLength y mo) := fun h => hg ⟨h1, h2, h.1, h.2⟩
      omega

/-! ### The forms -/

theorem name_head {s n : Str} (h : SameName s n) (hn : n.head? ≠ some 32) (hne : n ≠ []) (r : Str) : (s ++ r).head? ≠ some 32 ∧ s ++ r ≠ [] := by
  induction h with
  | nil => exact absurd rfl hne
  | @cons a b s t hl _ _ =>
    refine ⟨?_, by simp⟩
    simp only [List.cons_append, List.head?_cons, ne_eq, Option.some.injEq] at hn ⊢
    rintro rfl
    rcases hl with rfl | ⟨h1, -⟩ | ⟨h1, h2, h3⟩
    · exact hn rfl
    · exact absurd h1 (by decide)
    · have := (letter_cap b h1 h2).2.1
      rw [← h3] at this
      exact absurd this (by decide)

theorem day_good (w : Nat) : (dayName w).head? ≠ some 32 ∧ dayName w ≠ [] ∧ (dayName w).length = 3 := by
  unfold dayName; split <;> simp

theorem fullDay_good (w : Nat) : (fullDayName w).head? ≠ some 32 ∧ fullDayName w ≠ [] := by
  unfold fullDayName; split <;> simp

theorem month_good (m : Nat) : (monthName m).head? ≠ some 32 ∧ monthName m ≠ [] := by
  unfold monthName; split <;> simp

theorem blank_fwd {std : Std} {t : List (Str × Std)} {tail v : Str} {f f' : DateFields} (h : readChunks ((b!" ", std) :: t) tail v f = some f')
    (hne : readStd std [] f = none) :
    ∃ b u r g, Blanks b ∧ v = b ++ u ∧ readStd std u f = some (r, g) ∧ readChunks t tail r g = some f' := by
  obtain ⟨u, r, g, h1, h2, h3⟩ := (read_step ..).1 h
  have hu : u ≠ [] := by rintro rfl; rw [hne] at h2; cases h2
  obtain ⟨b, hb, rfl, -⟩ := (skip_last_blank _ _ hu).1 h1
  exact ⟨b, u, r, g, hb, rfl, h2, h3⟩

theorem blank_bwd {std : Std} {t : List (Str × Std)} {tail b u r : Str} {f g f' : DateFields} (hb : Blanks b) (hu : u.head? ≠ some 32 ∧ u ≠ [])
    (h2 : readStd std u f = some (r, g)) (h3 : readChunks t tail r g = some f') :
    readChunks ((b!" ", std) :: t) tail (b ++ u) f = some f' :=
  (read_step ..).2 ⟨u, r, g, (skip_last_blank _ _ hu.2).2 ⟨b, hb, rfl, hu.1⟩, h2, h3⟩

theorem comma_fwd {std : Std} {t : List (Str × Std)} {tail v : Str} {f f' : DateFields} (h : readChunks ((b!", ", std) :: t) tail v f = some f')
    (hne : readStd std [] f = none) :
    ∃ b u r g, Blanks b ∧ v = 44 :: (b ++ u) ∧ readStd std u f = some (r, g) ∧ readChunks t tail r g = some f' := by
  obtain ⟨u, r, g, h1, h2, h3⟩ := (read_step ..).1 h
  obtain ⟨x, rfl, h1'⟩ := (skip_char_iff 44 (by decide) _ _ _).1 h1
  have hu : u ≠ [] := by rintro rfl; rw [hne] at h2; cases h2
  obtain ⟨b, hb, rfl, -⟩ := (skip_last_blank _ _ hu).1 h1'
  exact ⟨b, u, r, g, hb, rfl, h2, h3⟩

theorem comma_bwd {std : Std} {t : List (Str × Std)} {tail b u r : Str} {f g f' : DateFields} (hb : Blanks b) (hu : u.head? ≠ some 32 ∧ u ≠ [])
    (h2 : readStd std u f = some (r, g)) (h3 : readChunks t tail r g = some f') :
    readChunks ((b!", ", std) :: t) tail (44 :: (b ++ u)) f = some f' :=
  (read_step ..).2 ⟨u, r, g, (skip_char_iff 44 (by decide) _ _ _).2 ⟨_, rfl, (skip_last_blank _ _ hu.2).2 ⟨b, hb, rfl, hu.1⟩⟩, h2, h3⟩

theorem char_step (c : UInt8) (hc : c ≠ 32) (std : Std) (t : List (Str × Std)) (tail v : Str) (f f' : DateFields) :
    readChunks (([c], std) :: t) tail v f = some f' ↔
      ∃ u r g, v = c :: u ∧ readStd std u f = some (r, g) ∧ readChunks t tail r g = some f' := by
  rw [read_step]
  constructor
  · rintro ⟨u, r, g, h1, h2, h3⟩
    obtain ⟨x, rfl, h1'⟩ := (skip_char_iff c hc _ _ _).1 h1
    rw [skip_nil] at h1'; cases h1'
    exact ⟨u, r, g, rfl, h2, h3⟩
  · rintro ⟨u, r, g, rfl, h2, h3⟩
    exact ⟨u, r, g, (skip_char_iff c hc _ _ _).2 ⟨u, rfl, skip_nil u⟩, h2, h3⟩

theorem none_step (std : Std) (t : List (Str × Std)) (tail v : Str) (f f' : DateFields) :
    readChunks (([], std) :: t) tail v f = some f' ↔ ∃ r g, readStd std v f = some (r, g) ∧ readChunks t tail r g = some f' := by
  rw [read_step]
  constructor
  · rintro ⟨u, r, g, h1, h2, h3⟩
    rw [skip_nil] at h1; cases h1
    exact ⟨r, g, h2, h3⟩
  · rintro ⟨r, g, h2, h3⟩
    exact ⟨v, r, g, skip_nil v, h2, h3⟩

theorem std_weekDay (v r : Str) (f g : DateFields) :
    readStd .weekDay v f = some (r, g) ↔ g = f ∧ ∃ w s, w < 7 ∧ v = s ++ r ∧ SameName s (dayName w) := by
  rw [readStd]
  constructor
  · intro h
    obtain ⟨⟨k, x⟩, h1, h2⟩ := Option.bind_eq_some_iff.1 h
    cases h2
    obtain ⟨hk, s, e, hs⟩ := (lookup_day_iff _ _ _).1 h1
    exact ⟨rfl, k, s, hk, e, hs⟩
  · rintro ⟨rfl, w, s, hw, e, hs⟩
    rw [(lookup_day_iff v w r).2 ⟨hw, s, e, hs⟩]; rfl

theorem std_longWeekDay (v r : Str) (f g : DateFields) :
    readStd .longWeekDay v f = some (r, g) ↔ g = f ∧ ∃ w s, w < 7 ∧ v = s ++ r ∧ SameName s (fullDayName w) := by
  rw [readStd]
  constructor
  · intro h
    obtain ⟨⟨k, x⟩, h1, h2⟩ := Option.bind_eq_some_iff.1 h
    cases h2
    obtain ⟨hk, s, e, hs⟩ := (lookup_full_iff _ _ _).1 h1
    exact ⟨rfl, k, s, hk, e, hs⟩
  · rintro ⟨rfl, w, s, hw, e, hs⟩
    rw [(lookup_full_iff v w r).2 ⟨hw, s, e, hs⟩]; rfl

theorem std_month (v r : Str) (f g : DateFields) :
    readStd .month v f = some (r, g) ↔
      ∃ (mo : Nat) (s : Str), 1 ≤ mo ∧ mo ≤ 12 ∧ g = { f with month := mo } ∧ v = s ++ r ∧ SameName s (monthName mo) := by
  rw [readStd]
  constructor
  · intro h
    obtain ⟨⟨k, x⟩, h1, h2⟩ := Option.bind_eq_some_iff.1 h
    cases h2
    obtain ⟨hk, s, e, hs⟩ := (lookup_month_iff _ _ _).1 h1
    exact ⟨k + 1, s, by omega, by omega, by simp, e, hs⟩
  · rintro ⟨mo, s, h1, h2, rfl, e, hs⟩
    have : mo = mo - 1 + 1 := by omega
    rw [this] at hs
    rw [(lookup_month_iff v (mo - 1) r).2 ⟨by omega, s, e, hs⟩, Option.bind_some]
    congr 4
    omega

theorem std_zeroDay (v r : Str) (f g : DateFields) :
    readStd .zeroDay v f = some (r, g) ↔ ∃ d : Nat, d < 100 ∧ v = two d ++ r ∧ g = { f with day := d } := by
  rw [readStd]
  constructor
  · intro h
    obtain ⟨⟨k, x⟩, h1, h2⟩ := Option.bind_eq_some_iff.1 h
    cases h2
    obtain ⟨hk, e⟩ := (getNum_fixed_iff _ _ _).1 h1
    exact ⟨k, hk, e, rfl⟩
  · rintro ⟨d, hd, e, rfl⟩
    rw [(getNum_fixed_iff v d r).2 ⟨hd, e⟩]; rfl

theorem std_longYear (v r : Str) (f g : DateFields) :
    readStd .longYear v f = some (r, g) ↔ ∃ y : Nat, y < 10000 ∧ v = four y ++ r ∧ g = { f with year := y } := by
  rw [readStd]
  constructor
  · intro h
    split at h
    · cases h
    · rename_i hc
      have hl : ¬ v.length < 4 := fun e => hc (.inl e)
      have hd : digitAt v 0 = true := by
        rw [← Bool.not_eq_false]; exact fun e => hc (.inr e)
      obtain ⟨y, h1, h2⟩ := Option.bind_eq_some_iff.1 h
      cases h2
      have hd' : digitAt (v.take 4) 0 = true := by
        cases v with
        | nil => simp at hl
        | cons a v => exact hd
      obtain ⟨n, hn, e, rfl⟩ := (atoi_year_iff _ (by rw [List.length_take]; omega) hd' _).1 h1
      exact ⟨n, hn, by rw [← e, List.take_append_drop], rfl⟩
  · rintro ⟨y, hy, rfl, rfl⟩
    have hl : (four y).length = 4 := rfl
    have e1 : (four y ++ r).take 4 = four y := by rw [← hl, List.take_left]
    have e2 : (four y ++ r).drop 4 = r := by rw [← hl, List.drop_left]
    rw [if_neg, e1, e2, atoi_four y hy]
    · rfl
    · rintro (h | h)
      · simp only [List.length_append, hl] at h; omega
      · have : digitAt (four y ++ r) 0 = true := digitByte_head _ _
        rw [this] at h; cases h

theorem std_year (v r : Str) (f g : DateFields) :
    readStd .year v f = some (r, g) ↔ ∃ yr y, ShortYear yr y ∧ v = yr ++ r ∧ g = { f with year := y } := by
  rw [readStd]
  constructor
  · intro h
    split at h
    · cases h
    · rename_i hc
      obtain ⟨y, h1, h2⟩ := Option.bind_eq_some_iff.1 h
      cases h2
      have e : v = v.take 2 ++ v.drop 2 := (List.take_append_drop 2 v).symm
      rcases (atoi_short_iff _ (by rw [List.length_take]; omega) _).1 h1 with ⟨n, hn, e', rfl⟩ | ⟨n, hn, e', rfl⟩ | ⟨n, hn, e', rfl⟩
      · rw [e'] at e
        refine ⟨_, _, .digits hn, e, ?_⟩
        congr 1
        by_cases h69 : n ≥ 69
        · rw [if_pos h69, if_pos (by omega)]; omega
        · rw [if_neg h69, if_neg (by omega)]; omega
      · rw [e'] at e
        refine ⟨_, _, .plus hn, e, ?_⟩
        congr 1
        rw [if_neg (by omega)]; omega
      · rw [e'] at e
        refine ⟨_, _, .minus hn, e, ?_⟩
        congr 1
        rw [if_neg (by omega)]; omega
  · rintro ⟨yr, y, hy, rfl, rfl⟩
    have hl : yr.length = 2 := by cases hy <;> rfl
    have e1 : (yr ++ r).take 2 = yr := by rw [← hl, List.take_left]
    have e2 : (yr ++ r).drop 2 = r := by rw [← hl, List.drop_left]
    rw [if_neg (by rw [List.length_append]; omega), e1, e2]
    cases hy with
    | digits hn =>
      rename_i n
      rw [(atoi_short_iff _ hl (n : Int)).2 (.inl ⟨n, hn, rfl, rfl⟩), Option.bind_some]
      have e3 : (if (n : Int) ≥ 69 then (n : Int) + 1900 else (n : Int) + 2000) = (if n ≥ 69 then 1900 + (n : Int) else 2000 + n) := by
        by_cases h69 : n ≥ 69
        · rw [if_pos h69, if_pos (by omega)]; omega
        · rw [if_neg h69, if_neg (by omega)]; omega
      rw [e3]
    | plus hn =>
      rename_i n
      rw [(atoi_short_iff _ hl (n : Int)).2 (.inr (.inl ⟨n, hn, rfl, rfl⟩)), Option.bind_some]
      congr 4
      rw [if_neg (by omega)]; omega
    | minus hn =>
      rename_i n
      rw [(atoi_short_iff _ hl (-(n : Int))).2 (.inr (.inr ⟨n, hn, rfl, rfl⟩)), Option.bind_some]
      congr 4
      rw [if_neg (by omega)]; omega

/-- The time of a date and a time of day. -/
def timeAt (local_ : Str → Int → Option Int) (date : Civil) (h m s ns : Nat) (zone : Str) : Int :=
  let sec : Int := dayNumber date * 86400 + h * 3600 + m * 60 + s
  (sec - zoneShift local_ zone sec) * 1000000000 + ns

theorem parse_http_iff (local_ : Str → Int → Option Int) (v : Str) (t : Int) :
    timeParse local_ layoutHTTP v = some t ↔
      ∃ (w d mo y h m s ns : Nat) (wd mn cl b1 b2 b3 b4 b5 : Str), w < 7 ∧ SameName wd (dayName w) ∧ SameName mn (monthName mo) ∧
        Blanks b1 ∧ Blanks b2 ∧ Blanks b3 ∧ Blanks b4 ∧ Blanks b5 ∧ y < 10000 ∧ GoodDate ⟨y, mo, d⟩ ∧ ClockText cl h m s ns ∧
        v = wd ++ b!"," ++ b1 ++ two d ++ b2 ++ mn ++ b3 ++ four y ++ b4 ++ cl ++ b5 ++ b!"GMT" ∧
        t = timeAt local_ ⟨y, mo, d⟩ h m s ns b!"UTC" := by
  unfold timeParse layoutHTTP
  dsimp only
  constructor
  · intro h0
    obtain ⟨F, h1, h2⟩ := Option.bind_eq_some_iff.1 h0
    obtain ⟨r1, g1, a, h3⟩ := (none_step ..).1 h1
    obtain ⟨rfl, w, wd, hw, rfl, hwd⟩ := (std_weekDay ..).1 a
    obtain ⟨b1, u2, r2, g2, hb1, rfl, a, h4⟩ := comma_fwd h3 rfl
    obtain ⟨d, hd, rfl, rfl⟩ := (std_zeroDay ..).1 a
    obtain ⟨b2, u3, r3, g3, hb2, rfl, a, h5⟩ := blank_fwd h4 rfl
    obtain ⟨mo, mn, m1, m2, rfl, rfl, hmn⟩ := (std_month ..).1 a
    obtain ⟨b3, u4, r4, g4, hb3, rfl, a, h6⟩ := blank_fwd h5 rfl
    obtain ⟨y, hy, rfl, rfl⟩ := (std_longYear ..).1 a
    obtain ⟨b4, cl, r5, hh, m, s, ns, hb4, hcl, rfl, h7⟩ := clock_fwd rfl h6
    obtain ⟨h8, rfl⟩ := (read_end ..).1 h7
    obtain ⟨b5, u6, hb5, rfl, -, h9⟩ := (skip_blank_iff _ _ _ (by simp [skipText])).1 h8
    obtain ⟨_, rfl, h10⟩ := (skip_char_iff 71 (by decide) _ _ _).1 h9
    obtain ⟨_, rfl, h11⟩ := (skip_char_iff 77 (by decide) _ _ _).1 h10
    obtain ⟨_, rfl, h12⟩ := (skip_char_iff 84 (by decide) _ _ _).1 h11
    rw [skip_nil] at h12; cases h12
    obtain ⟨hg, rfl⟩ := (finish_iff local_ y mo d hh m s ns [] m1 m2 (by decide) t).1 h2
    exact ⟨w, d, mo, y, hh, m, s, ns, wd, mn, cl, b1, b2, b3, b4, b5, hw, hwd, hmn, hb1, hb2, hb3, hb4, hb5, hy, hg, hcl, by simp, rfl⟩
  · rintro ⟨w, d, mo, y, hh, m, s, ns, wd, mn, cl, b1, b2, b3, b4, b5, hw, hwd, hmn, hb1, hb2, hb3, hb4, hb5, hy, hg, hcl, rfl, rfl⟩
    have e : wd ++ b!"," ++ b1 ++ two d ++ b2 ++ mn ++ b3 ++ four y ++ b4 ++ cl ++ b5 ++ b!"GMT" =
      wd ++ (44 :: (b1 ++ (two d ++ (b2 ++ (mn ++ (b3 ++ (four y ++ (b4 ++ cl ++ (b5 ++ b!"GMT"))))))))) := by simp
    rw [e]
    have key : readChunks layoutHTTP.chunks b!" GMT" (wd ++ (44 :: (b1 ++ (two d ++ (b2 ++ (mn ++ (b3 ++ (four y ++ (b4 ++ cl ++ (b5 ++ b!"GMT")))))))))) {} =
        some ⟨y, mo, d, hh, m, s, ns, []⟩ := by
      refine (none_step ..).2 ⟨_, {}, (std_weekDay ..).2 ⟨rfl, w, wd, hw, rfl, hwd⟩, ?_⟩
      refine comma_bwd hb1 ⟨two_head _ _, by simp [two]⟩ ((std_zeroDay ..).2 ⟨d, goodDate_day_lt hg, rfl, rfl⟩) ?_
      refine blank_bwd hb2 (name_head hmn (month_good mo).1 (month_good mo).2 _) ((std_month ..).2 ⟨mo, mn, hg.1, hg.2.1, rfl, rfl, hmn⟩) ?_
      refine blank_bwd hb3 ⟨digit_head _ _, by simp [four]⟩ ((std_longYear ..).2 ⟨y, hy, rfl, rfl⟩) ?_
      have hr : (b5 ++ b!"GMT").head? = some 32 := by obtain ⟨k, rfl⟩ := hb5; rfl
      refine clock_bwd rfl hb4 hcl hr ((read_end ..).2 ⟨?_, rfl⟩)
      exact (skip_blank_iff _ _ _ (by simp [skipText])).2 ⟨b5, b!"GMT", hb5, rfl, by decide, by decide⟩
    have key' := key
    unfold layoutHTTP at key'
    dsimp only at key'
    rw [key', Option.bind_some]
    exact (finish_iff local_ y mo d hh m s ns [] hg.1 hg.2.1 (by decide) _).2 ⟨hg, rfl⟩

theorem parse_ansic_iff (local_ : Str → Int → Option Int) (v : Str) (t : Int) :
    timeParse local_ layoutANSIC v = some t ↔
      ∃ (w d mo y h m s ns : Nat) (wd mn ds cl b1 b2 b3 b4 : Str), w < 7 ∧ SameName wd (dayName w) ∧ SameName mn (monthName mo) ∧
        Blanks b1 ∧ Blanks b2 ∧ Blanks b3 ∧ Blanks b4 ∧ y < 10000 ∧ OneTwo ds d ∧ GoodDate ⟨y, mo, d⟩ ∧ ClockText cl h m s ns ∧
        v = wd ++ b1 ++ mn ++ b2 ++ ds ++ b3 ++ cl ++ b4 ++ four y ∧ t = timeAt local_ ⟨y, mo, d⟩ h m s ns b!"UTC" := by
  unfold timeParse layoutANSIC
  dsimp only
  constructor
  · intro h0
    obtain ⟨F, h1, h2⟩ := Option.bind_eq_some_iff.1 h0
    obtain ⟨r1, g1, a, h3⟩ := (none_step ..).1 h1
    obtain ⟨rfl, w, wd, hw, rfl, hwd⟩ := (std_weekDay ..).1 a
    obtain ⟨b1, u2, r2, g2, hb1, rfl, a, h4⟩ := blank_fwd h3 rfl
    obtain ⟨mo, mn, m1, m2, rfl, rfl, hmn⟩ := (std_month ..).1 a
    obtain ⟨u3, r3, g3, a1, a2, h5⟩ := (read_step ..).1 h4
    rw [readStd] at a2
    obtain ⟨⟨d, x⟩, a3, a4⟩ := Option.bind_eq_some_iff.1 a2
    cases a4
    have hu3 : u3 ≠ [] := by rintro rfl; simp [getNum] at a3
    obtain ⟨b2, hb2, rfl, hhd⟩ := (skip_last_blank _ _ hu3).1 a1
    rw [if_neg hhd] at a3
    have : ∃ ds, OneTwo ds d ∧ u3 = ds ++ x := by
      rcases (getNum_free_iff _ _ _).1 a3 with ⟨h1, h2⟩ | ⟨h1, h2, -⟩
      · exact ⟨_, .inl ⟨h1, rfl⟩, h2⟩
      · exact ⟨_, .inr ⟨h1, rfl⟩, h2⟩
    obtain ⟨ds, hds, rfl⟩ := this
    obtain ⟨b3, cl, r5, hh, m, s, ns, hb3, hcl, rfl, h7⟩ := clock_fwd rfl h5
    obtain ⟨b4, u6, r6, g6, hb4, rfl, a, h8⟩ := blank_fwd h7 rfl
    obtain ⟨y, hy, rfl, rfl⟩ := (std_longYear ..).1 a
    obtain ⟨h9, rfl⟩ := (read_end ..).1 h8
    rw [skip_nil] at h9; cases h9
    obtain ⟨hg, rfl⟩ := (finish_iff local_ y mo d hh m s ns [] m1 m2 (by decide) t).1 h2
    exact ⟨w, d, mo, y, hh, m, s, ns, wd, mn, ds, cl, b1, b2, b3, b4, hw, hwd, hmn, hb1, hb2, hb3, hb4, hy, hds, hg, hcl, by simp, rfl⟩
  · rintro ⟨w, d, mo, y, hh, m, s, ns, wd, mn, ds, cl, b1, b2, b3, b4, hw, hwd, hmn, hb1, hb2, hb3, hb4, hy, hds, hg, hcl, rfl, rfl⟩
    have e : wd ++ b1 ++ mn ++ b2 ++ ds ++ b3 ++ cl ++ b4 ++ four y =
      wd ++ (b1 ++ (mn ++ (b2 ++ (ds ++ (b3 ++ cl ++ (b4 ++ (four y ++ []))))))) := by simp
    rw [e]
    have key : readChunks layoutANSIC.chunks [] (wd ++ (b1 ++ (mn ++ (b2 ++ (ds ++ (b3 ++ cl ++ (b4 ++ (four y ++ [])))))))) {} =
        some ⟨y, mo, d, hh, m, s, ns, []⟩ := by
      refine (none_step ..).2 ⟨_, {}, (std_weekDay ..).2 ⟨rfl, w, wd, hw, rfl, hwd⟩, ?_⟩
      refine blank_bwd hb1 (name_head hmn (month_good mo).1 (month_good mo).2 _) ((std_month ..).2 ⟨mo, mn, hg.1, hg.2.1, rfl, rfl, hmn⟩) ?_
      have hh3 : (b3 ++ cl ++ (b4 ++ (four y ++ []))).head? = some 32 := by obtain ⟨k, rfl⟩ := hb3; rfl
      have hds0 := oneTwo_head hds (b3 ++ cl ++ (b4 ++ (four y ++ [])))
      refine blank_bwd (r := b3 ++ cl ++ (b4 ++ (four y ++ []))) (g := { month := mo, day := d }) hb2 hds0 ?_ ?_
      · rw [readStd, if_neg hds0.1]
        have : getNum (ds ++ (b3 ++ cl ++ (b4 ++ (four y ++ [])))) false = some (d, b3 ++ cl ++ (b4 ++ (four y ++ []))) := by
          rw [getNum_free_iff]
          rcases hds with ⟨o1, rfl⟩ | ⟨o1, rfl⟩
          · exact .inl ⟨o1, rfl⟩
          · refine .inr ⟨o1, rfl, ?_⟩
            obtain ⟨k, rfl⟩ := hb3; rfl
        rw [this]; rfl
      have hr : (b4 ++ (four y ++ [])).head? = some 32 := by obtain ⟨k, rfl⟩ := hb4; rfl
      refine clock_bwd rfl hb3 hcl hr ?_
      exact blank_bwd hb4 ⟨digit_head _ _, by simp [four]⟩ ((std_longYear ..).2 ⟨y, hy, rfl, rfl⟩) ((read_end ..).2 ⟨skip_nil _, rfl⟩)
    have key' := key
    unfold layoutANSIC at key'
    dsimp only at key'
    rw [key', Option.bind_some]
    exact (finish_iff local_ y mo d hh m s ns [] hg.1 hg.2.1 (by decide) _).2 ⟨hg, rfl⟩

theorem std_tz (u : Str) (f F : DateFields) (hf : f.zone = []) :
    (∃ r g, readStd .tz u f = some (r, g) ∧ readChunks [] [] r g = some F) ↔
      ZoneText u ∧ F = { f with zone := if u = b!"UTC" then [] else u } := by
  have fz : { f with zone := [] } = f := by rw [← hf]
  rw [← zone_iff]
  constructor
  · rintro ⟨r, g, h1, h2⟩
    obtain ⟨h3, rfl⟩ := (read_end ..).1 h2
    rw [skip_nil] at h3; cases h3
    rw [readStd] at h1
    split at h1
    · rename_i hu
      rw [Option.some.injEq, Prod.mk.injEq] at h1
      obtain ⟨e1, rfl⟩ := h1
      have e : u = b!"UTC" := by rw [← List.take_append_drop 3 u, hu, e1]; rfl
      refine ⟨.inl e, ?_⟩
      rw [if_pos e, fz]
    · rename_i hu
      obtain ⟨n, h4, h5⟩ := Option.bind_eq_some_iff.1 h1
      rw [Option.some.injEq, Prod.mk.injEq] at h5
      obtain ⟨e1, rfl⟩ := h5
      have hl := List.drop_eq_nil_iff.1 e1
      refine ⟨.inr ⟨hu, n, h4, hl⟩, ?_⟩
      rw [if_neg (by rintro rfl; exact hu rfl), List.take_of_length_le hl]
  · rintro ⟨h | ⟨hu, n, h4, hl⟩, rfl⟩
    · subst h
      refine ⟨[], f, by rw [readStd]; rfl, ?_⟩
      rw [if_pos rfl, fz]; rfl
    · refine ⟨[], { f with zone := u }, ?_, ?_⟩
      · rw [readStd, if_neg hu, h4, Option.bind_some, List.drop_eq_nil_iff.2 hl, List.take_of_length_le hl]
      · rw [if_neg (by rintro rfl; exact hu rfl)]; rfl

theorem parse_850_iff (local_ : Str → Int → Option Int) (v : Str) (t : Int) :
    timeParse local_ layout850 v = some t ↔
      ∃ (w d mo h m s ns : Nat) (y : Int) (wd mn yr cl z b1 b2 b3 : Str), w < 7 ∧ SameName wd (fullDayName w) ∧ SameName mn (monthName mo) ∧
        Blanks b1 ∧ Blanks b2 ∧ Blanks b3 ∧ ShortYear yr y ∧ GoodDate ⟨y, mo, d⟩ ∧ ClockText cl h m s ns ∧ ZoneText z ∧
        v = wd ++ b!"," ++ b1 ++ two d ++ b!"-" ++ mn ++ b!"-" ++ yr ++ b2 ++ cl ++ b3 ++ z ∧ t = timeAt local_ ⟨y, mo, d⟩ h m s ns z := by
  have zfix : ∀ z : Str, ZoneText z → (if (if z = b!"UTC" then [] else z) = [] then b!"UTC" else (if z = b!"UTC" then [] else z)) = z := by
    intro z hz
    have hne : z ≠ [] := by
      rintro rfl
      have := (zone_iff []).2 hz
      revert this
      rintro (h | ⟨-, n, h, -⟩)
      · cases h
      · cases h
    by_cases hu : z = b!"UTC"
    · rw [if_pos hu, if_pos rfl, hu]
    · rw [if_neg hu, if_neg hne]
  have znu : ∀ z : Str, (if z = b!"UTC" then [] else z) ≠ b!"UTC" := by
    intro z
    split
    · decide
    · assumption
  unfold timeParse layout850
  dsimp only
  constructor
  · intro h0
    obtain ⟨F, h1, h2⟩ := Option.bind_eq_some_iff.1 h0
    obtain ⟨r1, g1, a, h3⟩ := (none_step ..).1 h1
    obtain ⟨rfl, w, wd, hw, rfl, hwd⟩ := (std_longWeekDay ..).1 a
    obtain ⟨b1, u2, r2, g2, hb1, rfl, a, h4⟩ := comma_fwd h3 rfl
    obtain ⟨d, hd, rfl, rfl⟩ := (std_zeroDay ..).1 a
    obtain ⟨u3, r3, g3, rfl, a, h5⟩ := (char_step 45 (by decide) ..).1 h4
    obtain ⟨mo, mn, m1, m2, rfl, rfl, hmn⟩ := (std_month ..).1 a
    obtain ⟨u4, r4, g4, rfl, a, h6⟩ := (char_step 45 (by decide) ..).1 h5
    obtain ⟨yr, y, hy, rfl, rfl⟩ := (std_year ..).1 a
    obtain ⟨b2, cl, r5, hh, m, s, ns, hb2, hcl, rfl, h7⟩ := clock_fwd rfl h6
    obtain ⟨b3, z, r6, g6, hb3, rfl, a, h8⟩ := blank_fwd h7 rfl
    obtain ⟨hz, rfl⟩ := (std_tz z _ F rfl).1 ⟨r6, g6, a, h8⟩
    obtain ⟨hg, e⟩ := (finish_iff local_ y mo d hh m s ns _ m1 m2 (znu z) t).1 h2
    rw [zfix z hz] at e
    exact ⟨w, d, mo, hh, m, s, ns, y, wd, mn, yr, cl, z, b1, b2, b3, hw, hwd, hmn, hb1, hb2, hb3, hy, hg, hcl, hz, by simp, e⟩
  · rintro ⟨w, d, mo, hh, m, s, ns, y, wd, mn, yr, cl, z, b1, b2, b3, hw, hwd, hmn, hb1, hb2, hb3, hy, hg, hcl, hz, rfl, rfl⟩
    have e : wd ++ b!"," ++ b1 ++ two d ++ b!"-" ++ mn ++ b!"-" ++ yr ++ b2 ++ cl ++ b3 ++ z =
      wd ++ (44 :: (b1 ++ (two d ++ (45 :: (mn ++ (45 :: (yr ++ (b2 ++ cl ++ (b3 ++ z))))))))) := by simp
    rw [e]
    have hzh : z.head? ≠ some 32 ∧ z ≠ [] := by
      have cap : ∀ s : Str, s.length ≠ 0 → (∀ c ∈ s, Capital c) → s.head? ≠ some 32 ∧ s ≠ [] := by
        intro s hl hc
        cases s with
        | nil => exact absurd rfl hl
        | cons a s =>
          refine ⟨?_, by simp⟩
          rintro e
          cases e
          exact absurd (hc 32 (by simp)) (by unfold Capital; decide)
      cases hz with
      | three hl hc => exact cap z (by omega) hc
      | four hl hc _ _ => exact cap z (by omega) hc
      | five hl hc _ _ => exact cap z (by omega) hc
      | mixed h => rcases h with rfl | rfl <;> decide
      | gmt h => simp
      | offset h _ =>
        obtain ⟨c, d, rfl, hc, -⟩ := h
        refine ⟨?_, by simp⟩
        rintro e
        cases e
        revert hc; decide
    have key : readChunks layout850.chunks [] (wd ++ (44 :: (b1 ++ (two d ++ (45 :: (mn ++ (45 :: (yr ++ (b2 ++ cl ++ (b3 ++ z)))))))))) {} =
        some ⟨y, mo, d, hh, m, s, ns, if z = b!"UTC" then [] else z⟩ := by
      refine (none_step ..).2 ⟨_, {}, (std_longWeekDay ..).2 ⟨rfl, w, wd, hw, rfl, hwd⟩, ?_⟩
      refine comma_bwd hb1 ⟨two_head _ _, by simp [two]⟩ ((std_zeroDay ..).2 ⟨d, goodDate_day_lt hg, rfl, rfl⟩) ?_
      refine (char_step 45 (by decide) ..).2 ⟨_, _, _, rfl, (std_month ..).2 ⟨mo, mn, hg.1, hg.2.1, rfl, rfl, hmn⟩, ?_⟩
      refine (char_step 45 (by decide) ..).2 ⟨_, _, _, rfl, (std_year ..).2 ⟨yr, y, hy, rfl, rfl⟩, ?_⟩
      have hr : (b3 ++ z).head? = some 32 := by obtain ⟨k, rfl⟩ := hb3; rfl
      refine clock_bwd rfl hb2 hcl hr ?_
      obtain ⟨r, g, z1, z2⟩ := (std_tz z ⟨y, mo, d, hh, m, s, ns, []⟩ ⟨y, mo, d, hh, m, s, ns, if z = b!"UTC" then [] else z⟩ rfl).2 ⟨hz, rfl⟩
      exact blank_bwd hb3 hzh z1 z2
    have key' := key
    unfold layout850 at key'
    dsimp only at key'
    rw [key', Option.bind_some]
    refine (finish_iff local_ y mo d hh m s ns _ hg.1 hg.2.1 (znu z) _).2 ⟨hg, ?_⟩
    rw [zfix z hz]
    rfl

/-! ### At most one form -/

theorem name_at {s n : Str} (h : SameName s n) : s.length = n.length ∧ ∀ (i : Nat) (a b : UInt8), s[i]? = some a → n[i]? = some b → SameLetter a b := by
  induction h with
  | nil => exact ⟨rfl, fun i a b h => by simp at h⟩
  | @cons x y s t hl _ ih =>
    refine ⟨by simp [ih.1], fun i a b h1 h2 => ?_⟩
    cases i with
    | zero => simp only [List.getElem?_cons_zero, Option.some.injEq] at h1 h2; subst h1; subst h2; exact hl
    | succ i => exact ih.2 i a b (by simpa using h1) (by simpa using h2)

theorem short_then (w : Nat) {wd : Str} (h : SameName wd (dayName w)) (c : UInt8) (r : Str) : (wd ++ c :: r)[3]? = some c := by
  have hl : wd.length = 3 := by rw [(name_at h).1]; exact (day_good w).2.2
  rw [List.getElem?_append_right (by omega), hl]; rfl

theorem full_then (w : Nat) {wd : Str} (h : SameName wd (fullDayName w)) (r : Str) :
    (wd ++ r)[3]? ≠ some 44 ∧ (wd ++ r)[3]? ≠ some 32 := by
  obtain ⟨hl, ha⟩ := name_at h
  have key : ∃ b, (fullDayName w)[3]? = some b ∧ ¬ SameLetter 44 b ∧ ¬ SameLetter 32 b := by
    unfold fullDayName SameLetter
    split <;> exact ⟨_, rfl, by decide, by decide⟩
  obtain ⟨b, hb, n1, n2⟩ := key
  have h3 : 3 < wd.length := by
    rw [hl]; exact (List.getElem?_eq_some_iff.1 hb).1
  rw [List.getElem?_append_left h3]
  exact ⟨fun e => n1 (ha 3 _ _ e hb), fun e => n2 (ha 3 _ _ e hb)⟩

theorem http_at {local_ : Str → Int → Option Int} {v : Str} {t : Int} (h : timeParse local_ layoutHTTP v = some t) : v[3]? = some 44 := by
  obtain ⟨w, d, mo, y, hh, m, s, ns, wd, mn, cl, b1, b2, b3, b4, b5, hw, hwd, -, -, -, -, -, -, -, -, -, rfl, -⟩ := (parse_http_iff ..).1 h
  simp only [List.append_assoc]
  exact short_then w hwd 44 _

theorem ansic_at {local_ : Str → Int → Option Int} {v : Str} {t : Int} (h : timeParse local_ layoutANSIC v = some t) : v[3]? = some 32 := by
  obtain ⟨w, d, mo, y, hh, m, s, ns, wd, mn, ds, cl, b1, b2, b3, b4, hw, hwd, -, ⟨k, rfl⟩, -, -, -, -, -, -, -, rfl, -⟩ := (parse_ansic_iff ..).1 h
  simp only [List.append_assoc]
  exact short_then w hwd 32 _

theorem rfc850_at {local_ : Str → Int → Option Int} {v : Str} {t : Int} (h : timeParse local_ layout850 v = some t) :
    v[3]? ≠ some 44 ∧ v[3]? ≠ some 32 := by
  obtain ⟨w, d, mo, hh, m, s, ns, y, wd, mn, yr, cl, z, b1, b2, b3, hw, hwd, -, -, -, -, -, -, -, -, rfl, -⟩ := (parse_850_iff ..).1 h
  simp only [List.append_assoc]
  exact full_then w hwd _

theorem parse_one (local_ : Str → Int → Option Int) (v : Str) (t : Int) :
    parseTime local_ v = some t ↔
      timeParse local_ layoutHTTP v = some t ∨ timeParse local_ layout850 v = some t ∨ timeParse local_ layoutANSIC v = some t := by
  unfold parseTime
  cases h1 : timeParse local_ layoutHTTP v with
  | some x =>
    have a := http_at h1
    have n2 : timeParse local_ layout850 v = none := by
      cases h2 : timeParse local_ layout850 v with
      | none => rfl
      | some y => exact absurd a (rfc850_at h2).1
    have n3 : timeParse local_ layoutANSIC v = none := by
      cases h2 : timeParse local_ layoutANSIC v with
      | none => rfl
      | some y => have := ansic_at h2; rw [a] at this; cases this
    simp [n2, n3]
  | none =>
    cases h2 : timeParse local_ layout850 v with
    | some x =>
      have n3 : timeParse local_ layoutANSIC v = none := by
        cases h3 : timeParse local_ layoutANSIC v with
        | none => rfl
        | some y => exact absurd (ansic_at h3) (rfc850_at h2).2
      simp [n3]
    | none => simp

theorem dateText_iff (local_ : Str → Int → Option Int) (v : Str) (t : Int) :
    parseTime local_ v = some t ↔ ∃ c h m s ns zone, DateText v c h m s ns zone ∧ t = timeAt local_ c h m s ns zone := by
  rw [parse_one, parse_http_iff, parse_850_iff, parse_ansic_iff]
  constructor
  · rintro (⟨w, d, mo, y, hh, m, s, ns, wd, mn, cl, b1, b2, b3, b4, b5, hw, hwd, hmn, hb1, hb2, hb3, hb4, hb5, hy, hg, hcl, rfl, e⟩ |
      ⟨w, d, mo, hh, m, s, ns, y, wd, mn, yr, cl, z, b1, b2, b3, hw, hwd, hmn, hb1, hb2, hb3, hy, hg, hcl, hz, rfl, e⟩ |
      ⟨w, d, mo, y, hh, m, s, ns, wd, mn, ds, cl, b1, b2, b3, b4, hw, hwd, hmn, hb1, hb2, hb3, hb4, hy, hds, hg, hcl, rfl, e⟩)
    · exact ⟨_, _, _, _, _, _, .imf hw hwd hmn hb1 hb2 hb3 hb4 hb5 hy hg hcl, e⟩
    · exact ⟨_, _, _, _, _, _, .rfc850 hw hwd hmn hb1 hb2 hb3 hy hg hcl hz, e⟩
    · exact ⟨_, _, _, _, _, _, .asctime hw hwd hmn hb1 hb2 hb3 hb4 hy hds hg hcl, e⟩
  · rintro ⟨c, h, m, s, ns, zone, hd, e⟩
    cases hd with
    | imf hw hwd hmn hb1 hb2 hb3 hb4 hb5 hy hg hcl =>
      exact .inl ⟨_, _, _, _, _, _, _, _, _, _, _, _, _, _, _, _, hw, hwd, hmn, hb1, hb2, hb3, hb4, hb5, hy, hg, hcl, rfl, e⟩
    | rfc850 hw hwd hmn hb1 hb2 hb3 hy hg hcl hz =>
      exact .inr (.inl ⟨_, _, _, _, _, _, _, _, _, _, _, _, _, _, _, _, hw, hwd, hmn, hb1, hb2, hb3, hy, hg, hcl, hz, rfl, e⟩)
    | asctime hw hwd hmn hb1 hb2 hb3 hb4 hy hds hg hcl =>
      exact .inr (.inr ⟨_, _, _, _, _, _, _, _, _, _, _, _, _, _, _, _, hw, hwd, hmn, hb1, hb2, hb3, hb4, hy, hds, hg, hcl, rfl, e⟩)

theorem dateText_good {v : Str} {c : Civil} {h m s ns : Nat} {zone : Str} (hd : DateText v c h m s ns zone) : GoodDate c := by
  cases hd <;> assumption

/-- **C114** (which texts).  A text of a conditional header is understood exactly when it is a date in one of the three forms, and then
as the time of that date: day `n` of the calendar, its hour, minute, second and nanosecond, less what the server's own time zone makes
of the name of the zone ("UTC" and names it does not know make nothing). -/
theorem C114_texts (local_ : Str → Int → Option Int) (f : Int → Civil) (hf : Calendar f) (text : Str) (t : Int) :
    (goTime local_).parse text = some t ↔
      ∃ (n : Int) (h m s ns : Nat) (zone : Str), DateText text (f n) h m s ns zone ∧
        t = (n * 86400 + h * 3600 + m * 60 + s - zoneShift local_ zone (n * 86400 + h * 3600 + m * 60 + s)) * 10 ^ 9 + ns := by
  rw [show f = civilOf from funext (calendar_unique hf civilOf_calendar)]
  show parseTime local_ text = some t ↔ _
  rw [dateText_iff]
  have e9 : (10 : Int) ^ 9 = 1000000000 := by decide
  constructor
  · rintro ⟨c, h, m, s, ns, zone, hd, e⟩
    have hc : civilOf (dayNumber c) = c := dayNumber_inj (civilOf_good _).1 (dateText_good hd) (civilOf_good _).2
    refine ⟨dayNumber c, h, m, s, ns, zone, by rw [hc]; exact hd, ?_⟩
    rw [e9]; exact e
  · rintro ⟨n, h, m, s, ns, zone, hd, e⟩
    refine ⟨_, h, m, s, ns, zone, hd, ?_⟩
    unfold timeAt
    rw [(civilOf_good n).2]
    rw [e9] at e; exact e

/-- Not vacuous: a name in small letters and of the wrong day, two blanks, an hour in one digit, a fraction; and a zone. -/
example : DateText b!"mon, 06  nOv 1994 8:49:37.25 GMT" ⟨1994, 11, 6⟩ 8 49 37 250000000 b!"UTC" := by
  have nm : ∀ (a b c x y z : UInt8), SameLetter a x → SameLetter b y → SameLetter c z → SameName [a, b, c] [x, y, z] :=
    fun a b c x y z h1 h2 h3 => .cons h1 (.cons h2 (.cons h3 .nil))
  have hf : Fraction b!".25" 250000000 := Fraction.digits (c := 46) (d := b!"25") (.inl rfl) (by unfold Digits; decide)
  have hc := ClockText.mk (h := 8) (m := 49) (s := 37) (hs := b!"8") (.inr ⟨by decide, by decide⟩) (by decide) (by decide) (by decide) hf
  have := DateText.imf (w := 1) (wd := b!"mon") (mn := b!"nOv") (d := 6) (mo := 11) (y := 1994) (b1 := b!" ") (b2 := b!"  ") (b3 := b!" ")
    (b4 := b!" ") (b5 := b!" ") (by decide) (nm _ _ _ _ _ _ (by unfold SameLetter; decide) (by unfold SameLetter; decide) (by unfold SameLetter; decide))
    (nm _ _ _ _ _ _ (by unfold SameLetter; decide) (by unfold SameLetter; decide) (by unfold SameLetter; decide))
    ⟨0, rfl⟩ ⟨1, rfl⟩ ⟨0, rfl⟩ ⟨0, rfl⟩ ⟨0, rfl⟩ (by decide) (by unfold GoodDate; decide) hc
  exact this

example : parseTime (fun _ _ => none) b!"mon, 06  nOv 1994 8:49:37.25 GMT" = some 784111777250000000 := by decide +kernel
example : parseTime (fun _ _ => none) b!"SUNDAY, 06-nov-94 08:49:37 GMT+3" = some 784111777000000000 := by decide +kernel
example : parseTime (fun z _ => if z = b!"EST" then some (-18000) else none) b!"Sunday, 06-Nov-94 03:49:37 EST" = some 784111777000000000 := by
  decide +kernel
example : parseTime (fun _ _ => none) b!"Sun, 31 Nov 1994 08:49:37 GMT" = none := by decide +kernel
example : parseTime (fun _ _ => none) b!"Sun, 06 Nov 1994 08:49:60 GMT" = none := by decide +kernel

end Verif
