import Verif.Lemmas.Dates
import Verif.Props.Seek
/-
C114: the dates in headers.
-/
namespace Verif
open Spec

/-! ### Reading the pieces -/

theorem digitByte_nat (n : Nat) : (digitByte n).toNat = 48 + n % 10 := by
  unfold digitByte
  rw [UInt8.toNat_ofNat']
  omega

theorem digitByte_range (n : Nat) : 48 ≤ digitByte n ∧ digitByte n ≤ 57 := by
  constructor
  · rw [UInt8.le_iff_toNat_le, digitByte_nat]; show 48 ≤ _; omega
  · rw [UInt8.le_iff_toNat_le, digitByte_nat]; show _ ≤ 57; omega

theorem digitByte_ne (n : Nat) (c : UInt8) (h : c < 48) : digitByte n ≠ c := by
  intro e
  have := (digitByte_range n).1
  rw [e, UInt8.le_iff_toNat_le] at this
  rw [UInt8.lt_iff_toNat_lt] at h
  omega

theorem getNum_two (n : Nat) (hn : n < 100) (b : Bool) (r : Str) : getNum (digitByte (n / 10) :: digitByte n :: r) b = some (n, r) := by
  have h1 := digitByte_range (n / 10)
  have h2 := digitByte_range n
  have e1 := digitByte_nat (n / 10)
  have e2 := digitByte_nat n
  unfold getNum digitAt
  simp only [List.getElem?_cons_zero, List.getElem?_cons_succ, h1.1, h1.2, h2.1, h2.2, decide_true, Bool.and_true,
    Bool.true_eq_false, if_false, e1, e2, Option.some.injEq, Prod.mk.injEq, and_true]
  omega

theorem getNum_one (n : Nat) (hn : n < 10) (r : Str) : getNum (digitByte n :: 32 :: r) false = some (n, 32 :: r) := by
  have h2 := digitByte_range n
  have e2 := digitByte_nat n
  unfold getNum digitAt
  simp only [List.getElem?_cons_zero, List.getElem?_cons_succ, h2.1, h2.2, decide_true, Bool.and_true,
    Bool.true_eq_false, if_false, e2, Bool.false_eq_true]
  rw [if_pos (by decide)]
  simp only [Option.some.injEq, Prod.mk.injEq, and_true]
  omega

theorem leadingInt_digit (acc k : Nat) (t : Str) : leadingInt acc (digitByte k :: t) = leadingInt (acc * 10 + k % 10) t := by
  rw [leadingInt, if_pos (digitByte_range k), digitByte_nat]
  congr 1
  omega

theorem atoi_digit (k : Nat) (t : Str) (h : (leadingInt (k % 10) t).2 = []) :
    atoiText (digitByte k :: t) = some ((leadingInt (k % 10) t).1 : Int) := by
  unfold atoiText
  have n1 := digitByte_ne k 45 (by decide)
  have n2 := digitByte_ne k 43 (by decide)
  have e : (digitByte k == 45) = false := beq_eq_false_iff_ne.2 n1
  simp only [n1, n2, or_self, if_false, e, leadingInt_digit, Nat.zero_mul, Nat.zero_add, h, ne_eq, not_true_eq_false, Bool.false_eq_true]

theorem atoi_two (n : Nat) (hn : n < 100) : atoiText (two n) = some (n : Int) := by
  unfold two
  rw [atoi_digit _ _ (by rw [leadingInt_digit]; rfl), leadingInt_digit]
  simp only [leadingInt, Option.some.injEq]
  omega

theorem atoi_four (n : Nat) (hn : n < 10000) : atoiText (four n) = some (n : Int) := by
  unfold four
  rw [atoi_digit _ _ (by rw [leadingInt_digit, leadingInt_digit, leadingInt_digit]; rfl), leadingInt_digit, leadingInt_digit, leadingInt_digit]
  simp only [leadingInt, Option.some.injEq]
  omega

/-- Two texts differ, even without regard to case, at a place both have. -/
def clash : Str → Str → Bool
  | a :: s, b :: t => !(a == b || (a ||| 32 == b ||| 32 && 97 ≤ (a ||| 32) && (a ||| 32) ≤ 122)) || clash s t
  | _, _ => false

theorem foldMatch_clash : ∀ (p v r : Str), clash p v = true → foldMatch ((p ++ r).take v.length) v = false
  | [], v, r, h => by simp [clash] at h
  | a :: s, [], r, h => by simp [clash] at h
  | a :: s, b :: t, r, h => by
    simp only [clash, Bool.or_eq_true, Bool.not_eq_true'] at h
    simp only [List.cons_append, List.length_cons, List.take_succ_cons, foldMatch]
    rcases h with h | h
    · rw [h]; rfl
    · rw [foldMatch_clash s t r h, Bool.and_false]

theorem foldMatch_self (s : Str) : foldMatch s s = true := by
  induction s with
  | nil => rfl
  | cons a t ih => simp [foldMatch, ih]

/-- The position of a name in a table, if everything before differs from it. -/
def pick (i : Nat) : List Str → Str → Option Nat
  | [], _ => none
  | v :: t, p => if v = p then some i else if clash p v = true then pick (i + 1) t p else none

theorem lookup_pick : ∀ (tab : List Str) (i k : Nat) (p r : Str), pick i tab p = some k → lookupName i tab (p ++ r) = some (k, r)
  | [], i, k, p, r, h => by simp [pick] at h
  | v :: t, i, k, p, r, h => by
    unfold pick at h
    unfold lookupName
    by_cases hv : v = p
    · rw [if_pos hv, Option.some.injEq] at h
      subst hv
      subst h
      rw [if_pos ⟨by simp, by rw [List.take_left]; exact foldMatch_self v⟩, List.drop_left]
    · rw [if_neg hv] at h
      split at h
      · rename_i hc
        rw [if_neg (fun h => by rw [foldMatch_clash p v r hc] at h; exact absurd h.2 (by decide))]
        exact lookup_pick t (i + 1) k p r h
      · cases h

theorem lookup_none : ∀ (tab : List Str) (i : Nat) (p r : Str), (∀ v ∈ tab, clash p v = true) → lookupName i tab (p ++ r) = none
  | [], i, p, r, _ => rfl
  | v :: t, i, p, r, h => by
    unfold lookupName
    rw [if_neg (fun h' => by rw [foldMatch_clash p v r (h v (by simp))] at h'; exact absurd h'.2 (by decide))]
    exact lookup_none t (i + 1) p r fun x hx => h x (by simp [hx])

theorem lookup_day (w : Nat) (hw : w < 7) (r : Str) : lookupName 0 shortDayNames (dayName w ++ r) = some (w, r) := by
  have : ∀ w : Nat, w < 7 → pick 0 shortDayNames (dayName w) = some w := by decide +kernel
  exact lookup_pick _ _ _ _ _ (this w hw)

theorem lookup_full (w : Nat) (hw : w < 7) (r : Str) : lookupName 0 longDayNames (fullDayName w ++ r) = some (w, r) := by
  have : ∀ w : Nat, w < 7 → pick 0 longDayNames (fullDayName w) = some w := by decide +kernel
  exact lookup_pick _ _ _ _ _ (this w hw)

theorem lookup_month (m : Nat) (h1 : 1 ≤ m) (h2 : m ≤ 12) (r : Str) : lookupName 0 shortMonthNames (monthName m ++ r) = some (m - 1, r) := by
  have : ∀ m : Nat, m < 13 → 1 ≤ m → pick 0 shortMonthNames (monthName m) = some (m - 1) := by decide +kernel
  exact lookup_pick _ _ _ _ _ (this m (by omega) h1)

theorem skip_nil (v : Str) : skipText v [] = some v := by
  cases v <;> rfl

theorem skip_char (c : UInt8) (hc : c ≠ 32) (v p : Str) : skipText (c :: v) (c :: p) = skipText v p := by
  rw [skipText, if_neg hc]
  simp

theorem skip_space (v p : Str) (h : v.head? ≠ some 32) : skipText (32 :: v) (32 :: p) = skipText v p := by
  rw [skipText, if_pos rfl]
  have : cutSpace (32 :: v) = v := by
    unfold cutSpace
    rw [List.dropWhile_cons_of_pos (by decide)]
    cases v with
    | nil => rfl
    | cons a t =>
      rw [List.dropWhile_cons_of_neg]
      simpa using h
  simp [this]

theorem month_head (m : Nat) (r : Str) : (monthName m ++ r).head? ≠ some 32 := by
  unfold monthName
  split <;> simp

theorem digit_head (n : Nat) (r : Str) : (digitByte n :: r).head? ≠ some 32 := by
  simp only [List.head?_cons, ne_eq, Option.some.injEq]
  exact digitByte_ne n 32 (by decide)

/-! ### The three forms -/

/-- What a stamp of a real second says. -/
structure GoodStamp (x : Stamp) : Prop where
  date : GoodDate x.date
  weekday : x.weekday < 7
  hour : x.hour < 24
  minute : x.minute < 60
  second : x.second < 60

theorem goodDate_day_lt {c : Civil} (h : GoodDate c) : c.day < 100 := by
  obtain ⟨-, -, -, h⟩ := h
  unfold monthLength at h
  split at h
  · split at h <;> omega
  · split at h <;> omega

/-- The second a stamp stands for. -/
def Spec.Stamp.secondOf (x : Stamp) : Int := dayNumber x.date * 86400 + x.hour * 3600 + x.minute * 60 + x.second

theorem finish_good (local_ : Str → Int → Option Int) (x : Stamp) (hx : GoodStamp x) (zone : Str)
    (hz : zone = [] ∨ ∀ s, local_ zone s = none ∨ local_ zone s = some 0) :
    finishDate local_ ⟨x.date.year, x.date.month, x.date.day, x.hour, x.minute, x.second, 0, zone⟩ = some (x.secondOf * 1000000000) := by
  obtain ⟨h1, h2, h3, h4⟩ := hx.date
  unfold finishDate
  dsimp only
  have e1 : ¬ (x.date.month : Int) < 0 := by omega
  have e2 : ¬ (x.date.day : Int) < 0 := by omega
  rw [if_neg e1, if_neg e2]
  simp only [Int.toNat_natCast]
  rw [daysInMonth_eq h1 h2, if_neg (by omega)]
  have : (⟨x.date.year, x.date.month, x.date.day⟩ : Civil) = x.date := rfl
  rw [this]
  unfold Spec.Stamp.secondOf
  rcases hz with rfl | hz
  · simp
  · by_cases hzz : zone = []
    · subst hzz; simp
    · rw [if_neg hzz]
      rcases hz (dayNumber x.date * 86400 + x.hour * 3600 + x.minute * 60 + x.second) with e | e <;> rw [e] <;> simp

theorem read_clock (tl : List (Str × Std)) (tail : Str) (x : Stamp) (hx : GoodStamp x) (r : Str) (hr : r.head? = some 32) (f : DateFields) :
    readChunks ((b!" ", .hour) :: (b!":", .zeroMinute) :: (b!":", .zeroSecond) :: tl) tail
      (32 :: digitByte (x.hour / 10) :: digitByte x.hour :: 58 :: digitByte (x.minute / 10) :: digitByte x.minute :: 58 ::
        digitByte (x.second / 10) :: digitByte x.second :: r) f =
    readChunks tl tail r { f with hour := x.hour, min := x.minute, sec := x.second } := by
  have a1 := hx.hour
  have a2 := hx.minute
  have a3 := hx.second
  simp only [readChunks]
  rw [skip_space _ _ (digit_head _ _), skip_nil]
  simp only [Option.bind_some, readStd]
  rw [getNum_two _ (by omega)]
  simp only [Option.bind_some]
  rw [if_neg (by omega)]
  simp only [Option.bind_some]
  rw [skip_char 58 (by decide), skip_nil]
  simp only [Option.bind_some]
  rw [getNum_two _ (by omega)]
  simp only [Option.bind_some]
  rw [if_neg (by omega)]
  simp only [Option.bind_some]
  rw [skip_char 58 (by decide), skip_nil]
  simp only [Option.bind_some]
  rw [getNum_two _ (by omega)]
  simp only [Option.bind_some]
  rw [if_neg (by omega), if_neg (by rw [hr]; simp)]
  rfl

theorem parse_imf (local_ : Str → Int → Option Int) (x : Stamp) (hx : GoodStamp x) (h0 : 0 ≤ x.date.year) (h1 : x.date.year < 10000) :
    timeParse local_ layoutHTTP (imfDate x) = some (x.secondOf * 1000000000) := by
  obtain ⟨d1, d2, d3, d4⟩ := hx.date
  have hd := goodDate_day_lt hx.date
  have hy : ((x.date.year.toNat : Nat) : Int) = x.date.year := Int.toNat_of_nonneg h0
  have key : readChunks layoutHTTP.chunks layoutHTTP.tail (imfDate x) {} = some
      ⟨x.date.year, x.date.month, x.date.day, x.hour, x.minute, x.second, 0, []⟩ := by
    unfold imfDate layoutHTTP
    simp only [List.append_assoc]
    rw [readChunks]
    simp only [skip_nil, Option.bind_some, readStd]
    rw [lookup_day _ hx.weekday]
    simp only [Option.bind_some, two, List.cons_append, List.nil_append]
    rw [readChunks, skip_char 44 (by decide), skip_space _ _ (digit_head _ _), skip_nil]
    simp only [Option.bind_some, readStd]
    rw [getNum_two _ hd]
    simp only [Option.bind_some]
    rw [readChunks, skip_space _ _ (month_head _ _), skip_nil]
    simp only [Option.bind_some, readStd]
    rw [lookup_month _ d1 d2]
    simp only [Option.bind_some]
    rw [readChunks]
    have hf : four x.date.year.toNat = digitByte (x.date.year.toNat / 1000) :: digitByte (x.date.year.toNat / 100) ::
      digitByte (x.date.year.toNat / 10) :: digitByte x.date.year.toNat :: [] := rfl
    rw [hf]
    simp only [List.cons_append, List.nil_append]
    rw [skip_space _ _ (digit_head _ _), skip_nil]
    simp only [Option.bind_some, readStd]
    have hdig : digitAt (digitByte (x.date.year.toNat / 1000) :: digitByte (x.date.year.toNat / 100) ::
      digitByte (x.date.year.toNat / 10) :: digitByte x.date.year.toNat :: 32 :: digitByte (x.hour / 10) :: digitByte x.hour :: 58 ::
      digitByte (x.minute / 10) :: digitByte x.minute :: 58 ::
        digitByte (x.second / 10) :: digitByte x.second :: [32, 71, 77, 84]) 0 = true := by
      have := digitByte_range (x.date.year.toNat / 1000)
      simp [digitAt, this.1, this.2]
    rw [if_neg (by rw [hdig]; simp)]
    simp only [List.take_succ_cons, List.take_zero, List.drop_succ_cons, List.drop_zero]
    rw [← hf, atoi_four _ (by omega)]
    simp only [Option.bind_some]
    rw [read_clock [] b!" GMT" x hx [32, 71, 77, 84] rfl]
    have e : ((x.date.month - 1 : Nat) : Int) + 1 = x.date.month := by omega
    simp only [readChunks, hy, e]
    rfl
  unfold timeParse
  rw [key]
  exact finish_good local_ x hx [] (Or.inl rfl)


/-- A text that begins in a way no name of the table matches. -/
theorem parse_rfc850 (local_ : Str → Int → Option Int) (hz : ∀ s, local_ b!"GMT" s = none ∨ local_ b!"GMT" s = some 0)
    (x : Stamp) (hx : GoodStamp x) (h0 : 1969 ≤ x.date.year) (h1 : x.date.year ≤ 2068) :
    timeParse local_ layout850 (rfc850Date x) = some (x.secondOf * 1000000000) := by
  obtain ⟨d1, d2, d3, d4⟩ := hx.date
  have hd := goodDate_day_lt hx.date
  have key : readChunks layout850.chunks layout850.tail (rfc850Date x) {} = some
      ⟨x.date.year, x.date.month, x.date.day, x.hour, x.minute, x.second, 0, b!"GMT"⟩ := by
    unfold rfc850Date layout850
    simp only [List.append_assoc]
    rw [readChunks]
    simp only [skip_nil, Option.bind_some, readStd]
    rw [lookup_full _ hx.weekday]
    simp only [Option.bind_some, two, List.cons_append, List.nil_append]
    rw [readChunks, skip_char 44 (by decide), skip_space _ _ (digit_head _ _), skip_nil]
    simp only [Option.bind_some, readStd]
    rw [getNum_two _ hd]
    simp only [Option.bind_some]
    rw [readChunks, skip_char 45 (by decide), skip_nil]
    simp only [Option.bind_some, readStd]
    rw [lookup_month _ d1 d2]
    simp only [Option.bind_some]
    rw [readChunks, skip_char 45 (by decide), skip_nil]
    simp only [Option.bind_some, readStd]
    rw [if_neg (by simp)]
    simp only [List.take_succ_cons, List.take_zero, List.drop_succ_cons, List.drop_zero]
    have h2 : atoiText [digitByte (x.date.year.toNat % 100 / 10), digitByte (x.date.year.toNat % 100)] =
        some ((x.date.year.toNat % 100 : Nat) : Int) := atoi_two _ (by omega)
    rw [h2]
    simp only [Option.bind_some]
    have hyear : (if ((x.date.year.toNat % 100 : Nat) : Int) ≥ 69 then ((x.date.year.toNat % 100 : Nat) : Int) + 1900
        else ((x.date.year.toNat % 100 : Nat) : Int) + 2000) = x.date.year := by split <;> omega
    rw [hyear]
    rw [read_clock [(b!" ", .tz)] [] x hx [32, 71, 77, 84] rfl]
    have e : ((x.date.month - 1 : Nat) : Int) + 1 = x.date.month := by omega
    simp only [readChunks, e]
    rfl
  unfold timeParse
  rw [key]
  exact finish_good local_ x hx _ (Or.inr hz)

theorem parse_asctime (local_ : Str → Int → Option Int) (x : Stamp) (hx : GoodStamp x) (h0 : 0 ≤ x.date.year) (h1 : x.date.year < 10000) :
    timeParse local_ layoutANSIC (asctimeDate x) = some (x.secondOf * 1000000000) := by
  obtain ⟨d1, d2, d3, d4⟩ := hx.date
  have hd := goodDate_day_lt hx.date
  have hy : ((x.date.year.toNat : Nat) : Int) = x.date.year := Int.toNat_of_nonneg h0
  have hday : ∀ r, readChunks ((b!" ", .underDay) :: (b!" ", .hour) :: (b!":", .zeroMinute) :: (b!":", .zeroSecond) :: [(b!" ", .longYear)]) []
        (32 :: (blankTwo x.date.day ++ 32 :: r)) { month := (x.date.month : Int) } =
      readChunks ((b!" ", .hour) :: (b!":", .zeroMinute) :: (b!":", .zeroSecond) :: [(b!" ", .longYear)]) [] (32 :: r)
        { month := (x.date.month : Int), day := (x.date.day : Int) } := by
    intro r
    unfold blankTwo
    by_cases h10 : x.date.day < 10
    · rw [if_pos h10]
      rw [readChunks]
      have : skipText (32 :: ([32, digitByte x.date.day] ++ 32 :: r)) b!" " = some (digitByte x.date.day :: 32 :: r) := by
        rw [skipText, if_pos rfl]
        have : cutSpace (32 :: ([32, digitByte x.date.day] ++ 32 :: r)) = digitByte x.date.day :: 32 :: r := by
          unfold cutSpace
          rw [List.dropWhile_cons_of_pos (by decide)]
          simp only [List.cons_append, List.nil_append]
          rw [List.dropWhile_cons_of_pos (by decide), List.dropWhile_cons_of_neg]
          simpa using digitByte_ne x.date.day 32 (by decide)
        rw [this]
        simp [skip_nil]
      rw [this]
      simp only [Option.bind_some, readStd]
      rw [if_neg (digit_head _ _), getNum_one _ h10]
      rfl
    · rw [if_neg h10]
      simp only [two, List.cons_append, List.nil_append]
      rw [readChunks, skip_space _ _ (digit_head _ _), skip_nil]
      simp only [Option.bind_some, readStd]
      rw [if_neg (digit_head _ _), getNum_two _ hd]
      rfl
  have key : readChunks layoutANSIC.chunks layoutANSIC.tail (asctimeDate x) {} = some
      ⟨x.date.year, x.date.month, x.date.day, x.hour, x.minute, x.second, 0, []⟩ := by
    unfold asctimeDate layoutANSIC
    simp only [List.append_assoc]
    rw [readChunks]
    simp only [skip_nil, Option.bind_some, readStd]
    rw [lookup_day _ hx.weekday]
    simp only [Option.bind_some, List.cons_append, List.nil_append]
    rw [readChunks, skip_space _ _ (month_head _ _), skip_nil]
    simp only [Option.bind_some, readStd]
    rw [lookup_month _ d1 d2]
    simp only [Option.bind_some]
    have e : ((x.date.month - 1 : Nat) : Int) + 1 = x.date.month := by omega
    rw [e, hday]
    have hf : four x.date.year.toNat = digitByte (x.date.year.toNat / 1000) :: digitByte (x.date.year.toNat / 100) ::
      digitByte (x.date.year.toNat / 10) :: digitByte x.date.year.toNat :: [] := rfl
    simp only [two, List.cons_append, List.nil_append]
    rw [read_clock [(b!" ", .longYear)] [] x hx (32 :: four x.date.year.toNat) rfl]
    rw [hf, readChunks, skip_space _ _ (digit_head _ _), skip_nil]
    simp only [Option.bind_some, readStd]
    have hdig : digitAt [digitByte (x.date.year.toNat / 1000), digitByte (x.date.year.toNat / 100),
      digitByte (x.date.year.toNat / 10), digitByte x.date.year.toNat] 0 = true := by
      have := digitByte_range (x.date.year.toNat / 1000)
      simp [digitAt, this.1, this.2]
    rw [if_neg (by rw [hdig]; simp)]
    simp only [List.take_succ_cons, List.take_zero, List.drop_succ_cons, List.drop_zero]
    rw [← hf, atoi_four _ (by omega)]
    simp only [Option.bind_some, readChunks, skip_nil, hy]
  unfold timeParse
  rw [key]
  exact finish_good local_ x hx [] (Or.inl rfl)

/-! ### Only the right layout accepts a form -/

theorem http_needs_comma (local_ : Str → Int → Option Int) (w : Nat) (hw : w < 7) (c : UInt8) (hc : c ≠ 44) (r : Str) :
    timeParse local_ layoutHTTP (dayName w ++ c :: r) = none := by
  unfold timeParse layoutHTTP
  dsimp only
  rw [readChunks]
  simp only [skip_nil, Option.bind_some, readStd]
  rw [lookup_day _ hw]
  simp only [Option.bind_some]
  rw [readChunks]
  have : skipText (c :: r) b!", " = none := by
    rw [skipText, if_neg (by decide)]
    simp [hc]
  rw [this]
  rfl

theorem fullDay_split (w : Nat) (hw : w < 7) : ∃ c t, fullDayName w = dayName w ++ c :: t ∧ c ≠ 44 := by
  have : ∀ w : Nat, w < 7 → ((fullDayName w).take 3 = dayName w ∧ ∃ c, (fullDayName w)[3]? = some c ∧ c ≠ 44) := by
    intro w hw
    match w, hw with
    | 0, _ => exact ⟨rfl, _, rfl, by decide⟩
    | 1, _ => exact ⟨rfl, _, rfl, by decide⟩
    | 2, _ => exact ⟨rfl, _, rfl, by decide⟩
    | 3, _ => exact ⟨rfl, _, rfl, by decide⟩
    | 4, _ => exact ⟨rfl, _, rfl, by decide⟩
    | 5, _ => exact ⟨rfl, _, rfl, by decide⟩
    | 6, _ => exact ⟨rfl, _, rfl, by decide⟩
    | n + 7, h => omega
  obtain ⟨h1, c, h2, h3⟩ := this w hw
  refine ⟨c, (fullDayName w).drop 4, ?_, h3⟩
  obtain ⟨hl, he⟩ := List.getElem?_eq_some_iff.1 h2
  rw [← h1, ← he, ← List.drop_eq_getElem_cons hl, List.take_append_drop]

theorem rfc850_needs_name (local_ : Str → Int → Option Int) (w : Nat) (hw : w < 7) (c : UInt8) (hc : c = 32 ∨ c = 44) (r : Str) :
    timeParse local_ layout850 (dayName w ++ c :: r) = none := by
  unfold timeParse layout850
  dsimp only
  rw [readChunks]
  simp only [skip_nil, Option.bind_some, readStd]
  have h : ∀ w : Nat, w < 7 → ∀ c ∈ [(32 : UInt8), 44], ∀ v ∈ longDayNames, clash (dayName w ++ [c]) v = true := by decide +kernel
  have : dayName w ++ c :: r = (dayName w ++ [c]) ++ r := by simp
  rw [this, lookup_none _ _ _ _ (h w hw c (by rcases hc with rfl | rfl <;> simp))]
  rfl

theorem parseTime_imf (local_ : Str → Int → Option Int) (x : Stamp) (hx : GoodStamp x) (h0 : 0 ≤ x.date.year) (h1 : x.date.year < 10000) :
    parseTime local_ (imfDate x) = some (x.secondOf * 1000000000) := by
  unfold parseTime
  rw [parse_imf local_ x hx h0 h1]

theorem parseTime_rfc850 (local_ : Str → Int → Option Int) (hz : ∀ s, local_ b!"GMT" s = none ∨ local_ b!"GMT" s = some 0)
    (x : Stamp) (hx : GoodStamp x) (h0 : 1969 ≤ x.date.year) (h1 : x.date.year ≤ 2068) :
    parseTime local_ (rfc850Date x) = some (x.secondOf * 1000000000) := by
  unfold parseTime
  obtain ⟨c, t, e, hc⟩ := fullDay_split x.weekday hx.weekday
  have : timeParse local_ layoutHTTP (rfc850Date x) = none := by
    unfold rfc850Date
    rw [e]
    simp only [List.append_assoc, List.cons_append]
    exact http_needs_comma local_ _ hx.weekday c hc _
  rw [this]
  dsimp only
  rw [parse_rfc850 local_ hz x hx h0 h1]

theorem parseTime_asctime (local_ : Str → Int → Option Int) (x : Stamp) (hx : GoodStamp x) (h0 : 0 ≤ x.date.year) (h1 : x.date.year < 10000) :
    parseTime local_ (asctimeDate x) = some (x.secondOf * 1000000000) := by
  unfold parseTime
  have e : ∃ r, asctimeDate x = dayName x.weekday ++ 32 :: r := ⟨_, by
    unfold asctimeDate
    simp only [List.append_assoc, List.cons_append, List.nil_append]
    rfl⟩
  obtain ⟨r, e⟩ := e
  have h2 : timeParse local_ layoutHTTP (asctimeDate x) = none := by
    rw [e]; exact http_needs_comma local_ _ hx.weekday 32 (by decide) _
  have h3 : timeParse local_ layout850 (asctimeDate x) = none := by
    rw [e]; exact rfc850_needs_name local_ _ hx.weekday 32 (Or.inl rfl) _
  rw [h2]
  dsimp only
  rw [h3]
  exact parse_asctime local_ x hx h0 h1

end Verif
