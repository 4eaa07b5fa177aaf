import Verif.Props.Dates
import Verif.Props.UniqId
/-
C114: the dates a static route writes and reads.
-/
namespace Verif
open Spec

/-! ### Digits -/

theorem formatNat_one (n : Nat) (h : n < 10) : formatNat n = [digitByte n] := by
  unfold formatNat formatDigits digitByte
  rw [if_pos h, Nat.mod_eq_of_lt h]

theorem formatNat_next (n : Nat) (h : 10 ≤ n) : formatNat n = formatNat (n / 10) ++ [digitByte n] := by
  have := formatNat_split 1 n (by simpa using h)
  simpa [lastDigits, digitByte] using this

theorem formatNat_all (n : Nat) : ∀ c ∈ formatNat n, 48 ≤ c ∧ c ≤ 57 := by
  induction n using Nat.strongRecOn with
  | ind n ih =>
    by_cases h : n < 10
    · rw [formatNat_one n h]
      intro c hc
      simp only [List.mem_cons, List.not_mem_nil, or_false] at hc
      subst hc
      exact digitByte_range n
    · rw [formatNat_next n (by omega)]
      intro c hc
      rcases List.mem_append.1 hc with hc | hc
      · exact ih _ (by omega) c hc
      · simp only [List.mem_cons, List.not_mem_nil, or_false] at hc
        subst hc
        exact digitByte_range n

theorem digitByte_zero (n : Nat) (h : n = 0) : digitByte n = 48 := by subst h; rfl

theorem pad_two (n : Nat) (h : n < 100) : padNat 2 n = two n := by
  unfold padNat two
  by_cases h1 : n < 10
  · rw [formatNat_one n h1, digitByte_zero (n / 10) (by omega)]; rfl
  · rw [formatNat_next n (by omega), formatNat_one _ (by omega)]; rfl

theorem pad_four (n : Nat) (h : n < 10000) : padNat 4 n = four n := by
  unfold padNat four
  by_cases h1 : n < 10
  · rw [formatNat_one n h1, digitByte_zero (n / 10) (by omega), digitByte_zero (n / 100) (by omega), digitByte_zero (n / 1000) (by omega)]
    rfl
  · by_cases h2 : n < 100
    · rw [formatNat_next n (by omega), formatNat_one _ (by omega), digitByte_zero (n / 100) (by omega), digitByte_zero (n / 1000) (by omega)]
      rfl
    · by_cases h3 : n < 1000
      · rw [formatNat_next n (by omega), formatNat_next (n / 10) (by omega), formatNat_one _ (by omega), digitByte_zero (n / 1000) (by omega)]
        rw [show n / 10 / 10 = n / 100 by omega]
        rfl
      · rw [formatNat_next n (by omega), formatNat_next (n / 10) (by omega), formatNat_next (n / 10 / 10) (by omega),
          formatNat_one _ (by omega)]
        rw [show n / 10 / 10 / 10 = n / 1000 by omega, show n / 10 / 10 = n / 100 by omega]
        rfl

/-- Five digits or more. -/
theorem pad_long (n : Nat) (h : 10000 ≤ n) : ∃ a b c d e r, padNat 4 n = a :: b :: c :: d :: e :: r ∧ e ≠ 32 := by
  have h1 := formatNat_split 4 n (by simpa using h)
  have hne : formatNat (n / 10 ^ 4) ≠ [] := (formatNat_number _).1.1
  have hlen : 5 ≤ (formatNat n).length := by
    rw [h1, List.length_append, lastDigits_length]
    have := List.length_pos_iff.2 hne
    omega
  have hd := formatNat_all n
  have hp : padNat 4 n = formatNat n := by
    unfold padNat
    rw [show 4 - (formatNat n).length = 0 by omega]
    rfl
  rw [hp]
  match formatNat n, hlen, hd with
  | a :: b :: c :: d :: e :: r, _, hd =>
    refine ⟨a, b, c, d, e, r, rfl, ?_⟩
    have := (hd e (by simp)).1
    rintro rfl
    exact absurd this (by decide)

/-! ### The stamp of a second -/

theorem stamp_civil {f : Int → Civil} {g : Int → Nat} (hf : Calendar f) (hg : Week g) (s : Int) :
    stampOf f g s = stampOf civilOf weekdayOf s := by
  unfold stampOf
  rw [calendar_unique hf civilOf_calendar, week_unique hg weekdayOf_week]

theorem stamp_good (s : Int) : GoodStamp (stampOf civilOf weekdayOf s) ∧ (stampOf civilOf weekdayOf s).secondOf = s := by
  obtain ⟨h1, h2⟩ := civilOf_good (s / 86400)
  refine ⟨⟨h1, weekdayOf_week.2.1 _, ?_, ?_, ?_⟩, ?_⟩
  · show (s % 86400).toNat / 3600 < 24; omega
  · show (s % 86400).toNat % 3600 / 60 < 60; omega
  · show (s % 86400).toNat % 60 < 60; omega
  · show dayNumber (civilOf (s / 86400)) * 86400 + ((s % 86400).toNat / 3600 : Nat) * 3600 +
      ((s % 86400).toNat % 3600 / 60 : Nat) * 60 + ((s % 86400).toNat % 60 : Nat) = s
    rw [h2]
    omega

theorem short_day (w : Nat) (h : w < 7) : (shortDayNames[w]?).getD [] = dayName w := by
  have : ∀ w : Nat, w < 7 → (shortDayNames[w]?).getD [] = dayName w := by decide
  exact this w h

theorem short_month (m : Nat) (h1 : 1 ≤ m) (h2 : m ≤ 12) : (shortMonthNames[m - 1]?).getD [] = monthName m := by
  have : ∀ m : Nat, m < 13 → 1 ≤ m → (shortMonthNames[m - 1]?).getD [] = monthName m := by decide
  exact this m (by omega) h1

theorem format_year (t : Int) : ∃ r, formatHTTP t = dayName (weekdayOf (t / 1000000000 / 86400)) ++ b!", " ++
    two (civilOf (t / 1000000000 / 86400)).day ++ b!" " ++ monthName (civilOf (t / 1000000000 / 86400)).month ++ b!" " ++
    appendInt (civilOf (t / 1000000000 / 86400)).year 4 ++ b!" " ++ r := by
  obtain ⟨⟨h1, h2, h3, h4⟩, -⟩ := civilOf_good (t / 1000000000 / 86400)
  have hd := goodDate_day_lt ⟨h1, h2, h3, h4⟩
  unfold formatHTTP
  dsimp only
  rw [short_day _ (weekdayOf_week.2.1 _), short_month _ h1 h2, pad_two _ hd]
  simp only [List.append_assoc]
  exact ⟨_, rfl⟩

theorem format_civil (t : Int) (h0 : 0 ≤ (civilOf (t / 1000000000 / 86400)).year) (h9 : (civilOf (t / 1000000000 / 86400)).year < 10000) :
    formatHTTP t = imfDate (stampOf civilOf weekdayOf (t / 1000000000)) := by
  obtain ⟨⟨h1, h2, h3, h4⟩, -⟩ := civilOf_good (t / 1000000000 / 86400)
  have hd := goodDate_day_lt ⟨h1, h2, h3, h4⟩
  unfold formatHTTP imfDate stampOf
  dsimp only
  rw [short_day _ (weekdayOf_week.2.1 _), short_month _ h1 h2, pad_two _ hd, pad_two _ (by omega), pad_two _ (by omega), pad_two _ (by omega)]
  unfold appendInt
  rw [if_neg (by omega), pad_four _ (by omega), show (civilOf (t / 1000000000 / 86400)).year.natAbs = (civilOf (t / 1000000000 / 86400)).year.toNat by omega]

/-! ### The property -/

/-- There is one calendar, and one week. -/
theorem C114_calendar : (∃ f, Calendar f ∧ ∀ f', Calendar f' → f' = f) ∧ ∃ g, Week g ∧ ∀ g', Week g' → g' = g :=
  ⟨⟨civilOf, civilOf_calendar, fun _ h => funext (calendar_unique h civilOf_calendar)⟩,
    weekdayOf, weekdayOf_week, fun _ h => funext (week_unique h weekdayOf_week)⟩

/-- **C114** (writing).  A modification time in the years 0 to 9999 is written as the date of its second in the form of RFC 7231. -/
theorem C114_written (local_ : Str → Int → Option Int) (f : Int → Civil) (g : Int → Nat) (hf : Calendar f) (hg : Week g) (t : Int)
    (h0 : 0 ≤ (f (t / 10 ^ 9 / 86400)).year) (h9 : (f (t / 10 ^ 9 / 86400)).year ≤ 9999) :
    (goTime local_).format t = imfDate (stampOf f g (t / 10 ^ 9)) := by
  rw [stamp_civil hf hg]
  rw [calendar_unique hf civilOf_calendar] at h0 h9
  have e : (10 : Int) ^ 9 = 1000000000 := by decide
  rw [e] at h0 h9 ⊢
  unfold goTime
  dsimp only
  exact format_civil t h0 (Int.lt_of_le_of_lt h9 (by decide))

/-- **C114** (reading).  Each of the three forms of the date of a second is read as that second: the form of RFC 7231 and that of
asctime in the years 0 to 9999, that of RFC 850, which has two digits for the year, from 1969 to 2068.  (The last needs that
the server's own time zone does not use the name GMT for another time.) -/
theorem C114_read (local_ : Str → Int → Option Int) (f : Int → Civil) (g : Int → Nat) (hf : Calendar f) (hg : Week g) (s : Int) :
    (0 ≤ (f (s / 86400)).year → (f (s / 86400)).year ≤ 9999 →
      (goTime local_).parse (imfDate (stampOf f g s)) = some (s * 10 ^ 9) ∧
      (goTime local_).parse (asctimeDate (stampOf f g s)) = some (s * 10 ^ 9)) ∧
    (1969 ≤ (f (s / 86400)).year → (f (s / 86400)).year ≤ 2068 →
      (∀ u, local_ b!"GMT" u = none ∨ local_ b!"GMT" u = some 0) →
      (goTime local_).parse (rfc850Date (stampOf f g s)) = some (s * 10 ^ 9)) := by
  rw [stamp_civil hf hg, calendar_unique hf civilOf_calendar]
  obtain ⟨h1, h2⟩ := stamp_good s
  have e : (10 : Int) ^ 9 = 1000000000 := by decide
  rw [e]
  unfold goTime
  dsimp only
  have hy : (stampOf civilOf weekdayOf s).date.year = (civilOf (s / 86400)).year := rfl
  rw [← hy]
  refine ⟨fun h0 h9 => ⟨?_, ?_⟩, fun h0 h9 hz => ?_⟩
  · have := parseTime_imf local_ _ h1 h0 (Int.lt_of_le_of_lt h9 (by decide))
    rw [h2] at this
    exact this
  · have := parseTime_asctime local_ _ h1 h0 (Int.lt_of_le_of_lt h9 (by decide))
    rw [h2] at this
    exact this
  · have := parseTime_rfc850 local_ hz _ h1 h0 h9
    rw [h2] at this
    exact this

/-- A date does not look like an entity tag. -/
theorem day_no_tag (w : Nat) (r : Str) (e : ETag) : ¬ Question.StartsWithTag (dayName w ++ r) e := by
  rintro ⟨-, sp, rest, h1, h2⟩
  have hhead : ∃ a b d, dayName w = [a, b, d] ∧ ¬ Space a ∧ a ≠ 34 ∧ b ≠ 47 := by
    unfold dayName
    split <;> exact ⟨_, _, _, rfl, by unfold Space; decide, by decide, by decide⟩
  obtain ⟨a, b, d, e1, hs, ha, hb⟩ := hhead
  rw [e1] at h2
  cases sp with
  | cons x sp =>
    rw [List.cons_append, List.cons_append, List.cons_append] at h2
    injection h2 with h2 _
    exact hs (by rw [h2]; exact h1 x (List.mem_cons_self ..))
  | nil =>
    rw [List.nil_append] at h2
    obtain ⟨weak, tag⟩ := e
    cases weak
    · simp only [ETag.written, List.cons_append, List.nil_append] at h2
      injection h2 with h2 _
      exact ha h2
    · simp only [ETag.written, List.cons_append, List.nil_append] at h2
      injection h2 with h2 h3
      injection h3 with h3 _
      exact hb h3

theorem imf_head (x : Stamp) : ∃ r, imfDate x = dayName x.weekday ++ r := by
  unfold imfDate
  simp only [List.append_assoc]
  exact ⟨_, rfl⟩

theorem imf_comma (t : Int) : ∃ w r, w < 7 ∧ formatHTTP t = dayName w ++ 44 :: r := by
  obtain ⟨r, h⟩ := format_year t
  rw [h]
  simp only [List.append_assoc, List.cons_append, List.nil_append]
  exact ⟨_, _, weekdayOf_week.2.1 (t / 1000000000 / 86400), rfl⟩

theorem ansic_needs_space (local_ : Str → Int → Option Int) (w : Nat) (hw : w < 7) (r : Str) :
    timeParse local_ layoutANSIC (dayName w ++ 44 :: r) = none := by
  unfold timeParse layoutANSIC
  dsimp only
  rw [readChunks]
  simp only [skip_nil, Option.bind_some, readStd]
  rw [lookup_day _ hw]
  simp only [Option.bind_some]
  rw [readChunks]
  rfl

theorem http_bad_year (local_ : Str → Int → Option Int) (w d m : Nat) (y : Int) (hw : w < 7) (hd : d < 100) (h1 : 1 ≤ m) (h2 : m ≤ 12)
    (hy : y < 0 ∨ 10000 ≤ y) (r : Str) :
    timeParse local_ layoutHTTP (dayName w ++ b!", " ++ two d ++ b!" " ++ monthName m ++ b!" " ++ appendInt y 4 ++ b!" " ++ r) = none := by
  unfold timeParse layoutHTTP
  dsimp only
  simp only [List.append_assoc]
  rw [readChunks]
  simp only [skip_nil, Option.bind_some, readStd]
  rw [lookup_day _ hw]
  simp only [Option.bind_some, two, List.cons_append, List.nil_append]
  rw [readChunks, skip_char 44 (by decide), skip_space _ _ (digit_head _ _), skip_nil]
  simp only [Option.bind_some, readStd]
  rw [getNum_two _ hd]
  simp only [Option.bind_some]
  rw [readChunks, skip_space _ _ (month_head _ _), skip_nil]
  simp only [Option.bind_some, readStd]
  rw [lookup_month _ h1 h2]
  simp only [Option.bind_some]
  rw [readChunks]
  rcases hy with hy | hy
  · unfold appendInt
    rw [if_pos hy]
    rw [List.cons_append, skip_space _ _ (by simp), skip_nil]
    simp only [Option.bind_some, readStd]
    have hdig : digitAt (45 :: (padNat 4 y.natAbs ++ 32 :: r)) 0 = false := rfl
    rw [hdig, if_pos (Or.inr rfl)]
    rfl
  · unfold appendInt
    rw [if_neg (by omega)]
    obtain ⟨a, b, c, d', e, r', hp, he⟩ := pad_long y.natAbs (by omega)
    have ha : a ≠ 32 := by
      have hd := formatNat_all y.natAbs
      have hp2 : ∀ x ∈ padNat 4 y.natAbs, x ≠ 32 := by
        intro x hx
        unfold padNat at hx
        rcases List.mem_append.1 hx with hx | hx
        · rw [List.mem_replicate] at hx
          rw [hx.2]; decide
        · rintro rfl
          exact absurd (hd 32 hx).1 (by decide)
      exact hp2 a (by rw [hp]; simp)
    rw [hp]
    simp only [List.cons_append]
    rw [skip_space _ _ (by simpa using ha), skip_nil]
    simp only [Option.bind_some, readStd]
    split
    · rfl
    · simp only [List.take_succ_cons, List.take_zero, List.drop_succ_cons, List.drop_zero]
      cases atoiText [a, b, c, d'] with
      | none => rfl
      | some v =>
        simp only [Option.bind_some]
        rw [readChunks]
        have : ∀ q, skipText (e :: q) b!" " = none := by
          intro q
          rw [skipText, if_pos rfl]
          simp [he]
        rw [this]
        rfl

/-- The date of a static file is read back as its second exactly if the year has at most four digits and no sign.  What is
written for another year nobody can read. -/
theorem C114_exact (local_ : Str → Int → Option Int) (f : Int → Civil) (hf : Calendar f) (t : Int) :
    (0 ≤ (f (t / 10 ^ 9 / 86400)).year ∧ (f (t / 10 ^ 9 / 86400)).year ≤ 9999 →
      (goTime local_).parse ((goTime local_).format t) = some (t / 10 ^ 9 * 10 ^ 9)) ∧
    (¬ (0 ≤ (f (t / 10 ^ 9 / 86400)).year ∧ (f (t / 10 ^ 9 / 86400)).year ≤ 9999) →
      (goTime local_).parse ((goTime local_).format t) = none) := by
  refine ⟨fun h => ?_, fun h => ?_⟩
  · rw [C114_written local_ f weekdayOf hf weekdayOf_week t h.1 h.2]
    exact ((C114_read local_ f weekdayOf hf weekdayOf_week (t / 10 ^ 9)).1 h.1 h.2).1
  · rw [calendar_unique hf civilOf_calendar] at h
    have e : (10 : Int) ^ 9 = 1000000000 := by decide
    rw [e] at h
    unfold goTime
    dsimp only
    unfold parseTime
    obtain ⟨r, hr⟩ := format_year t
    obtain ⟨w, r', hw, hr'⟩ := imf_comma t
    obtain ⟨⟨h1, h2, h3, h4⟩, -⟩ := civilOf_good (t / 1000000000 / 86400)
    have k1 : timeParse local_ layoutHTTP (formatHTTP t) = none := by
      rw [hr]
      exact http_bad_year local_ _ _ _ _ (weekdayOf_week.2.1 _) (goodDate_day_lt ⟨h1, h2, h3, h4⟩) h1 h2 (by omega) r
    rw [k1]
    dsimp only
    rw [hr', rfc850_needs_name local_ w hw 44 (Or.inr rfl) r']
    exact ansic_needs_space local_ w hw r'

/-- The law that C106, C107 and C110 ask of the date functions. -/
theorem C114_law (local_ : Str → Int → Option Int) (lib : Lib) (hlib : lib.toTimeLib = goTime local_) (f : Int → Civil) (hf : Calendar f)
    (t : Int) (h0 : 0 ≤ (f (t / 10 ^ 9 / 86400)).year) (h9 : (f (t / 10 ^ 9 / 86400)).year ≤ 9999) : DateLaw lib t := by
  have h := (C114_exact local_ f hf t).1 ⟨h0, h9⟩
  have hw := C114_written local_ f weekdayOf hf weekdayOf_week t h0 h9
  obtain ⟨r, hr⟩ := imf_head (stampOf f weekdayOf (t / 10 ^ 9))
  unfold DateLaw
  rw [hlib]
  refine ⟨?_, h, fun e => ?_⟩
  · rw [hw, hr]
    unfold dayName
    split <;> simp
  · rw [hw, hr]
    exact day_no_tag _ r e

section
variable (local_ : Str → Int → Option Int) (lib : Lib) (hlib : lib.toTimeLib = goTime local_) (f : Int → Civil) (g : Int → Nat)
  (hf : Calendar f) (hg : Week g) (href : Str → Str)
include hlib hf hg

/-- **C114** (If-Modified-Since).  A client asks a static route for a file, If-Modified-Since any second, written in any of the three forms: it is told
304 without content if the file is not from a later second, and otherwise gets the file, whole; either way with the date of the
file in the form of RFC 7231. -/
theorem C114_since (route : StaticRoute) (name : List Str) (fSys : RawFS) (r : HttpReq) (w : HttpResp)
    (hn : route.Names r.path name) (base data : Str) (t : Int) (hfile : HasFile fSys name base data t) (ht : KnownTime t)
    (h0 : 0 ≤ (f (t / 10 ^ 9 / 86400)).year) (h9 : (f (t / 10 ^ 9 / 86400)).year ≤ 9999) (hw : NoEncoding w)
    (hsafe : r.method = b!"GET" ∨ r.method = b!"HEAD") (hm : r.header b!"If-Match" = [])
    (hu : r.header b!"If-Unmodified-Since" = []) (hnone : r.header b!"If-None-Match" = [])
    (hrange : r.header b!"Range" = []) (s : Int)
    (hs : (0 ≤ (f (s / 86400)).year ∧ (f (s / 86400)).year ≤ 9999 ∧
        (r.header b!"If-Modified-Since" = imfDate (stampOf f g s) ∨ r.header b!"If-Modified-Since" = asctimeDate (stampOf f g s))) ∨
      (1969 ≤ (f (s / 86400)).year ∧ (f (s / 86400)).year ≤ 2068 ∧ (∀ u, local_ b!"GMT" u = none ∨ local_ b!"GMT" u = some 0) ∧
        r.header b!"If-Modified-Since" = rfc850Date (stampOf f g s))) :
    ∃ a, (route.run lib href fSys r w).result = .ret a ∧ a.resp.peek b!"Last-Modified" = imfDate (stampOf f g (t / 10 ^ 9)) ∧
      (t / 10 ^ 9 ≤ s → a.resp.status = 304 ∧ a.err = none ∧ a.resp.body = w.body ∧
        a.resp.peek b!"Content-Length" = [] ∧ a.resp.peek b!"Content-Type" = []) ∧
      (s < t / 10 ^ 9 → WholeAnswer r w data a) := by
  have hparse : lib.parse (r.header b!"If-Modified-Since") = some (s * 10 ^ 9) ∧ r.header b!"If-Modified-Since" ≠ [] := by
    rw [hlib]
    obtain ⟨k1, k2⟩ := C114_read local_ f g hf hg s
    rcases hs with ⟨a1, a2, a3 | a3⟩ | ⟨a1, a2, a3, a4⟩
    · rw [a3]; exact ⟨(k1 a1 a2).1, by unfold imfDate; simp⟩
    · rw [a3]; exact ⟨(k1 a1 a2).2, by unfold asctimeDate; simp⟩
    · rw [a4]; exact ⟨k2 a1 a2 a3, by unfold rfc850Date; simp⟩
  obtain ⟨a, ha, h1, h2⟩ := since_answer lib href route name fSys r w hn base data t hfile ht hw hsafe hm hu hnone hrange hparse.2 _ hparse.1
  rw [show s * 10 ^ 9 / 10 ^ 9 = s by omega] at h1 h2
  have hfmt : lib.format t = imfDate (stampOf f g (t / 10 ^ 9)) := by
    rw [hlib]; exact C114_written local_ f g hf hg t h0 h9
  rw [hfmt] at h1 h2
  refine ⟨a, ha, ?_, fun h => ?_, fun h => (h2 h).1⟩
  · rcases Int.lt_or_le s (t / 10 ^ 9) with h | h
    · exact (h2 h).2
    · exact (h1 h).2.2.2.2.2
  · obtain ⟨q1, q2, q3, q4, q5, -⟩ := h1 h
    exact ⟨q1, q2, q3, q4, q5⟩

omit hg in
/-- **C114** (If-Range).  C107 with the real dates: a download that was interrupted after `k` bytes is resumed with exactly the missing
bytes if the file is still from the same second, and starts again with the new file if not. -/
theorem C114_resume (route : StaticRoute) (name : List Str) (fSys : RawFS) (r : HttpReq) (w : HttpResp) (hn : route.Names r.path name)
    (base data : Str) (t : Int) (hfile : HasFile fSys name base data t) (ht : KnownTime t)
    (h0 : 0 ≤ (f (t / 10 ^ 9 / 86400)).year) (h9 : (f (t / 10 ^ 9 / 86400)).year ≤ 9999) (s : StaticRun)
    (hs : (route.run lib href fSys r w).result = .ret s) (he : s.err = none) (h3 : s.resp.status ≠ 304)
    (fSys' : RawFS) (r' : HttpReq) (w' : HttpResp) (hn' : route.Names r'.path name) (base' data' : Str) (t' : Int)
    (hfile' : HasFile fSys' name base' data' t') (ht' : KnownTime t') (hw' : NoEncoding w') (hu : Unconditional r')
    (k : Nat) (x : Str) (hx : Digits x) (hk : decVal x = k) (hrange : r'.header b!"Range" = b!"bytes=" ++ (x ++ b!"-"))
    (hir : r'.header b!"If-Range" = s.resp.peek b!"Last-Modified") :
    ∃ s', (route.run lib href fSys' r' w').result = .ret s' ∧
      (t' / 10 ^ 9 = t / 10 ^ 9 → k < data'.length →
        PartAnswer r' w' data' k (data'.length - k) s' ∧
        (r'.method = b!"GET" → ∃ rest, s'.resp.body = w'.body ++ rest ∧ data'.take k ++ rest = data')) ∧
      (t' / 10 ^ 9 ≠ t / 10 ^ 9 → WholeAnswer r' w' data' s') :=
  C107_resume lib href fSys r w route name hn base data t hfile ht (C114_law local_ lib hlib f hf t h0 h9) s hs he h3 fSys' r' w' hn'
    base' data' t' hfile' ht' hw' hu k x hx hk hrange hir

end

namespace DatesEx

/-- The real date functions, in a time zone that does not know the name GMT. -/
def lib : Lib := { seekLib with toTimeLib := goTime fun _ _ => none }

/-- 784111777 is 6 November 1994, a Sunday, 08:49:37. -/
theorem stamp : stampOf civilOf weekdayOf 784111777 = ⟨⟨1994, 11, 6⟩, 0, 8, 49, 37⟩ := by
  have : civilOf (784111777 / 86400) = ⟨1994, 11, 6⟩ := by decide +kernel
  unfold stampOf
  rw [this]
  rfl

/-- The three forms, as in RFC 7231. -/
example : imfDate ⟨⟨1994, 11, 6⟩, 0, 8, 49, 37⟩ = b!"Sun, 06 Nov 1994 08:49:37 GMT" := by decide +kernel
example : rfc850Date ⟨⟨1994, 11, 6⟩, 0, 8, 49, 37⟩ = b!"Sunday, 06-Nov-94 08:49:37 GMT" := by decide +kernel
example : asctimeDate ⟨⟨1994, 11, 6⟩, 0, 8, 49, 37⟩ = b!"Sun Nov  6 08:49:37 1994" := by decide +kernel

theorem year : (civilOf (exTime / 10 ^ 9 / 86400)).year = 2006 := by decide +kernel

/-- The law holds for the file of the other examples, with the real date functions. -/
example : DateLaw lib exTime :=
  C114_law (fun _ _ => none) lib rfl civilOf civilOf_calendar exTime (by rw [year]; decide) (by rw [year]; decide)

/-- That file is of 2006, so that somebody who has it from 1994, and says so in the old form, gets it again. -/
example : ∃ a, (StaticRoute.run lib id seekFS (.fileFS b!"static" b!"/files")
      (seekReq b!"If-Modified-Since" b!"Sunday, 06-Nov-94 08:49:37 GMT") HttpResp.fresh).result = .ret a ∧
      WholeAnswer (seekReq b!"If-Modified-Since" b!"Sunday, 06-Nov-94 08:49:37 GMT") HttpResp.fresh b!"0123456789" a := by
  have h94 : (civilOf (784111777 / 86400)).year = 1994 := by decide +kernel
  obtain ⟨a, h1, -, -, h2⟩ := C114_since (fun _ _ => none) lib rfl civilOf weekdayOf civilOf_calendar weekdayOf_week id
    (.fileFS b!"static" b!"/files") _ seekFS (seekReq b!"If-Modified-Since" b!"Sunday, 06-Nov-94 08:49:37 GMT") HttpResp.fresh exNames
    b!"a.txt" b!"0123456789" exTime exHas exKnown (by rw [year]; decide) (by rw [year]; decide) ⟨by decide, by decide⟩ (.inl rfl)
    (by decide) (by decide) (by decide) (by decide) 784111777
    (Or.inr ⟨by rw [h94]; decide, by rw [h94]; decide, fun _ => .inl rfl, by rw [stamp]; decide +kernel⟩)
  exact ⟨a, h1, h2 (by decide)⟩

/-- The year 12000, which nobody can read. -/
example : formatHTTP 316516204800000000000 = b!"Sat, 01 Jan 12000 00:00:00 GMT" := by decide +kernel
example : (goTime fun _ _ => none).parse b!"Sat, 01 Jan 12000 00:00:00 GMT" = none := by decide +kernel

end DatesEx

end Verif
