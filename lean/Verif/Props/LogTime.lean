import Verif.Spec.LogTime
import Verif.Props.DatesHttp
import Verif.Props.Logger
import Verif.Props.ReqLog
/-
C115: the time stamps of log records.
-/
namespace Verif
open Spec

/-! ### The text -/

theorem trimZeros_spec (s : Str) : ∃ k, s = trimZeros s ++ List.replicate k 48 ∧ (trimZeros s).getLast? ≠ some 48 := by
  unfold trimZeros
  have h : ∀ r : Str, ∃ k, r = List.replicate k 48 ++ r.dropWhile (· == 48) ∧ (r.dropWhile (· == 48)).head? ≠ some 48 := by
    intro r
    induction r with
    | nil => exact ⟨0, rfl, by simp⟩
    | cons a t ih =>
      by_cases ha : a = 48
      · subst ha
        obtain ⟨k, h1, h2⟩ := ih
        rw [List.dropWhile_cons_of_pos (by decide)]
        exact ⟨k + 1, by rw [List.replicate_succ, List.cons_append, ← h1], h2⟩
      · rw [List.dropWhile_cons_of_neg (by simpa using ha)]
        exact ⟨0, rfl, by simpa using ha⟩
  obtain ⟨k, h1, h2⟩ := h s.reverse
  refine ⟨k, ?_, by rwa [List.getLast?_reverse]⟩
  have := congrArg List.reverse h1
  rw [List.reverse_reverse, List.reverse_append, List.reverse_replicate] at this
  exact this

theorem decVal_append_zero (d : Str) (k : Nat) : decVal (d ++ List.replicate k 48) = decVal d * 10 ^ k := by
  induction d with
  | nil =>
    simp only [List.nil_append, decVal, Nat.zero_mul]
    induction k with
    | zero => rfl
    | succ k ih => simp [List.replicate_succ, decVal, ih]
  | cons a t ih =>
    simp only [List.cons_append, decVal, ih, List.length_append, List.length_replicate, Nat.pow_add, Nat.add_mul, Nat.mul_assoc]

/-- Nine digits. -/
theorem pad_nine (n : Nat) (h : n < 1000000000) : (padNat 9 n).take 3 = [digitByte (n / 100000000), digitByte (n / 10000000), digitByte (n / 1000000)] := by
  have key : ∀ k n : Nat, n < 10 ^ (k + 1) → padNat (k + 1) n = lastDigits (k + 1) n := by
    intro k
    induction k with
    | zero =>
      intro n hn
      unfold padNat
      rw [formatNat_one n (by simpa using hn)]
      simp [lastDigits, digitByte]
    | succ k ih =>
      intro n hn
      by_cases h10 : n < 10
      · have h0 := ih 0 (Nat.pow_pos (by decide))
        rw [lastDigits, show n / 10 = 0 by omega, ← h0]
        unfold padNat
        rw [formatNat_one n h10, formatNat_one 0 (by decide)]
        simp only [List.length_cons, List.length_nil, Nat.add_sub_cancel, digitByte]
        rw [show ([UInt8.ofNat (48 + 0 % 10)] : Str) = List.replicate 1 48 from rfl, List.replicate_append_replicate]
      · rw [lastDigits, ← ih (n / 10) (by rw [Nat.pow_succ] at hn; omega)]
        unfold padNat
        rw [formatNat_next n (by omega)]
        simp only [List.length_append, List.length_cons, List.length_nil, Nat.add_sub_add_right, digitByte, List.append_assoc]
  rw [key 8 n h]
  simp only [lastDigits, Nat.div_div_eq_div_mul, List.nil_append, List.cons_append]
  rfl

theorem digits_three (n : Nat) (h : n < 1000) : decVal [digitByte (n / 100), digitByte (n / 10), digitByte n] = n := by
  simp only [decVal, digitByte_nat, List.length_cons, List.length_nil]
  omega

theorem milli_spec (n : Nat) (h : n < 1000000000) : Millis (milliText n) (n / 1000000) := by
  unfold milliText
  by_cases h0 : n = 0
  · rw [if_pos h0]; exact Or.inl ⟨rfl, by omega⟩
  · rw [if_neg h0, pad_nine n h]
    have h3 := digits_three (n / 1000000) (by omega)
    rw [Nat.div_div_eq_div_mul, Nat.div_div_eq_div_mul] at h3
    obtain ⟨k, e, -⟩ := trimZeros_spec [digitByte (n / 100000000), digitByte (n / 10000000), digitByte (n / 1000000)]
    dsimp only
    generalize trimZeros [digitByte (n / 100000000), digitByte (n / 10000000), digitByte (n / 1000000)] = d at e
    have hl := congrArg List.length e
    simp only [List.length_cons, List.length_nil, List.length_append, List.length_replicate] at hl
    have hd : ∀ c ∈ d, 48 ≤ c ∧ c ≤ 57 := by
      intro c hc
      have : c ∈ [digitByte (n / 100000000), digitByte (n / 10000000), digitByte (n / 1000000)] := by rw [e]; simp [hc]
      simp only [List.mem_cons, List.not_mem_nil, or_false] at this
      rcases this with rfl | rfl | rfl <;> exact digitByte_range _
    have hv : decVal d * 10 ^ k = n / 1000000 := by
      rw [← decVal_append_zero, ← e]
      exact h3
    have hk : k = 3 - d.length := by omega
    by_cases hn : d = []
    · rw [if_pos hn]
      subst hn
      exact Or.inl ⟨rfl, by rw [← hv]; simp [decVal]⟩
    · rw [if_neg hn]
      exact Or.inr ⟨d, rfl, ⟨hn, hd⟩, by omega, by rw [← hk]; exact hv⟩

theorem clock_civil (off t : Int) (h0 : 0 ≤ (civilOf ((t / 1000000000 + off) / 86400)).year)
    (h9 : (civilOf ((t / 1000000000 + off) / 86400)).year ≤ 9999) :
    clockText off t = rfc3339 (stampOf civilOf weekdayOf (t / 1000000000 + off)) (milliText (t % 1000000000).toNat) := by
  obtain ⟨⟨h1, h2, h3, h4⟩, -⟩ := civilOf_good ((t / 1000000000 + off) / 86400)
  have hd := goodDate_day_lt ⟨h1, h2, h3, h4⟩
  unfold clockText rfc3339 stampOf
  dsimp only
  rw [pad_two _ hd, pad_two _ (by omega), pad_two _ (by omega), pad_two _ (by omega), pad_two _ (by omega)]
  unfold appendInt
  rw [if_neg (by omega), pad_four _ (by omega), show ∀ y : Int, 0 ≤ y → y.natAbs = y.toNat by intros; omega]
  exact h0

/-! ### Reading is unambiguous -/

theorem two_inj {a b : Nat} (ha : a < 100) (hb : b < 100) {r r' : Str} (h : two a ++ r = two b ++ r') : a = b ∧ r = r' := by
  simp only [two, List.cons_append, List.nil_append, List.cons.injEq] at h
  obtain ⟨h1, h2, h3⟩ := h
  have h1 := congrArg UInt8.toNat h1
  have h2 := congrArg UInt8.toNat h2
  rw [digitByte_nat, digitByte_nat] at h1 h2
  exact ⟨by omega, h3⟩

theorem four_inj {a b : Nat} (ha : a < 10000) (hb : b < 10000) {r r' : Str} (h : four a ++ r = four b ++ r') : a = b ∧ r = r' := by
  simp only [four, List.cons_append, List.nil_append, List.cons.injEq] at h
  obtain ⟨h1, h2, h3, h4, h5⟩ := h
  have h1 := congrArg UInt8.toNat h1
  have h2 := congrArg UInt8.toNat h2
  have h3 := congrArg UInt8.toNat h3
  have h4 := congrArg UInt8.toNat h4
  rw [digitByte_nat, digitByte_nat] at h1 h2 h3 h4
  exact ⟨by omega, h5⟩

theorem rfc3339_inj {x y : Stamp} (hx : GoodStamp x) (hy : GoodStamp y) (x0 : 0 ≤ x.date.year) (x9 : x.date.year ≤ 9999)
    (y0 : 0 ≤ y.date.year) (y9 : y.date.year ≤ 9999) {a b : Str} (h : rfc3339 x a = rfc3339 y b) : x.secondOf = y.secondOf ∧ a = b := by
  unfold rfc3339 at h
  simp only [List.append_assoc] at h
  obtain ⟨e1, h⟩ := four_inj (by omega) (by omega) h
  obtain ⟨m1, m2, m3, m4⟩ := hx.date
  obtain ⟨n1, n2, n3, n4⟩ := hy.date
  obtain ⟨e2, h⟩ := two_inj (by omega) (by omega) (List.append_cancel_left h)
  obtain ⟨e3, h⟩ := two_inj (goodDate_day_lt hx.date) (goodDate_day_lt hy.date) (List.append_cancel_left h)
  have b1 := hx.hour; have b2 := hy.hour; have b3 := hx.minute; have b4 := hy.minute; have b5 := hx.second; have b6 := hy.second
  obtain ⟨e4, h⟩ := two_inj (by omega) (by omega) (List.append_cancel_left h)
  obtain ⟨e5, h⟩ := two_inj (by omega) (by omega) (List.append_cancel_left h)
  obtain ⟨e6, h⟩ := two_inj (by omega) (by omega) (List.append_cancel_left h)
  refine ⟨?_, List.append_cancel_right h⟩
  have ed : x.date = y.date := by
    cases hxd : x.date with | mk xa xb xc =>
    cases hyd : y.date with | mk ya yb yc =>
    rw [hxd] at e1 e2 e3 x0
    rw [hyd] at e1 e2 e3 y0
    dsimp only at e1 e2 e3 x0 y0
    rw [show xa = ya by omega, e2, e3]
  unfold Spec.Stamp.secondOf
  rw [ed, e4, e5, e6]

theorem millis_unique {frac : Str} {a b : Nat} (ha : Millis frac a) (hb : Millis frac b) : a = b := by
  rcases ha with ⟨h1, h2⟩ | ⟨d, h1, -, -, h2⟩ <;> rcases hb with ⟨h3, h4⟩ | ⟨d', h3, -, -, h4⟩
  · omega
  · rw [h1] at h3; cases h3
  · rw [h1] at h3; cases h3
  · rw [h1] at h3
    injection h3 with _ h3
    subst h3
    omega

/-- A text says one thing. -/
theorem C115_one_reading {text : Str} {s s' : Int} {ms ms' : Nat} (h : Says text s ms) (h' : Says text s' ms') : s = s' ∧ ms = ms' := by
  obtain ⟨f, g, frac, hf, hg, h0, h9, hm, rfl⟩ := h
  obtain ⟨f', g', frac', hf', hg', h0', h9', hm', e⟩ := h'
  rw [stamp_civil hf hg, stamp_civil hf' hg'] at e
  rw [calendar_unique hf civilOf_calendar] at h0 h9
  rw [calendar_unique hf' civilOf_calendar] at h0' h9'
  obtain ⟨k1, k2⟩ := stamp_good s
  obtain ⟨k3, k4⟩ := stamp_good s'
  obtain ⟨e1, e2⟩ := rfc3339_inj k1 k3 h0 h9 h0' h9' e
  rw [k2, k4] at e1
  subst e2
  exact ⟨e1, millis_unique hm hm'⟩

/-! ### The property -/

/-- **C115** (exact).  The time stamp of a logger that is made at `t`, where clocks are `off` seconds ahead of UTC, read as what it looks
like, says the second `off` seconds later than `t`, with its milliseconds; nothing else.  (For local times in the years 0 to 9999.) -/
theorem C115_exact (off t : Int) (f : Int → Civil) (hf : Calendar f) (h0 : 0 ≤ (f ((t / 10 ^ 9 + off) / 86400)).year)
    (h9 : (f ((t / 10 ^ 9 + off) / 86400)).year ≤ 9999) (s : Int) (ms : Nat) :
    Says (clockText off t) s ms ↔ s = t / 10 ^ 9 + off ∧ (ms : Int) = t % 10 ^ 9 / 10 ^ 6 := by
  have e9 : (10 : Int) ^ 9 = 1000000000 := by decide
  have e6 : (10 : Int) ^ 6 = 1000000 := by decide
  rw [e9] at h0 h9 ⊢
  rw [e6]
  rw [calendar_unique hf civilOf_calendar] at h0 h9
  have key : Says (clockText off t) (t / 1000000000 + off) ((t % 1000000000).toNat / 1000000) :=
    ⟨civilOf, weekdayOf, _, civilOf_calendar, weekdayOf_week, h0, h9, milli_spec _ (by omega), clock_civil off t h0 h9⟩
  constructor
  · intro h
    obtain ⟨h1, h2⟩ := C115_one_reading h key
    exact ⟨h1, by omega⟩
  · rintro ⟨rfl, h⟩
    have : ms = (t % 1000000000).toNat / 1000000 := by omega
    rw [this]
    exact key

/-- **C115** (partial).  Where clocks are set to UTC, the stamp says when the logger was made, to the millisecond. -/
theorem C115_utc_partial (t : Int) (f : Int → Civil) (hf : Calendar f) (h0 : 0 ≤ (f (t / 10 ^ 9 / 86400)).year)
    (h9 : (f (t / 10 ^ 9 / 86400)).year ≤ 9999) : ∃ ms : Nat, (ms : Int) = t % 10 ^ 9 / 10 ^ 6 ∧ Says (clockText 0 t) (t / 10 ^ 9) ms := by
  refine ⟨(t % 10 ^ 9 / 10 ^ 6).toNat, by omega, ?_⟩
  exact (C115_exact 0 t f hf (by rw [Int.add_zero]; exact h0) (by rw [Int.add_zero]; exact h9) _ _).2 ⟨by omega, by omega⟩

section
variable {ν : Type}

theorem addAll_other : ∀ (m : List (Str × FV ν)) (f : Str → Option (FV ν)) (k : Str), (∀ e ∈ m, e.1 ≠ k) → addAll f m k = f k
  | [], _, _, _ => rfl
  | e :: t, f, k, h => by
    have h1 : addAll f (e :: t) = addAll (updAt f e.1 (some e.2)) t := rfl
    rw [h1, addAll_other t _ k fun x hx => h x (List.mem_cons_of_mem _ hx)]
    unfold updAt
    rw [if_neg (fun hk => h e (List.mem_cons_self ..) hk.symm)]

/-- What stays true of a logger whose stamp is left alone. -/
def StampInv (now : Str) (x : LgVal ν) : Prop :=
  x.fields b!"@timestamp" = some (.str now) ∧ x.cfg.key b!"@level" = b!"@level" ∧ x.cfg.key b!"error.message" = b!"error.message"

theorem stamp_step (enc : (Str → Option (FV ν)) → Option Str) (v : LogVal ν) (l : Nat) (now : Str) (op : LogOp ν) (hop : LeavesStamp l op)
    (h : ∃ x, v.logs[l]? = some x ∧ StampInv now x) : ∃ x, (logValStep enc v op).logs[l]? = some x ∧ StampInv now x := by
  obtain ⟨x, hx, i1, i2, i3⟩ := h
  have on : ∀ (k : Nat) (f : LgVal ν → LgVal ν), (k = l → StampInv now (f x)) → ∃ y, (v.onLog k f).logs[l]? = some y ∧ StampInv now y := by
    intro k f hf
    unfold LogVal.onLog
    dsimp only
    rw [List.getElem?_modify, hx]
    by_cases hk : k = l
    · exact ⟨f x, by simp [hk], hf hk⟩
    · exact ⟨x, by simp [hk], i1, i2, i3⟩
  have wr : ∀ (k : Nat) (lvl : Int) (msg : Option Str), ∃ y, (v.write enc k lvl msg).logs[l]? = some y ∧ StampInv now y := by
    intro k lvl msg
    by_cases hk : k = l
    · subst hk
      unfold LogVal.write
      rw [hx]
      dsimp only
      split
      · refine ⟨_, List.getElem?_set_self (List.getElem?_eq_some_iff.1 hx).1, ?_⟩
        cases msg with
        | none =>
          refine ⟨?_, i2, i3⟩
          simp only [LgVal.stamped, updAt, i2, i3]
          rw [if_neg (by decide), if_neg (by decide)]
          exact i1
        | some m =>
          refine ⟨?_, i2, i3⟩
          simp only [LgVal.stamped, updAt, i2, i3]
          rw [if_neg (by decide), if_neg (by decide), if_neg (by decide)]
          exact i1
      · exact ⟨x, hx, i1, i2, i3⟩
    · exact ⟨x, (write_logs_ne enc v lvl msg hk).trans hx, i1, i2, i3⟩
  cases op with
  | newConfig | cfgClone | cfgSetLevel | cfgSetWriter | cfgStdKeys | config => exact ⟨x, hx, i1, i2, i3⟩
  | new now' => exact ⟨x, getElem?_append_some hx, i1, i2, i3⟩
  | clone k => exact ⟨x, getElem?_append_some hx, i1, i2, i3⟩
  | setConfig k c =>
    simp only [logValStep]
    split
    · exact ⟨x, hx, i1, i2, i3⟩
    · exact on k _ fun hk => absurd hk hop
  | stdKeys k a b => exact on k _ fun hk => absurd hk hop
  | add k key y =>
    refine on k _ fun hk => ⟨?_, i2, i3⟩
    simp only [updAt]
    rw [if_neg (fun h => hop hk h.symm)]
    exact i1
  | addDebug k key y =>
    refine on k _ fun hk => ?_
    split
    · refine ⟨?_, i2, i3⟩
      simp only [updAt]
      rw [if_neg (fun h => hop hk h.symm)]
      exact i1
    · exact ⟨i1, i2, i3⟩
  | merge k m =>
    exact on k _ fun hk => ⟨(addAll_other m _ _ (hop hk)).trans i1, i2, i3⟩
  | writer k w => exact on k _ fun _ => ⟨i1, i2, i3⟩
  | setLevel k n => exact on k _ fun _ => ⟨i1, i2, i3⟩
  | error k e =>
    refine on k _ fun _ => ?_
    cases e with
    | none => exact ⟨i1, i2, i3⟩
    | some e => exact ⟨i1, i2, i3⟩
  | log k lvl => exact wr k lvl none
  | logf k lvl msg => exact wr k lvl (some msg)

theorem stamp_run (enc : (Str → Option (FV ν)) → Option Str) (l : Nat) (now : Str) : ∀ (ops : List (LogOp ν)) (v : LogVal ν),
    (∀ op ∈ ops, LeavesStamp l op) → (∃ x, v.logs[l]? = some x ∧ StampInv now x) →
    ∃ x, (ops.foldl (logValStep enc) v).logs[l]? = some x ∧ StampInv now x
  | [], _, _, h => h
  | op :: t, v, ho, h => by
    rw [List.foldl_cons]
    exact stamp_run enc l now t _ (fun o hm => ho o (List.mem_cons_of_mem _ hm)) (stamp_step enc v l now op (ho op (List.mem_cons_self ..)) h)

/-- **C115** (which moment).  A logger made at `t`; then any calls, for however long, that leave its time stamp alone; then a message
that its level lets pass: the record has the time stamp of the moment the logger was made. -/
theorem C115_when_made (enc : (Str → Option (FV ν)) → Option Str) (ops later : List (LogOp ν)) (off t : Int)
    (hq : ∀ op ∈ later, LeavesStamp (logVals enc ops).logs.length op) (lvl : Int) (msg : Str) (lv : Int)
    (hlv : levelOf (logRun enc (ops ++ [.new (clockText off t)] ++ later)) (logVals enc ops).logs.length = some lv) (hle : lvl ≤ lv) :
    ∃ (writer : Nat) (rec : Str → Option (FV ν)),
      (logRun enc (ops ++ [.new (clockText off t)] ++ later ++ [.logf (logVals enc ops).logs.length lvl msg])).out =
        (logRun enc (ops ++ [.new (clockText off t)] ++ later)).out ++ [(writer, line enc rec)] ∧
      rec b!"message" = some (.str msg) ∧ rec b!"@timestamp" = some (.str (clockText off t)) := by
  have hnew : ∃ x, (logVals enc (ops ++ [.new (clockText off t)])).logs[(logVals enc ops).logs.length]? = some x ∧ StampInv (clockText off t) x := by
    rw [logVals_snoc]
    simp only [logValStep]
    rw [List.getElem?_append_right (Nat.le_refl _), Nat.sub_self]
    exact ⟨_, rfl, rfl, rfl, rfl⟩
  obtain ⟨x, hx, i1, i2, i3⟩ := stamp_run enc _ _ later _ hq hnew
  have hx' : (logVals enc (ops ++ [.new (clockText off t)] ++ later)).logs[(logVals enc ops).logs.length]? = some x := by
    unfold logVals at hx ⊢
    rw [List.foldl_append]
    exact hx
  have hlev : x.cfg.level = lv := by
    unfold levelOf at hlv
    rw [C49_values, hx'] at hlv
    injection hlv
  obtain ⟨rec, h1, -, h3⟩ := C50_record enc _ _ lvl msg x hx' (by rw [hlev]; exact hle)
  refine ⟨_, rec, h1, ?_, ?_⟩
  · rw [h3, i2, i3, if_neg (by decide), if_neg (by decide), if_pos rfl]
  · rw [h3, i2, i3, if_neg (by decide), if_neg (by decide), if_neg (by decide)]
    exact i1

/-- **C115** (Debugf).  `Server.Debugf`, called at `t` where clocks are set to UTC: if the level lets it pass, one line, whose time stamp says `t`, to
the millisecond. -/
theorem C115_debugf_partial (enc : (Str → Option (FV ν)) → Option Str) (ops : List (RLOp ν)) (t : Int) (msg : Str) (f : Int → Civil) (hf : Calendar f)
    (h0 : 0 ≤ (f (t / 10 ^ 9 / 86400)).year) (h9 : (f (t / 10 ^ 9 / 86400)).year ≤ 9999) (hl : 5 ≤ serverLevel ops) :
    ∃ (rec : Str → Option (FV ν)) (stamp : Str) (ms : Nat),
      (rlRun enc (ops ++ [.serverDebugf (clockText 0 t) msg])).heap.out = (rlRun enc ops).heap.out ++ [(serverWriter ops, line enc rec)] ∧
      rec b!"message" = some (.str msg) ∧ rec b!"@timestamp" = some (.str stamp) ∧ Says stamp (t / 10 ^ 9) ms ∧ (ms : Int) = t % 10 ^ 9 / 10 ^ 6 := by
  obtain ⟨ms, h1, h2⟩ := C115_utc_partial t f hf h0 h9
  have h := C89_debugf enc ops (clockText 0 t) msg
  rw [if_pos hl] at h
  exact ⟨_, _, ms, h, rfl, rfl, h2, h1⟩

end

/-- **C115** (violated).  Three things a reader of the log relies on and does not get: one hour east of UTC the stamp, with its "Z", says a time
an hour from now; a message logged ten minutes after its logger was made has the same stamp as one logged at once; and, as zeros are left out, of two
stamps in one second the later can come first in the order of texts. -/
theorem C115_violated :
    (Says (clockText 3600 784111777000000000) 784115377 0 ∧ ¬ ∃ ms, Says (clockText 3600 784111777000000000) 784111777 ms) ∧
    (∃ enc : (Str → Option (FV Unit)) → Option Str,
      (logRun enc [.new (clockText 0 784111777000000000), .logf 0 4 b!"started", .logf 0 4 b!"ended, ten minutes later"]).out =
        [(0, b!"1994-11-06T08:49:37Z started\n"), (0, b!"1994-11-06T08:49:37Z ended, ten minutes later\n")]) ∧
    (clockText 0 784111777500000000 < clockText 0 784111777000000000) := by
  have h : ∀ s ms, Says (clockText 3600 784111777000000000) s ms ↔ s = 784111777000000000 / 10 ^ 9 + 3600 ∧ (ms : Int) = 784111777000000000 % 10 ^ 9 / 10 ^ 6 :=
    C115_exact 3600 784111777000000000 civilOf civilOf_calendar (by decide +kernel) (by decide +kernel)
  refine ⟨⟨(h _ _).2 ⟨by decide, by decide⟩, ?_⟩, ⟨fun f => match f b!"@timestamp", f b!"message" with
    | some (.str s), some (.str m) => some (s ++ b!" " ++ m)
    | _, _ => none, by decide +kernel⟩, by decide +kernel⟩
  rintro ⟨ms, hm⟩
  exact absurd ((h _ _).1 hm).1 (by decide)

/-- 6 November 1994, 08:49:37.25 UTC, said in UTC. -/
example : Says (clockText 0 784111777250000000) 784111777 250 :=
  (C115_exact 0 784111777250000000 civilOf civilOf_calendar (by decide +kernel) (by decide +kernel) _ _).2 ⟨by decide, by decide⟩

/-- The stamp survives what a handler does with its logger. -/
example : (logRun (ν := Unit) (fun f => match f b!"@timestamp" with | some (.str s) => some s | _ => none)
    ([.new b!"x"] ++ [.new (clockText 0 784111777250000000)] ++
      [.add 1 b!"user" (.str b!"ann"), .setLevel 1 4, .error 1 (some b!"no"), .add 0 b!"@timestamp" (.str b!"y")] ++ [.logf 1 4 b!"m"])).out =
    [(0, b!"1994-11-06T08:49:37.25Z\n")] := by decide +kernel
example : ∀ op ∈ ([.add 1 b!"user" (.str b!"ann"), .setLevel 1 4, .error 1 (some b!"no"), .add 0 b!"@timestamp" (.str b!"y")] : List (LogOp Unit)),
    LeavesStamp 1 op := by
  intro op hop
  simp only [List.mem_cons, List.not_mem_nil, or_false] at hop
  rcases hop with rfl | rfl | rfl | rfl
  · exact fun _ => by decide
  · trivial
  · trivial
  · exact fun h => absurd h (by decide)

end Verif
