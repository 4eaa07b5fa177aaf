import Verif.Model.Group
/-
C84: limits on a request's goroutines.
-/
namespace Verif

/-- Goroutines that are not done; this includes all whose function is running. -/
def groupBusy (s : GroupSt) : Nat := s.gs.countP (· != .done)

def GOp.isLimit : GOp → Bool
  | .setLimit _ => true
  | _ => false

/-- With a limit, the tokens are those of the goroutines that are not done. -/
def GroupInv (n : Nat) (s : GroupSt) : Prop := s.sem = some (n, groupBusy s) ∧ groupBusy s ≤ n

theorem countP_set {l : List GPhase} {k : Nat} {a b : GPhase} (h : l[k]? = some a) :
    (l.set k b).countP (· != .done) + (if a != .done then 1 else 0) =
      l.countP (· != .done) + (if b != .done then 1 else 0) := by
  induction l generalizing k with
  | nil => simp at h
  | cons x t ih =>
    cases k with
    | zero =>
      simp at h; subst h
      simp only [List.set_cons_zero, List.countP_cons]; omega
    | succ k =>
      simp at h
      have := ih h
      simp only [List.set_cons_succ, List.countP_cons]; omega

theorem groupBusy_spawn (s : GroupSt) : groupBusy (groupSpawn s) = groupBusy s + 1 := by
  simp [groupBusy, groupSpawn, List.countP_append]

theorem groupInv_step {n : Nat} {s s' : GroupSt} {o : GOp} {b : Bool} (h : GroupInv n s) (ho : o.isLimit = false)
    (hs : groupStep s o = .ok s' b) : GroupInv n s' := by
  obtain ⟨h1, h2⟩ := h
  have room : groupRoom s = true → groupBusy s < n := by
    intro hr; simpa [groupRoom, h1] using hr
  have spawn : groupRoom s = true → GroupInv n (groupSpawn s) := by
    intro hr
    refine ⟨?_, ?_⟩
    · rw [groupBusy_spawn]; simp [groupSpawn, h1]
    · rw [groupBusy_spawn]; have := room hr; omega
  cases o with
  | setLimit m => cases ho
  | go =>
    simp only [groupStep] at hs
    split at hs
    · cases hs; exact spawn (by assumption)
    · cases hs
  | tryGo =>
    simp only [groupStep] at hs
    split at hs
    · cases hs; exact spawn (by assumption)
    · cases hs; exact ⟨h1, h2⟩
  | fin k =>
    simp only [groupStep] at hs
    split at hs
    · rename_i hk
      cases hs
      have e := countP_set (b := .returned) hk
      have e' : groupBusy ⟨s.sem, s.gs.set k .returned⟩ = groupBusy s := by simpa [groupBusy] using e
      exact ⟨by rw [e']; exact h1, by rw [e']; exact h2⟩
    · cases hs
  | rel k =>
    simp only [groupStep, h1] at hs
    split at hs
    · rename_i hk
      have e := countP_set (b := .done) hk
      simp only [bne_self_eq_false, Bool.false_eq_true, if_false, Nat.add_zero] at e
      rw [if_pos (by decide)] at e
      split at hs
      · rename_i h0; simp at h0
      · cases hs
      · rename_i cap len hc
        cases hs
        simp only [Option.some.injEq, Prod.mk.injEq] at hc
        obtain ⟨rfl, hl⟩ := hc
        have e' : groupBusy ⟨some (n, len), s.gs.set k .done⟩ = len := by
          show (s.gs.set k .done).countP _ = len
          have : s.gs.countP (· != .done) = len + 1 := hl
          omega
        exact ⟨by rw [e'], by rw [e']; omega⟩
    · cases hs
  | wait =>
    simp only [groupStep] at hs
    split at hs <;> cases hs
    exact ⟨h1, h2⟩

theorem groupInv_run {n : Nat} {s s' : GroupSt} {os : List GOp} (h : GroupInv n s) (ho : ∀ o ∈ os, o.isLimit = false)
    (hs : groupRun s os = some s') : GroupInv n s' := by
  induction os generalizing s with
  | nil => cases hs; exact h
  | cons o os ih =>
    simp only [groupRun] at hs
    split at hs
    · exact ih (groupInv_step h (ho o (by simp)) (by assumption)) (fun o ho' => ho o (by simp [ho'])) hs
    · cases hs

/-- Whatever the history, there are no more tokens than goroutines that are not done. -/
theorem groupTokens_step {s s' : GroupSt} {o : GOp} {b : Bool} (h : ∀ c l, s.sem = some (c, l) → l ≤ groupBusy s)
    (hs : groupStep s o = .ok s' b) : ∀ c l, s'.sem = some (c, l) → l ≤ groupBusy s' := by
  have spawn : ∀ c l, (groupSpawn s).sem = some (c, l) → l ≤ groupBusy (groupSpawn s) := by
    intro c l hc
    rw [groupBusy_spawn]
    obtain ⟨sem, gs⟩ := s
    cases sem with
    | none => cases hc
    | some p =>
      obtain ⟨c0, l0⟩ := p
      have := h c0 l0 rfl
      simp only [groupSpawn, Option.map_some, Option.some.injEq, Prod.mk.injEq] at hc
      omega
  cases o with
  | setLimit m =>
    simp only [groupStep] at hs
    split at hs
    · cases hs; intro c l hc; cases hc
    · split at hs
      · cases hs
      · cases hs; intro c l hc; cases hc; exact Nat.zero_le _
  | go =>
    simp only [groupStep] at hs
    split at hs <;> cases hs
    exact spawn
  | tryGo =>
    simp only [groupStep] at hs
    split at hs <;> cases hs
    · exact spawn
    · exact h
  | fin k =>
    simp only [groupStep] at hs
    split at hs
    · rename_i hk
      cases hs
      have e := countP_set (b := .returned) hk
      have e' : groupBusy ⟨s.sem, s.gs.set k .returned⟩ = groupBusy s := by simpa [groupBusy] using e
      rw [e']; exact h
    · cases hs
  | rel k =>
    simp only [groupStep] at hs
    split at hs
    · rename_i hk
      have e := countP_set (b := .done) hk
      simp only [bne_self_eq_false, Bool.false_eq_true, if_false, Nat.add_zero] at e
      rw [if_pos (by decide)] at e
      split at hs
      · cases hs; intro c l hc; cases hc
      · cases hs
      · rename_i cap len hc
        cases hs
        intro c l hcl
        cases hcl
        have := h _ _ hc
        show len ≤ (s.gs.set k .done).countP _
        have e2 : groupBusy s = s.gs.countP (· != .done) := rfl
        omega
    · cases hs
  | wait =>
    simp only [groupStep] at hs
    split at hs <;> cases hs
    exact h

theorem groupTokens_run {s s' : GroupSt} {os : List GOp} (h : ∀ c l, s.sem = some (c, l) → l ≤ groupBusy s)
    (hs : groupRun s os = some s') : ∀ c l, s'.sem = some (c, l) → l ≤ groupBusy s' := by
  induction os generalizing s with
  | nil => cases hs; exact h
  | cons o os ih =>
    simp only [groupRun] at hs
    split at hs
    · exact ih (groupTokens_step h (by assumption)) hs
    · cases hs

theorem groupRun_append (s : GroupSt) (a b : List GOp) :
    groupRun s (a ++ b) = (groupRun s a).bind fun s' => groupRun s' b := by
  induction a generalizing s with
  | nil => rfl
  | cons o a ih =>
    simp only [List.cons_append, groupRun]
    split
    · exact ih _
    · rfl

theorem groupBusy_zero {s : GroupSt} : groupBusy s = 0 ↔ ∀ g ∈ s.gs, g = .done := by
  simp [groupBusy, List.countP_eq_zero]

/-- After any history that leaves no goroutine running, EGSetLimit(n) succeeds and establishes the limit. -/
theorem groupInv_limit {s : GroupSt} {pre : List GOp} (h : groupRun groupInit pre = some s) (hd : ∀ g ∈ s.gs, g = .done)
    (n : Nat) : groupStep s (.setLimit n) = .ok ⟨some (n, 0), s.gs⟩ true ∧ GroupInv n ⟨some (n, 0), s.gs⟩ := by
  have h0 : groupBusy s = 0 := groupBusy_zero.2 hd
  have ht := groupTokens_run (s := groupInit) (fun c l hc => by cases hc) h
  have e : groupBusy ⟨some (n, 0), s.gs⟩ = 0 := h0
  refine ⟨?_, ⟨by rw [e], by rw [e]; exact Nat.zero_le _⟩⟩
  simp only [groupStep]
  rw [if_neg (by omega)]
  split
  · rename_i c l hc
    have := ht _ _ hc
    omega
  · simp

theorem groupInv_history {n : Nat} {pre os : List GOp} {s0 s : GroupSt} (h0 : groupRun groupInit pre = some s0)
    (hd : ∀ g ∈ s0.gs, g = .done) (ho : ∀ o ∈ os, o.isLimit = false)
    (h : groupRun groupInit (pre ++ .setLimit n :: os) = some s) : GroupInv n s := by
  rw [groupRun_append, h0] at h
  obtain ⟨h1, h2⟩ := groupInv_limit h0 hd n
  simp only [Option.bind_some, groupRun, h1] at h
  exact groupInv_run h2 ho h

/-- **C84** (limits).  After EGSetLimit(n) on a group with no goroutine running, whatever happened before and whatever happens
then without another EGSetLimit: at most n functions run at a time; EGTryGo returns false, and starts nothing, exactly while n
goroutines are not done, and EGGo blocks exactly then; a goroutine whose function has returned can always finish; and EGWait
returns exactly when all have. -/
theorem C84_limit_partial (n : Nat) (pre os : List GOp) (s0 : GroupSt) (h0 : groupRun groupInit pre = some s0)
    (hd : ∀ g ∈ s0.gs, g = .done) (ho : ∀ o ∈ os, o.isLimit = false) (s : GroupSt)
    (h : groupRun groupInit (pre ++ .setLimit n :: os) = some s) :
    s.gs.countP (· == .running) ≤ n ∧ groupBusy s ≤ n ∧
    (groupStep s .tryGo = .ok s false ↔ groupBusy s = n) ∧ (groupStep s .go = .blocked ↔ groupBusy s = n) ∧
    (groupBusy s < n → ∀ o, o = .go ∨ o = .tryGo →
      ∃ s', groupStep s o = .ok s' true ∧ s'.gs = s.gs ++ [.running]) ∧
    (∀ k : Nat, s.gs[k]? = some .returned → ∃ s', groupStep s (.rel k) = .ok s' true ∧ s'.gs = s.gs.set k .done) ∧
    (groupStep s .wait ≠ .blocked ↔ ∀ g ∈ s.gs, g = .done) := by
  have hinv : GroupInv n s := groupInv_history h0 hd ho h
  obtain ⟨h1, h2⟩ := hinv
  have hroom : groupRoom s = true ↔ groupBusy s < n := by simp [groupRoom, h1]
  have hnotroom : groupRoom s = false ↔ groupBusy s = n := by
    rw [← Bool.not_eq_true, hroom]; omega
  refine ⟨?_, h2, ?_, ?_, ?_, ?_, ?_⟩
  · refine Nat.le_trans (List.countP_mono_left fun x _ hx => ?_) h2
    have : x = .running := by simpa using hx
    subst this; decide
  · rw [← hnotroom]
    simp only [groupStep]
    cases groupRoom s <;> simp
  · rw [← hnotroom]
    simp only [groupStep]
    cases groupRoom s <;> simp
  · intro hb o ho'
    have hr := hroom.2 hb
    rcases ho' with rfl | rfl <;> exact ⟨groupSpawn s, by simp [groupStep, hr], rfl⟩
  · intro k hk
    have e := countP_set (b := .done) hk
    rw [if_pos (by decide), if_neg (by decide)] at e
    obtain ⟨m, hm⟩ : ∃ m, groupBusy s = m + 1 := ⟨(s.gs.set k .done).countP (· != .done), by unfold groupBusy; omega⟩
    exact ⟨⟨some (n, m), s.gs.set k .done⟩, by simp [groupStep, hk, h1, hm], rfl⟩
  · simp only [groupStep]
    by_cases ha : s.gs.all (· == .done) = true
    · rw [if_pos ha]
      simp only [ne_eq, reduceCtorEq, not_false_eq_true, true_iff]
      intro g hg
      simpa using List.all_eq_true.1 ha g hg
    · rw [if_neg ha]
      simp only [ne_eq, not_true_eq_false, false_iff]
      intro hg
      exact ha (List.all_eq_true.2 fun g hg' => by simp [hg g hg'])

/-- **C84** (a second limit).  In the same situation, a further EGSetLimit with a non-negative number panics exactly while a
goroutine is not done, and starts or stops nothing otherwise; with a negative number it never panics. -/
theorem C84_again (n : Nat) (pre os : List GOp) (s0 : GroupSt) (h0 : groupRun groupInit pre = some s0)
    (hd : ∀ g ∈ s0.gs, g = .done) (ho : ∀ o ∈ os, o.isLimit = false) (s : GroupSt)
    (h : groupRun groupInit (pre ++ .setLimit n :: os) = some s) (m : Int) :
    (groupStep s (.setLimit m) = .panic ↔ 0 ≤ m ∧ ∃ g ∈ s.gs, g ≠ .done) ∧
    (m < 0 ∨ (∀ g ∈ s.gs, g = .done) → ∃ s', groupStep s (.setLimit m) = .ok s' true ∧ s'.gs = s.gs) := by
  obtain ⟨h1, h2⟩ := groupInv_history h0 hd ho h
  have hex : (∃ g ∈ s.gs, g ≠ .done) ↔ groupBusy s ≠ 0 := by
    rw [ne_eq, groupBusy_zero]; simp
  rw [hex, ← groupBusy_zero]
  simp only [groupStep, h1]
  by_cases hm : m < 0
  · rw [if_pos hm]
    exact ⟨by simp; omega, fun _ => ⟨_, rfl, rfl⟩⟩
  · rw [if_neg hm]
    cases hb : groupBusy s with
    | zero => exact ⟨by simp, fun _ => ⟨_, rfl, rfl⟩⟩
    | succ b =>
      refine ⟨by simp; omega, fun hh => ?_⟩
      rcases hh with hh | hh
      · omega
      · cases hh

/-- The same two limits: refused while a goroutine runs, accepted once it is done. -/
example : groupRun groupInit [.setLimit 2, .go, .setLimit 3] = none ∧
    groupRun groupInit [.setLimit 2, .go, .fin 0, .rel 0, .setLimit 3, .go] = some ⟨some (3, 1), [.done, .running]⟩ := by decide

/-- **C84** (no limit).  Without EGSetLimit, or after EGSetLimit with a negative number, nothing ever blocks or is refused. -/
theorem C84_unlimited (lim : List GOp) (hl : ∀ o ∈ lim, ∃ n : Int, n < 0 ∧ o = .setLimit n) (os : List GOp)
    (ho : ∀ o ∈ os, o.isLimit = false) (s : GroupSt) (h : groupRun groupInit (lim ++ os) = some s) :
    (∀ o, o = .go ∨ o = .tryGo → ∃ s', groupStep s o = .ok s' true ∧ s'.gs = s.gs ++ [.running]) ∧
    (∀ k : Nat, s.gs[k]? = some .returned → ∃ s', groupStep s (.rel k) = .ok s' true ∧ s'.gs = s.gs.set k .done) := by
  have key : ∀ (os : List GOp), (∀ o ∈ os, o.isLimit = false ∨ ∃ n : Int, n < 0 ∧ o = .setLimit n) → ∀ s0 s' : GroupSt,
      s0.sem = none → groupRun s0 os = some s' → s'.sem = none := by
    intro os
    induction os with
    | nil => intro _ s0 s' h0 hr; cases hr; exact h0
    | cons o os ih =>
      intro hos s0 s' h0 hr
      simp only [groupRun] at hr
      split at hr
      case h_2 => cases hr
      case h_1 s1 b hs =>
        refine ih (fun o ho => hos o (by simp [ho])) s1 s' ?_ hr
        have spawn : (groupSpawn s0).sem = none := by simp [groupSpawn, h0]
        rcases hos o (by simp) with hf | ⟨n, hn, rfl⟩
        · cases o with
          | setLimit m => cases hf
          | go =>
            simp only [groupStep] at hs
            split at hs <;> cases hs; exact spawn
          | tryGo =>
            simp only [groupStep] at hs
            split at hs <;> cases hs
            · exact spawn
            · exact h0
          | fin k =>
            simp only [groupStep] at hs
            split at hs <;> cases hs; exact h0
          | rel k =>
            simp only [groupStep, h0] at hs
            split at hs <;> cases hs; rfl
          | wait =>
            simp only [groupStep] at hs
            split at hs <;> cases hs; exact h0
        · simp only [groupStep, if_pos hn] at hs
          cases hs; rfl
  have hs : s.sem = none := by
    refine key (lim ++ os) (fun o ho' => ?_) groupInit s rfl h
    rcases List.mem_append.1 ho' with h1 | h1
    · exact .inr (hl o h1)
    · exact .inl (ho o h1)
  have hr : groupRoom s = true := by simp [groupRoom, hs]
  refine ⟨fun o ho' => ?_, fun k hk => ?_⟩
  · rcases ho' with rfl | rfl <;> exact ⟨groupSpawn s, by simp [groupStep, hr], rfl⟩
  · exact ⟨⟨none, s.gs.set k .done⟩, by simp [groupStep, hk, hs], rfl⟩

/-- Two functions of a limit of two; a third is refused until one is done. -/
example : groupRun groupInit [.setLimit 2, .go, .tryGo, .tryGo, .fin 0, .rel 0, .go] =
    some ⟨some (2, 2), [.done, .running, .running]⟩ := by decide

/-- With limit 0 nothing can ever be started. -/
example : groupStep ⟨some (0, 0), []⟩ .go = .blocked ∧ groupStep ⟨some (0, 0), []⟩ .tryGo = .ok ⟨some (0, 0), []⟩ false := by
  decide

/-- **C84** (setting the limit too late).  If one handler starts a goroutine and a later one sets a limit, then (1) a request
that starts nothing else never gets past EGWait: the goroutine can never finish; (2) the limit does not hold: two functions
run with limit 1. -/
theorem C84_violated :
    (∃ s, groupRun groupInit [.go, .setLimit 1, .fin 0] = some s ∧
      ∀ o, o = .wait ∨ o = .fin 0 ∨ o = .rel 0 → groupStep s o = .blocked) ∧
    (∃ s, groupRun groupInit [.go, .setLimit 1, .go, .fin 0, .rel 0, .go] = some s ∧ s.gs.countP (· == .running) = 2) := by
  refine ⟨⟨_, rfl, ?_⟩, ⟨_, rfl, by decide⟩⟩
  rintro o (rfl | rfl | rfl) <;> decide

/-! ### Exactly what a limit does -/

/-- With a limit set while `j` goroutines were not done, the tokens are those of the goroutines beyond `j`. -/
def LateInv (n j : Nat) (s : GroupSt) : Prop := ∃ t, s.sem = some (n, t) ∧ groupBusy s = j + t ∧ t ≤ n

theorem lateInv_step {n j : Nat} {s s' : GroupSt} {o : GOp} {b : Bool} (h : LateInv n j s) (ho : o.isLimit = false)
    (hs : groupStep s o = .ok s' b) : LateInv n j s' := by
  obtain ⟨t, h1, h2, h3⟩ := h
  have spawn : groupRoom s = true → LateInv n j (groupSpawn s) := by
    intro hr
    have : t < n := by simpa [groupRoom, h1] using hr
    exact ⟨t + 1, by simp [groupSpawn, h1], by rw [groupBusy_spawn, h2]; omega, this⟩
  cases o with
  | setLimit m => cases ho
  | go =>
    simp only [groupStep] at hs
    split at hs
    · cases hs; exact spawn (by assumption)
    · cases hs
  | tryGo =>
    simp only [groupStep] at hs
    split at hs
    · cases hs; exact spawn (by assumption)
    · cases hs; exact ⟨t, h1, h2, h3⟩
  | fin k =>
    simp only [groupStep] at hs
    split at hs
    · rename_i hk
      cases hs
      have e := countP_set (b := .returned) hk
      have e' : groupBusy ⟨s.sem, s.gs.set k .returned⟩ = groupBusy s := by simpa [groupBusy] using e
      exact ⟨t, h1, by rw [e', h2], h3⟩
    · cases hs
  | rel k =>
    simp only [groupStep, h1] at hs
    split at hs
    · rename_i hk
      have e := countP_set (b := .done) hk
      simp only [bne_self_eq_false, Bool.false_eq_true, if_false, Nat.add_zero] at e
      rw [if_pos (by decide)] at e
      split at hs
      · rename_i h0; simp at h0
      · cases hs
      · rename_i cap len hc
        cases hs
        simp only [Option.some.injEq, Prod.mk.injEq] at hc
        obtain ⟨rfl, rfl⟩ := hc
        refine ⟨len, rfl, ?_, by omega⟩
        show (s.gs.set k .done).countP _ = j + len
        have : s.gs.countP (· != .done) = j + (len + 1) := h2
        omega
    · cases hs
  | wait =>
    simp only [groupStep] at hs
    split at hs <;> cases hs
    exact ⟨t, h1, h2, h3⟩

theorem lateInv_run {n j : Nat} {s s' : GroupSt} {os : List GOp} (h : LateInv n j s) (ho : ∀ o ∈ os, o.isLimit = false)
    (hs : groupRun s os = some s') : LateInv n j s' := by
  induction os generalizing s with
  | nil => cases hs; exact h
  | cons o os ih =>
    simp only [groupRun] at hs
    split at hs
    · exact ih (lateInv_step h (ho o (by simp)) (by assumption)) (fun o ho' => ho o (by simp [ho'])) hs
    · cases hs

/-- **C84** (exactly).  After any history with `j` goroutines not done, EGSetLimit(n), and then anything but another EGSetLimit: between
`j` and `j + n` goroutines are not done; EGGo blocks and EGTryGo returns false exactly while `j + n` are not done; a goroutine whose
function has returned cannot finish exactly while only `j` are not done; so EGWait never returns if `j` is not 0. -/
theorem C84_exact (n : Nat) (pre os : List GOp) (s0 : GroupSt) (h0 : groupRun groupInit pre = some s0)
    (ho : ∀ o ∈ os, o.isLimit = false) (s : GroupSt) (h : groupRun groupInit (pre ++ .setLimit n :: os) = some s) :
    groupBusy s0 ≤ groupBusy s ∧ groupBusy s ≤ groupBusy s0 + n ∧
    (groupStep s .go = .blocked ↔ groupBusy s = groupBusy s0 + n) ∧
    (groupStep s .tryGo = .ok s false ↔ groupBusy s = groupBusy s0 + n) ∧
    (∀ k : Nat, s.gs[k]? = some .returned → (groupStep s (.rel k) = .blocked ↔ groupBusy s = groupBusy s0)) ∧
    (0 < groupBusy s0 → groupStep s .wait = .blocked) := by
  have hinv : LateInv n (groupBusy s0) s := by
    rw [groupRun_append, h0] at h
    simp only [Option.bind_some, groupRun] at h
    split at h
    · rename_i s1 b hs
      refine lateInv_run ?_ ho h
      simp only [groupStep] at hs
      rw [if_neg (by omega)] at hs
      split at hs
      · cases hs
      · cases hs
        exact ⟨0, by simp, rfl, Nat.zero_le _⟩
    · cases h
  obtain ⟨t, h1, h2, h3⟩ := hinv
  have hroom : groupRoom s = true ↔ t < n := by simp [groupRoom, h1]
  refine ⟨by omega, by omega, ?_, ?_, ?_, ?_⟩
  · simp only [groupStep]
    by_cases hr : groupRoom s = true
    · rw [if_pos hr]; have := hroom.1 hr; simp; omega
    · rw [if_neg hr]; have : ¬ t < n := fun a => hr (hroom.2 a); simp; omega
  · simp only [groupStep]
    by_cases hr : groupRoom s = true
    · rw [if_pos hr]; have := hroom.1 hr; simp; omega
    · rw [if_neg hr]; have : ¬ t < n := fun a => hr (hroom.2 a); simp; omega
  · intro k hk
    simp only [groupStep, hk, if_true, h1]
    cases t with
    | zero => simp; omega
    | succ t => simp; omega
  · intro hj
    simp only [groupStep]
    rw [if_neg]
    intro ha
    have : groupBusy s = 0 := groupBusy_zero.2 fun g hg => by simpa using List.all_eq_true.1 ha g hg
    omega

/-- One goroutine, then limit 1: two run at a time, and one of the two never finishes. -/
example : groupRun groupInit ([.go] ++ .setLimit 1 :: [.go, .fin 0, .fin 1, .rel 1]) = some ⟨some (1, 0), [.returned, .done]⟩ := by
  decide

end Verif
