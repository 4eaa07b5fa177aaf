import Verif.Props.Life
/-
C45_exact, C94_exact: how often the underlying shutdown is called in a Run, and when its listener is closed.
-/
namespace Verif

/-- Calls of `Server.Shutdown`, which takes its turn at the once-only counter: by users, and by Run itself if there is no shutdown
time-out (server_run.go:61). -/
def takesTurn {ε : Type} (timeout : Int) : RunLbl ε → Bool
  | .userShutdown => true
  | .watchCtx => decide (timeout ≤ 0)
  | _ => false

/-- Shutdowns that bypass the counter (server_run.go:55-59, 65-68). -/
def bypasses {ε : Type} (timeout : Int) : RunLbl ε → Bool
  | .watchSig => true
  | .watchCtx => decide (timeout > 0)
  | _ => false

/-- The underlying shutdown is called at `l`, after the events `x`. -/
def Calls {ε : Type} (timeout : Int) (x : List (RunLbl ε)) (l : RunLbl ε) : Prop :=
  bypasses timeout l = true ∨ (takesTurn timeout l = true ∧ x.countP (takesTurn timeout) % 2 ^ 64 = 0)

instance {ε : Type} (timeout : Int) (x : List (RunLbl ε)) (l : RunLbl ε) : Decidable (Calls timeout x l) := by
  unfold Calls; infer_instance

theorem runRun_snoc {ε : Type} (x : List (RunLbl ε)) (l : RunLbl ε) : ∀ s, runRun s (x ++ [l]) = (runRun s x).bind fun s' => runStep s' l := by
  induction x with
  | nil =>
    intro s
    simp only [List.nil_append, runRun, Option.bind_some]
    cases runStep s l <;> rfl
  | cons a x ih =>
    intro s
    simp only [List.cons_append, runRun]
    cases runStep s a with
    | none => rfl
    | some s1 => exact ih s1

/-- What a step does to the counters and to the listener. -/
theorem runStep_facts {ε : Type} (s s' : RunSt ε) (l : RunLbl ε) (h : runStep s l = some s') :
    s'.timeout = s.timeout ∧
    s'.lnReg = (s.lnReg || match l with | .serveStart => true | _ => false) ∧
    s'.locker = s.locker + (if takesTurn s.timeout l then 1 else 0) ∧
    s'.calls = s.calls + (if bypasses s.timeout l || (takesTurn s.timeout l && decide (s.locker + 1 = 1)) then 1 else 0) ∧
    s'.closed = (s.closed || (s.lnReg && (bypasses s.timeout l || (takesTurn s.timeout l && decide (s.locker + 1 = 1))))) := by
  obtain ⟨timeout, cancelled, signalled, lnReg, closed, serve, watch, egErr, locker, calls⟩ := s
  cases l <;> simp only [runStep, RunSt.shutdown, RunSt.fastShutdown, RunSt.report, takesTurn, bypasses] at h ⊢
  case cancel | signal => cases h; simp
  case userShutdown =>
    cases h
    by_cases hl : locker = 0#64 <;> cases lnReg <;> simp [hl]
  case serveFail e =>
    split at h
    · cases h
    · cases h; simp
  case serveStart | serveEnd =>
    split at h
    · cases h; simp
    · cases h
  case watchCtx =>
    split at h
    · by_cases ht : timeout > 0
      · have ht' : ¬ timeout ≤ 0 := by omega
        rw [if_pos ht] at h
        cases h
        cases lnReg <;> simp [ht, ht']
      · have ht' : timeout ≤ 0 := by omega
        rw [if_neg ht] at h
        cases h
        by_cases hl : locker = 0#64 <;> cases lnReg <;> simp [hl, ht, ht']
    · cases h
  case watchSig =>
    split at h
    · cases h
      cases lnReg <;> simp
    · cases h
  case watchEnd r =>
    split at h
    · split at h
      · cases h
      · cases h; simp
    · cases h

theorem snoc_ind {α : Type} {P : List α → Prop} (h0 : P []) (h1 : ∀ x l, P x → P (x ++ [l])) (x : List α) : P x := by
  have key : ∀ n, ∀ x : List α, x.length = n → P x := by
    intro n
    induction n with
    | zero => intro x hl; rw [List.length_eq_zero_iff.1 hl]; exact h0
    | succ n ih =>
      intro x hl
      rcases List.eq_nil_or_concat x with rfl | ⟨b, o, rfl⟩
      · exact h0
      · rw [List.concat_eq_append] at hl ⊢
        exact h1 b o (ih b (by simp at hl; omega))
  exact key _ x rfl

theorem locker_turn (n : Nat) : (BitVec.ofNat 64 n + 1 = 1) ↔ n % 2 ^ 64 = 0 := by
  have h1 : (BitVec.ofNat 64 n + 1 = 1) ↔ BitVec.ofNat 64 n = 0#64 := by
    constructor
    · intro h
      have h2 : BitVec.ofNat 64 n + 1#64 - 1#64 = 1#64 - 1#64 := congrArg (· - 1#64) h
      rw [BitVec.add_sub_cancel, BitVec.sub_self] at h2
      exact h2
    · intro h; rw [h]; rfl
  rw [h1, ← BitVec.toNat_inj, BitVec.toNat_ofNat, BitVec.toNat_ofNat, Nat.zero_mod]

/-- Rounding up. -/
theorem turn_up (M n b : Nat) (hM : 0 < M) :
    (n + b + (M - 1)) / M = (n + (M - 1)) / M + (if b = 1 ∧ n % M = 0 then 1 else 0) ∨ 1 < b := by
  by_cases hb : 1 < b
  · exact .inr hb
  · left
    have h1 := Nat.div_add_mod n M
    have h2 := Nat.mod_lt n hM
    generalize n / M = q at h1
    generalize n % M = r at h1 h2 ⊢
    subst h1
    have e : ∀ x y, x < M → (M * q + y * M + x) / M = q + y := by
      intro x y hx
      rw [show M * q + y * M + x = x + M * (q + y) by rw [Nat.mul_add, Nat.mul_comm y M]; omega, Nat.add_mul_div_left _ _ hM,
        Nat.div_eq_of_lt hx]
      omega
    have hb' : b = 0 ∨ b = 1 := by omega
    by_cases hr : r = 0
    · subst hr
      rcases hb' with rfl | rfl
      · simp
      · have e1 := e 0 1 hM
        have e2 := e (M - 1) 0 (by omega)
        rw [show M * q + 0 + 1 + (M - 1) = M * q + 1 * M + 0 by omega, e1,
          show M * q + 0 + (M - 1) = M * q + 0 * M + (M - 1) by omega, e2]
        simp
    · rcases hb' with rfl | rfl
      · simp
      · have e1 := e r 1 h2
        have e2 := e (r - 1) 1 (by omega)
        rw [show M * q + r + 1 + (M - 1) = M * q + 1 * M + r by omega, e1,
          show M * q + r + (M - 1) = M * q + 1 * M + (r - 1) by omega, e2]
        simp [hr]

theorem calls_step (M n m : Nat) (hM : 0 < M) (byp turn : Bool) (hx : byp = true → turn = false) :
    m + (n + (M - 1)) / M + (if (byp || (turn && decide (n % M = 0))) = true then 1 else 0) =
      m + (if byp = true then 1 else 0) + (n + (if turn = true then 1 else 0) + (M - 1)) / M := by
  cases byp with
  | true =>
    rw [hx rfl]
    simp only [Bool.true_or, if_true, Bool.false_eq_true, if_false, Nat.add_zero]
    omega
  | false =>
    cases turn with
    | false => simp only [Bool.false_and, Bool.or_self, Bool.false_eq_true, if_false, Nat.add_zero]
    | true =>
      rcases turn_up M n 1 hM with e | e
      · simp only [Bool.true_and, Bool.false_or, decide_eq_true_eq, Bool.false_eq_true, if_false, if_true, Nat.add_zero]
        rw [e]
        simp only [true_and]
        omega
      · omega

/-- The calls among `ls`, each with the events before it. -/
def callsIn {ε : Type} (timeout : Int) (ls : List (RunLbl ε)) : Nat :=
  ls.countP (bypasses timeout) + (ls.countP (takesTurn timeout) + (2 ^ 64 - 1)) / 2 ^ 64

theorem run_facts {ε : Type} (timeout : Int) (ls : List (RunLbl ε)) : ∀ s, runRun (runInit ε timeout) ls = some s →
    s.timeout = timeout ∧ (s.lnReg = true ↔ ∃ x y, ls = x ++ .serveStart :: y) ∧
    s.locker = BitVec.ofNat 64 (ls.countP (takesTurn timeout)) ∧ s.calls = callsIn timeout ls ∧
    (s.closed = true ↔ ∃ x l y, ls = x ++ l :: y ∧ (∃ x1 x2, x = x1 ++ .serveStart :: x2) ∧ Calls timeout x l) := by
  induction ls using snoc_ind with
  | h0 =>
    intro s h
    simp only [runRun, Option.some.injEq] at h
    subst h
    refine ⟨rfl, ?_, rfl, ?_, ?_⟩ <;> simp [runInit, callsIn]
  | h1 x l ih =>
    intro s h
    rw [runRun_snoc] at h
    cases hx : runRun (runInit ε timeout) x with
    | none => rw [hx] at h; cases h
    | some s1 =>
      rw [hx, Option.bind_some] at h
      obtain ⟨i1, i2, i3, i4, i5⟩ := ih s1 hx
      obtain ⟨f1, f2, f3, f4, f5⟩ := runStep_facts s1 s l h
      have hturn : decide (s1.locker + 1 = 1) = decide (x.countP (takesTurn timeout) % 2 ^ 64 = 0) := by
        rw [i3]; exact decide_eq_decide.2 (locker_turn _)
      rw [i1] at f1 f3 f4 f5
      rw [hturn] at f4 f5
      have hsplit : ∀ (P : List (RunLbl ε) → RunLbl ε → Prop),
          (∃ a m b, x ++ [l] = a ++ m :: b ∧ P a m) ↔ (∃ a m b, x = a ++ m :: b ∧ P a m) ∨ P x l := by
        intro P
        constructor
        · rintro ⟨a, m, b, he, hp⟩
          rcases List.eq_nil_or_concat b with rfl | ⟨b', o, rfl⟩
          · have := List.append_inj' (s₁ := x) (t₁ := [l]) (s₂ := a) (t₂ := [m]) he rfl
            obtain ⟨rfl, e⟩ := this
            cases e
            exact .inr hp
          · rw [List.concat_eq_append, ← List.cons_append, ← List.append_assoc] at he
            have := List.append_inj' (s₁ := x) (t₁ := [l]) (s₂ := a ++ m :: b') (t₂ := [o]) he rfl
            exact .inl ⟨a, m, b', this.1, hp⟩
        · rintro (⟨a, m, b, rfl, hp⟩ | hp)
          · exact ⟨a, m, b ++ [l], by simp, hp⟩
          · exact ⟨x, l, [], rfl, hp⟩
      refine ⟨f1, ?_, ?_, ?_, ?_⟩
      · have e := hsplit (fun _ m => m = .serveStart)
        have e' : ∀ z : List (RunLbl ε), (∃ a m b, z = a ++ m :: b ∧ m = .serveStart) ↔ ∃ a b, z = a ++ .serveStart :: b := by
          intro z
          constructor
          · rintro ⟨a, m, b, h1, rfl⟩; exact ⟨a, b, h1⟩
          · rintro ⟨a, b, h1⟩; exact ⟨a, _, b, h1, rfl⟩
        rw [e', e'] at e
        rw [e, ← i2, f2, Bool.or_eq_true]
        refine or_congr Iff.rfl ?_
        cases l <;> simp
      · rw [f3, i3, List.countP_append, List.countP_singleton]
        cases takesTurn timeout l with
        | true => exact (BitVec.ofNat_add _ _).symm
        | false => exact BitVec.add_zero _
      · rw [f4, i4]
        unfold callsIn
        rw [List.countP_append, List.countP_append, List.countP_singleton, List.countP_singleton]
        exact calls_step (2 ^ 64) _ _ (Nat.pow_pos (by decide)) _ _ (by cases l <;> simp [bypasses, takesTurn])
      · rw [hsplit (fun a m => (∃ x1 x2, a = x1 ++ RunLbl.serveStart :: x2) ∧ Calls timeout a m), ← i5, ← i2, f5]
        unfold Calls
        simp only [Bool.or_eq_true, Bool.and_eq_true, decide_eq_true_eq]

/-- **C45** (exactly).  In every execution of a Run: the number of times the underlying shutdown is called is the number of shutdowns
that bypass the counter (a signal, or a cancelled context with a shutdown time-out), plus one for every started 2^64 calls
of `Server.Shutdown`. -/
theorem C45_exact {ε : Type} (timeout : Int) (ls : List (RunLbl ε)) (s : RunSt ε) (h : runRun (runInit ε timeout) ls = some s) :
    s.calls = ls.countP (bypasses timeout) + (ls.countP (takesTurn timeout) + (2 ^ 64 - 1)) / 2 ^ 64 :=
  (run_facts timeout ls s h).2.2.2.1

/-- **C94** (exactly).  In every execution of a Run, returned or not: its listener is closed exactly if the underlying shutdown was called
after fasthttp had come to serve. -/
theorem C94_exact {ε : Type} (timeout : Int) (ls : List (RunLbl ε)) (s : RunSt ε) (h : runRun (runInit ε timeout) ls = some s) :
    s.closed = true ↔ ∃ x l y, ls = x ++ l :: y ∧ (∃ x1 x2, x = x1 ++ .serveStart :: x2) ∧ Calls timeout x l :=
  (run_facts timeout ls s h).2.2.2.2

/-- A user's Shutdown, then a signal: two calls. -/
example : (runRun (runInit Nat 0) [.serveStart, .userShutdown, .userShutdown, .signal, .watchSig]).map (fun s => (s.calls, s.closed)) =
    some (2, true) := by decide
/-- A Shutdown before fasthttp serves uses up the turn: the listener stays open. -/
example : (runRun (runInit Nat 0) [.userShutdown, .serveStart, .userShutdown]).map (fun s => (s.calls, s.closed)) = some (1, false) := by
  decide
example : Calls (ε := Nat) 0 [.serveStart] .userShutdown ∧ ¬ Calls (ε := Nat) 0 [.userShutdown, .serveStart] .userShutdown := by decide

end Verif
