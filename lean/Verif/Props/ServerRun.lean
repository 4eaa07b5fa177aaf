import Verif.Model.ServerRun
/-
C44, C45, C65, C66, C67: listening, shutting down, and how Run ends.
-/
namespace Verif

/-! ### C44 -/

/-- C44.  Run listens on the address it is given; with a further address it panics; PORT and ":8080" are never used.
A server that already has a listener does not listen again, whatever the addresses. -/
theorem C44_address (port add : Str) (addr : List Str) :
    (addr = [] → runListen false port add addr = .ret (some add)) ∧
    (addr ≠ [] → runListen false port add addr = .panic) ∧
    runListen true port add addr = .ret none := by
  refine ⟨?_, ?_, rfl⟩
  · rintro rfl; rfl
  · intro h
    cases addr with
    | nil => exact absurd rfl h
    | cons a t => rfl

example : runListen false b!"9000" [] [] = .ret (some []) ∧ runListen false b!"9000" b!":1" [b!":2"] = .panic ∧
    resolveAddress b!"9000" [] = .ret b!":9000" := by decide

/-! ### C45 -/

/-- Has executed the atomic add. -/
def ShutPc.added : ShutPc → Bool
  | .start => false
  | _ => true

/-- Calls, or is about to call, the underlying shutdown. -/
def ShutPc.granted : ShutPc → Bool
  | .got v => v == 1
  | .invoked => true
  | _ => false

theorem granted_got (v : BitVec 64) : (ShutPc.got v).granted = (v == 1) := rfl
theorem granted_start : ShutPc.start.granted = false := rfl
theorem granted_invoked : ShutPc.invoked.granted = true := rfl
theorem granted_skipped : ShutPc.skipped.granted = false := rfl

def ShutInv (s : ShutSt) : Prop :=
  s.locker = BitVec.ofNat 64 (s.pcs.countP ShutPc.added) ∧
    s.pcs.countP ShutPc.granted = (s.pcs.countP ShutPc.added + (2 ^ 64 - 1)) / 2 ^ 64

theorem ofNat_eq_one (n : Nat) : ((BitVec.ofNat 64 (n + 1) == 1) = true) ↔ n % 2 ^ 64 = 0 := by
  rw [beq_iff_eq, ← BitVec.toNat_inj, BitVec.toNat_ofNat]
  have : (1 : BitVec 64).toNat = 1 := rfl
  rw [this]
  omega

theorem shutStep_inv (s : ShutSt) (i : Nat) (h : ShutInv s) : ShutInv (shutStep s i) := by
  obtain ⟨h1, h2⟩ := h
  unfold shutStep
  cases hp : s.pcs[i]? with
  | none => exact ⟨h1, h2⟩
  | some pc =>
    obtain ⟨hi, hpc⟩ := List.getElem?_eq_some_iff.1 hp
    have hpos : pc.added = true → 0 < s.pcs.countP ShutPc.added := fun ha =>
      List.countP_pos_iff.2 ⟨pc, List.mem_of_getElem? hp, ha⟩
    have hposg : pc.granted = true → 0 < s.pcs.countP ShutPc.granted := fun ha =>
      List.countP_pos_iff.2 ⟨pc, List.mem_of_getElem? hp, ha⟩
    cases pc with
    | start =>
      simp only
      have hv : s.locker + 1 = BitVec.ofNat 64 (s.pcs.countP ShutPc.added + 1) := by
        rw [h1, BitVec.ofNat_add]; rfl
      refine ⟨?_, ?_⟩
      · rw [hv]
        simp only
        rw [List.countP_set hi, hpc]
        rfl
      · simp only
        rw [List.countP_set hi, List.countP_set hi, hpc, hv, granted_got]
        have h3 := ofNat_eq_one (s.pcs.countP ShutPc.added)
        simp only [show ShutPc.granted .start = false from rfl, show ShutPc.added .start = false from rfl,
          show ∀ v, ShutPc.added (.got v) = true from fun _ => rfl, Bool.false_eq_true, if_false, if_true, Nat.sub_zero]
        rw [h2]
        generalize s.pcs.countP ShutPc.added = N at h3 ⊢
        split
        · next hh => have := h3.1 hh; omega
        · next hh => have := mt h3.2 hh; omega
    | got v =>
      simp only
      by_cases hv : v = 1
      · subst hv
        rw [if_neg (by simp)]
        have e1 : (ShutPc.got 1).granted = true := rfl
        have e2 : (ShutPc.got 1).added = true := rfl
        refine ⟨?_, ?_⟩
        · simp only
          rw [List.countP_set hi, hpc, h1]
          simp only [e2, show ShutPc.added .invoked = true from rfl, if_true]
          rw [Nat.sub_add_cancel (hpos rfl)]
        · simp only
          rw [List.countP_set hi, List.countP_set hi, hpc]
          simp only [e1, e2, show ShutPc.added .invoked = true from rfl, show ShutPc.granted .invoked = true from rfl, if_true]
          rw [Nat.sub_add_cancel (hpos rfl), Nat.sub_add_cancel (hposg rfl), h2]
      · rw [if_pos hv]
        have e1 : (ShutPc.got v).granted = false := by rw [granted_got]; simpa using hv
        have e2 : (ShutPc.got v).added = true := rfl
        refine ⟨?_, ?_⟩
        · simp only
          rw [List.countP_set hi, hpc, h1]
          simp only [e2, show ShutPc.added .skipped = true from rfl, if_true]
          rw [Nat.sub_add_cancel (hpos rfl)]
        · simp only
          rw [List.countP_set hi, List.countP_set hi, hpc]
          simp only [e1, e2, show ShutPc.added .skipped = true from rfl, show ShutPc.granted .skipped = false from rfl,
            Bool.false_eq_true, if_true, if_false, Nat.sub_zero, Nat.add_zero]
          rw [Nat.sub_add_cancel (hpos rfl), h2]
    | invoked => exact ⟨h1, h2⟩
    | skipped => exact ⟨h1, h2⟩

theorem shutRun_inv (n : Nat) (sched : List Nat) : ShutInv (shutRun n sched) := by
  have : ∀ (sched : List Nat) (s : ShutSt), ShutInv s → ShutInv (sched.foldl shutStep s) := by
    intro sched
    induction sched with
    | nil => exact fun s h => h
    | cons i t ih => exact fun s h => ih _ (shutStep_inv s i h)
  apply this
  constructor
  · simp [shutInit, List.countP_replicate, ShutPc.added]
  · show (List.replicate n ShutPc.start).countP _ = ((List.replicate n ShutPc.start).countP _ + (2 ^ 64 - 1)) / 2 ^ 64
    rw [List.countP_replicate, List.countP_replicate, if_neg (by rw [granted_start]; simp), if_neg (by simp [ShutPc.added])]

theorem shutStep_length (s : ShutSt) (i : Nat) : (shutStep s i).pcs.length = s.pcs.length := by
  unfold shutStep
  split
  · simp
  · split <;> simp
  · rfl

theorem shutRun_length (n : Nat) (sched : List Nat) : (shutRun n sched).pcs.length = n := by
  have : ∀ (sched : List Nat) (s : ShutSt), (sched.foldl shutStep s).pcs.length = s.pcs.length := by
    intro sched
    induction sched with
    | nil => exact fun s => rfl
    | cons i t ih => intro s; rw [List.foldl_cons, ih, shutStep_length]
  rw [shutRun, this]
  simp [shutInit]

/-- Number of callers that called the underlying shutdown. -/
def shutInvoked (s : ShutSt) : Nat := s.pcs.countP fun p => p = .invoked

/-- C45.  For fewer than 2^64 callers and every interleaving: the underlying shutdown is never called twice, and once all
callers are through it was called exactly once. -/
theorem C45_once (n : Nat) (hn : n ≤ 2 ^ 64) (sched : List Nat) :
    shutInvoked (shutRun n sched) ≤ 1 ∧
    (0 < n → (∀ p ∈ (shutRun n sched).pcs, p = .invoked ∨ p = .skipped) → shutInvoked (shutRun n sched) = 1) := by
  obtain ⟨-, h2⟩ := shutRun_inv n sched
  have hl := shutRun_length n sched
  generalize shutRun n sched = s at *
  have h3 : s.pcs.countP ShutPc.added ≤ n := hl ▸ List.countP_le_length
  have h4 : shutInvoked s ≤ s.pcs.countP ShutPc.granted := by
    apply List.countP_mono_left
    intro p _ hp
    simp only [decide_eq_true_eq] at hp
    subst hp; rfl
  constructor
  · omega
  · intro hpos hall
    have h5 : s.pcs.countP ShutPc.added = n := by
      rw [← hl, List.countP_eq_length]
      intro p hp
      rcases hall p hp with rfl | rfl <;> rfl
    have h6 : shutInvoked s = s.pcs.countP ShutPc.granted := by
      apply List.countP_congr
      intro p hp
      rcases hall p hp with rfl | rfl <;> simp [granted_invoked, granted_skipped]
    rw [h6, h2, h5]
    omega

/-- C45, the winner: whichever caller moves first is the only one that calls the underlying shutdown. -/
theorem C45_first (n : Nat) (hn : n ≤ 2 ^ 64) (i : Nat) (hi : i < n) (sched : List Nat) (j : Nat) (hj : j ≠ i) :
    (shutRun n (i :: sched)).pcs[j]? ≠ some .invoked := by
  have keep : ∀ (sched : List Nat) (s : ShutSt), (∃ p : ShutPc, s.pcs[i]? = some p ∧ p.granted = true) →
      ∃ p : ShutPc, (sched.foldl shutStep s).pcs[i]? = some p ∧ p.granted = true := by
    intro sched
    induction sched with
    | nil => exact fun s h => h
    | cons k t ih =>
      rintro s ⟨p, hp, hg⟩
      apply ih
      have hlen := (List.getElem?_eq_some_iff.1 hp).1
      unfold shutStep
      by_cases hk : k = i
      · subst hk
        rw [hp]
        cases p with
        | start => rw [granted_start] at hg; simp at hg
        | got v =>
          have : v = 1 := by rw [granted_got] at hg; exact eq_of_beq hg
          subst this
          exact ⟨.invoked, by simp [hlen], rfl⟩
        | invoked => exact ⟨.invoked, hp, rfl⟩
        | skipped => rw [granted_skipped] at hg; simp at hg
      · split
        · exact ⟨p, by simp [List.getElem?_set, hk, hp], hg⟩
        · split <;> exact ⟨p, by simp [List.getElem?_set, hk, hp], hg⟩
        · exact ⟨p, hp, hg⟩
  intro hinv
  obtain ⟨-, h2⟩ := shutRun_inv n (i :: sched)
  have hl := shutRun_length n (i :: sched)
  obtain ⟨p, hp, hg⟩ := keep sched (shutStep (shutInit n) i) (by
    refine ⟨.got 1, ?_, rfl⟩
    simp [shutStep, shutInit, hi])
  have e : shutRun n (i :: sched) = sched.foldl shutStep (shutStep (shutInit n) i) := rfl
  rw [← e] at hp
  generalize shutRun n (i :: sched) = s at *
  have h3 : s.pcs.countP ShutPc.added ≤ n := hl ▸ List.countP_le_length
  have hle : s.pcs.countP ShutPc.granted ≤ 1 := by omega
  -- two different positions hold a granted caller
  obtain ⟨hi1, hi2⟩ := List.getElem?_eq_some_iff.1 hp
  obtain ⟨hj1, hj2⟩ := List.getElem?_eq_some_iff.1 hinv
  have h5 : (s.pcs.set i .start).countP ShutPc.granted = 0 := by
    rw [List.countP_set hi1, hi2, hg]
    rw [granted_start, if_pos rfl, if_neg (by simp)]
    omega
  rw [List.countP_eq_zero] at h5
  have : (s.pcs.set i .start)[j]? = some .invoked := by
    rw [List.getElem?_set, if_neg (Ne.symm hj)]; exact hinv
  exact h5 _ (List.mem_of_getElem? this) rfl

/-- The counter wraps: after n calls, one by one or interleaved, the underlying shutdown was called once per started
2^64 calls. -/
theorem C45_wraps (n : Nat) (sched : List Nat) (hall : ∀ p ∈ (shutRun n sched).pcs, p = .invoked ∨ p = .skipped) :
    shutInvoked (shutRun n sched) = (n + (2 ^ 64 - 1)) / 2 ^ 64 := by
  obtain ⟨-, h2⟩ := shutRun_inv n sched
  have hl := shutRun_length n sched
  generalize shutRun n sched = s at *
  have h5 : s.pcs.countP ShutPc.added = n := by
    rw [← hl, List.countP_eq_length]
    intro p hp
    rcases hall p hp with rfl | rfl <;> rfl
  have h6 : shutInvoked s = s.pcs.countP ShutPc.granted := by
    apply List.countP_congr
    intro p hp
    rcases hall p hp with rfl | rfl <;> simp [granted_invoked, granted_skipped]
  rw [h6, h2, h5]

/-- Three callers, interleaved: caller 2 adds first and wins although it moves on last. -/
example : (shutRun 3 [2, 0, 1, 1, 0, 2]).pcs = [.skipped, .skipped, .invoked] := by decide

/-- C45 is violated when Run's own goroutine is counted: after a Shutdown call a signal makes it call the underlying
shutdown again without looking at the lock; so does a cancelled context if a shutdown time-out is set. -/
theorem C45_violated :
    ((runRun (runInit Nat 0) [.serveStart, .userShutdown, .signal, .watchSig]).map (·.calls) = some 2) ∧
    ((runRun (runInit Nat 100) [.serveStart, .userShutdown, .cancel, .watchCtx]).map (·.calls) = some 2) := by
  decide

/-- The labels other than the two that bypass the lock. -/
def RunLbl.viaLock {ε : Type} : RunLbl ε → Bool
  | .watchSig => false
  | _ => true

/-- Calls of Server.Shutdown, by users or by Run itself. -/
def RunLbl.isShutdown {ε : Type} : RunLbl ε → Bool
  | .userShutdown => true
  | .watchCtx => true
  | _ => false

/-- C45 (partial): without a shutdown time-out and without signals, over the whole life of a Run and with fewer than
2^64 calls, the underlying shutdown is called at most once, whoever calls it. -/
theorem C45_run_partial {ε : Type} (timeout : Int) (ht : timeout ≤ 0) (ls : List (RunLbl ε))
    (hl : ∀ l ∈ ls, l.viaLock = true) (hn : ls.countP (·.isShutdown) ≤ 2 ^ 64) (s : RunSt ε)
    (h : runRun (runInit ε timeout) ls = some s) : s.calls ≤ 1 := by
  have key : ∀ (ls : List (RunLbl ε)) (s0 s : RunSt ε) (N : Nat), (∀ l ∈ ls, l.viaLock = true) →
      N + ls.countP (·.isShutdown) ≤ 2 ^ 64 → s0.timeout ≤ 0 → s0.locker = BitVec.ofNat 64 N → s0.calls = min N 1 →
      runRun s0 ls = some s → s.calls ≤ 1 := by
    intro ls
    induction ls with
    | nil =>
      intro s0 s N _ _ _ _ hc h
      simp only [runRun, Option.some.injEq] at h
      subst h; omega
    | cons l t ih =>
      intro s0 s N hv hN ht hlk hc h
      simp only [runRun] at h
      have hv' : ∀ l ∈ t, l.viaLock = true := fun x hx => hv x (by simp [hx])
      have hshut : s0.shutdown.1.locker = BitVec.ofNat 64 (N + 1) ∧ (N + 1 ≤ 2 ^ 64 → s0.shutdown.1.calls = min (N + 1) 1) ∧
          s0.shutdown.1.timeout = s0.timeout := by
        unfold RunSt.shutdown RunSt.fastShutdown
        have e : s0.locker + 1 = BitVec.ofNat 64 (N + 1) := by rw [hlk, BitVec.ofNat_add]; rfl
        have h3 := ofNat_eq_one N
        rw [beq_iff_eq] at h3
        rw [e]
        split
        · next hne =>
          refine ⟨rfl, fun hle => ?_, rfl⟩
          have : N % 2 ^ 64 ≠ 0 := fun hz => hne (h3.2 hz)
          simp only [hc]
          omega
        · next heq =>
          have : N % 2 ^ 64 = 0 := h3.1 (Decidable.of_not_not heq)
          simp only
          split
          · refine ⟨rfl, fun hle => ?_, rfl⟩
            simp only [hc]; omega
          · refine ⟨rfl, fun hle => ?_, rfl⟩
            simp only [hc]; omega
      cases l with
      | cancel =>
        simp only [runStep] at h
        exact ih _ s N hv' (by simpa [RunLbl.isShutdown] using hN) (by exact ht) (by exact hlk) (by exact hc) h
      | signal =>
        simp only [runStep] at h
        exact ih _ s N hv' (by simpa [RunLbl.isShutdown] using hN) (by exact ht) (by exact hlk) (by exact hc) h
      | userShutdown =>
        simp only [runStep] at h
        have hN' : N + 1 + t.countP (·.isShutdown) ≤ 2 ^ 64 := by
          rw [List.countP_cons_of_pos (by rfl)] at hN; omega
        exact ih _ s (N + 1) hv' hN' (by exact hshut.2.2 ▸ ht) (by exact hshut.1) (by exact hshut.2.1 (by omega)) h
      | serveFail e =>
        simp only [runStep] at h
        split at h
        · simp at h
        · next s1 heq =>
          split at heq
          · simp at heq
          · simp only [Option.some.injEq] at heq
            subst heq
            exact ih _ s N hv' (by simpa [RunLbl.isShutdown] using hN) (by exact ht) (by exact hlk) (by exact hc) h
      | serveStart =>
        simp only [runStep] at h
        split at h
        · simp at h
        · next s1 heq =>
          split at heq
          · simp only [Option.some.injEq] at heq
            subst heq
            exact ih _ s N hv' (by simpa [RunLbl.isShutdown] using hN) (by exact ht) (by exact hlk) (by exact hc) h
          · simp at heq
      | serveEnd =>
        simp only [runStep] at h
        split at h
        · simp at h
        · next s1 heq =>
          split at heq
          · simp only [Option.some.injEq] at heq
            subst heq
            exact ih _ s N hv' (by simpa [RunLbl.isShutdown] using hN) (by exact ht) (by exact hlk) (by exact hc) h
          · simp at heq
      | watchCtx =>
        simp only [runStep] at h
        split at h
        · simp at h
        · next s1 heq =>
          split at heq
          · rw [if_neg (by omega)] at heq
            simp only [Option.some.injEq] at heq
            subst heq
            have hN' : N + 1 + t.countP (·.isShutdown) ≤ 2 ^ 64 := by
              rw [List.countP_cons_of_pos (by rfl)] at hN; omega
            exact ih _ s (N + 1) hv' hN' (by exact hshut.2.2 ▸ ht) (by exact hshut.1) (by exact hshut.2.1 (by omega)) h
          · simp at heq
      | watchSig => exact absurd (hv .watchSig (by simp)) (by simp [RunLbl.viaLock])
      | watchEnd r =>
        simp only [runStep] at h
        split at h
        · simp at h
        · next s1 heq =>
          split at heq
          · split at heq
            · simp at heq
            · simp only [Option.some.injEq] at heq
              subst heq
              exact ih _ s N hv' (by simpa [RunLbl.isShutdown] using hN) (by exact ht) (by exact hlk) (by exact hc) h
          · simp at heq
  exact key ls _ s 0 hl (by omega) ht rfl rfl h

example : (runRun (runInit Nat 0) [.serveStart, .userShutdown, .cancel, .watchCtx, .serveEnd, .watchEnd none]).map
    (fun s => (s.calls, decide (s.serve = .ended ∧ s.watch = .ended))) = some (1, true) := by decide

/-! ### C65, C66: does Run return? -/

/-- The steps Run takes by itself; the others come from outside. -/
def RunLbl.internal {ε : Type} : RunLbl ε → Bool
  | .serveStart => true
  | .serveEnd => true
  | .watchCtx => true
  | .watchSig => true
  | .watchEnd _ => true
  | _ => false

/-- Run cannot move by itself. -/
def RunSt.stuck {ε : Type} (s : RunSt ε) : Prop := ∀ l : RunLbl ε, l.internal = true → runStep s l = none

/-- No shutdown is attempted before Serve has stored its listener (or failed). -/
def orderly {ε : Type} : List (RunLbl ε) → Bool
  | [] => true
  | .serveStart :: _ => true
  | .serveFail _ :: _ => true
  | .userShutdown :: _ => false
  | .watchCtx :: _ => false
  | .watchSig :: _ => false
  | .cancel :: t => orderly t
  | .signal :: t => orderly t
  | .serveEnd :: t => orderly t
  | .watchEnd _ :: t => orderly t

/-- Invariant after Serve has started or failed. -/
def RunInv {ε : Type} (s : RunSt ε) : Prop :=
  s.serve ≠ .starting ∧ (s.serve = .serving → s.lnReg = true) ∧
    (s.locker ≠ 0 → s.closed = true ∨ s.serve = .ended) ∧
    (s.watch ≠ .waiting → s.closed = true ∨ s.serve = .ended) ∧
    (s.watch = .shutting true → s.closed = true)

/-- Invariant before that. -/
def RunPre {ε : Type} (s : RunSt ε) : Prop := s.serve = .starting ∧ s.watch = .waiting ∧ s.locker = 0

theorem fastShutdown_closed {ε : Type} (s : RunSt ε) (h : s.lnReg = true) : s.fastShutdown.closed = true := by
  simp [RunSt.fastShutdown, h]

theorem fastShutdown_same {ε : Type} (s : RunSt ε) : s.fastShutdown.serve = s.serve ∧ s.fastShutdown.lnReg = s.lnReg ∧
    s.fastShutdown.locker = s.locker ∧ s.fastShutdown.watch = s.watch ∧ (s.closed = true → s.fastShutdown.closed = true) := by
  unfold RunSt.fastShutdown; split <;> simp

theorem shutdown_inv {ε : Type} (s : RunSt ε) (h : RunInv s) :
    (s.shutdown.1.closed = true ∨ s.serve = .ended) ∧ s.shutdown.1.serve = s.serve ∧ s.shutdown.1.lnReg = s.lnReg ∧
      s.shutdown.1.watch = s.watch ∧ (s.closed = true → s.shutdown.1.closed = true) ∧
      (s.shutdown.2 = true → s.lnReg = true → s.shutdown.1.closed = true) := by
  obtain ⟨h1, h2, h3, h4, h5⟩ := h
  unfold RunSt.shutdown
  split
  · next hne =>
    have : s.locker ≠ 0 := by
      intro e; apply hne; rw [e]; rfl
    exact ⟨h3 this, rfl, rfl, rfl, id, by simp⟩
  · obtain ⟨a1, a2, a3, a4, a5⟩ := fastShutdown_same { s with locker := s.locker + 1 }
    refine ⟨?_, a1, a2, a4, a5, fun _ hln => fastShutdown_closed _ hln⟩
    cases hs : s.serve with
    | starting => exact absurd hs h1
    | serving => exact Or.inl (fastShutdown_closed _ (h2 hs))
    | ended => exact Or.inr rfl

theorem runStep_inv {ε : Type} (s s' : RunSt ε) (l : RunLbl ε) (h : RunInv s) (hs : runStep s l = some s') : RunInv s' := by
  have h0 := h
  obtain ⟨h1, h2, h3, h4, h5⟩ := h
  cases l with
  | cancel => simp only [runStep, Option.some.injEq] at hs; subst hs; exact h0
  | signal => simp only [runStep, Option.some.injEq] at hs; subst hs; exact h0
  | userShutdown =>
    simp only [runStep, Option.some.injEq] at hs; subst hs
    obtain ⟨b1, b2, b3, b4, b5, -⟩ := shutdown_inv s h0
    refine ⟨by rw [b2]; exact h1, by rw [b2, b3]; exact h2, ?_, ?_, ?_⟩
    · intro _; rw [b2]; exact b1
    · intro _; rw [b2]; exact b1
    · rw [b4]; intro hw; exact b5 (h5 hw)
  | serveFail e =>
    simp only [runStep] at hs
    split at hs
    · simp at hs
    · simp only [Option.some.injEq] at hs; subst hs
      exact ⟨by simp [RunSt.report], by simp [RunSt.report], fun _ => Or.inr rfl, fun _ => Or.inr rfl, h5⟩
  | serveStart => simp only [runStep] at hs; rw [if_neg h1] at hs; simp at hs
  | serveEnd =>
    simp only [runStep] at hs
    split at hs
    · simp only [Option.some.injEq] at hs; subst hs
      exact ⟨by simp [RunSt.report], by simp [RunSt.report], fun _ => Or.inr rfl, fun _ => Or.inr rfl, h5⟩
    · simp at hs
  | watchCtx =>
    simp only [runStep] at hs
    split at hs
    · split at hs
      · simp only [Option.some.injEq] at hs; subst hs
        obtain ⟨a1, a2, a3, a4, a5⟩ := fastShutdown_same s
        have hcl : s.fastShutdown.closed = true ∨ s.serve = .ended := by
          cases hsv : s.serve with
          | starting => exact absurd hsv h1
          | serving => exact Or.inl (fastShutdown_closed _ (h2 hsv))
          | ended => exact Or.inr rfl
        refine ⟨by simp only [a1]; exact h1, by simp only [a1, a2]; exact h2, ?_, ?_, ?_⟩
        · intro _; simp only [a1]; exact hcl
        · intro _; simp only [a1]; exact hcl
        · intro hw
          simp only [WatchPc.shutting.injEq] at hw
          exact fastShutdown_closed _ hw
      · simp only [Option.some.injEq] at hs; subst hs
        obtain ⟨b1, b2, b3, b4, b5, b6⟩ := shutdown_inv s h0
        refine ⟨by simp only [b2]; exact h1, by simp only [b2, b3]; exact h2, ?_, ?_, ?_⟩
        · intro _; simp only [b2]; exact b1
        · intro _; simp only [b2]; exact b1
        · intro hw
          simp only [WatchPc.shutting.injEq, Bool.and_eq_true] at hw
          exact b6 hw.1 hw.2
    · simp at hs
  | watchSig =>
    simp only [runStep] at hs
    split at hs
    · simp only [Option.some.injEq] at hs; subst hs
      obtain ⟨a1, a2, a3, a4, a5⟩ := fastShutdown_same s
      have hcl : s.fastShutdown.closed = true ∨ s.serve = .ended := by
        cases hsv : s.serve with
        | starting => exact absurd hsv h1
        | serving => exact Or.inl (fastShutdown_closed _ (h2 hsv))
        | ended => exact Or.inr rfl
      refine ⟨by simp only [a1]; exact h1, by simp only [a1, a2]; exact h2, ?_, ?_, ?_⟩
      · intro _; simp only [a1]; exact hcl
      · intro _; simp only [a1]; exact hcl
      · intro hw
        simp only [WatchPc.shutting.injEq] at hw
        exact fastShutdown_closed _ hw
    · simp at hs
  | watchEnd r =>
    simp only [runStep] at hs
    split at hs
    · next wait hw =>
      split at hs
      · simp at hs
      · simp only [Option.some.injEq] at hs; subst hs
        have := h4 (by rw [hw]; simp)
        exact ⟨h1, h2, h3, fun _ => this, by simp [RunSt.report]⟩
    · simp at hs

theorem runRun_inv {ε : Type} (ls : List (RunLbl ε)) (s s' : RunSt ε) (h : RunInv s) (hr : runRun s ls = some s') :
    RunInv s' := by
  induction ls generalizing s with
  | nil => simp only [runRun, Option.some.injEq] at hr; subst hr; exact h
  | cons l t ih =>
    simp only [runRun] at hr
    split at hr
    · simp at hr
    · next s1 heq => exact ih s1 (runStep_inv s s1 l h heq) hr

theorem runRun_orderly {ε : Type} (ls : List (RunLbl ε)) (s s' : RunSt ε) (h : RunPre s) (ho : orderly ls = true)
    (hr : runRun s ls = some s') : RunPre s' ∨ RunInv s' := by
  induction ls generalizing s with
  | nil => simp only [runRun, Option.some.injEq] at hr; subst hr; exact Or.inl h
  | cons l t ih =>
    obtain ⟨p1, p2, p3⟩ := h
    simp only [runRun] at hr
    cases l with
    | cancel => simp only [runStep] at hr; exact ih _ (by exact ⟨p1, p2, p3⟩) (by simpa [orderly] using ho) hr
    | signal => simp only [runStep] at hr; exact ih _ (by exact ⟨p1, p2, p3⟩) (by simpa [orderly] using ho) hr
    | userShutdown => simp [orderly] at ho
    | watchCtx => simp [orderly] at ho
    | watchSig => simp [orderly] at ho
    | serveFail e =>
      simp only [runStep] at hr
      rw [if_neg (by rw [p1]; simp)] at hr
      refine Or.inr (runRun_inv t _ s' ?_ hr)
      refine ⟨by simp [RunSt.report], by simp [RunSt.report], fun _ => Or.inr rfl, fun _ => Or.inr rfl, ?_⟩
      intro hw
      simp [RunSt.report, p2] at hw
    | serveStart =>
      simp only [runStep] at hr
      rw [if_pos p1] at hr
      refine Or.inr (runRun_inv t _ s' ?_ hr)
      exact ⟨by simp, by simp, fun hl => absurd p3 hl, fun hw => absurd p2 hw, by simp [p2]⟩
    | serveEnd =>
      simp only [runStep] at hr
      rw [if_neg (by rw [p1]; simp)] at hr
      simp at hr
    | watchEnd r =>
      simp only [runStep, p2] at hr
      simp at hr

/-- C65 (partial: no shutdown is attempted before fasthttp has stored the listener).  Once the context given to Run is
cancelled, or a signal came, or a goroutine of Run failed, Run does not get stuck before it has returned. -/
theorem C65_returns_partial {ε : Type} (timeout : Int) (ls : List (RunLbl ε)) (s : RunSt ε)
    (h : runRun (runInit ε timeout) ls = some s) (ho : orderly ls = true)
    (hdone : s.cancelled = true ∨ s.signalled = true ∨ s.egErr ≠ none) (hstuck : s.stuck) : s.returned := by
  have hw : s.watch ≠ .waiting := by
    intro hw
    by_cases hsig : s.signalled = true
    · have := hstuck .watchSig rfl
      simp [runStep, hw, hsig] at this
    · have hd : s.errCtxDone = true := by
        unfold RunSt.errCtxDone
        rcases hdone with h | h | h
        · simp [h]
        · exact absurd h hsig
        · cases he : s.egErr with
          | none => exact absurd he h
          | some e => simp
      have := hstuck .watchCtx rfl
      simp only [runStep, hw, hd, and_self, if_true] at this
      split at this <;> simp at this
  rcases runRun_orderly ls _ s ⟨rfl, rfl, rfl⟩ ho h with ⟨p1, p2, p3⟩ | ⟨h1, h2, h3, h4, h5⟩
  · exact absurd p2 hw
  · have hse : s.serve = .ended := by
      cases hs : s.serve with
      | starting => exact absurd hs h1
      | serving =>
        rcases h4 hw with hc | hc
        · have := hstuck .serveEnd rfl
          simp [runStep, hs, hc] at this
        · rw [hs] at hc; exact absurd hc (by simp)
      | ended => rfl
    refine ⟨hse, ?_⟩
    cases hww : s.watch with
    | waiting => exact absurd hww hw
    | shutting wait =>
      have := hstuck (.watchEnd none) rfl
      simp [runStep, hww, hse] at this
    | ended => rfl

/-- C65, termination: from any state Run makes at most four steps by itself. -/
theorem C65_terminates {ε : Type} (ls : List (RunLbl ε)) (s s' : RunSt ε) (h : runRun s ls = some s')
    (hi : ∀ l ∈ ls, l.internal = true) : ls.length ≤ 4 := by
  let m : RunSt ε → Nat := fun s =>
    (match s.serve with | .starting => 2 | .serving => 1 | .ended => 0) +
      (match s.watch with | .waiting => 2 | .shutting _ => 1 | .ended => 0)
  have hstep : ∀ s s1 (l : RunLbl ε), l.internal = true → runStep s l = some s1 → m s1 + 1 ≤ m s := by
    intro s s1 l hl hs
    cases l with
    | cancel => simp [RunLbl.internal] at hl
    | signal => simp [RunLbl.internal] at hl
    | userShutdown => simp [RunLbl.internal] at hl
    | serveFail e => simp [RunLbl.internal] at hl
    | serveStart =>
      simp only [runStep] at hs
      split at hs
      · next hh => simp only [Option.some.injEq] at hs; subst hs; simp only [m, hh]; omega
      · simp at hs
    | serveEnd =>
      simp only [runStep] at hs
      split at hs
      · next hh => simp only [Option.some.injEq] at hs; subst hs; simp only [m, hh.1, RunSt.report]; omega
      · simp at hs
    | watchCtx =>
      simp only [runStep] at hs
      split at hs
      · next hh =>
        split at hs
        · simp only [Option.some.injEq] at hs; subst hs
          simp only [m, hh.1, (fastShutdown_same s).1]; omega
        · simp only [Option.some.injEq] at hs; subst hs
          have : s.shutdown.1.serve = s.serve := by
            unfold RunSt.shutdown; split
            · rfl
            · exact (fastShutdown_same _).1
          simp only [m, hh.1, this]; omega
      · simp at hs
    | watchSig =>
      simp only [runStep] at hs
      split at hs
      · next hh =>
        simp only [Option.some.injEq] at hs; subst hs
        simp only [m, hh.1, (fastShutdown_same s).1]; omega
      · simp at hs
    | watchEnd r =>
      simp only [runStep] at hs
      split at hs
      · next wait hw =>
        split at hs
        · simp at hs
        · simp only [Option.some.injEq] at hs; subst hs
          simp only [m, hw, RunSt.report]; omega
      · simp at hs
  have key : ∀ (ls : List (RunLbl ε)) s, (∀ l ∈ ls, l.internal = true) → runRun s ls = some s' → ls.length + m s' ≤ m s := by
    intro ls
    induction ls with
    | nil => intro s _ h; simp only [runRun, Option.some.injEq] at h; subst h; simp
    | cons l t ih =>
      intro s hi h
      simp only [runRun] at h
      split at h
      · simp at h
      · next s1 heq =>
        have h1 := ih s1 (fun x hx => hi x (by simp [hx])) h
        have h2 := hstep s s1 l (hi l (by simp)) heq
        simp only [List.length_cons]; omega
  have hm : m s ≤ 4 := by
    simp only [m]
    cases s.serve <;> cases s.watch <;> simp
  have := key ls s hi h
  omega

/-- A cancelled Run with a slow connection: returns after the shutdown call gives up with an error. -/
example : (runRun (runInit Nat 50) [.serveStart, .cancel, .watchCtx, .watchEnd (some 7), .serveEnd]).map
    (fun s => (decide (s.serve = .ended ∧ s.watch = .ended), s.egErr)) = some (true, some 7) ∧
    orderly (ε := Nat) [.serveStart, .cancel, .watchCtx, .watchEnd (some 7), .serveEnd] = true := by decide

theorem stuck_of_serving {ε : Type} (s : RunSt ε) (h1 : s.serve = .serving) (h2 : s.closed = false) (h3 : s.watch = .ended) :
    s.stuck := by
  intro l hl
  cases l <;> simp_all [RunLbl.internal, runStep]

/-- C65, no early end: as long as nobody has called the underlying shutdown with the listener open and nothing has failed,
serving does not end. -/
theorem C65_serves {ε : Type} (timeout : Int) (ls : List (RunLbl ε)) (s : RunSt ε) (h : runRun (runInit ε timeout) ls = some s)
    (he : s.serve = .ended) : (s.closed = true ∧ 0 < s.calls) ∨ s.egErr ≠ none := by
  have key : ∀ (ls : List (RunLbl ε)) (s0 s : RunSt ε),
      ((s0.closed = true → 0 < s0.calls) ∧ (s0.serve = .ended → s0.closed = true ∨ s0.egErr ≠ none)) → runRun s0 ls = some s →
      ((s.closed = true → 0 < s.calls) ∧ (s.serve = .ended → s.closed = true ∨ s.egErr ≠ none)) := by
    intro ls
    induction ls with
    | nil => intro s0 s h0 h; simp only [runRun, Option.some.injEq] at h; subst h; exact h0
    | cons l t ih =>
      intro s0 s h0 h
      simp only [runRun] at h
      split at h
      · simp at h
      · next s1 heq =>
        refine ih s1 s ?_ h
        obtain ⟨a, b⟩ := h0
        have hf : ∀ x : RunSt ε, ((x.closed = true → 0 < x.calls) ∧ (x.serve = .ended → x.closed = true ∨ x.egErr ≠ none)) →
            ((x.fastShutdown.closed = true → 0 < x.fastShutdown.calls) ∧
              (x.fastShutdown.serve = .ended → x.fastShutdown.closed = true ∨ x.fastShutdown.egErr ≠ none)) := by
          intro x hx
          unfold RunSt.fastShutdown
          split
          · exact ⟨fun _ => Nat.succ_pos _, fun _ => Or.inl rfl⟩
          · exact ⟨fun _ => Nat.succ_pos _, hx.2⟩
        have hsd : ((s0.shutdown.1.closed = true → 0 < s0.shutdown.1.calls) ∧
              (s0.shutdown.1.serve = .ended → s0.shutdown.1.closed = true ∨ s0.shutdown.1.egErr ≠ none)) := by
          unfold RunSt.shutdown
          split
          · exact ⟨a, b⟩
          · exact hf _ ⟨a, b⟩
        have hor : ∀ (x y : Option ε), x ≠ none ∨ y ≠ none → x.or y ≠ none := by
          intro x y hxy; cases x <;> simp_all
        cases l with
        | cancel => simp only [runStep, Option.some.injEq] at heq; subst heq; exact ⟨a, b⟩
        | signal => simp only [runStep, Option.some.injEq] at heq; subst heq; exact ⟨a, b⟩
        | userShutdown => simp only [runStep, Option.some.injEq] at heq; subst heq; exact hsd
        | serveFail e =>
          simp only [runStep] at heq
          split at heq
          · cases heq
          · cases heq
            exact ⟨a, fun _ => Or.inr (hor _ _ (Or.inr (by simp)))⟩
        | serveStart =>
          simp only [runStep] at heq
          split at heq
          · cases heq
            exact ⟨a, fun hx => by cases hx⟩
          · cases heq
        | serveEnd =>
          simp only [runStep] at heq
          split at heq
          · rename_i hc
            cases heq
            exact ⟨a, fun _ => Or.inl hc.2⟩
          · cases heq
        | watchCtx =>
          simp only [runStep] at heq
          split at heq
          · split at heq
            · cases heq; exact hf s0 ⟨a, b⟩
            · cases heq; exact hsd
          · cases heq
        | watchSig =>
          simp only [runStep] at heq
          split at heq
          · cases heq; exact hf s0 ⟨a, b⟩
          · cases heq
        | watchEnd r =>
          simp only [runStep] at heq
          split at heq
          · split at heq
            · cases heq
            · cases heq
              refine ⟨a, fun hx => ?_⟩
              rcases b hx with h | h
              · exact Or.inl h
              · exact Or.inr (hor _ _ (Or.inl h))
          · cases heq
  obtain ⟨k1, k2⟩ := key ls _ s ⟨(fun h => by cases h), (fun h => by cases h)⟩ h
  rcases k2 he with h | h
  · exact Or.inl ⟨h, k1 h⟩
  · exact Or.inr h

theorem shutting_closed {ε : Type} (ls : List (RunLbl ε)) (s0 s : RunSt ε)
    (h0 : s0.watch = .shutting true → s0.closed = true) (h : runRun s0 ls = some s) :
    s.watch = .shutting true → s.closed = true := by
  induction ls generalizing s0 with
  | nil => simp only [runRun, Option.some.injEq] at h; subst h; exact h0
  | cons l t ih =>
    simp only [runRun] at h
    split at h
    · cases h
    · rename_i s1 heq
      refine ih s1 ?_ h
      have keep : ∀ x : RunSt ε, x.closed = true → x.fastShutdown.closed = true := by
        intro x hx; unfold RunSt.fastShutdown; split
        · rfl
        · exact hx
      have keepw : ∀ x : RunSt ε, x.fastShutdown.watch = x.watch := by
        intro x; unfold RunSt.fastShutdown; split <;> rfl
      cases l with
      | cancel => cases heq; exact h0
      | signal => cases heq; exact h0
      | userShutdown =>
        cases heq
        unfold RunSt.shutdown
        split
        · exact h0
        · intro hw
          exact keep _ (h0 (by rw [keepw] at hw; exact hw))
      | serveFail e => simp only [runStep] at heq; split at heq; cases heq; cases heq; exact h0
      | serveStart => simp only [runStep] at heq; split at heq; cases heq; exact h0; cases heq
      | serveEnd => simp only [runStep] at heq; split at heq; cases heq; exact h0; cases heq
      | watchSig =>
        simp only [runStep] at heq
        split at heq
        · cases heq
          intro hw
          simp only [WatchPc.shutting.injEq] at hw
          exact fastShutdown_closed s0 hw
        · cases heq
      | watchCtx =>
        simp only [runStep] at heq
        split at heq
        · split at heq
          · cases heq
            intro hw
            simp only [WatchPc.shutting.injEq] at hw
            exact fastShutdown_closed s0 hw
          · cases heq
            intro hw
            simp only [WatchPc.shutting.injEq, Bool.and_eq_true] at hw
            obtain ⟨h1, h2⟩ := hw
            unfold RunSt.shutdown at h1 ⊢
            split at h1
            · cases h1
            · rename_i hne
              simp only [hne, if_false]
              exact fastShutdown_closed _ h2
        · cases heq
      | watchEnd r =>
        simp only [runStep] at heq
        split at heq
        · split at heq
          · cases heq
          · cases heq; intro hw; cases hw
        · cases heq

/-- C65, exactly, for all executions: once the context is cancelled, a signal came or something failed, a Run that can make
no further step by itself has returned, or else it is serving on an open listener and nobody watches any more. -/
theorem C65_exact {ε : Type} (timeout : Int) (ls : List (RunLbl ε)) (s : RunSt ε) (h : runRun (runInit ε timeout) ls = some s)
    (hdone : s.cancelled = true ∨ s.signalled = true ∨ s.egErr ≠ none) (hstuck : s.stuck) :
    s.returned ∨ (s.serve = .serving ∧ s.closed = false ∧ s.watch = .ended) := by
  have hw : s.watch ≠ .waiting := by
    intro hw
    by_cases hsig : s.signalled = true
    · have := hstuck .watchSig rfl
      simp [runStep, hw, hsig] at this
    · have hd : s.errCtxDone = true := by
        unfold RunSt.errCtxDone
        rcases hdone with h | h | h
        · simp [h]
        · exact absurd h hsig
        · cases he : s.egErr with
          | none => exact absurd he h
          | some e => simp
      have := hstuck .watchCtx rfl
      simp only [runStep, hw, hd, and_self, if_true] at this
      split at this <;> simp at this
  have hclosed := shutting_closed ls _ s (fun h => by cases h) h
  cases hs : s.serve with
  | starting =>
    have := hstuck .serveStart rfl
    simp [runStep, hs] at this
  | serving =>
    have hc : s.closed = false := by
      cases hc : s.closed with
      | false => rfl
      | true =>
        have := hstuck .serveEnd rfl
        simp [runStep, hs, hc] at this
    refine Or.inr ⟨rfl, hc, ?_⟩
    cases hww : s.watch with
    | waiting => exact absurd hww hw
    | shutting wait =>
      cases wait with
      | true => rw [hclosed hww] at hc; cases hc
      | false =>
        have := hstuck (.watchEnd none) rfl
        simp [runStep, hww] at this
    | ended => rfl
  | ended =>
    left
    refine ⟨hs, ?_⟩
    cases hww : s.watch with
    | waiting => exact absurd hww hw
    | shutting wait =>
      have := hstuck (.watchEnd none) rfl
      simp [runStep, hww, hs] at this
    | ended => rfl

/-- C65, what can still end such a Run: the first call of Shutdown on the server does, if it is still to come; otherwise
nothing but a failure of the listener does — no cancelled context, no signal and no further Shutdown (before 2⁶⁴ calls). -/
theorem C65_lost {ε : Type} (s : RunSt ε) (h1 : s.serve = .serving) (h2 : s.closed = false) (h3 : s.watch = .ended) :
    (s.locker = 0 → s.lnReg = true → ∃ s', runRun s [.userShutdown, .serveEnd] = some s' ∧ s'.returned) ∧
    (s.locker ≠ 0 → ∀ (ls : List (RunLbl ε)) (s' : RunSt ε), (∀ l ∈ ls, ∀ e, l ≠ .serveFail e) →
      s.locker.toNat + ls.length < 2 ^ 64 → runRun s ls = some s' →
      s'.serve = .serving ∧ s'.closed = false ∧ ¬ s'.returned) := by
  constructor
  · intro hl hreg
    refine ⟨_, by simp [runRun, runStep, RunSt.shutdown, RunSt.fastShutdown, hl, hreg, h1]; rfl, ?_⟩
    simp [RunSt.returned, RunSt.report, h3]
  · intro hl ls s' hf hb hr
    suffices hh : s'.serve = .serving ∧ s'.closed = false from
      ⟨hh.1, hh.2, fun hret => by rw [hret.1] at hh; cases hh.1⟩
    induction ls generalizing s with
    | nil => simp only [runRun, Option.some.injEq] at hr; subst hr; exact ⟨h1, h2⟩
    | cons l t ih =>
      simp only [runRun] at hr
      split at hr
      · cases hr
      · rename_i s1 heq
        have ih' := fun a1 a2 a3 a4 a5 a6 => ih s1 a1 a2 a3 a4 a5 a6 hr
        have hf' : ∀ l ∈ t, ∀ e, l ≠ .serveFail e := fun x hx => hf x (by simp [hx])
        simp only [List.length_cons] at hb
        cases l with
        | cancel => cases heq; exact ih' h1 h2 h3 hl hf' (by show s.locker.toNat + _ < _; omega)
        | signal => cases heq; exact ih' h1 h2 h3 hl hf' (by show s.locker.toNat + _ < _; omega)
        | userShutdown =>
          have hne : s.locker + 1 ≠ 1 := by
            intro e
            apply hl
            have := congrArg (fun x => x - 1) e
            simpa [BitVec.add_sub_cancel] using this
          have hadd : (s.locker + 1).toNat = s.locker.toNat + 1 := by
            rw [BitVec.toNat_add]
            have : (1 : BitVec 64).toNat = 1 := rfl
            rw [this]; omega
          have hs1 : s1 = { s with locker := s.locker + 1 } := by
            simp only [runStep, Option.some.injEq] at heq
            rw [← heq]; unfold RunSt.shutdown; rw [if_pos hne]
          subst hs1
          refine ih' h1 h2 h3 ?_ hf' (by show (s.locker + 1).toNat + _ < _; omega)
          intro e
          have := congrArg BitVec.toNat e
          rw [hadd] at this
          simp at this
        | serveFail e => exact absurd rfl (hf _ (by simp) e)
        | serveStart => simp [runStep, h1] at heq
        | serveEnd => simp [runStep, h2] at heq
        | watchCtx => simp [runStep, h3] at heq
        | watchSig => simp [runStep, h3] at heq
        | watchEnd r => simp [runStep, h3] at heq

/-- C65 is violated: if the context is cancelled before fasthttp has stored the listener, Run's goroutine shuts down
nothing and ends, and Run then serves forever. -/
theorem C65_violated (timeout : Int) : ∃ s, runRun (runInit Nat timeout) [.cancel, .watchCtx, .watchEnd none, .serveStart] = some s ∧
    s.cancelled = true ∧ s.serve = .serving ∧ s.stuck ∧ ¬ s.returned := by
  have h0 : (runInit Nat timeout).locker + 1 = 1 := by rfl
  by_cases ht : timeout > 0
  · refine ⟨_, by simp [runRun, runStep, runInit, RunSt.errCtxDone, RunSt.fastShutdown, RunSt.report, ht]; rfl, rfl, rfl, ?_, ?_⟩
    · exact stuck_of_serving _ rfl rfl rfl
    · simp [RunSt.returned]
  · refine ⟨_, by simp [runRun, runStep, runInit, RunSt.errCtxDone, RunSt.shutdown, RunSt.fastShutdown, RunSt.report, ht]; rfl,
      rfl, rfl, ?_, ?_⟩
    · exact stuck_of_serving _ rfl rfl rfl
    · simp [RunSt.returned]

/-- Run's watching goroutine waits until there is a reason. -/
theorem runRun_waits {ε : Type} (ls : List (RunLbl ε)) (s0 s : RunSt ε)
    (h0 : s0.watch = .waiting ∨ s0.cancelled = true ∨ s0.signalled = true ∨ s0.egErr ≠ none) (h : runRun s0 ls = some s) :
    s.watch = .waiting ∨ s.cancelled = true ∨ s.signalled = true ∨ s.egErr ≠ none := by
  revert s0
  induction ls with
  | nil => intro s0 h0 h; simp only [runRun, Option.some.injEq] at h; subst h; exact h0
  | cons l t ih =>
    intro s0 h0 h
    simp only [runRun] at h
    split at h
    · simp at h
    · next s1 heq =>
      refine ih s1 ?_ h
      have hf : ∀ x : RunSt ε, x.fastShutdown.watch = x.watch ∧ x.fastShutdown.cancelled = x.cancelled ∧
          x.fastShutdown.signalled = x.signalled ∧ x.fastShutdown.egErr = x.egErr := by
        intro x; unfold RunSt.fastShutdown; split <;> exact ⟨rfl, rfl, rfl, rfl⟩
      have hsd : s0.shutdown.1.watch = s0.watch ∧ s0.shutdown.1.cancelled = s0.cancelled ∧
          s0.shutdown.1.signalled = s0.signalled ∧ s0.shutdown.1.egErr = s0.egErr := by
        unfold RunSt.shutdown; split
        · exact ⟨rfl, rfl, rfl, rfl⟩
        · exact hf _
      have hor : ∀ (a : Option ε) (b : Option ε), a ≠ none → a.or b ≠ none := by
        intro a b ha; cases a with
        | none => exact absurd rfl ha
        | some x => simp
      cases l with
      | cancel => simp only [runStep, Option.some.injEq] at heq; subst heq; exact Or.inr (Or.inl rfl)
      | signal => simp only [runStep, Option.some.injEq] at heq; subst heq; exact Or.inr (Or.inr (Or.inl rfl))
      | userShutdown =>
        simp only [runStep, Option.some.injEq] at heq; subst heq
        rw [hsd.1, hsd.2.1, hsd.2.2.1, hsd.2.2.2]; exact h0
      | serveFail e =>
        simp only [runStep] at heq
        split at heq
        · simp at heq
        · simp only [Option.some.injEq] at heq; subst heq
          refine Or.inr (Or.inr (Or.inr ?_))
          simp only [RunSt.report]
          cases s0.egErr <;> simp
      | serveStart =>
        simp only [runStep] at heq
        split at heq
        · simp only [Option.some.injEq] at heq; subst heq; exact h0
        · simp at heq
      | serveEnd =>
        simp only [runStep] at heq
        split at heq
        · simp only [Option.some.injEq] at heq; subst heq
          simpa [RunSt.report] using h0
        · simp at heq
      | watchCtx =>
        simp only [runStep] at heq
        split at heq
        · next hh =>
          have hd : s0.cancelled = true ∨ s0.egErr ≠ none := by
            have := hh.2
            unfold RunSt.errCtxDone at this
            rcases Bool.or_eq_true _ _ ▸ this with h | h
            · exact Or.inl h
            · exact Or.inr (by intro e; rw [e] at h; simp at h)
          split at heq
          · simp only [Option.some.injEq] at heq; subst heq
            obtain ⟨a1, a2, a3, a4⟩ := hf s0
            rcases hd with h | h
            · exact Or.inr (Or.inl (by simp only [a2]; exact h))
            · exact Or.inr (Or.inr (Or.inr (by simp only [a4]; exact h)))
          · simp only [Option.some.injEq] at heq; subst heq
            rcases hd with h | h
            · exact Or.inr (Or.inl (by simp only [hsd.2.1]; exact h))
            · exact Or.inr (Or.inr (Or.inr (by simp only [hsd.2.2.2]; exact h)))
        · simp at heq
      | watchSig =>
        simp only [runStep] at heq
        split at heq
        · next hh =>
          simp only [Option.some.injEq] at heq; subst heq
          exact Or.inr (Or.inr (Or.inl (by simp only [(hf s0).2.2.1]; exact hh.2)))
        · simp at heq
      | watchEnd r =>
        simp only [runStep] at heq
        split at heq
        · next wait hw =>
          split at heq
          · simp at heq
          · simp only [Option.some.injEq] at heq; subst heq
            rcases h0 with h | h | h | h
            · rw [hw] at h; simp at h
            · exact Or.inr (Or.inl h)
            · exact Or.inr (Or.inr (Or.inl h))
            · exact Or.inr (Or.inr (Or.inr (hor _ _ h)))
        · simp at heq

/-- C66 is violated: without a cancelled context, a signal or a failure Run never returns, however often Shutdown is
called and although the listener is closed. -/
theorem C66_blocks {ε : Type} (timeout : Int) (ls : List (RunLbl ε)) (s : RunSt ε)
    (h : runRun (runInit ε timeout) ls = some s) (hc : s.cancelled = false) (hs : s.signalled = false) (he : s.egErr = none) :
    s.watch = .waiting ∧ ¬ s.returned := by
  have := runRun_waits ls _ s (Or.inl rfl) h
  have hw : s.watch = .waiting := by
    rcases this with h | h | h | h
    · exact h
    · rw [hc] at h; simp at h
    · rw [hs] at h; simp at h
    · exact absurd he h
  exact ⟨hw, by unfold RunSt.returned; rw [hw]; simp⟩

/-- C66, concretely: Shutdown was called, the listener is closed, serving has ended — and Run is stuck. -/
theorem C66_violated : ∃ s, runRun (runInit Nat 0) [.serveStart, .userShutdown, .serveEnd] = some s ∧
    s.closed = true ∧ s.serve = .ended ∧ s.stuck ∧ ¬ s.returned := by
  refine ⟨_, rfl, rfl, rfl, ?_, ?_⟩
  · intro l hl
    cases l with
    | serveStart => decide
    | serveEnd => decide
    | watchCtx => decide
    | watchSig => decide
    | watchEnd r => rfl
    | cancel => simp [RunLbl.internal] at hl
    | signal => simp [RunLbl.internal] at hl
    | userShutdown => simp [RunLbl.internal] at hl
    | serveFail e => simp [RunLbl.internal] at hl
  · rintro ⟨-, h⟩; exact absurd h (by decide)

/-! ### C67: Run's result -/

/-- The first error that happened: serving failed, or Run's own shutdown call returned an error. -/
def firstErr {ε : Type} : List (RunLbl ε) → Option ε
  | [] => none
  | .serveFail e :: _ => some e
  | .watchEnd (some e) :: _ => some e
  | _ :: t => firstErr t

/-- C67.  In every execution the result of Run (when it returns) is the first error that happened, nil if there was none. -/
theorem C67_result {ε : Type} (timeout : Int) (ls : List (RunLbl ε)) (s : RunSt ε)
    (h : runRun (runInit ε timeout) ls = some s) : s.egErr = firstErr ls := by
  have key : ∀ (ls : List (RunLbl ε)) (s0 s : RunSt ε), runRun s0 ls = some s → s.egErr = s0.egErr.or (firstErr ls) := by
    intro ls
    induction ls with
    | nil => intro s0 s h; simp only [runRun, Option.some.injEq] at h; subst h; simp [firstErr]
    | cons l t ih =>
      intro s0 s h
      simp only [runRun] at h
      split at h
      · simp at h
      · next s1 heq =>
        rw [ih s1 s h]
        have hf : ∀ x : RunSt ε, x.fastShutdown.egErr = x.egErr := by
          intro x; unfold RunSt.fastShutdown; split <;> rfl
        have hsd : s0.shutdown.1.egErr = s0.egErr := by
          unfold RunSt.shutdown; split
          · rfl
          · exact hf _
        cases l with
        | cancel => simp only [runStep, Option.some.injEq] at heq; subst heq; rfl
        | signal => simp only [runStep, Option.some.injEq] at heq; subst heq; rfl
        | userShutdown => simp only [runStep, Option.some.injEq] at heq; subst heq; rw [hsd]; rfl
        | serveFail e =>
          simp only [runStep] at heq
          split at heq
          · simp at heq
          · simp only [Option.some.injEq] at heq; subst heq
            simp only [RunSt.report, firstErr]
            cases s0.egErr <;> simp
        | serveStart =>
          simp only [runStep] at heq
          split at heq
          · simp only [Option.some.injEq] at heq; subst heq; rfl
          · simp at heq
        | serveEnd =>
          simp only [runStep] at heq
          split at heq
          · simp only [Option.some.injEq] at heq; subst heq; simp [RunSt.report, firstErr]
          · simp at heq
        | watchCtx =>
          simp only [runStep] at heq
          split at heq
          · split at heq
            · simp only [Option.some.injEq] at heq; subst heq; simp only [hf]; rfl
            · simp only [Option.some.injEq] at heq; subst heq; simp only [hsd]; rfl
          · simp at heq
        | watchSig =>
          simp only [runStep] at heq
          split at heq
          · simp only [Option.some.injEq] at heq; subst heq; simp only [hf]; rfl
          · simp at heq
        | watchEnd r =>
          simp only [runStep] at heq
          split at heq
          · split at heq
            · simp at heq
            · simp only [Option.some.injEq] at heq; subst heq
              simp only [RunSt.report]
              cases r with
              | none => simp [firstErr]
              | some e => cases s0.egErr <;> simp [firstErr]
          · simp at heq
  have := key ls _ s h
  rw [this]; simp [runInit]

example : (runRun (runInit Nat 0) [.serveFail 3, .watchCtx, .watchEnd none]).map (fun s => (s.egErr, decide (s.watch = .ended))) =
    some (some 3, true) := by decide

end Verif
