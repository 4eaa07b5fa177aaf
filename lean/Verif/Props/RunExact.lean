import Verif.Props.LifeExact
/-
C66_exact, C93_exact: which executions of Run end with its return, whatever happened to the server before.
-/
namespace Verif

/-- The underlying shutdown is called at `l`, after the events `x` of a Run that began with the counter at `locker`. -/
def CallsFrom {ε : Type} (timeout : Int) (locker : BitVec 64) (x : List (RunLbl ε)) (l : RunLbl ε) : Prop :=
  bypasses timeout l = true ∨ (takesTurn timeout l = true ∧ (locker.toNat + x.countP (takesTurn timeout)) % 2 ^ 64 = 0)

/-- The listener is closed in the course of the events. -/
def ClosedIn {ε : Type} (timeout : Int) (locker : BitVec 64) (ls : List (RunLbl ε)) : Prop :=
  ∃ x l y, ls = x ++ l :: y ∧ .serveStart ∈ x ∧ CallsFrom timeout locker x l

theorem split_snoc {α : Type} (x : List α) (l : α) (P : List α → α → Prop) :
    (∃ a m b, x ++ [l] = a ++ m :: b ∧ P a m) ↔ (∃ a m b, x = a ++ m :: b ∧ P a m) ∨ P x l := by
  constructor
  · rintro ⟨a, m, b, he, hp⟩
    rcases List.eq_nil_or_concat b with rfl | ⟨b', o, rfl⟩
    · have := List.append_inj' (s₁ := x) (t₁ := [l]) (s₂ := a) (t₂ := [m]) he rfl
      obtain ⟨rfl, e⟩ := this
      cases e
      exact .inr hp
    · rw [List.concat_eq_append, ← List.cons_append, ← List.append_assoc] at he
      have := List.append_inj' (s₁ := x) (t₁ := [l]) (s₂ := a ++ m :: b') (t₂ := [o]) he rfl
      exact .inl ⟨a, m, b', this.1, hp⟩
  · rintro (⟨a, m, b, rfl, hp⟩ | hp)
    · exact ⟨a, m, b ++ [l], by simp, hp⟩
    · exact ⟨x, l, [], rfl, hp⟩

theorem bv_zero_iff (b : BitVec 64) (n : Nat) : b + BitVec.ofNat 64 n + 1 = 1 ↔ (b.toNat + n) % 2 ^ 64 = 0 := by
  have h1 : b + BitVec.ofNat 64 n + 1 = 1 ↔ b + BitVec.ofNat 64 n = 0 := by
    constructor
    · intro h
      have := congrArg (· - 1) h
      simpa [BitVec.add_sub_cancel] using this
    · intro h; rw [h]; rfl
  rw [h1, ← BitVec.toNat_inj]
  simp [BitVec.toNat_add, BitVec.toNat_ofNat]

/-- What a Run has reached, in terms of its events. -/
structure RunHas {ε : Type} (timeout : Int) (locker : BitVec 64) (closed : Bool) (ls : List (RunLbl ε)) (s : RunSt ε) : Prop where
  time : s.timeout = timeout
  reg : s.lnReg = true ↔ .serveStart ∈ ls
  count : s.locker = locker + BitVec.ofNat 64 (ls.countP (takesTurn timeout))
  shut : s.closed = true ↔ closed = true ∨ ClosedIn timeout locker ls
  done : (s.cancelled = true ∨ s.signalled = true ∨ s.egErr ≠ none) ↔ ∃ l ∈ ls, l.ends = true
  watch : s.watch ≠ .waiting → ∃ l ∈ ls, l.ends = true
  fail : (∃ e, RunLbl.serveFail e ∈ ls) → s.serve = .ended
  ended : s.serve = .ended → (∃ e, RunLbl.serveFail e ∈ ls) ∨ s.closed = true
  wait : s.watch = .shutting true → s.closed = true

theorem ends_snoc {ε : Type} (x : List (RunLbl ε)) (l : RunLbl ε) :
    (∃ m ∈ x ++ [l], m.ends = true) ↔ (∃ m ∈ x, m.ends = true) ∨ l.ends = true := by
  constructor
  · rintro ⟨m, hm, he⟩
    rcases List.mem_append.1 hm with hm | hm
    · exact .inl ⟨m, hm, he⟩
    · rw [List.mem_singleton.1 hm] at he; exact .inr he
  · rintro (⟨m, hm, he⟩ | he)
    · exact ⟨m, List.mem_append_left _ hm, he⟩
    · exact ⟨l, by simp, he⟩

theorem fail_snoc {ε : Type} (x : List (RunLbl ε)) (l : RunLbl ε) :
    (∃ e, RunLbl.serveFail e ∈ x ++ [l]) ↔ (∃ e, RunLbl.serveFail e ∈ x) ∨ ∃ e, l = .serveFail e := by
  constructor
  · rintro ⟨e, he⟩
    rcases List.mem_append.1 he with h | h
    · exact .inl ⟨e, h⟩
    · exact .inr ⟨e, (List.mem_singleton.1 h).symm⟩
  · rintro (⟨e, he⟩ | ⟨e, rfl⟩)
    · exact ⟨e, List.mem_append_left _ he⟩
    · exact ⟨e, by simp⟩

/-- What a step does to the two goroutines. -/
theorem step_pcs {ε : Type} (s s' : RunSt ε) (l : RunLbl ε) (h : runStep s l = some s') :
    (s'.watch = s.watch ∨ s.watch ≠ .waiting ∨ s.cancelled = true ∨ s.signalled = true ∨ s.egErr ≠ none) ∧
    (s'.watch = .shutting true → s.watch = .shutting true ∨ s'.closed = true) ∧
    (s.serve = .ended → s'.serve = .ended) ∧
    ((∃ e, l = .serveFail e) → s'.serve = .ended) ∧
    (s'.serve = .ended → s.serve = .ended ∨ (∃ e, l = .serveFail e) ∨ s'.closed = true) := by
  obtain ⟨b1, b2, b3, b4, b5, b6, b7, b8, b9⟩ := shutdown_same s
  obtain ⟨c1, c2, c3, c4, c5⟩ := fastShutdown_fields s
  obtain ⟨g1, g2, g3, g4, g5⟩ := fastShutdown_same s
  have hsh : (s.shutdown.2 && s.lnReg) = true → s.shutdown.1.closed = true := by
    intro hw
    rw [Bool.and_eq_true] at hw
    unfold RunSt.shutdown at hw ⊢
    split
    · next hl => rw [if_pos hl] at hw; cases hw.1
    · unfold RunSt.fastShutdown
      simp [hw.2]
  have hdone : s.errCtxDone = true → s.cancelled = true ∨ s.signalled = true ∨ s.egErr ≠ none := by
    intro hd
    unfold RunSt.errCtxDone at hd
    rw [Bool.or_eq_true] at hd
    rcases hd with hd | hd
    · exact .inl hd
    · refine .inr (.inr fun he => ?_)
      rw [he] at hd; cases hd
  cases l with
  | cancel => cases h; exact ⟨.inl rfl, .inl, id, (by rintro ⟨e, he⟩; cases he), .inl⟩
  | signal => cases h; exact ⟨.inl rfl, .inl, id, (by rintro ⟨e, he⟩; cases he), .inl⟩
  | userShutdown =>
    cases h
    refine ⟨.inl b3, fun hw => .inl (b3 ▸ hw), fun hs => b1 ▸ hs, (by rintro ⟨e, he⟩; cases he), fun hs => .inl (b1 ▸ hs)⟩
  | serveFail e =>
    simp only [runStep] at h
    split at h
    · cases h
    · cases h; exact ⟨.inl rfl, .inl, fun _ => rfl, fun _ => rfl, fun _ => .inr (.inl ⟨e, rfl⟩)⟩
  | serveStart =>
    simp only [runStep] at h
    split at h
    · next hs => cases h; exact ⟨.inl rfl, .inl, (fun h => by rw [hs] at h; cases h), (by rintro ⟨e, he⟩; cases he), (fun h => by cases h)⟩
    · cases h
  | serveEnd =>
    simp only [runStep] at h
    split at h
    · next hs => cases h; exact ⟨.inl rfl, .inl, fun _ => rfl, (by rintro ⟨e, he⟩; cases he), fun _ => .inr (.inr hs.2)⟩
    · cases h
  | watchCtx =>
    simp only [runStep] at h
    split at h
    · next hs =>
      split at h
      · cases h
        refine ⟨.inr (.inr (hdone hs.2)), fun hw => .inr ?_, fun hs => g1 ▸ hs, (by rintro ⟨e, he⟩; cases he), fun hs => .inl (g1 ▸ hs)⟩
        simp only [WatchPc.shutting.injEq] at hw
        exact c5 hw
      · cases h
        refine ⟨.inr (.inr (hdone hs.2)), fun hw => .inr ?_, fun hs => b1 ▸ hs, (by rintro ⟨e, he⟩; cases he), fun hs => .inl (b1 ▸ hs)⟩
        simp only [WatchPc.shutting.injEq] at hw
        exact hsh hw
    · cases h
  | watchSig =>
    simp only [runStep] at h
    split at h
    · next hs =>
      cases h
      refine ⟨.inr (.inr (.inr (.inl hs.2))), fun hw => .inr ?_, fun hs => g1 ▸ hs, (by rintro ⟨e, he⟩; cases he), fun hs => .inl (g1 ▸ hs)⟩
      simp only [WatchPc.shutting.injEq] at hw
      exact c5 hw
    · cases h
  | watchEnd r =>
    simp only [runStep] at h
    split at h
    · next w hw =>
      split at h
      · cases h
      · cases h
        exact ⟨.inr (.inl (by rw [hw]; simp)), (fun h => by cases h), id, (by rintro ⟨e, he⟩; cases he), .inl⟩
    · cases h

theorem run_has {ε : Type} (timeout : Int) (locker : BitVec 64) (closed : Bool) (ls : List (RunLbl ε)) :
    ∀ s, runRun (runFrom ε timeout locker closed) ls = some s → RunHas timeout locker closed ls s := by
  induction ls using snoc_ind with
  | h0 =>
    intro s h
    simp only [runRun, Option.some.injEq] at h
    subst h
    constructor <;> simp [runFrom, ClosedIn]
  | h1 x l ih =>
    intro s h
    rw [runRun_snoc] at h
    cases hx : runRun (runFrom ε timeout locker closed) x with
    | none => rw [hx] at h; cases h
    | some s1 =>
      rw [hx, Option.bind_some] at h
      have i := ih s1 hx
      obtain ⟨f1, f2, f3, f4, f5⟩ := runStep_facts s1 s l h
      have hturn : decide (s1.locker + 1 = 1) = decide ((locker.toNat + x.countP (takesTurn timeout)) % 2 ^ 64 = 0) := by
        rw [i.count]; exact decide_eq_decide.2 (bv_zero_iff _ _)
      rw [i.time] at f1 f3 f4 f5
      rw [hturn] at f5
      have hclosed : s.closed = true ↔ closed = true ∨ ClosedIn timeout locker (x ++ [l]) := by
        unfold ClosedIn
        rw [split_snoc x l (fun a m => RunLbl.serveStart ∈ a ∧ CallsFrom timeout locker a m), f5]
        simp only [Bool.or_eq_true, Bool.and_eq_true, decide_eq_true_eq, i.shut, i.reg]
        unfold ClosedIn CallsFrom
        exact or_assoc
      have hmono : s1.closed = true → s.closed = true := fun hc => by rw [f5, hc]; rfl
      refine ⟨f1, ?_, ?_, hclosed, ?_, ?_, ?_, ?_, ?_⟩
      · rw [f2, Bool.or_eq_true, i.reg, List.mem_append, List.mem_singleton]
        refine or_congr Iff.rfl ?_
        cases l <;> simp
      · rw [f3, i.count, List.countP_append, List.countP_singleton]
        cases takesTurn timeout l with
        | true => rw [BitVec.add_assoc]; exact congrArg _ (BitVec.ofNat_add _ _).symm
        | false => exact BitVec.add_zero _
      all_goals (obtain ⟨i1, i2, i3, i4, i5, i6, i7, i8, i9⟩ := i; clear ih hx f4 hturn)
      · rw [ends_snoc, ← i5]
        cases l with
        | cancel => simp only [runStep, Option.some.injEq] at h; subst h; simp [RunLbl.ends]
        | signal => simp only [runStep, Option.some.injEq] at h; subst h; simp [RunLbl.ends]
        | userShutdown =>
          simp only [runStep, Option.some.injEq] at h; subst h
          obtain ⟨-, -, -, -, -, b6, b7, b8, -⟩ := shutdown_same s1
          rw [b6, b7, b8]; simp [RunLbl.ends]
        | serveFail e =>
          simp only [runStep] at h
          split at h
          · cases h
          · cases h
            simp only [RunSt.report, RunLbl.ends, or_true, iff_true]
            cases s1.egErr <;> simp
        | serveStart | serveEnd =>
          simp only [runStep] at h
          split at h
          · cases h; simp [RunSt.report, RunLbl.ends]
          · cases h
        | watchCtx =>
          simp only [runStep] at h
          obtain ⟨-, -, -, -, -, b6, b7, b8, -⟩ := shutdown_same s1
          obtain ⟨-, c2, c3, c4, -⟩ := fastShutdown_fields s1
          split at h
          · split at h
            · cases h; simp only [c2, c3, c4]; simp [RunLbl.ends]
            · cases h; simp only [b6, b7, b8]; simp [RunLbl.ends]
          · cases h
        | watchSig =>
          simp only [runStep] at h
          obtain ⟨-, c2, c3, c4, -⟩ := fastShutdown_fields s1
          split at h
          · cases h; simp only [c2, c3, c4]; simp [RunLbl.ends]
          · cases h
        | watchEnd r =>
          simp only [runStep] at h
          split at h
          · next w hw =>
            split at h
            · cases h
            · cases h
              have := i5.2 (i6 (by rw [hw]; simp))
              simp only [RunSt.report, RunLbl.ends, Bool.false_eq_true, or_false]
              refine ⟨fun _ => this, fun _ => ?_⟩
              rcases this with h | h | h
              · exact .inl h
              · exact .inr (.inl h)
              · refine .inr (.inr ?_)
                cases he : s1.egErr with
                | none => exact absurd he h
                | some e => simp
          · cases h
      all_goals obtain ⟨q1, q2, q3, q4, q5⟩ := step_pcs s1 s l h
      · intro hw
        rw [ends_snoc]
        refine .inl ?_
        rcases q1 with q | q | q
        · exact i6 (q ▸ hw)
        · exact i6 q
        · exact i5.1 q
      · intro hf
        rcases (fail_snoc x l).1 hf with hf | hf
        · exact q3 (i7 hf)
        · exact q4 hf
      · intro he
        rw [fail_snoc]
        rcases q5 he with he | he | he
        · rcases i8 he with h | h
          · exact .inl (.inl h)
          · exact .inr (hmono h)
        · exact .inl (.inr he)
        · exact .inr he
      · intro hw
        rcases q2 hw with h | h
        · exact hmono (i9 h)
        · exact h

/-- **C93 (exact)** Whatever happened to the server before (the counter of Shutdown calls, whether the listener is
closed already), and whatever the timeout: a Run that can make no further step by itself has returned exactly if its
context was cancelled, a signal came or serving failed, and if serving failed or the listener was closed, before this
Run or by a shutdown that reached fasthttp after it had stored the listener. -/
theorem C93_exact {ε : Type} (timeout : Int) (locker : BitVec 64) (closed : Bool) (ls : List (RunLbl ε)) (s : RunSt ε)
    (h : runRun (runFrom ε timeout locker closed) ls = some s) (hstuck : s.stuck) :
    s.returned ↔ (∃ l ∈ ls, l.ends = true) ∧
      ((∃ e, RunLbl.serveFail e ∈ ls) ∨ closed = true ∨ ClosedIn timeout locker ls) := by
  have i := run_has timeout locker closed ls s h
  constructor
  · rintro ⟨h1, h2⟩
    refine ⟨i.watch (by rw [h2]; simp), ?_⟩
    rcases i.ended h1 with h | h
    · exact .inl h
    · exact .inr (i.shut.1 h)
  · rintro ⟨hends, hc⟩
    have hw := not_waiting_of_stuck s (i.done.2 hends) hstuck
    have hns : s.serve ≠ .starting := by
      intro hs
      have := hstuck .serveStart rfl
      simp [runStep, hs] at this
    refine returned_of_stuck s hns (fun _ => ?_) hw hstuck
    rcases hc with hc | hc
    · exact .inr (i.fail hc)
    · exact .inl (i.shut.2 hc)

/-- **C66 (exact)** A Run of a new server that can make no further step by itself has returned exactly if its context
was cancelled, a signal came or serving failed, and if serving failed or a shutdown reached fasthttp after it had stored
the listener: the calls of Shutdown alone never make it return. -/
theorem C66_exact {ε : Type} (timeout : Int) (ls : List (RunLbl ε)) (s : RunSt ε)
    (h : runRun (runInit ε timeout) ls = some s) (hstuck : s.stuck) :
    s.returned ↔ (∃ l ∈ ls, l.ends = true) ∧ ((∃ e, RunLbl.serveFail e ∈ ls) ∨ ClosedIn timeout 0 ls) := by
  have := C93_exact timeout 0 false ls s h hstuck
  simpa using this

/-! ### Concrete cases -/

/-- Shutdown, then a cancelled context: Run returns; Shutdown alone: it does not. -/
example : (∃ s, runRun (runInit Nat 0) [.serveStart, .userShutdown, .serveEnd, .cancel, .watchCtx, .watchEnd none] = some s ∧
      s.returned) ∧
    (∃ s, runRun (runInit Nat 0) [.serveStart, .userShutdown, .serveEnd] = some s ∧ ¬ s.returned) :=
  ⟨⟨_, rfl, rfl, rfl⟩, ⟨_, rfl, by rintro ⟨-, h⟩; cases h⟩⟩

/-- The second Run of a server without a timeout: cancelling the context does not close the listener. -/
example : ¬ ClosedIn (ε := Nat) 0 1 [.serveStart, .cancel, .watchCtx, .watchEnd none] ∧
    ClosedIn (ε := Nat) 0 0 [.serveStart, .cancel, .watchCtx, .watchEnd none] := by
  constructor
  · rintro ⟨x, l, y, he, -, hc⟩
    have h4 : x.length < 4 := by
      have := congrArg List.length he
      simp at this; omega
    have hx : x = ([.serveStart, .cancel, .watchCtx, .watchEnd none] : List (RunLbl Nat)).take x.length := by
      rw [he]; simp
    have hl : ([.serveStart, .cancel, .watchCtx, .watchEnd none] : List (RunLbl Nat))[x.length]? = some l := by
      rw [he]; simp
    generalize x.length = n at h4 hx hl
    match n, h4 with
    | 0, _ => cases hl; subst hx; simp [CallsFrom, bypasses, takesTurn] at hc
    | 1, _ => cases hl; subst hx; simp [CallsFrom, bypasses, takesTurn] at hc
    | 2, _ => cases hl; subst hx; revert hc; simp [CallsFrom, bypasses, takesTurn]
    | 3, _ => cases hl; subst hx; simp [CallsFrom, bypasses, takesTurn] at hc
  · exact ⟨[.serveStart, .cancel], .watchCtx, [.watchEnd none], rfl, by simp, .inr ⟨by decide, by decide⟩⟩

end Verif
