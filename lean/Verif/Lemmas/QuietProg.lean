import Verif.Lemmas.ChainRuns
/-
Quiet handlers do not touch the debug trace.
-/
namespace Verif
set_option linter.unusedSectionVars false
set_option linter.unusedSimpArgs false
open Spec
variable {υ : Type}

/-- The parts of a context the debug trace depends on. -/
def dbg (c : RCtx υ) : Int × List Str := (c.level, c.names)

theorem dbg_goStep (env : Env υ) (c : RCtx υ) (i : Nat) : dbg (goStep env c i) = dbg c := by
  unfold goStep
  split
  · rfl
  · rfl
  · simp only [RCtx.event, dbg]
    split <;> rfl

theorem dbg_foldl (env : Env υ) (l : List Nat) : ∀ c : RCtx υ, dbg (l.foldl (goStep env) c) = dbg c := by
  induction l with
  | nil => intro c; rfl
  | cons i l ih => intro c; rw [List.foldl_cons, ih, dbg_goStep]

theorem dbg_tick (env : Env υ) (c : RCtx υ) : dbg (tick env c) = dbg c := dbg_foldl env _ c

theorem dbg_waitAll (env : Env υ) (n : Nat) : ∀ c : RCtx υ, dbg (waitAll env n c) = dbg c := by
  induction n with
  | zero => intro c; rfl
  | succ n ih =>
    intro c
    unfold waitAll
    split
    · rfl
    · rw [ih, dbg_goStep]; rfl

theorem dbg_egWait (env : Env υ) (c : RCtx υ) : dbg (egWait env c).1 = dbg c := dbg_waitAll env _ c

theorem dbg_applyOp (env : Env υ) (c : RCtx υ) (op : COp υ) (hl : ∀ l, op ≠ .setLevel l) (hn : ∀ s, op ≠ .addName s) :
    dbg (applyOp env c op) = dbg c := by
  have ht := dbg_tick env c
  cases op with
  | setLevel l => exact absurd rfl (hl l)
  | addName s => exact absurd rfl (hn s)
  | wait =>
    show dbg (egWait env _).1 = _
    rw [dbg_egWait]; exact ht
  | stop => exact ht
  | abort => exact ht
  | skipMain => exact ht
  | go g => exact ht
  | upd f => exact ht
  | resp f => exact ht

theorem dbg_runProg (env : Env υ) {p : Prog υ} (h : Quiet p) : ∀ c : RCtx υ, dbg (runProg env p c).1 = dbg c := by
  induction h with
  | ret o => intro c; exact dbg_tick env c
  | call op k hl hn hk ih =>
    intro c
    show dbg (runProg env (k (applyOp env c op)) (applyOp env c op)).1 = dbg c
    rw [ih, dbg_applyOp env c op hl hn]

theorem dbg_callProg (env : Env υ) (h : HId) {p : RCtx υ → Prog υ} (hq : ∀ c, Quiet (p c)) (c : RCtx υ) :
    dbg (callProg env h p c).1 = dbg c := by
  show dbg ((runProg env (p (c.event (.start h c.done))) (c.event (.start h c.done))).1) = dbg c
  rw [dbg_runProg env (hq _)]; rfl

end Verif
