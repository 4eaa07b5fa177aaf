import Verif.Spec.Guard
import Verif.Lemmas.Pipeline
/-
Lemmas: a refused request does not get past a list of before handlers with the guard in it.
-/
namespace Verif
open Spec
variable {υ : Type} {P : υ → Prop} {env : Env υ}

theorem keep_goStep (hg : ∀ n c, P c.store → P (env.fin n c).2) {c : RCtx υ} (h : P c.store) (i : Nat) :
    P (goStep env c i).store := by
  unfold goStep
  split
  · exact h
  · exact h
  · rename_i g _
    have := hg g c h
    simp only [RCtx.event]
    split <;> exact this

theorem keep_ticks (hg : ∀ n c, P c.store → P (env.fin n c).2) (l : List Nat) : ∀ {c : RCtx υ}, P c.store →
    P (l.foldl (goStep env) c).store := by
  induction l with
  | nil => exact fun h => h
  | cons i l ih => exact fun h => ih (keep_goStep hg h i)

theorem keep_tick (hg : ∀ n c, P c.store → P (env.fin n c).2) {c : RCtx υ} (h : P c.store) : P (tick env c).store :=
  keep_ticks hg _ h

theorem keep_waitAll (hg : ∀ n c, P c.store → P (env.fin n c).2) (n : Nat) : ∀ {c : RCtx υ}, P c.store →
    P (waitAll env n c).store := by
  induction n with
  | zero => exact fun h => h
  | succ n ih =>
    intro c h
    unfold waitAll
    split
    · exact h
    · exact ih (keep_goStep hg (c := { c with clock := c.clock + 1 }) h _)

theorem keep_debug {c : RCtx υ} (h : P c.store) (s : Str) : P (addDebugName c s).store := by
  unfold addDebugName; split <;> exact h

theorem keep_applyOp (hg : ∀ n c, P c.store → P (env.fin n c).2) {c : RCtx υ} (h : P c.store) (op : COp υ)
    (hf : ∀ f, op = .upd f → ∀ s, P s → P (f s)) : P (applyOp env c op).store := by
  have ht := keep_tick hg h
  unfold applyOp
  cases op with
  | upd f => exact hf f rfl _ ht
  | addName s => exact keep_debug ht s
  | wait => exact keep_waitAll hg _ (c := (tick env c).event (.ctl .egWait)) ht
  | _ => exact ht

theorem keep_runProg (hg : ∀ n c, P c.store → P (env.fin n c).2) {p : Prog υ} (hp : Keeps P p) : ∀ {c : RCtx υ}, P c.store →
    P (runProg env p c).1.store := by
  induction hp with
  | ret o => exact fun h => keep_tick hg h
  | call op k hf hk ih =>
    intro c h
    have h' := keep_applyOp hg h op hf
    exact ih _ h' h'

theorem keep_callProg (hg : ∀ n c, P c.store → P (env.fin n c).2) (id : HId) {p : RCtx υ → Prog υ}
    (hp : ∀ c, P c.store → Keeps P (p c)) {c : RCtx υ} (h : P c.store) : P (callProg env id p c).1.store :=
  keep_runProg hg (hp (c.event (.start id c.done)) h) (c := c.event (.start id c.done)) h

/-- Nothing undoes SkipMain. -/
theorem skipped_runProg {c : RCtx υ} (h : c.skipped = true) (p : Prog υ) : (runProg env p c).1.skipped = true := by
  obtain ⟨es, he⟩ := ext_runProg env p c
  rw [he.sk, h]; rfl

theorem skipped_debug {c : RCtx υ} (h : c.skipped = true) (s : Str) : (addDebugName c s).skipped = true := by
  unfold addDebugName; split <;> exact h

theorem skipped_callProg {c : RCtx υ} (h : c.skipped = true) (id : HId) (p : RCtx υ → Prog υ) :
    (callProg env id p c).1.skipped = true := skipped_runProg (c := c.event (.start id c.done)) h _

theorem callStop_eq (id : HId) (p : RCtx υ → Prog υ) (c : RCtx υ) : (callStop env id p c).1 = (callProg env id p c).1 := by
  unfold callStop
  split <;> simp_all
  split <;> rfl

theorem skipped_runList (id : Nat → HId) (l : List (Option (Hdl υ))) : ∀ (i : Nat) {c : RCtx υ}, c.skipped = true →
    (runList env id i l c).1.skipped = true := by
  induction l with
  | nil => exact fun _ _ h => h
  | cons e l ih =>
    intro i c h
    cases e with
    | none => exact h
    | some x =>
      have h1 : (callStop env (id i) x.run (addDebugName c x.name)).1.skipped = true := by
        rw [callStop_eq]; exact skipped_callProg (skipped_debug h _) _ _
      simp only [runList]
      split
      · rename_i c' he; rw [he] at h1; exact ih _ h1
      · exact h1

/-- A refusing body does not end well without having called Stop, Abort or SkipMain. -/
theorem refuse_runProg (hg : ∀ n c, P c.store → P (env.fin n c).2) {p : Prog υ} (hp : TurnsAway P p) : ∀ {c : RCtx υ},
    P c.store → (runProg env p c).2 ≠ .ok ∨ (runProg env p c).1.isStopped = true ∨ (runProg env p c).1.skipped = true := by
  induction hp with
  | err e => intro c _; left; simp [runProg]
  | panic => intro c _; left; simp [runProg]
  | ctl op k h =>
    intro c _
    obtain ⟨es, he⟩ := ext_runProg env (k (applyOp env c op)) (applyOp env c op)
    simp only [runProg]
    right
    rcases h with rfl | rfl | rfl
    · left; unfold RCtx.isStopped; rw [he.st]; simp [applyOp, RCtx.event]
    · left; unfold RCtx.isStopped; rw [he.ab]; simp [applyOp, RCtx.event]
    · right; rw [he.sk]; simp [applyOp, RCtx.event]
  | call op k hf hk ih =>
    intro c h
    have h' := keep_applyOp hg h op hf
    exact ih _ h' h'

theorem refuse_callProg (hg : ∀ n c, P c.store → P (env.fin n c).2) (id : HId) {p : RCtx υ → Prog υ}
    (hp : ∀ c, P c.store → TurnsAway P (p c)) {c : RCtx υ} (h : P c.store) : (callProg env id p c).2 ≠ .ok ∨
    (callProg env id p c).1.isStopped = true ∨ (callProg env id p c).1.skipped = true :=
  refuse_runProg hg (hp (c.event (.start id c.done)) h) (c := c.event (.start id c.done)) h

/-- With the guard in the list, the before handlers let the main handler be skipped or do not come to their end. -/
theorem guard_runList (hg : ∀ n c, P c.store → P (env.fin n c).2) (id : Nat → HId) (l : List (Option (Hdl υ)))
    (hex : ∃ e ∈ l, ∀ h, e = some h → ∀ c, P c.store → TurnsAway P (h.run c))
    (hall : ∀ e ∈ l, (∀ h, e = some h → ∀ c, P c.store → TurnsAway P (h.run c)) ∨ ∀ h, e = some h → ∀ c, P c.store → Keeps P (h.run c)) :
    ∀ (i : Nat) {c : RCtx υ}, P c.store → (runList env id i l c).2 = .next → (runList env id i l c).1.skipped = true := by
  induction l with
  | nil => obtain ⟨_, h, _⟩ := hex; cases h
  | cons e l ih =>
    intro i c h hn
    cases e with
    | none => simp [runList] at hn
    | some x =>
      have hd := keep_debug h x.name
      simp only [runList] at hn ⊢
      rcases hcall : callProg env (id i) x.run (addDebugName c x.name) with ⟨c1, o⟩
      by_cases hr : ∀ c, P c.store → TurnsAway P (x.run c)
      · have := refuse_callProg hg (id i) hr hd
        rw [hcall] at this
        unfold callStop at hn ⊢
        rw [hcall] at hn ⊢
        cases o with
        | panic => simp at hn
        | err e => simp at hn
        | ok =>
          rcases this with h' | h' | h'
          · exact absurd rfl h'
          · have h2 : c1.isStopped = true := h'
            simp [h2] at hn
          · have hs : c1.skipped = true := h'
            by_cases hst : c1.isStopped = true
            · simp [hst] at hn
            · simp only [hst] at hn ⊢
              exact skipped_runList id l (i + 1) hs
      · have hk : ∀ c, P c.store → Keeps P (x.run c) := by
          rcases hall (some x) (by simp) with h' | h'
          · exact absurd (h' x rfl) hr
          · exact h' x rfl
        have hc1 := keep_callProg hg (id i) hk hd
        rw [hcall] at hc1
        have hex' : ∃ e ∈ l, ∀ h, e = some h → ∀ c, P c.store → TurnsAway P (h.run c) := by
          obtain ⟨e, he, h'⟩ := hex
          rcases List.mem_cons.1 he with rfl | he
          · exact absurd (h' x rfl) hr
          · exact ⟨e, he, h'⟩
        unfold callStop at hn ⊢
        rw [hcall] at hn ⊢
        cases o with
        | panic => simp at hn
        | err e => simp at hn
        | ok =>
          by_cases hst : c1.isStopped = true
          · simp [hst] at hn
          · simp only [hst] at hn ⊢
            exact ih hex' (fun e he => hall e (List.mem_cons_of_mem _ he)) (i + 1) hc1 hn

end Verif
