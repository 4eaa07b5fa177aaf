import Verif.Spec.Pipeline
/-
Lemmas: what one handler call, and a whole chain, does to the request context and its trace.
-/
namespace Verif
set_option linter.unusedSectionVars false
set_option linter.unusedSimpArgs false
open Spec
variable {υ : Type}

/-- Events that happen inside a handler call. -/
def Ev.inner : Ev → Bool
  | .start _ _ | .ret _ _ | .released => false
  | _ => true

def hasCtl (k : Ctl) (es : List Ev) : Bool := es.contains (.ctl k)

theorem hasCtl_append (k : Ctl) (a b : List Ev) : hasCtl k (a ++ b) = (hasCtl k a || hasCtl k b) := by
  simp [hasCtl, List.elem_eq_contains]

theorem hasCtl_iff (k : Ctl) (es : List Ev) : hasCtl k es = true ↔ Ev.ctl k ∈ es := by simp [hasCtl]

/-- `c'` is `c` after the inner events `es`. -/
structure Ext (env : Env υ) (c c' : RCtx υ) (es : List Ev) : Prop where
  tr : c'.trace = c.trace ++ es
  inner : ∀ e ∈ es, e.inner = true
  st : c'.stopped = (c.stopped || hasCtl .stop es)
  ab : c'.aborted = (c.aborted || hasCtl .abort es)
  sk : c'.skipped = (c.skipped || hasCtl .skipMain es)
  ca : c'.cancelled = (c.cancelled || hasCtl .abort es)
  eg : c'.egErr = c.egErr.or (goErrs es).head?
  egc : c'.egCancelled = true → c.egCancelled = true ∨ Ev.ctl .egWait ∈ es ∨ goErrs es ≠ []
  egm : c.egCancelled = true → c'.egCancelled = true
  egw : Ev.ctl .egWait ∈ es → c'.egCancelled = true
  ok : (c.egErr.isSome = true → c.egCancelled = true) → c'.egErr.isSome = true → c'.egCancelled = true
  par : c.clock ≤ c'.clock ∧
    (c'.parentDone = true → c.parentDone = true ∨ ∃ t, c.clock ≤ t ∧ t < c'.clock ∧ env.parent t = true)
  cnt : c.gos.length + spawned es = c'.gos.length + ended es

theorem goErrs_append (a b : List Ev) : goErrs (a ++ b) = goErrs a ++ goErrs b := by simp [goErrs]
theorem spawned_append (a b : List Ev) : spawned (a ++ b) = spawned a + spawned b := by simp [spawned]
theorem ended_append (a b : List Ev) : ended (a ++ b) = ended a + ended b := by simp [ended]
theorem starts_append (a b : List Ev) : starts (a ++ b) = starts a ++ starts b := by simp [starts]
theorem rets_append (a b : List Ev) : rets (a ++ b) = rets a ++ rets b := by simp [rets]

theorem Ext.refl (env : Env υ) (c : RCtx υ) : Ext env c c [] := by
  constructor <;> try simp [hasCtl, goErrs, spawned, ended]
  exact fun h => Or.inl h

theorem Ext.trans {env : Env υ} {a b c : RCtx υ} {e1 e2 : List Ev} (h1 : Ext env a b e1) (h2 : Ext env b c e2) :
    Ext env a c (e1 ++ e2) where
  tr := by rw [h2.tr, h1.tr, List.append_assoc]
  inner := by
    intro e he
    rcases List.mem_append.1 he with h | h
    · exact h1.inner e h
    · exact h2.inner e h
  st := by rw [h2.st, h1.st, hasCtl_append, Bool.or_assoc]
  ab := by rw [h2.ab, h1.ab, hasCtl_append, Bool.or_assoc]
  sk := by rw [h2.sk, h1.sk, hasCtl_append, Bool.or_assoc]
  ca := by rw [h2.ca, h1.ca, hasCtl_append, Bool.or_assoc]
  eg := by
    rw [h2.eg, h1.eg, goErrs_append, List.head?_append]
    cases a.egErr <;> simp
  egc := by
    intro h
    rcases h2.egc h with h | h | h
    · rcases h1.egc h with h | h | h
      · exact Or.inl h
      · exact Or.inr (Or.inl (by simp [h]))
      · exact Or.inr (Or.inr (by simp [goErrs_append, h]))
    · exact Or.inr (Or.inl (by simp [h]))
    · exact Or.inr (Or.inr (by simp [goErrs_append, h]))
  egm := fun h => h2.egm (h1.egm h)
  egw := fun h => by
    rcases List.mem_append.1 h with h | h
    · exact h2.egm (h1.egw h)
    · exact h2.egw h
  ok := fun h => h2.ok (h1.ok h)
  par := by
    obtain ⟨m1, p1⟩ := h1.par
    obtain ⟨m2, p2⟩ := h2.par
    refine ⟨Nat.le_trans m1 m2, fun h => ?_⟩
    rcases p2 h with h | ⟨t, a, b, h⟩
    · rcases p1 h with h | ⟨t, a, b, h⟩
      · exact Or.inl h
      · exact Or.inr ⟨t, a, by omega, h⟩
    · exact Or.inr ⟨t, by omega, b, h⟩
  cnt := by
    have := h1.cnt; have := h2.cnt
    rw [spawned_append, ended_append]; omega

theorem ext_goStep (env : Env υ) (c : RCtx υ) (i : Nat) : ∃ es, Ext env c (goStep env c i) es := by
  unfold goStep
  cases hi : c.gos[i]? with
  | none => exact ⟨[], Ext.refl env c⟩
  | some g =>
    cases g with
    | spawn a b =>
      refine ⟨[.spawn], ?_⟩
      constructor <;> simp [RCtx.event, Ev.inner, hasCtl, goErrs, spawned, ended]
      intro h; exact Or.inl h
    | ret g =>
      have hlt := (List.getElem?_eq_some_iff.1 hi).1
      refine ⟨[.goEnd (env.fin g c).1], ?_⟩
      cases h1 : (env.fin g c).1 with
      | none =>
        constructor <;> simp [RCtx.event, Ev.inner, hasCtl, goErrs, spawned, ended, h1]
        · intro h; exact Or.inl h
        · rw [List.length_eraseIdx_of_lt hlt]; omega
      | some e =>
        cases h2 : c.egErr with
        | none =>
          constructor <;> simp [RCtx.event, Ev.inner, hasCtl, goErrs, spawned, ended, h1, h2]
          · intro h; exact Or.inl h
          · rw [List.length_eraseIdx_of_lt hlt]; omega
        | some e' =>
          constructor <;> simp [RCtx.event, Ev.inner, hasCtl, goErrs, spawned, ended, h1, h2]
          · intro h; exact Or.inl h
          · rw [List.length_eraseIdx_of_lt hlt]; omega

theorem ext_foldl (env : Env υ) (l : List Nat) : ∀ c : RCtx υ, ∃ es, Ext env c (l.foldl (goStep env) c) es := by
  induction l with
  | nil => intro c; exact ⟨[], Ext.refl env c⟩
  | cons i l ih =>
    intro c
    obtain ⟨e1, h1⟩ := ext_goStep env c i
    obtain ⟨e2, h2⟩ := ih (goStep env c i)
    exact ⟨e1 ++ e2, h1.trans h2⟩

theorem ext_clock (env : Env υ) (c : RCtx υ) (n : Nat) (hn : c.clock ≤ n) : Ext env c { c with clock := n } [] := by
  constructor <;> simp [hasCtl, goErrs, spawned, ended]
  exact ⟨hn, fun h => Or.inl h⟩

theorem ext_tick (env : Env υ) (c : RCtx υ) : ∃ es, Ext env c (tick env c) es := by
  obtain ⟨es, h⟩ := ext_foldl env (env.sched c.clock) c
  refine ⟨es ++ [], h.trans ?_⟩
  constructor <;> simp [tick, hasCtl, goErrs, spawned, ended]
  intro h
  rcases h with h | h
  · exact Or.inl h
  · exact Or.inr ⟨_, Nat.le_refl _, Nat.lt_succ_self _, h⟩

theorem ext_waitAll (env : Env υ) (n : Nat) : ∀ c : RCtx υ, ∃ es, Ext env c (waitAll env n c) es := by
  induction n with
  | zero => intro c; exact ⟨[], Ext.refl env c⟩
  | succ n ih =>
    intro c
    unfold waitAll
    split
    · exact ⟨[], Ext.refl env c⟩
    · obtain ⟨e1, h1⟩ := ext_goStep env { c with clock := c.clock + 1 } ((env.sched c.clock).headD 0 % c.gos.length)
      obtain ⟨e2, h2⟩ := ih (goStep env { c with clock := c.clock + 1 } ((env.sched c.clock).headD 0 % c.gos.length))
      exact ⟨_, ((ext_clock env c _ (Nat.le_succ _)).trans h1).trans h2⟩

theorem go_size_pos (g : Go) : 0 < g.size := by cases g <;> simp [Go.size]

theorem goFuel_eq_zero {l : List Go} (h : goFuel l = 0) : l = [] := by
  cases l with
  | nil => rfl
  | cons a l => have := go_size_pos a; simp [goFuel] at h; omega

theorem goFuel_set {l : List Go} {i : Nat} {g : Go} (h : l[i]? = some g) (x : Go) :
    goFuel (l.set i x) + g.size = goFuel l + x.size := by
  induction l generalizing i with
  | nil => simp at h
  | cons a l ih =>
    cases i with
    | zero => simp at h; subst h; simp [goFuel]; omega
    | succ i => simp at h; have := ih h; simp [goFuel] at this ⊢; omega

theorem goFuel_erase {l : List Go} {i : Nat} {g : Go} (h : l[i]? = some g) :
    goFuel (l.eraseIdx i) + g.size = goFuel l := by
  induction l generalizing i with
  | nil => simp at h
  | cons a l ih =>
    cases i with
    | zero => simp at h; subst h; simp [goFuel]; omega
    | succ i => simp at h; have := ih h; simp [goFuel] at this ⊢; omega

/-- Every step of a goroutine uses up some of its program. -/
theorem goFuel_goStep (env : Env υ) (c : RCtx υ) (i : Nat) (h : i < c.gos.length) :
    goFuel (goStep env c i).gos < goFuel c.gos := by
  unfold goStep
  have hi : c.gos[i]? = some c.gos[i] := by simp [h]
  rw [hi]
  cases hg : c.gos[i] with
  | spawn a b =>
    rw [hg] at hi
    have := goFuel_set hi b
    simp only [RCtx.event]
    simp only [goFuel, List.map_append, List.sum_append, List.map_cons, List.map_nil, List.sum_cons, List.sum_nil] at this ⊢
    simp only [Go.size] at this
    omega
  | ret g =>
    rw [hg] at hi
    have h1 := goFuel_erase hi
    simp only [Go.size] at h1
    simp only [RCtx.event]
    split <;> simp only <;> omega

/-- EGWait returns only when no goroutine is left. -/
theorem waitAll_gos (env : Env υ) (n : Nat) : ∀ c : RCtx υ, goFuel c.gos ≤ n → (waitAll env n c).gos = [] := by
  induction n with
  | zero => intro c h; exact goFuel_eq_zero (l := c.gos) (by omega)
  | succ n ih =>
    intro c h
    unfold waitAll
    split
    · assumption
    · rename_i hne
      apply ih
      have hpos : 0 < c.gos.length := by cases hg : c.gos <;> simp_all
      have := goFuel_goStep env { c with clock := c.clock + 1 } ((env.sched c.clock).headD 0 % c.gos.length)
        (Nat.mod_lt _ hpos)
      simp only at this
      omega

theorem egWait_gos (env : Env υ) (c : RCtx υ) : (egWait env c).1.gos = [] := waitAll_gos env _ c (Nat.le_refl _)

/-- What EGWait does, apart from cancelling the group's context. -/
theorem egWait_ext (env : Env υ) (c : RCtx υ) :
    ∃ es c', Ext env c c' es ∧ egWait env c = ({ c' with egCancelled := true }, c'.egErr) ∧ c'.gos = [] := by
  obtain ⟨es, h⟩ := ext_waitAll env (goFuel c.gos) c
  exact ⟨es, _, h, rfl, waitAll_gos env _ c (Nat.le_refl _)⟩

theorem ext_applyOp (env : Env υ) (c : RCtx υ) (op : COp υ) : ∃ es, Ext env c (applyOp env c op) es := by
  obtain ⟨e1, h1⟩ := ext_tick env c
  have one : ∀ (c' : RCtx υ) es, Ext env (tick env c) c' es → ∃ es, Ext env c c' es :=
    fun c' es h => ⟨e1 ++ es, h1.trans h⟩
  unfold applyOp
  cases op with
  | stop =>
    refine one _ [.ctl .stop] ?_
    constructor <;> simp [RCtx.event, Ev.inner, hasCtl, goErrs, spawned, ended]
    intro h; exact Or.inl h
  | abort =>
    refine one _ [.ctl .abort] ?_
    constructor <;> simp [RCtx.event, Ev.inner, hasCtl, goErrs, spawned, ended]
    intro h; exact Or.inl h
  | skipMain =>
    refine one _ [.ctl .skipMain] ?_
    constructor <;> simp [RCtx.event, Ev.inner, hasCtl, goErrs, spawned, ended]
    intro h; exact Or.inl h
  | setLevel l =>
    refine one _ [] ?_
    constructor <;> simp [RCtx.event, Ev.inner, hasCtl, goErrs, spawned, ended]
    intro h; exact Or.inl h
  | addName s =>
    refine one _ [] ?_
    simp only [addDebugName]
    split
    · constructor <;> simp [RCtx.event, Ev.inner, hasCtl, goErrs, spawned, ended]
      intro h; exact Or.inl h
    · exact Ext.refl _ _
  | go g =>
    refine one _ [.spawn] ?_
    constructor <;> simp [RCtx.event, Ev.inner, hasCtl, goErrs, spawned, ended]
    intro h; exact Or.inl h
  | wait =>
    obtain ⟨e2, c', h2, he, _⟩ := egWait_ext env ((tick env c).event (.ctl .egWait))
    refine one _ ([.ctl .egWait] ++ e2) ?_
    have hk : ∀ k, k ≠ .egWait → hasCtl k [.ctl .egWait] = false := by intro k hk; simp [hasCtl, hk]
    simp only [he]
    exact {
      tr := by show c'.trace = _; rw [h2.tr]; simp [RCtx.event]
      inner := by
        intro e hm
        rcases List.mem_append.1 hm with hm | hm
        · simp at hm; subst hm; rfl
        · exact h2.inner e hm
      st := by show c'.stopped = _; rw [h2.st, hasCtl_append, hk _ (by simp), Bool.false_or]; rfl
      ab := by show c'.aborted = _; rw [h2.ab, hasCtl_append, hk _ (by simp), Bool.false_or]; rfl
      sk := by show c'.skipped = _; rw [h2.sk, hasCtl_append, hk _ (by simp), Bool.false_or]; rfl
      ca := by show c'.cancelled = _; rw [h2.ca, hasCtl_append, hk _ (by simp), Bool.false_or]; rfl
      eg := by show c'.egErr = _; rw [h2.eg, goErrs_append]; rfl
      egc := fun _ => Or.inr (Or.inl (by simp))
      egm := fun _ => rfl
      egw := fun _ => rfl
      ok := fun _ _ => rfl
      par := h2.par
      cnt := by
        have := h2.cnt
        rw [spawned_append, ended_append]
        have e1 : spawned [Ev.ctl .egWait] = 0 := rfl
        have e2 : ended [Ev.ctl .egWait] = 0 := rfl
        have e3 : ((tick env c).event (.ctl .egWait)).gos = (tick env c).gos := rfl
        rw [e3] at this
        simp only
        omega }
  | upd f =>
    refine one _ [] ?_
    constructor <;> simp [RCtx.event, Ev.inner, hasCtl, goErrs, spawned, ended]
    intro h; exact Or.inl h
  | resp f =>
    refine one _ [.resp (tick env c).resp (f (tick env c).resp)] ?_
    constructor <;> simp [RCtx.event, Ev.inner, hasCtl, goErrs, spawned, ended]
    intro h; exact Or.inl h

theorem ext_runProg (env : Env υ) (p : Prog υ) : ∀ c : RCtx υ, ∃ es, Ext env c (runProg env p c).1 es := by
  induction p with
  | ret o => intro c; simpa [runProg] using ext_tick env c
  | call op k ih =>
    intro c
    obtain ⟨e1, h1⟩ := ext_applyOp env c op
    obtain ⟨e2, h2⟩ := ih (applyOp env c op) (applyOp env c op)
    exact ⟨e1 ++ e2, by simpa [runProg] using h1.trans h2⟩

theorem goStep_aborted (env : Env υ) (c : RCtx υ) (i : Nat) : (goStep env c i).aborted = c.aborted := by
  unfold goStep
  split
  · rfl
  · rfl
  · simp only [RCtx.event]; split <;> rfl

theorem waitAll_aborted (env : Env υ) (n : Nat) : ∀ c : RCtx υ, (waitAll env n c).aborted = c.aborted := by
  induction n with
  | zero => intro c; rfl
  | succ n ih =>
    intro c
    unfold waitAll
    split
    · rfl
    · rw [ih, goStep_aborted]

end Verif
