import Verif.Lemmas.Pipeline
/-
The chain as a list of steps, and the trace language of its executions.
-/
namespace Verif
set_option linter.unusedSectionVars false
set_option linter.unusedSimpArgs false
open Spec
variable {υ : Type}

/-- One entry of a chain: which handler, what it is (`none`: nil), whether Stop is honoured after it and
whether SkipMain skips it. -/
structure Step (υ : Type) where
  id : HId
  h : Option (Hdl υ)
  chk : Bool
  skippable : Bool

def runSteps (env : Env υ) : List (Step υ) → RCtx υ → RCtx υ × Flow
  | [], c => (c, .returned none)
  | s :: t, c =>
    if s.skippable && c.skipped then runSteps env t c
    else
      match s.h with
      | none => (c, .panicked)
      | some h =>
        match callProg env s.id h.run (addDebugName c h.name) with
        | (c, .panic) => (c, .panicked)
        | (c, .err e) => (c, .returned (some e))
        | (c, .ok) => if s.chk && c.isStopped then (c, .returned none) else runSteps env t c

def listSteps (id : Nat → HId) (i : Nat) (l : List (Option (Hdl υ))) : List (Step υ) :=
  match l with
  | [] => []
  | h :: t => ⟨id i, h, true, false⟩ :: listSteps id (i + 1) t

def chainSteps (set : HSetV υ) : List (Step υ) :=
  ⟨.init, set.main.map fun m => ⟨m.name, m.init⟩, false, false⟩ :: (listSteps .before 0 set.before ++
    ⟨.main, set.main.map fun m => ⟨m.name, m.run⟩, true, true⟩ :: listSteps .after 0 set.after)

theorem runList_steps (env : Env υ) (id : Nat → HId) (l : List (Option (Hdl υ))) (t : List (Step υ)) :
    ∀ (i : Nat) (c : RCtx υ), runSteps env (listSteps id i l ++ t) c =
      match runList env id i l c with
      | (c, .next) => runSteps env t c
      | r => r := by
  induction l with
  | nil => intro i c; rfl
  | cons h l ih =>
    intro i c
    cases h with
    | none => simp [listSteps, runSteps, runList]
    | some h =>
      simp only [listSteps, List.cons_append, runSteps, runList, callStop, Bool.false_and, Bool.false_eq_true,
        if_false, Bool.true_and]
      rcases callProg env (id i) h.run (addDebugName c h.name) with ⟨c', o⟩
      cases o with
      | panic => rfl
      | err e => rfl
      | ok =>
        simp only
        cases c'.isStopped with
        | true => rfl
        | false => simp only [Bool.false_eq_true, if_false]; exact ih (i + 1) c'

theorem runSet_steps (env : Env υ) (set : HSetV υ) (c : RCtx υ) : runSet env set c = runSteps env (chainSteps set) c := by
  unfold runSet chainSteps
  cases hm : set.main with
  | none => simp [runSteps]
  | some m =>
    simp only [runSteps, Bool.false_and, Bool.false_eq_true, if_false, Option.map_some]
    rcases callProg env .init m.init (addDebugName c m.name) with ⟨c', o⟩
    cases o with
    | panic => rfl
    | err e => rfl
    | ok =>
      simp only
      rw [runList_steps]
      rcases runList env .before 0 set.before c' with ⟨c2, f⟩
      cases f with
      | returned e => rfl
      | panicked => rfl
      | next =>
        simp only [runSteps, Bool.true_and]
        have key : ∀ c3 : RCtx υ, (match runList env .after 0 set.after c3 with
            | (c, .next) => (c, Flow.returned none)
            | r => r) = runSteps env (listSteps .after 0 set.after) c3 := by
          intro c3
          have := runList_steps env .after set.after [] 0 c3
          simp only [List.append_nil] at this
          rw [this]
          rcases runList env .after 0 set.after c3 with ⟨c4, f4⟩
          cases f4 <;> rfl
        cases hs : c2.skipped with
        | true => simp only [if_true]; exact key c2
        | false =>
          simp only [Bool.false_eq_true, if_false, callStop]
          rcases callProg env .main m.run (addDebugName c2 m.name) with ⟨c3, o3⟩
          cases o3 with
          | panic => rfl
          | err e => rfl
          | ok =>
            simp only
            cases c3.isStopped with
            | true => rfl
            | false => simp only [Bool.false_eq_true, if_false]; exact key c3

/-- The events of one handler call. -/
structure Block where
  id : HId
  d : Bool
  body : List Ev
  o : HOut
  d' : Bool

def Block.evs (b : Block) : List Ev := .start b.id b.d :: b.body ++ [.ret b.o b.d']

def stops (es : List Ev) : Bool := hasCtl .stop es || hasCtl .abort es

/-- The executions of a list of steps, on traces: from "SkipMain was called" `sk` and "Stop or Abort was
called" `st`, the handler calls `bs` happen and the run ends with `f`. -/
inductive Runs : List (Step υ) → Bool → Bool → List Block → Flow → Prop
  | done {sk st} : Runs [] sk st [] (.returned none)
  | skip {s t sk st bs f} : s.skippable = true → sk = true → Runs t sk st bs f → Runs (s :: t) sk st bs f
  | nil {s t sk st} : (s.skippable && sk) = false → s.h = none → Runs (s :: t) sk st [] .panicked
  | panic {s t sk st b} : (s.skippable && sk) = false → s.h.isSome = true → b.id = s.id → b.o = .panic →
      Runs (s :: t) sk st [b] .panicked
  | err {s t sk st b e} : (s.skippable && sk) = false → s.h.isSome = true → b.id = s.id → b.o = .err e →
      Runs (s :: t) sk st [b] (.returned (some e))
  | stop {s t sk st b} : (s.skippable && sk) = false → s.h.isSome = true → b.id = s.id → b.o = .ok → s.chk = true →
      (st || stops b.body) = true → Runs (s :: t) sk st [b] (.returned none)
  | next {s t sk st b bs f} : (s.skippable && sk) = false → s.h.isSome = true → b.id = s.id → b.o = .ok →
      (s.chk && (st || stops b.body)) = false →
      Runs t (sk || hasCtl .skipMain b.body) (st || stops b.body) bs f → Runs (s :: t) sk st (b :: bs) f

/-- What a sequence of handler calls does to the context. -/
structure ChainExt (env : Env υ) (c c' : RCtx υ) (es : List Ev) : Prop where
  tr : c'.trace = c.trace ++ es
  st : c'.stopped = (c.stopped || hasCtl .stop es)
  ab : c'.aborted = (c.aborted || hasCtl .abort es)
  sk : c'.skipped = (c.skipped || hasCtl .skipMain es)
  ca : c'.cancelled = (c.cancelled || hasCtl .abort es)
  eg : c'.egErr = c.egErr.or (goErrs es).head?
  egc : c'.egCancelled = true → c.egCancelled = true ∨ Ev.ctl .egWait ∈ es ∨ goErrs es ≠ []
  egm : c.egCancelled = true → c'.egCancelled = true
  egw : Ev.ctl .egWait ∈ es → c'.egCancelled = true
  ok : (c.egErr.isSome = true → c.egCancelled = true) → c'.egErr.isSome = true → c'.egCancelled = true
  par : c.clock ≤ c'.clock ∧
    (c'.parentDone = true → c.parentDone = true ∨ ∃ t, c.clock ≤ t ∧ t < c'.clock ∧ env.parent t = true)
  cnt : c.gos.length + spawned es = c'.gos.length + ended es
  rel : Ev.released ∉ es

theorem ChainExt.refl (env : Env υ) (c : RCtx υ) : ChainExt env c c [] := by
  constructor <;> try simp [hasCtl, goErrs, spawned, ended]
  exact fun h => Or.inl h

theorem Ext.chain {env : Env υ} {c c' : RCtx υ} {es : List Ev} (h : Ext env c c' es) : ChainExt env c c' es :=
  { h with rel := fun hr => by have := h.inner _ hr; simp [Ev.inner] at this }

theorem ChainExt.trans {env : Env υ} {a b c : RCtx υ} {e1 e2 : List Ev} (h1 : ChainExt env a b e1)
    (h2 : ChainExt env b c e2) : ChainExt env a c (e1 ++ e2) where
  tr := by rw [h2.tr, h1.tr, List.append_assoc]
  st := by rw [h2.st, h1.st, hasCtl_append, Bool.or_assoc]
  ab := by rw [h2.ab, h1.ab, hasCtl_append, Bool.or_assoc]
  sk := by rw [h2.sk, h1.sk, hasCtl_append, Bool.or_assoc]
  ca := by rw [h2.ca, h1.ca, hasCtl_append, Bool.or_assoc]
  eg := by
    rw [h2.eg, h1.eg, goErrs_append, List.head?_append]
    cases a.egErr <;> simp
  egc := by
    intro h
    rcases h2.egc h with h | h | h
    · rcases h1.egc h with h | h | h
      · exact Or.inl h
      · exact Or.inr (Or.inl (by simp [h]))
      · exact Or.inr (Or.inr (by simp [goErrs_append, h]))
    · exact Or.inr (Or.inl (by simp [h]))
    · exact Or.inr (Or.inr (by simp [goErrs_append, h]))
  egm := fun h => h2.egm (h1.egm h)
  egw := fun h => by
    rcases List.mem_append.1 h with h | h
    · exact h2.egm (h1.egw h)
    · exact h2.egw h
  ok := fun h => h2.ok (h1.ok h)
  par := by
    obtain ⟨m1, p1⟩ := h1.par
    obtain ⟨m2, p2⟩ := h2.par
    refine ⟨Nat.le_trans m1 m2, fun h => ?_⟩
    rcases p2 h with h | ⟨t, a, b, h⟩
    · rcases p1 h with h | ⟨t, a, b, h⟩
      · exact Or.inl h
      · exact Or.inr ⟨t, a, by omega, h⟩
    · exact Or.inr ⟨t, by omega, b, h⟩
  cnt := by
    have := h1.cnt; have := h2.cnt
    rw [spawned_append, ended_append]; omega
  rel := by simp [h1.rel, h2.rel]

/-- Adding one start or ret event. -/
theorem chainExt_event (env : Env υ) (c : RCtx υ) (e : Ev) (he : ∀ k, e ≠ .ctl k) (h2 : goErrs [e] = [])
    (h3 : spawned [e] = 0) (h4 : ended [e] = 0) (h5 : e ≠ .released) : ChainExt env c (c.event e) [e] := by
  have hk : ∀ k, hasCtl k [e] = false := by
    intro k
    have := he k
    simp [hasCtl]
    exact fun x => this x.symm
  constructor <;> simp [RCtx.event, hk, h2, h3, h4]
  · exact fun h => Or.inl h
  · exact fun h => absurd h.symm (he _)
  · exact fun h => Or.inl h
  · exact fun x => h5 x.symm

theorem chainExt_addName (env : Env υ) (c : RCtx υ) (s : Str) : ChainExt env c (addDebugName c s) [] := by
  unfold addDebugName
  split
  · constructor <;> simp [hasCtl, goErrs, spawned, ended]
    exact fun h => Or.inl h
  · exact ChainExt.refl env c

/-- One handler call. -/
theorem callProg_block (env : Env υ) (h : HId) (p : RCtx υ → Prog υ) (c : RCtx υ) :
    ∃ b : Block, b.id = h ∧ b.o = (callProg env h p c).2 ∧ b.d = c.done ∧
      b.d' = (callProg env h p c).1.done ∧ (∀ e ∈ b.body, e.inner = true) ∧
      ChainExt env c (callProg env h p c).1 b.evs := by
  obtain ⟨es, hx⟩ := ext_runProg env (p (c.event (.start h c.done))) (c.event (.start h c.done))
  refine ⟨⟨h, c.done, es, (callProg env h p c).2, (callProg env h p c).1.done⟩, rfl, rfl, rfl, rfl, hx.inner, ?_⟩
  have h1 : ChainExt env c (c.event (.start h c.done)) [.start h c.done] :=
    chainExt_event env c _ (by simp) (by simp [goErrs]) (by simp [spawned]) (by simp [ended]) (by simp)
  have h2 := h1.trans hx.chain
  have h3 := h2.trans (chainExt_event env _ (.ret (callProg env h p c).2 (callProg env h p c).1.done)
    (by simp) (by simp [goErrs]) (by simp [spawned]) (by simp [ended]) (by simp))
  exact h3

def flat (bs : List Block) : List Ev := bs.flatMap Block.evs

theorem hasCtl_evs (k : Ctl) (b : Block) : hasCtl k b.evs = hasCtl k b.body := by
  simp [hasCtl, Block.evs]

/-- Every handler call of a run records whether the request context was cancelled when it started. -/
def DoneOk (env : Env υ) (c : RCtx υ) (bs : List Block) : Prop :=
  ∀ bs1 b bs2, bs = bs1 ++ b :: bs2 → ∃ cb : RCtx υ, ChainExt env c cb (flat bs1) ∧ b.d = cb.done

theorem addDebugName_done (c : RCtx υ) (s : Str) : (addDebugName c s).done = c.done := by
  unfold addDebugName; split <;> rfl

theorem doneOk_single {env : Env υ} {c : RCtx υ} {b : Block} (h : b.d = c.done) : DoneOk env c [b] := by
  intro bs1 b' bs2 he
  cases bs1 with
  | nil =>
    simp only [List.nil_append, List.cons.injEq] at he
    rw [← he.1]
    exact ⟨c, ChainExt.refl env c, h⟩
  | cons _ _ => simp at he

theorem doneOk_cons {env : Env υ} {c c' : RCtx υ} {b : Block} {bs : List Block} (h : b.d = c.done)
    (hx : ChainExt env c c' b.evs) (ht : DoneOk env c' bs) : DoneOk env c (b :: bs) := by
  intro bs1 b' bs2 he
  cases bs1 with
  | nil =>
    simp only [List.nil_append, List.cons.injEq] at he
    rw [← he.1]
    exact ⟨c, ChainExt.refl env c, h⟩
  | cons z zs =>
    simp only [List.cons_append, List.cons.injEq] at he
    obtain ⟨rfl, rfl⟩ := he
    obtain ⟨cb, h1, h2⟩ := ht zs b' bs2 rfl
    refine ⟨cb, ?_, h2⟩
    have := hx.trans h1
    simpa [flat] using this

/-- Every execution of a chain is one of its trace language. -/
theorem runSteps_runs (env : Env υ) (l : List (Step υ)) : ∀ c : RCtx υ,
    ∃ bs : List Block, Runs l c.skipped c.isStopped bs (runSteps env l c).2 ∧
      (∀ b ∈ bs, ∀ e ∈ b.body, e.inner = true) ∧ ChainExt env c (runSteps env l c).1 (flat bs) ∧ DoneOk env c bs := by
  induction l with
  | nil => intro c; exact ⟨[], .done, by simp, ChainExt.refl env c, by intro a b d h; simp at h⟩
  | cons s t ih =>
    intro c
    unfold runSteps
    cases hs : (s.skippable && c.skipped) with
    | true =>
      simp only [if_true]
      simp only [Bool.and_eq_true] at hs
      obtain ⟨bs, h1, h2, h3, h4⟩ := ih c
      exact ⟨bs, .skip hs.1 hs.2 h1, h2, h3, h4⟩
    | false =>
      simp only [Bool.false_eq_true, if_false]
      cases hh : s.h with
      | none => exact ⟨[], .nil hs hh, by simp, ChainExt.refl env c, by intro a b d h; simp at h⟩
      | some h =>
        obtain ⟨b, hb1, hb2, hbd, _, hb3, hb4⟩ := callProg_block env s.id h.run (addDebugName c h.name)
        rw [addDebugName_done] at hbd
        have hb5 := (chainExt_addName env c h.name).trans hb4
        simp only [List.nil_append] at hb5
        have hsome : s.h.isSome = true := by simp [hh]
        simp only
        rcases hcall : callProg env s.id h.run (addDebugName c h.name) with ⟨c', o⟩
        rw [hcall] at hb2 hb5
        simp only at hb2 hb5
        have hstop : c'.isStopped = (c.isStopped || stops b.body) := by
          simp only [RCtx.isStopped, hb5.ab, hb5.st, hasCtl_evs, stops]
          cases c.aborted <;> cases c.stopped <;> cases hasCtl .abort b.body <;> cases hasCtl .stop b.body <;> rfl
        cases o with
        | panic => exact ⟨[b], .panic hs hsome hb1 hb2, by simpa using hb3, by simpa [flat] using hb5, doneOk_single hbd⟩
        | err e => exact ⟨[b], .err hs hsome hb1 hb2, by simpa using hb3, by simpa [flat] using hb5, doneOk_single hbd⟩
        | ok =>
          simp only
          rw [hstop]
          cases hc : (s.chk && (c.isStopped || stops b.body)) with
          | true =>
            simp only [if_true]
            simp only [Bool.and_eq_true] at hc
            exact ⟨[b], .stop hs hsome hb1 hb2 hc.1 hc.2, by simpa using hb3, by simpa [flat] using hb5, doneOk_single hbd⟩
          | false =>
            simp only [Bool.false_eq_true, if_false]
            obtain ⟨bs, h1, h2, h3, h4⟩ := ih c'
            rw [hb5.sk, hstop, hasCtl_evs] at h1
            refine ⟨b :: bs, .next hs hsome hb1 hb2 hc h1, ?_, ?_, doneOk_cons hbd hb5 h4⟩
            · intro b' hb'
              rcases List.mem_cons.1 hb' with rfl | hb'
              · exact hb3
              · exact h2 b' hb'
            · simpa [flat] using hb5.trans h3

end Verif
