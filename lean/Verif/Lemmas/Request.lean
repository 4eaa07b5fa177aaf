import Verif.Lemmas.QuietProg
import Verif.Props.Chain
/-
The shape of the trace of a whole request.
-/
namespace Verif
set_option linter.unusedSectionVars false
set_option linter.unusedSimpArgs false
open Spec
variable {υ : Type}

/-- Events of goroutines. -/
def Ev.isGo : Ev → Bool
  | .spawn | .goEnd _ => true
  | _ => false

theorem goStep_isGo (env : Env υ) (c : RCtx υ) (i : Nat) :
    ∃ es, (goStep env c i).trace = c.trace ++ es ∧ ∀ e ∈ es, e.isGo = true := by
  unfold goStep
  split
  · exact ⟨[], by simp, by simp⟩
  · exact ⟨[.spawn], by simp [RCtx.event], by simp [Ev.isGo]⟩
  · rename_i g _
    refine ⟨[.goEnd (env.fin g c).1], ?_, by simp [Ev.isGo]⟩
    simp only [RCtx.event]
    split <;> rfl

theorem waitAll_isGo (env : Env υ) (n : Nat) : ∀ c : RCtx υ,
    ∃ es, (waitAll env n c).trace = c.trace ++ es ∧ ∀ e ∈ es, e.isGo = true := by
  induction n with
  | zero => intro c; exact ⟨[], by simp [waitAll], by simp⟩
  | succ n ih =>
    intro c
    unfold waitAll
    split
    · exact ⟨[], by simp, by simp⟩
    · obtain ⟨e1, h1, h2⟩ := goStep_isGo env { c with clock := c.clock + 1 } ((env.sched c.clock).headD 0 % c.gos.length)
      obtain ⟨e2, h3, h4⟩ := ih (goStep env { c with clock := c.clock + 1 } ((env.sched c.clock).headD 0 % c.gos.length))
      refine ⟨e1 ++ e2, ?_, ?_⟩
      · simp only [h3, h1, List.append_assoc]
      · intro e he
        rcases List.mem_append.1 he with he | he
        · exact h2 e he
        · exact h4 e he

/-- EGWait: only goroutine events happen, and afterwards no goroutine runs. -/
theorem egWait_shape (env : Env υ) (c : RCtx υ) :
    ∃ W, (egWait env c).1.trace = c.trace ++ W ∧ (∀ e ∈ W, e.isGo = true) ∧ (egWait env c).1.done = true ∧
      (egWait env c).1.gos = [] ∧ (egWait env c).2 = c.egErr.or (goErrs W).head? ∧
      c.gos.length + spawned W = ended W := by
  obtain ⟨es, h⟩ := ext_waitAll env (goFuel c.gos) c
  obtain ⟨es', h1, h2⟩ := waitAll_isGo env (goFuel c.gos) c
  have : es = es' := by
    have := h.tr
    rw [h1] at this
    exact (List.append_cancel_left this).symm
  subst this
  refine ⟨es, h1, h2, by simp [egWait, RCtx.done], egWait_gos env c, h.eg, ?_⟩
  have := h.cnt
  rw [waitAll_gos env _ c (Nat.le_refl _)] at this
  simpa using this

theorem isGo_inner {W : List Ev} (h : ∀ e ∈ W, e.isGo = true) : ∀ e ∈ W, e.inner = true := by
  intro e he
  have := h e he
  cases e <;> simp_all [Ev.isGo, Ev.inner]

theorem isGo_noctl {W : List Ev} (h : ∀ e ∈ W, e.isGo = true) (k : Ctl) : Ev.ctl k ∉ W := by
  intro he
  have := h _ he
  simp [Ev.isGo] at this

/-- The parts of a routed request: the chain `bs`, the wait `W`, the last handler `L`. -/
structure Routed (env : Env υ) (set : HSetV υ) (c : RCtx υ) (bs : List Block) (f : Flow) (W L : List Ev)
    (flow : Flow) : Prop where
  runs : Runs (chainSteps set) c.skipped c.isStopped bs f
  inner : Inner bs
  ext : ChainExt env c (runSet env set c).1 (flat bs)
  dn : DoneOk env c bs
  rest : (W = [] ∧ L = [] ∧ flow = f ∧ (f = .panicked ∨ (c.aborted || hasCtl .abort (flat bs)) = true)) ∨
    ((c.aborted || hasCtl .abort (flat bs)) = false ∧ (∀ e ∈ W, e.isGo = true) ∧
      c.gos.length + spawned (flat bs ++ W) = ended (flat bs ++ W) ∧
      ∃ err, f = .returned err ∧
        (set.last = none ∧ L = [] ∧ flow = .returned (combine err (c.egErr.or (goErrs (flat bs ++ W)).head?)) ∨
         set.last.isSome = true ∧ ∃ b : Block, L = b.evs ∧ (∀ e ∈ b.body, e.inner = true) ∧ b.d = true ∧
          ended b.evs ≤ spawned b.evs ∧ b.id = .last (combine err (c.egErr.or (goErrs (flat bs ++ W)).head?)) ∧
          flow = (match b.o with | .panic => .panicked | .err e => .returned (some e) | .ok => .returned none)))

theorem Runs.ne_next {l : List (Step υ)} {sk st : Bool} {bs : List Block} {f : Flow} (h : Runs l sk st bs f) :
    f ≠ .next := by
  induction h <;> simp_all

theorem runRouted_shape (env : Env υ) (set : HSetV υ) (c : RCtx υ) :
    ∃ bs f W L, Routed env set c bs f W L (runRouted env set c).2 ∧
      (runRouted env set c).1.trace = c.trace ++ flat bs ++ W ++ L := by
  obtain ⟨bs, hr, hi, hx, hd⟩ := runSet_shape env set c
  unfold runRouted
  rcases hrun : runSet env set c with ⟨c1, f⟩
  rw [hrun] at hr hx
  simp only at hr hx
  cases f with
  | next => exact absurd rfl hr.ne_next
  | panicked =>
    refine ⟨bs, .panicked, [], [], ⟨hr, hi, by rw [hrun]; exact hx, hd, Or.inl ⟨rfl, rfl, rfl, Or.inl rfl⟩⟩, by simpa using hx.tr⟩
  | returned err =>
    simp only
    cases hab : c1.aborted with
    | true =>
      rw [hx.ab] at hab
      simp only [if_true]
      exact ⟨bs, .returned err, [], [], ⟨hr, hi, by rw [hrun]; exact hx, hd, Or.inl ⟨rfl, rfl, rfl, Or.inr hab⟩⟩, by simpa using hx.tr⟩
    | false =>
      rw [hx.ab] at hab
      simp only [Bool.false_eq_true, if_false]
      obtain ⟨W, w1, w2, w3, w4, w5, w6⟩ := egWait_shape env c1
      have hgo : (egWait env c1).2 = c.egErr.or (goErrs (flat bs ++ W)).head? := by
        rw [w5, hx.eg, goErrs_append, List.head?_append]
        cases c.egErr <;> simp
      have hcnt : c.gos.length + spawned (flat bs ++ W) = ended (flat bs ++ W) := by
        have := hx.cnt
        rw [spawned_append, ended_append]; omega
      have hcomb : mergeErr err (egWait env c1).2 = combine err (c.egErr.or (goErrs (flat bs ++ W)).head?) := by
        rw [hgo]
        cases err <;> cases (c.egErr.or (goErrs (flat bs ++ W)).head?) <;> simp [mergeErr, combine]
      rw [hcomb]
      generalize he : combine err (c.egErr.or (goErrs (flat bs ++ W)).head?) = e
      unfold runLast
      cases hl : set.last with
      | none =>
        refine ⟨bs, .returned err, W, [], ⟨hr, hi, by rw [hrun]; exact hx, hd, Or.inr ⟨hab, w2, hcnt, err, rfl, Or.inl ⟨hl, rfl, by rw [he]⟩⟩⟩, ?_⟩
        simp [w1, hx.tr]
      | some l =>
        obtain ⟨b, hb1, hb2, hb3, hb4, hb5, hb6⟩ := callProg_block env (.last e) (l.run e) (egWait env c1).1
        rw [w3] at hb3
        simp only
        rcases hcall : callProg env (.last e) (l.run e) (egWait env c1).1 with ⟨c2, o⟩
        rw [hcall] at hb2 hb6
        simp only at hb2 hb6
        have htr : c2.trace = c.trace ++ flat bs ++ W ++ b.evs := by rw [hb6.tr, w1, hx.tr]
        refine ⟨bs, .returned err, W, b.evs, ⟨hr, hi, by rw [hrun]; exact hx, hd, Or.inr ⟨hab, w2, hcnt, err, rfl, Or.inr
          ⟨by simp [hl], b, rfl, hb5, hb3, by have := hb6.cnt; rw [w4] at this; simp at this; omega, by rw [he]; exact hb1, ?_⟩⟩⟩, ?_⟩
        · cases o <;> rw [hb2]
        · cases o <;> exact htr

/-- The session initialiser's part of a trace when it succeeded. -/
def SessOk (init : Option (RCtx υ → Prog υ)) (S : List Ev) : Prop :=
  (init = none ∧ S = []) ∨ (init.isSome = true ∧ ∃ b : Block, S = b.evs ∧ b.id = .sess ∧ b.o = .ok ∧ b.d = false ∧
    ∀ e ∈ b.body, e.inner = true)

/-- The shape of a routed request. -/
theorem runHTTP_shape {σ ρ : Type} [DecidableEq ρ] (env : Env υ) (rxMatch : ρ → Str → Bool)
    (visit : GoMap ρ (Option σ) → List (ρ × Option σ)) (srv : Srv υ σ ρ)
    (meth : Method) (path : Str) (resp : Resp) (store : Args → υ) (buf : Args) (clock : Nat) (res : FindResult σ)
    (hfind : serverFind rxMatch visit srv.tree srv.regs meth path buf = .ret res) (hf : res.found = true) :
    ∃ cf flow, runHTTP env rxMatch visit srv meth path resp store buf clock = .ret ⟨some cf, flow, cf.resp⟩ ∧
      cf.cancelled = true ∧
      ((∃ b : Block, srv.initCtx.isSome = true ∧ cf.trace = b.evs ++ [.released] ∧ b.id = .sess ∧ b.d = false ∧
          (∀ e ∈ b.body, e.inner = true) ∧
          (b.o = .panic ∧ flow = .panicked ∨ ∃ e, b.o = .err e ∧
            flow = .returned (some (.leaf 0 (b!"path '" ++ path ++ b!"': " ++ e.error))))) ∨
       (∃ S c, SessOk srv.initCtx S ∧ c.level = srv.logLevel ∧
          ((∀ p, srv.initCtx = some p → ∀ x, Quiet (p x)) → c.names = []) ∧
          ChainExt env (newContext resp (store res.args) clock) { c with level := 5 } S ∧
          ((res.set = none ∧ flow = .panicked ∧ cf.trace = S ++ [.released]) ∨
           ∃ s bs f W L, res.set = some s ∧ Routed env (srv.sets s) c bs f W L flow ∧
            cf.trace = S ++ flat bs ++ W ++ L ++ [.released] ∧
            cf = ({ (runRouted env (srv.sets s) c).1 with cancelled := true }).event .released))) := by
  unfold runHTTP
  rw [hfind]
  simp only [Outcome.bind_ret, hf, not_true_eq_false, if_false]
  have tail : ∀ (S : List Ev) (c0 : RCtx υ), SessOk srv.initCtx S →
      ChainExt env (newContext resp (store res.args) clock) { c0 with level := 5 } S →
      ((∀ p, srv.initCtx = some p → ∀ x, Quiet (p x)) → c0.names = []) →
      ∃ cf flow, (Outcome.ret (⟨some (({ (match res.set with
            | none => (c0, Flow.panicked)
            | some s => runRouted env (srv.sets s) { c0 with level := srv.logLevel }).1 with cancelled := true }).event .released),
          (match res.set with
            | none => (c0, Flow.panicked)
            | some s => runRouted env (srv.sets s) { c0 with level := srv.logLevel }).2,
          (match res.set with
            | none => (c0, Flow.panicked)
            | some s => runRouted env (srv.sets s) { c0 with level := srv.logLevel }).1.resp⟩ : Done υ)) = .ret ⟨some cf, flow, cf.resp⟩ ∧
        cf.cancelled = true ∧
        (∃ S c, SessOk srv.initCtx S ∧ c.level = srv.logLevel ∧
          ((∀ p, srv.initCtx = some p → ∀ x, Quiet (p x)) → c.names = []) ∧
          ChainExt env (newContext resp (store res.args) clock) { c with level := 5 } S ∧
          ((res.set = none ∧ flow = .panicked ∧ cf.trace = S ++ [.released]) ∨
           ∃ s bs f W L, res.set = some s ∧ Routed env (srv.sets s) c bs f W L flow ∧
            cf.trace = S ++ flat bs ++ W ++ L ++ [.released] ∧
            cf = ({ (runRouted env (srv.sets s) c).1 with cancelled := true }).event .released)) := by
    intro S c0 hS hc0 hq
    refine ⟨_, _, rfl, rfl, S, { c0 with level := srv.logLevel }, hS, rfl, hq, hc0, ?_⟩
    have htr : c0.trace = S := by have := hc0.tr; simpa [newContext] using this
    cases hset : res.set with
    | none => exact Or.inl ⟨rfl, rfl, by simp [RCtx.event, htr]⟩
    | some s =>
      obtain ⟨bs, f, W, L, h1, h2⟩ := runRouted_shape env (srv.sets s) { c0 with level := srv.logLevel }
      refine Or.inr ⟨s, bs, f, W, L, rfl, h1, ?_, rfl⟩
      simp only [RCtx.event, h2]; rw [htr]
  cases hinit : srv.initCtx with
  | none =>
    simp only
    rw [hinit] at tail
    obtain ⟨cf, flow, h1, h2, h3⟩ := tail [] (newContext resp (store res.args) clock) (Or.inl ⟨rfl, rfl⟩) (ChainExt.refl env _) (fun _ => rfl)
    exact ⟨cf, flow, h1, h2, Or.inr h3⟩
  | some p =>
    obtain ⟨b, hb1, hb2, hb3, hb4, hb5, hb6⟩ := callProg_block env .sess p (newContext resp (store res.args) clock)
    have hb3' : b.d = false := by rw [hb3]; rfl
    simp only
    rcases hcall : callProg env .sess p (newContext resp (store res.args) clock) with ⟨c1, o⟩
    rw [hcall] at hb2 hb6
    simp only at hb2 hb6
    have htr : c1.trace = b.evs := by have := hb6.tr; simpa [newContext] using this
    cases o with
    | panic =>
      refine ⟨_, _, rfl, rfl, Or.inl ⟨b, by simp, by simp [RCtx.event, htr], hb1, hb3', hb5, Or.inl ⟨hb2, rfl⟩⟩⟩
    | err e =>
      refine ⟨_, _, rfl, rfl, Or.inl ⟨b, by simp, by simp [RCtx.event, htr], hb1, hb3', hb5, Or.inr ⟨e, hb2, rfl⟩⟩⟩
    | ok =>
      rw [hinit] at tail
      have hlv : ChainExt env (newContext resp (store res.args) clock) { c1 with level := 5 } b.evs := { hb6 with }
      obtain ⟨cf, flow, h1, h2, h3⟩ := tail b.evs c1 (Or.inr ⟨rfl, b, rfl, hb1, hb2, hb3', hb5⟩) hlv (by
        intro hq
        have := dbg_callProg env .sess (hq p rfl) (newContext resp (store res.args) clock)
        rw [hcall] at this
        exact congrArg Prod.snd this)
      exact ⟨cf, flow, h1, h2, Or.inr h3⟩

end Verif
