import Verif.Lemmas.Guard
import Verif.Props.Table
import Verif.Props.StaticReg
/-
C130: a guard in front of every route.
-/
namespace Verif
open Spec
set_option linter.unusedSectionVars false

section Chain
variable {υ : Type} {P : υ → Prop} {env : Env υ}

theorem starts_inner {es : List Ev} (h : ∀ e ∈ es, e.inner = true) : starts es = [] := by
  unfold starts
  rw [List.filterMap_eq_nil_iff]
  intro e he
  have := h e he
  cases e <;> simp_all [Ev.inner]

theorem starts_callProg (id : HId) (p : RCtx υ → Prog υ) (c : RCtx υ) :
    starts (callProg env id p c).1.trace = starts c.trace ++ [id] := by
  obtain ⟨es, he⟩ := ext_runProg env (p (c.event (.start id c.done))) (c.event (.start id c.done))
  unfold callProg
  simp only [RCtx.event] at he ⊢
  rw [he.tr, starts_append, starts_append, starts_append, starts_inner he.inner]
  simp [starts]

theorem starts_debug (c : RCtx υ) (s : Str) : starts (addDebugName c s).trace = starts c.trace := by
  unfold addDebugName; split <;> rfl

theorem main_runList (id : Nat → HId) (hid : ∀ i, id i ≠ .main) (l : List (Option (Hdl υ))) : ∀ (i : Nat) {c : RCtx υ},
    HId.main ∉ starts c.trace → HId.main ∉ starts (runList env id i l c).1.trace := by
  induction l with
  | nil => exact fun _ _ h => h
  | cons e l ih =>
    intro i c h
    cases e with
    | none => exact h
    | some x =>
      have h1 : HId.main ∉ starts (callStop env (id i) x.run (addDebugName c x.name)).1.trace := by
        rw [callStop_eq, starts_callProg, starts_debug]
        simp only [List.mem_append, List.mem_singleton, not_or]
        exact ⟨h, fun e => hid i e.symm⟩
      simp only [runList]
      split
      · rename_i c' he; rw [he] at h1; exact ih _ h1
      · exact h1

/-- A refused request does not reach the main handler of a set with the guard. -/
theorem guard_runSet (hg : ∀ n c, P c.store → P (env.fin n c).2) (set set' : HSetV υ)
    (hex : ∃ e ∈ set.before, ∀ h, e = some h → ∀ c, P c.store → TurnsAway P (h.run c))
    (hall : ∀ e ∈ set.before, (∀ h, e = some h → ∀ c, P c.store → TurnsAway P (h.run c)) ∨
      ∀ h, e = some h → ∀ c, P c.store → Keeps P (h.run c))
    (hinit : ∀ m, set.main = some m → ∀ c, P c.store → Keeps P (m.init c))
    (hb : set'.before = set.before) (ha : set'.after = set.after)
    (hm : set'.main.map (fun m => (m.name, m.init)) = set.main.map fun m => (m.name, m.init))
    (c : RCtx υ) (h : P c.store) (hs : HId.main ∉ starts c.trace) :
    HId.main ∉ starts (runSet env set c).1.trace ∧ runSet env set' c = runSet env set c := by
  cases hmain : set.main with
  | none =>
    have hmain' : set'.main = none := by rw [hmain] at hm; simpa using hm
    refine ⟨?_, ?_⟩
    · simp only [runSet, hmain]; exact hs
    · simp only [runSet, hmain, hmain']
  | some m =>
    obtain ⟨m', hmain', hmm⟩ : ∃ m', set'.main = some m' ∧ (m'.name, m'.init) = (m.name, m.init) := by
      rw [hmain] at hm
      simpa [Option.map_eq_some_iff] using hm
    simp only [Prod.mk.injEq] at hmm
    have k1 := keep_callProg hg .init (hinit m hmain) (keep_debug h m.name)
    have k2 : HId.main ∉ starts (callProg env .init m.init (addDebugName c m.name)).1.trace := by
      rw [starts_callProg, starts_debug]; simpa using hs
    simp only [runSet, hmain, hmain', hmm.1, hmm.2, hb, ha]
    rcases hc1 : callProg env .init m.init (addDebugName c m.name) with ⟨c1, o⟩
    rw [hc1] at k1 k2
    cases o with
    | panic => exact ⟨k2, rfl⟩
    | err e => exact ⟨k2, rfl⟩
    | ok =>
      simp only
      have k3 := main_runList (env := env) .before (by simp) set.before 0 k2
      have k4 := guard_runList hg .before set.before hex hall 0 k1
      rcases hc2 : runList env .before 0 set.before c1 with ⟨c2, f⟩
      rw [hc2] at k3 k4
      cases f with
      | returned e => exact ⟨k3, rfl⟩
      | panicked => exact ⟨k3, rfl⟩
      | next =>
        simp only at k3 k4 ⊢
        have k5 := k4 trivial
        simp only [k5, if_true, and_true]
        have k6 := main_runList (env := env) .after (by simp) set.after 0 k3
        rcases hc3 : runList env .after 0 set.after c2 with ⟨c3, f⟩
        rw [hc3] at k6
        cases f <;> exact k6

theorem starts_egWait (c : RCtx υ) : starts (egWait env c).1.trace = starts c.trace := by
  obtain ⟨es, he⟩ := ext_waitAll env (goFuel c.gos) c
  show starts (waitAll env (goFuel c.gos) c).trace = _
  rw [he.tr, starts_append, starts_inner he.inner, List.append_nil]

theorem main_runLast (set : HSetV υ) (err : Option GoErr) {c : RCtx υ} (h : HId.main ∉ starts c.trace) :
    HId.main ∉ starts (runLast env set err c).1.trace := by
  unfold runLast
  split
  · exact h
  · rename_i l _
    have h1 : HId.main ∉ starts (callProg env (.last err) (l.run err) c).1.trace := by
      rw [starts_callProg]; simpa using h
    split <;> (rename_i he; rw [he] at h1; exact h1)

theorem guard_runRouted (hg : ∀ n c, P c.store → P (env.fin n c).2) (set set' : HSetV υ)
    (hex : ∃ e ∈ set.before, ∀ h, e = some h → ∀ c, P c.store → TurnsAway P (h.run c))
    (hall : ∀ e ∈ set.before, (∀ h, e = some h → ∀ c, P c.store → TurnsAway P (h.run c)) ∨
      ∀ h, e = some h → ∀ c, P c.store → Keeps P (h.run c))
    (hinit : ∀ m, set.main = some m → ∀ c, P c.store → Keeps P (m.init c))
    (hb : set'.before = set.before) (ha : set'.after = set.after) (hl : set'.last = set.last)
    (hm : set'.main.map (fun m => (m.name, m.init)) = set.main.map fun m => (m.name, m.init))
    (c : RCtx υ) (h : P c.store) (hs : HId.main ∉ starts c.trace) :
    HId.main ∉ starts (runRouted env set c).1.trace ∧ runRouted env set' c = runRouted env set c := by
  obtain ⟨k1, k2⟩ := guard_runSet hg set set' hex hall hinit hb ha hm c h hs
  have hlast : ∀ e c, runLast env set' e c = runLast env set e c := by intro e c; unfold runLast; rw [hl]
  unfold runRouted
  rw [k2]
  rcases hr : runSet env set c with ⟨c1, f⟩
  rw [hr] at k1
  cases f with
  | next => exact ⟨k1, rfl⟩
  | panicked => exact ⟨k1, rfl⟩
  | returned err =>
    simp only [hlast, and_true]
    split
    · exact k1
    · refine main_runLast _ _ ?_
      rw [starts_egWait]; exact k1

end Chain

section Request
variable {η ρ υ : Type} [Inhabited η] [DecidableEq ρ] (I : Handlers3 η υ) (init : Option (RCtx υ → Prog υ)) (level : Int)
  (u : Str → Str) (env : Env υ) (rxMatch : ρ → Str → Bool) (visit : GoMap ρ (Option Nat) → List (ρ × Option Nat))
  (hv : AnyOrder visit) (ba : BaseAuth) (req : Req) (resp : Resp) (store : Args → υ) (buf : Args) (clock : Nat)

/-- Every set a route or an expression of the server points to has `g` among its before handlers. -/
def AllGuarded (g : η) (w : World η ρ) : Prop :=
  ∀ a, a ∈ w.log.map (·.set) ∨ a ∈ w.rxLog.map (·.set) → ∃ v, setHandlers w a = some v ∧ g ∈ v.before

include hv in
/-- What a request is answered with is a registered set. -/
theorem found_registered (w : World η ρ) (hwf : WF w) (meth : Method) (path : Str) (res : FindResult Nat)
    (h : serverFind rxMatch visit w.tree w.regs meth path buf = .ret res) (hf : res.found = true) :
    ∃ a, res.set = some a ∧ (a ∈ w.log.map (·.set) ∨ a ∈ w.rxLog.map (·.set)) := by
  rw [hwf.tree, hwf.regs] at h
  obtain ⟨rt, ht, hhit, hmiss, -⟩ := C14_tree_first rxMatch visit (treeOf w.log) (regOf w.rxLog) meth path buf
  cases hr : rt.found with
  | true =>
    have he := hhit hr
    rw [h] at he
    simp only [Outcome.ret.injEq] at he
    subst he
    obtain ⟨r, hr1, hr2, -⟩ := C02_sound w.log meth path buf res ht hf
    exact ⟨r.set, hr2, Or.inl (List.mem_map.2 ⟨r, hr1, rfl⟩)⟩
  | false =>
    have he := hmiss hr
    rw [h] at he
    simp only [Outcome.ret.injEq] at he
    subst he
    obtain ⟨-, h2, -⟩ := C13_found_iff w.rxLog hwf.rxOk rxMatch visit hv meth path []
    obtain ⟨r, -, h4, h5⟩ := h2 hf
    exact ⟨r.set, h4, Or.inr (List.mem_map.2 ⟨r, by simpa using List.mem_of_find?_eq_some h5, rfl⟩)⟩

include hv in
theorem guard_runHTTP (P : υ → Prop) (g : η) (hG : Guards I env init P g) (w : World η ρ) (hwf : WF w) (hall : AllGuarded g w)
    (I' : Handlers3 η υ) (hI : SameButMain I I') (meth : Method) (path : Str) (hP : ∀ args, P (store args)) :
    (∀ d, runHTTP env rxMatch visit (serverOf I w init level) meth path resp store buf clock = .ret d →
      HId.main ∉ starts d.trace) ∧
    runHTTP env rxMatch visit (serverOf I' w init level) meth path resp store buf clock =
    runHTTP env rxMatch visit (serverOf I w init level) meth path resp store buf clock := by
  have hgo := hG.goroutines
  obtain ⟨rt, hfind, hfound⟩ : ∃ res, serverFind rxMatch visit w.tree w.regs meth path buf = .ret res ∧
      (res.found = true → ∃ a, res.set = some a ∧ (a ∈ w.log.map (·.set) ∨ a ∈ w.rxLog.map (·.set))) := by
    obtain ⟨rt, ht, hhit, hmiss, -⟩ := C14_tree_first rxMatch visit w.tree w.regs meth path buf
    cases hr : rt.found with
    | true => exact ⟨rt, hhit hr, found_registered rxMatch visit hv buf w hwf meth path _ (hhit hr)⟩
    | false => exact ⟨_, hmiss hr, found_registered rxMatch visit hv buf w hwf meth path _ (hmiss hr)⟩
  unfold runHTTP
  simp only [show (serverOf I w init level).tree = w.tree from rfl, show (serverOf I w init level).regs = w.regs from rfl,
    show (serverOf I' w init level).tree = w.tree from rfl, show (serverOf I' w init level).regs = w.regs from rfl,
    show (serverOf I w init level).initCtx = init from rfl, show (serverOf I' w init level).initCtx = init from rfl,
    show (serverOf I w init level).logLevel = level from rfl, show (serverOf I' w init level).logLevel = level from rfl,
    hfind, Outcome.bind_ret]
  by_cases hf : rt.found = true
  · obtain ⟨a, hset, hreg⟩ := hfound hf
    obtain ⟨v, hvv, hgv⟩ := hall a hreg
    simp only [hf, not_true_eq_false, if_false, hset]
    have hs0 : P (newContext resp (store rt.args) clock).store := hP _
    have ht0 : HId.main ∉ starts (newContext resp (store rt.args) clock : RCtx υ).trace := by simp [newContext, starts]
    generalize newContext resp (store rt.args) clock = c0 at hs0 ht0
    have routed : ∀ c : RCtx υ, P c.store → HId.main ∉ starts c.trace →
        HId.main ∉ starts (runRouted env ((serverOf I w init level).sets a) c).1.trace ∧
        runRouted env ((serverOf I' w init level).sets a) c = runRouted env ((serverOf I w init level).sets a) c := by
      intro c h1 h2
      have e1 : (serverOf I w init level).sets a = viewSet I v := by simp [serverOf, hvv]
      have e2 : (serverOf I' w init level).sets a = viewSet I' v := by simp [serverOf, hvv]
      rw [e1, e2]
      refine guard_runRouted hgo _ _ ⟨I.hdl g, List.mem_map.2 ⟨g, hgv, rfl⟩, fun h e => hG.refuses h e⟩ ?_ ?_ ?_ ?_ ?_ ?_ c h1 h2
      · intro e he
        obtain ⟨x, -, rfl⟩ := List.mem_map.1 he
        by_cases hx : x = g
        · subst hx; exact Or.inl fun h e => hG.refuses h e
        · exact Or.inr fun h e => hG.others x h hx e
      · intro m hm
        simp only [viewSet, Option.bind_eq_some_iff] at hm
        obtain ⟨x, -, hx⟩ := hm
        exact hG.inits x m hx
      · simp [viewSet, hI.hdl]
      · simp [viewSet, hI.hdl]
      · simp [viewSet, hI.last]
      · cases hmn : v.main with
        | none => simp [viewSet, hmn]
        | some x => simpa [viewSet, hmn] using hI.main x
    cases hinit : init with
    | none =>
      obtain ⟨r1, r2⟩ := routed { c0 with level := level } hs0 ht0
      subst hinit
      simp only [r2, and_true]
      intro d hd
      simp only [Outcome.ret.injEq] at hd
      subst hd
      simpa [Done.trace, RCtx.event, starts_append, starts] using r1
    | some f =>
      have s1 := keep_callProg hgo .sess (hG.session f hinit) hs0
      have s2 : HId.main ∉ starts (callProg env .sess f c0).1.trace := by rw [starts_callProg]; simpa using ht0
      subst hinit
      rcases hc : callProg env .sess f c0 with ⟨c1, o⟩
      rw [hc] at s1 s2
      simp only at s1 s2
      simp only [hc]
      cases o with
      | panic =>
        refine ⟨?_, rfl⟩
        intro d hd
        simp only [Outcome.ret.injEq] at hd
        subst hd
        simpa [Done.trace, RCtx.event, starts_append, starts] using s2
      | err e =>
        refine ⟨?_, rfl⟩
        intro d hd
        simp only [Outcome.ret.injEq] at hd
        subst hd
        simpa [Done.trace, RCtx.event, starts_append, starts] using s2
      | ok =>
        obtain ⟨r1, r2⟩ := routed { c1 with level := level } s1 s2
        refine ⟨?_, by simp only [r2]⟩
        intro d hd
        simp only [Outcome.ret.injEq] at hd
        subst hd
        simpa [Done.trace, RCtx.event, starts_append, starts] using r1
  · have hf' : rt.found = false := by simpa using hf
    simp only [hf', Bool.false_eq_true, not_false_eq_true, if_true, and_true]
    intro d hd
    simp only [Outcome.ret.injEq] at hd
    subst hd
    simp [Done.trace, starts]

/-! ### Programs whose routes all have the guard -/

theorem setBuilt_eq (o : Op η ρ) : setBuilt o = o.setVar? := by cases o <;> rfl

theorem no_set {w : World η ρ} (hwf : WF w) {j : Nat} (h : setView w j = none) : w.setVars[j]? = none := by
  cases hj : w.setVars[j]? with
  | none => rfl
  | some b =>
    have hb := hwf.vars b (List.mem_of_getElem? hj)
    rw [setView, hj] at h
    simp [setHandlers] at h
    omega

/-- A program in which every registration goes through a router or a set with the guard registers guarded sets only, and
they stay so. -/
theorem guarded_all (grow : Nat → Nat → Nat) (g : η) (ops : List (Op η ρ)) (h : Guarded grow g ops) :
    AllGuarded g (progState grow ops) := by
  have hwf := progState_wf (η := η) (ρ := ρ) grow
  have snoc : ∀ (pre : List (Op η ρ)) (o : Op η ρ), progState grow (pre ++ [o]) = (step grow (progState grow pre) o).1 := by
    intro pre o; simp [progState, runOps]
  have key : ∀ n, ∀ (pre post : List (Op η ρ)), pre.length = n → ops = pre ++ post →
      (∀ x ∈ (progState grow pre).log, ∃ v, setHandlers (progState grow ops) x.set = some v ∧ g ∈ v.before) ∧
      (∀ x ∈ (progState grow pre).rxLog, ∃ v, setHandlers (progState grow ops) x.set = some v ∧ g ∈ v.before) := by
    intro n
    induction n with
    | zero =>
      intro pre post hl _
      rw [List.length_eq_zero_iff.1 hl]
      simp [progState, runOps, World.init]
    | succ n ih =>
      intro pre' post hl hops
      obtain ⟨pre, o, rfl⟩ : ∃ pre o, pre' = pre ++ [o] := by
        have hne : pre' ≠ [] := by intro e; rw [e] at hl; simp at hl
        exact ⟨pre'.dropLast, pre'.getLast hne, (List.dropLast_concat_getLast hne).symm⟩
      have hops' : ops = pre ++ o :: post := by rw [hops]; simp
      obtain ⟨ih1, ih2⟩ := ih pre (o :: post) (by simpa using hl) hops'
      obtain ⟨hrt, hst⟩ := h pre o post hops'
      have hfin : progState grow ops = runOps grow (progState grow (pre ++ [o])) post := by
        rw [hops']; simp [progState, runOps]
      constructor
      · intro x hx
        rcases log_step grow o (progState grow pre) with e | ⟨m, route, a, hreg, e⟩
        · rw [snoc, e] at hx; exact ih1 x hx
        · obtain ⟨l, hl1, -⟩ := log_run grow post (progState grow (pre ++ [o]))
          rw [← hfin, snoc, e] at hl1
          rw [snoc, e] at hx
          rcases List.mem_append.1 hx with hx | hx
          · exact ih1 x hx
          · simp only [List.mem_singleton] at hx
            subst hx
            have via : ∀ j m' route' hh, step grow (progState grow pre) o = step grow (progState grow pre) (.sAdd m' route' hh (some j)) →
                (∀ v, setView (progState grow pre) j = some v → g ∈ v.before ∧
                  ∀ p ∈ post, ∀ k, setBuilt p = some k → k ≠ j → (progState grow pre).setVars.length ≤ k) →
                ∃ v, setHandlers (progState grow ops) a = some v ∧ g ∈ v.before := by
              intro j m' route' hh hstep hset
              cases hsv : setView (progState grow pre) j with
              | none =>
                have := no_set (hwf pre) hsv
                rw [hstep] at e
                simp [step, opAdd, opCopySet, this] at e
              | some v =>
                obtain ⟨q1, q2⟩ := hset v hsv
                obtain ⟨a', more, h1, -, h3⟩ := C33_template grow pre post j m' route' hh v hsv
                  (fun p hp ⟨k, hk1, hk2, hk3⟩ => absurd (q2 p hp k ((setBuilt_eq p).trans hk1) hk2) (by omega))
                have hsame : progState grow (pre ++ .sAdd m' route' hh (some j) :: post) = progState grow ops := by
                  rw [hfin, snoc, hstep]; simp [progState, runOps]
                rw [hsame] at h1 h3
                rw [hl1] at h1
                simp only [List.append_assoc, List.singleton_append, List.append_cancel_left_eq, List.cons.injEq,
                  Reg.mk.injEq] at h1
                rw [h1.1.2.2]
                exact ⟨_, h3, q1⟩
            cases o with
            | rUse r m' route' hh =>
              cases hrv : routerView (progState grow pre) r with
              | none =>
                have : (progState grow pre).routers[r]? = none := by simpa [routerView] using hrv
                simp [step, this] at e
              | some rv =>
                obtain ⟨a', more, h1, -, h3⟩ := C32_snapshot grow pre post r m' route' hh rv hrv
                rw [← hops'] at h1 h3
                rw [hl1] at h1
                simp only [List.append_assoc, List.singleton_append, List.append_cancel_left_eq, List.cons.injEq,
                  Reg.mk.injEq] at h1
                rw [h1.1.2.2]
                exact ⟨_, h3, hrt r rv rfl hrv⟩
            | sAdd m' route' hh set =>
              cases set with
              | none => simp [step, opAdd, opCopySet] at e
              | some j => exact via j m' route' hh rfl (fun v hv => hst j v rfl hv)
            | sConv m' route' hh sets =>
              rcases sets with - | ⟨- | j, rest⟩
              · rw [(C16_convenience grow _ m' route' hh).2.1] at e; simp at e
              · rw [(C16_convenience grow _ m' route' hh).2.2] at e; simp at e
              · exact via j m' route' hh ((C16_convenience grow _ m' route' hh).1 j rest) (fun v hv => hst j v rfl hv)
            | _ => simp [registers] at hreg
      · intro x hx
        rcases rxLog_step grow o (progState grow pre) with e | ⟨m, rx, a, hreg, e⟩
        · rw [snoc, e] at hx; exact ih2 x hx
        · obtain ⟨l, hl1, -⟩ := rxLog_run grow post (progState grow (pre ++ [o]))
          rw [← hfin, snoc, e] at hl1
          have hm : m ∈ rxMethods := by
            have := (hwf (pre ++ [o])).rxOk ⟨m, rx, a⟩ (by rw [snoc, e]; simp)
            exact this
          rw [snoc, e] at hx
          rcases List.mem_append.1 hx with hx | hx
          · exact ih2 x hx
          · simp only [List.mem_singleton] at hx
            subst hx
            cases o with
            | rUseReg r m' rx' hh =>
              simp only [registersRx, Option.some.injEq, Prod.mk.injEq] at hreg
              cases hrv : routerView (progState grow pre) r with
              | none =>
                have : (progState grow pre).routers[r]? = none := by simpa [routerView] using hrv
                simp [step, this] at e
              | some rv =>
                obtain ⟨a', more, h1, -, h3⟩ := C32_snapshot_reg grow pre post r m' rx' hh rv hrv (by rw [hreg.1]; exact hm)
                rw [← hops'] at h1 h3
                rw [hl1] at h1
                simp only [List.append_assoc, List.singleton_append, List.append_cancel_left_eq, List.cons.injEq,
                  RxReg.mk.injEq] at h1
                rw [h1.1.2.2]
                exact ⟨_, h3, hrt r rv rfl hrv⟩
            | sAddReg m' rx' hh set =>
              simp only [registersRx, Option.some.injEq, Prod.mk.injEq] at hreg
              cases set with
              | none => simp [step, opAddReg, opCopySet] at e
              | some j =>
                cases hsv : setView (progState grow pre) j with
                | none =>
                  have := no_set (hwf pre) hsv
                  simp [step, opAddReg, opCopySet, this] at e
                | some v =>
                  obtain ⟨q1, q2⟩ := hst j v rfl hsv
                  obtain ⟨a', more, h1, -, h3, -⟩ := C33_template_reg grow pre post j m' rx' hh v hsv (by rw [hreg.1]; exact hm)
                    (fun p hp ⟨k, hk1, hk2, hk3⟩ => absurd (q2 p hp k ((setBuilt_eq p).trans hk1) hk2) (by simpa [progState] using hk3))
                  rw [← hops'] at h1 h3
                  rw [hl1] at h1
                  simp only [List.append_assoc, List.singleton_append, List.append_cancel_left_eq, List.cons.injEq,
                    RxReg.mk.injEq] at h1
                  rw [h1.1.2.2]
                  exact ⟨_, h3, q1⟩
            | _ => simp [registersRx] at hreg
  intro a ha
  obtain ⟨k1, k2⟩ := key ops.length ops [] rfl (by simp)
  rcases ha with ha | ha
  · obtain ⟨x, hx, rfl⟩ := List.mem_map.1 ha; exact k1 x hx
  · obtain ⟨x, hx, rfl⟩ := List.mem_map.1 ha; exact k2 x hx

theorem guard_serve (w : World η ρ) (I' : Handlers3 η υ)
    (hrun : ∀ resp, (∀ d, runHTTP env rxMatch visit (serverOf I w init level) req.method req.path resp store buf clock = .ret d →
      HId.main ∉ starts d.trace) ∧
      runHTTP env rxMatch visit (serverOf I' w init level) req.method req.path resp store buf clock =
      runHTTP env rxMatch visit (serverOf I w init level) req.method req.path resp store buf clock) :
    (∀ sv d, serveHTTP u env rxMatch visit (serverOf I w init level) ba req resp store buf clock = .ret sv → sv.ran = some d →
      HId.main ∉ starts d.trace) ∧
    serveHTTP u env rxMatch visit (serverOf I' w init level) ba req resp store buf clock =
    serveHTTP u env rxMatch visit (serverOf I w init level) ba req resp store buf clock := by
  refine ⟨?_, serveHTTP_same u env rxMatch visit _ _ ba req resp store buf clock fun resp => (hrun resp).2⟩
  have run : ∀ logged resp sv d, ((runHTTP env rxMatch visit (serverOf I w init level) req.method req.path resp store buf
      clock).bind fun d => Outcome.ret (⟨logged, some d, d.resp⟩ : Served υ)) = .ret sv → sv.ran = some d →
      HId.main ∉ starts d.trace := by
    intro logged resp sv d h hd
    cases hr : runHTTP env rxMatch visit (serverOf I w init level) req.method req.path resp store buf clock with
    | ret d' =>
      rw [hr] at h
      simp only [Outcome.bind_ret, Outcome.ret.injEq] at h
      subst h
      simp only [Option.some.injEq] at hd
      subst hd
      exact (hrun resp).1 _ hr
    | _ => rw [hr] at h; simp [Outcome.bind] at h
  intro sv d h hd
  unfold serveHTTP at h
  simp only at h
  split at h
  · split at h
    · cases h
    · split at h
      · rename_i f _ _
        cases hc : ba.check u req.auth resp with
        | ret c =>
          rw [hc] at h
          simp only [Outcome.bind_ret] at h
          split at h
          · simp only [Outcome.ret.injEq] at h
            subst h
            cases hd
          · exact run _ _ _ _ h hd
        | _ => rw [hc] at h; simp [Outcome.bind] at h
      · exact run _ _ _ _ h hd
  · exact run _ _ _ _ h hd

include hv in
/-- **C130**.  In a program in which every route and expression is registered through a Router that has the guard among
its before handlers at that moment — whatever the program does before, between and afterwards — or through a handler set
that has it (and no other set of that moment is built on afterwards, see C33), no request that the guard refuses ever
reaches a main handler. -/
theorem C130_refused (P : υ → Prop) (g : η) (hG : Guards I env init P g) (grow : Nat → Nat → Nat) (ops : List (Op η ρ))
    (hops : Guarded grow g ops) (hP : ∀ args, P (store args)) (sv : Served υ) (d : Done υ)
    (h : serveHTTP u env rxMatch visit (serverOf I (progState grow ops) init level) ba req resp store buf clock = .ret sv)
    (hd : sv.ran = some d) : HId.main ∉ starts d.trace :=
  (guard_serve I init level u env rxMatch visit ba req resp store buf clock (progState grow ops) I fun resp =>
    guard_runHTTP I init level env rxMatch visit hv resp store buf clock P g hG _ (progState_wf grow ops)
      (guarded_all grow g ops hops) I ⟨rfl, rfl, fun _ => rfl⟩ req.method req.path hP).1 sv d h hd

include hv in
/-- **C130**, what the client sees: the answer to a refused request, and everything else that happens, does not depend on
what the main handlers would do. -/
theorem C130_noninterference (P : υ → Prop) (g : η) (hG : Guards I env init P g) (grow : Nat → Nat → Nat)
    (ops : List (Op η ρ)) (hops : Guarded grow g ops) (hP : ∀ args, P (store args)) (I' : Handlers3 η υ)
    (hI : SameButMain I I') :
    serveHTTP u env rxMatch visit (serverOf I' (progState grow ops) init level) ba req resp store buf clock =
    serveHTTP u env rxMatch visit (serverOf I (progState grow ops) init level) ba req resp store buf clock :=
  (guard_serve I init level u env rxMatch visit ba req resp store buf clock (progState grow ops) I' fun resp =>
    guard_runHTTP I init level env rxMatch visit hv resp store buf clock P g hG _ (progState_wf grow ops)
      (guarded_all grow g ops hops) I' hI req.method req.path hP).2

/-- A table of guarded entries. -/
def GuardedTable (g : η) (v : Values η ρ) : Prop :=
  (∀ x ∈ v.routes, g ∈ x.2.2.before) ∧ ∀ y ∈ v.rxRoutes, g ∈ y.2.2.before

theorem table_guarded (grow : Nat → Nat → Nat) (g : η) (ops : List (Op η ρ)) (hp : ByValue ops)
    (ht : GuardedTable g (vrun rxMethods ops)) : AllGuarded g (progState grow ops) := by
  obtain ⟨nc, hrel⟩ := byValue_rel grow ops hp
  intro a ha
  rcases ha with ha | ha
  · obtain ⟨r, hr, rfl⟩ := List.mem_map.1 ha
    have : (r.method, r.route, setHandlers (progState grow ops) r.set) ∈
        (vrun rxMethods ops).routes.map fun x => (x.1, x.2.1, some x.2.2) := by
      rw [← hrel.log]; exact List.mem_map.2 ⟨r, hr, rfl⟩
    obtain ⟨x, hx, e⟩ := List.mem_map.1 this
    simp only [Prod.mk.injEq] at e
    exact ⟨_, e.2.2.symm, ht.1 x hx⟩
  · obtain ⟨r, hr, rfl⟩ := List.mem_map.1 ha
    have : (r.method, r.rx, setHandlers (progState grow ops) r.set) ∈
        (vrun rxMethods ops).rxRoutes.map fun x => (x.1, x.2.1, some x.2.2) := by
      rw [← hrel.rx]; exact List.mem_map.2 ⟨r, hr, rfl⟩
    obtain ⟨x, hx, e⟩ := List.mem_map.1 this
    simp only [Prod.mk.injEq] at e
    exact ⟨_, e.2.2.symm, ht.2 x hx⟩

include hv in
/-- **C130**, programs whose calls are read as values, routers and handler sets alike: if every entry of the table has the
guard, both conclusions hold. -/
theorem C130_table (P : υ → Prop) (g : η) (hG : Guards I env init P g) (grow : Nat → Nat → Nat)
    (ops : List (Op η ρ)) (hp : ByValue ops) (ht : GuardedTable g (vrun rxMethods ops)) (hP : ∀ args, P (store args)) :
    (∀ sv d, serveHTTP u env rxMatch visit (serverOf I (progState grow ops) init level) ba req resp store buf clock = .ret sv →
      sv.ran = some d → HId.main ∉ starts d.trace) ∧
    ∀ I', SameButMain I I' →
      serveHTTP u env rxMatch visit (serverOf I' (progState grow ops) init level) ba req resp store buf clock =
      serveHTTP u env rxMatch visit (serverOf I (progState grow ops) init level) ba req resp store buf clock := by
  have core := fun I' hI => guard_serve I init level u env rxMatch visit ba req resp store buf clock (progState grow ops) I'
    fun resp => guard_runHTTP I init level env rxMatch visit hv resp store buf clock P g hG _ (progState_wf grow ops)
      (table_guarded grow g ops hp ht) I' hI req.method req.path hP
  exact ⟨(core I ⟨rfl, rfl, fun _ => rfl⟩).1, fun I' hI => (core I' hI).2⟩

theorem keepsGuard_step [DecidableEq η] (g : η) (o : Op η ρ) (h : keepsGuard g o = true) (hp : plain o = true) (v : Values η ρ)
    (hr : ∀ r ∈ v.routers, g ∈ r.before) (ht : GuardedTable g v) :
    (∀ r ∈ (vstep rxMethods v o).routers, g ∈ r.before) ∧ GuardedTable g (vstep rxMethods v o) := by
  have modify : ∀ (i : Nat) (f : RView η → RView η), (∀ r ∈ v.routers, g ∈ (f r).before) →
      ∀ r ∈ upd v.routers i f, g ∈ r.before := by
    intro i f hf r hm
    unfold upd at hm
    obtain ⟨n, hn⟩ := List.mem_iff_getElem?.1 hm
    rw [List.getElem?_modify] at hn
    cases hg : v.routers[n]? with
    | none => rw [hg] at hn; simp at hn
    | some x =>
      rw [hg] at hn
      have hx := List.mem_of_getElem? hg
      by_cases hin : i = n
      · simp only [hin, if_true, Option.map_eq_map, Option.map_some, Option.some.injEq] at hn
        rw [← hn]; exact hf x hx
      · simp only [hin, if_false, Option.map_eq_map, Option.map_some, Option.some.injEq] at hn
        rw [← hn]; exact hr x hx
  cases o with
  | newRouter => simp [keepsGuard] at h
  | sAdd _ _ _ _ => simp [keepsGuard, viaServer] at h
  | sAddReg _ _ _ _ => simp [keepsGuard, viaServer] at h
  | sConv _ _ _ _ => simp [keepsGuard, viaServer] at h
  | rBefore r arg =>
    cases arg with
    | spread i => simp [plain] at hp
    | lit xs =>
      have hg : g ∈ xs := by simpa [keepsGuard] using h
      exact ⟨modify r _ fun _ _ => hg, ht⟩
  | rFirst r x => exact ⟨modify r _ fun y hy => List.mem_cons_of_mem _ (hr y hy), ht⟩
  | rAfter r arg =>
    cases arg with
    | spread i => simp [plain] at hp
    | lit xs => exact ⟨modify r _ fun y hy => hr y hy, ht⟩
  | rLastAfter r x => exact ⟨modify r _ fun y hy => hr y hy, ht⟩
  | rLast r x => exact ⟨modify r _ fun y hy => hr y hy, ht⟩
  | rUse r m route x =>
    simp only [vstep, Values.route]
    cases hg : v.routers[r]? with
    | none => exact ⟨hr, ht⟩
    | some y =>
      refine ⟨hr, ?_, ht.2⟩
      intro z hz
      simp only [Option.map_some, List.mem_append, List.mem_singleton] at hz
      rcases hz with hz | rfl
      · exact ht.1 z hz
      · exact hr y (List.mem_of_getElem? hg)
  | rUseReg r m rx x =>
    simp only [vstep, Values.rxRoute]
    cases hg : v.routers[r]? with
    | none => exact ⟨hr, ht⟩
    | some y =>
      simp only [Option.map_some]
      split
      · refine ⟨hr, ht.1, ?_⟩
        intro z hz
        simp only [List.mem_append, List.mem_singleton] at hz
        rcases hz with hz | rfl
        · exact ht.2 z hz
        · exact hr y (List.mem_of_getElem? hg)
      · exact ⟨hr, ht⟩
  | rClone r =>
    simp only [vstep]
    cases hg : v.routers[r]? with
    | none => exact ⟨hr, ht⟩
    | some y =>
      refine ⟨?_, ht⟩
      intro z hz
      simp only [List.mem_append, List.mem_singleton] at hz
      rcases hz with hz | rfl
      · exact hr z hz
      · exact hr _ (List.mem_of_getElem? hg)
  | setBefore j arg => cases arg <;> exact ⟨hr, ht⟩
  | setAfter j arg => cases arg <;> exact ⟨hr, ht⟩
  | setClone j => simp [plain] at hp
  | _ => exact ⟨hr, ht⟩

theorem keepsGuard_run [DecidableEq η] (g : η) (rest : List (Op η ρ)) (h : ∀ o ∈ rest, keepsGuard g o = true ∧ plain o = true) :
    ∀ v : Values η ρ, (∀ r ∈ v.routers, g ∈ r.before) → GuardedTable g v →
    GuardedTable g (rest.foldl (vstep rxMethods) v) := by
  induction rest with
  | nil => exact fun _ _ ht => ht
  | cons o rest ih =>
    intro v hr ht
    obtain ⟨h1, h2⟩ := h o (by simp)
    obtain ⟨k1, k2⟩ := keepsGuard_step g o h1 h2 v hr ht
    exact ih (fun o ho => h o (List.mem_cons_of_mem _ ho)) _ k1 k2

include hv in
/-- **C130**, as one writes it: the program begins with one router with the guard (`Before` with a list that has it, or
`First`), registers through this router and routers cloned from it only, and when it calls `Before` again it passes the
guard again. -/
theorem C130_one_router [DecidableEq η] (P : υ → Prop) (g : η) (hG : Guards I env init P g) (grow : Nat → Nat → Nat)
    (first : Op η ρ) (hfirst : (∃ xs, g ∈ xs ∧ first = .rBefore 0 (.lit xs)) ∨ first = .rFirst 0 g)
    (rest : List (Op η ρ)) (hrest : ∀ o ∈ rest, keepsGuard g o = true)
    (hp : ByValue (.newRouter :: first :: rest)) (hP : ∀ args, P (store args)) :
    (∀ sv d, serveHTTP u env rxMatch visit (serverOf I (progState grow (.newRouter :: first :: rest)) init level) ba req resp
        store buf clock = .ret sv → sv.ran = some d → HId.main ∉ starts d.trace) ∧
    ∀ I', SameButMain I I' →
      serveHTTP u env rxMatch visit (serverOf I' (progState grow (.newRouter :: first :: rest)) init level) ba req resp store buf clock =
      serveHTTP u env rxMatch visit (serverOf I (progState grow (.newRouter :: first :: rest)) init level) ba req resp store buf clock := by
  refine C130_table I init level u env rxMatch visit hv ba req resp store buf clock P g hG grow _ hp ?_ hP
  refine keepsGuard_run g rest (fun o ho => ⟨hrest o ho, hp.1 o (by simp [ho])⟩) _ ?_ ?_
  · rcases hfirst with ⟨xs, hg, rfl⟩ | rfl <;> simp_all [vstep, Values.init, upd]
  · rcases hfirst with ⟨xs, hg, rfl⟩ | rfl <;> simp [vstep, Values.init, GuardedTable]

end Request

/-! ### Concrete cases -/

section Examples

/-- The state of a request is a list of numbers; it begins with what the client sent as its token. The request is to be
refused if that is 0. -/
def badToken (s : List Nat) : Prop := s.head? = some 0

/-- Handler 4 is the guard: it answers 403 and returns an error if the token is 0. The other handlers append their number. -/
def gHandlers : Handlers3 Nat (List Nat) where
  hdl n := if n = 4 then some ⟨b!"guard", fun c => if c.store.head? = some 0 then
      .call (.resp fun r => { r with status := 403 }) fun _ => .ret (.err (.leaf 1 b!"no")) else .ret .ok⟩
    else some ⟨b!"h", fun _ => .call (.upd (· ++ [n])) fun _ => .ret .ok⟩
  main n := some ⟨b!"m", fun _ => .ret .ok, fun _ => .call (.upd (· ++ [100 + n])) fun _ => .ret .ok⟩
  last n := some ⟨b!"l", fun _ _ => .call (.upd (· ++ [200 + n])) fun _ => .ret .ok⟩

def gEnv : Env (List Nat) := ⟨fun n c => (none, c.store ++ [n]), fun _ => [0], fun _ => false⟩

theorem badToken_append (s t : List Nat) (h : badToken s) : badToken (s ++ t) := by
  unfold badToken at *
  cases s with
  | nil => cases h
  | cons x s => exact h

/-- The hypothesis of C130 about the handlers holds here. -/
theorem gGuards : Guards gHandlers gEnv none badToken 4 where
  refuses := by
    intro h he c hc
    simp only [gHandlers, if_true, Option.some.injEq] at he
    subst he
    have hc' : c.store.head? = some 0 := hc
    simp only [hc', if_true]
    exact .call _ _ (fun f e => by cases e) fun _ _ => .err _
  others := by
    intro x h hx he c hc
    simp only [gHandlers, hx, if_false, Option.some.injEq] at he
    subst he
    refine .call _ _ (fun f e s hs => ?_) fun _ _ => .ret _
    cases e
    exact badToken_append _ _ hs
  inits := by
    intro x m he c _
    simp only [gHandlers, Option.some.injEq] at he
    subst he
    exact .ret _
  session := by intro f he; cases he
  goroutines := fun n c hc => badToken_append _ _ hc

def gOps : List (Op Nat Nat) := [.newRouter, .rBefore 0 (.lit [1, 4, 2]), .rUse 0 b!"GET" b!"/a" (some 6), .rClone 0, .rFirst 1 7,
  .rUse 1 b!"POST" b!"/b/:id" (some 8), .rBefore 0 (.lit [4]), .rUseReg 0 b!"GET" 3 (some 9), .newSet]

/-- The hypotheses of `C130_one_router` about the program hold for this program of two routers, two routes and an expression. -/
example : (∀ o ∈ gOps.drop 2, keepsGuard 4 o = true) ∧ ByValue gOps := by
  refine ⟨by decide, by decide, Or.inr (by decide)⟩

/-- The same program, with a handler set (number 0) that gets the guard, serves a route and is used on. -/
def gOps2 : List (Op Nat Nat) := gOps ++ [.setBefore 0 (.lit [2, 4]), .setClone 0, .sAdd b!"PUT" b!"/s" (some 6) (some 0),
  .setBefore 0 (.lit [5]), .setClone 0, .setBefore 2 (.lit [1])]

/-- The hypothesis of `C130_refused` about the program holds for it. -/
example : Guarded (fun c _ => 2 * c) 4 gOps2 := by
  have key : ∀ i : Fin 15, ((gOps2[i.1]?).all fun o => ((viaRouter o).all fun r =>
        (routerView (runOps (fun c _ => 2 * c) World.init (gOps2.take i)) r).all fun rv => decide (4 ∈ rv.before)) &&
      (viaSet o).all fun j => ((setView (runOps (fun c _ => 2 * c) World.init (gOps2.take i)) j).all fun v => decide (4 ∈ v.before)) &&
        (gOps2.drop (i.1 + 1)).all fun p => (setBuilt p).all fun k =>
          decide (k = j) || decide ((runOps (fun c _ => 2 * c) World.init (gOps2.take i)).setVars.length ≤ k)) = true := by
    decide +kernel
  intro pre o post h
  have hi : pre.length < 15 := by have := congrArg List.length h; simp [gOps2, gOps] at this; omega
  have ho : gOps2[pre.length]? = some o := by rw [h]; simp
  have hpre : gOps2.take pre.length = pre := by rw [h]; simp
  have hpost : gOps2.drop (pre.length + 1) = post := by
    rw [h, show pre ++ o :: post = (pre ++ [o]) ++ post by simp, show pre.length + 1 = (pre ++ [o]).length by simp]
    exact List.drop_left
  have k := key ⟨pre.length, hi⟩
  simp only [ho, hpre, hpost, Option.all_some, Bool.and_eq_true] at k
  refine ⟨fun r rv hr hv => ?_, fun j v hj hv => ?_⟩
  · have k1 := k.1
    rw [hr, Option.all_some, hv] at k1
    simpa using k1
  · have k2 := k.2
    rw [hj, Option.all_some, hv, Bool.and_eq_true] at k2
    refine ⟨by simpa using k2.1, fun p hp n hn hne => ?_⟩
    have k3 := List.all_eq_true.1 k2.2 p hp
    rw [hn, Option.all_some] at k3
    simpa [hne] using k3

/-- What a request does: its handlers, the state it leaves, the status. -/
def gAnswer (ops : List (Op Nat Nat)) (tok : Nat) (m path : Str) : Option (List HId × List Nat × Nat) :=
  match serveHTTP id gEnv (fun _ p => p == b!"/x") id (serverOf gHandlers (progState (fun c _ => 2 * c) ops) none 5) newBaseAuth
    ⟨m, path, []⟩ ⟨200, [], []⟩ (fun _ => [tok]) [] 0 with
  | .ret d => d.ran.bind fun r => r.ctx.map fun c => (starts c.trace, c.store, r.resp.status)
  | _ => none

example : gAnswer gOps 0 b!"GET" b!"/a" = some ([.init, .before 0, .before 1], [0, 1], 403) := by decide +kernel
example : gAnswer gOps 5 b!"GET" b!"/a" = some ([.init, .before 0, .before 1, .before 2, .main], [5, 1, 2, 106], 200) := by decide +kernel
example : gAnswer gOps 0 b!"POST" b!"/b/1" = some ([.init, .before 0, .before 1, .before 2], [0, 7, 1], 403) := by decide +kernel
example : gAnswer gOps 0 b!"GET" b!"/x" = some ([.init, .before 0], [0], 403) := by decide +kernel
example : gAnswer gOps 1 b!"GET" b!"/x" = some ([.init, .before 0, .main], [1, 109], 200) := by decide +kernel

example : gAnswer gOps2 0 b!"PUT" b!"/s" = some ([.init, .before 0, .before 1], [0, 2], 403) := by decide +kernel
example : gAnswer gOps2 7 b!"PUT" b!"/s" = some ([.init, .before 0, .before 1, .main], [7, 2, 106], 200) := by decide +kernel

/-- The condition on `Before` is needed: it replaces the list, so `Before` on a clone drops the inherited guard. -/
theorem C130_before_replaces : gAnswer [.newRouter, .rBefore 0 (.lit [4]), .rClone 0, .rBefore 1 (.lit [1]),
    .rUse 1 b!"GET" b!"/admin" (some 6)] 0 b!"GET" b!"/admin" = some ([.init, .before 0, .main], [0, 1, 106], 200) := by
  decide +kernel

/-- **C33**, what its failure means for a guard: the set has the guard (handler 4) when the route is registered, and the
request is refused; after one more call on another set, that was cloned from it earlier, the same request reaches the main
handler. -/
theorem C33_unguarded :
    let ops : List (Op Nat Nat) := [.newSet, .setBefore 0 (.lit [1]), .setBefore 0 (.lit [2]), .setBefore 0 (.lit [3]), .setClone 0,
      .setBefore 0 (.lit [4]), .sAdd b!"GET" b!"/admin" (some 6) (some 0)]
    gAnswer ops 0 b!"GET" b!"/admin" = some ([.init, .before 0, .before 1, .before 2, .before 3], [0, 1, 2, 3], 403) ∧
    gAnswer (ops ++ [.setBefore 1 (.lit [5])]) 0 b!"GET" b!"/admin" =
      some ([.init, .before 0, .before 1, .before 2, .before 3, .main], [0, 1, 2, 3, 5, 106], 200) := by decide +kernel

end Examples

end Verif
