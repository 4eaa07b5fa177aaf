import Verif.Props.EndToEnd
import Verif.Model.StaticReg
import Verif.Lemmas.RxDot
/-
C75 for regular expressions, and C76: registration of static files.
-/
namespace Verif
open Spec
set_option linter.unusedSectionVars false
variable {η ρ υ : Type} [Inhabited η] [DecidableEq ρ]

/-- Every registration in the log was made by a call of the program. -/
theorem rxLog_step (grow : Nat → Nat → Nat) (o : Op η ρ) (w : World η ρ) :
    (step grow w o).1.rxLog = w.rxLog ∨
    ∃ m rx a, registersRx o = some (m, rx) ∧ (step grow w o).1.rxLog = w.rxLog ++ [⟨m, rx, a⟩] := by
  have ev : ∀ arg w' x, evalArg w arg = some (w', x) → w'.rxLog = w.rxLog := by
    intro arg w' x he
    cases arg with
    | lit xs => simp only [evalArg, Option.some.injEq, Prod.mk.injEq] at he; rw [← he.1]
    | spread i =>
      simp only [evalArg, Option.map_eq_some_iff, Prod.mk.injEq] at he
      obtain ⟨_, _, h, _⟩ := he
      rw [← h]
  have ob : ∀ (w : World η ρ) b xs, (opBefore grow w b xs).rxLog = w.rxLog := by
    intro w b xs; unfold opBefore; split <;> rfl
  have oa : ∀ (w : World η ρ) b xs, (opAfter grow w b xs).rxLog = w.rxLog := by
    intro w b xs; unfold opAfter; split <;> rfl
  have ora : ∀ (w : World η ρ) m rx b, (opRegAdd w m rx b).1.rxLog = w.rxLog ∨
      (opRegAdd w m rx b).1.rxLog = w.rxLog ++ [⟨m, rx, b⟩] := by
    intro w m rx b
    unfold opRegAdd
    split
    · exact Or.inl rfl
    · exact Or.inr rfl
  have oc : ∀ (w w' : World η ρ) j x b, opCopySet w j x = some (w', b) → w'.rxLog = w.rxLog := by
    intro w w' j x b he
    unfold opCopySet at he
    split at he
    · simp at he
    · split at he
      · simp at he
      · simp only [Option.some.injEq, Prod.mk.injEq] at he
        rw [← he.1]
        unfold opClone
        split <;> rfl
  have oadd : ∀ m route x set, (opAdd w m route x set).1.rxLog = w.rxLog := by
    intro m route x set
    unfold opAdd
    split
    · rfl
    · rename_i he
      have := oc _ _ _ _ _ he
      exact this
  cases o with
  | newSet => exact Or.inl rfl
  | setBefore j arg =>
    left
    simp only [step]
    split
    · rfl
    · split
      · rfl
      · rename_i he
        exact (ob _ _ _).trans (ev _ _ _ he)
  | setAfter j arg =>
    left
    simp only [step]
    split
    · rfl
    · split
      · rfl
      · rename_i he
        exact (oa _ _ _).trans (ev _ _ _ he)
  | setLast j x => left; simp only [step]; split <;> rfl
  | setUse j x => left; simp only [step]; split <;> rfl
  | setClone j =>
    left
    simp only [step]
    split
    · rfl
    · unfold opClone; split <;> rfl
  | newRouter => exact Or.inl rfl
  | rFirst r x => left; simp only [step]; split <;> rfl
  | rBefore r arg =>
    left
    simp only [step]
    split
    · rfl
    · split
      · rfl
      · rename_i he; have := ev _ _ _ he; exact this
  | rAfter r arg =>
    left
    simp only [step]
    split
    · rfl
    · split
      · rfl
      · rename_i he; have := ev _ _ _ he; exact this
  | rLastAfter r x => left; simp only [step]; split <;> rfl
  | rLast r x => left; simp only [step]; split <;> rfl
  | rUse r m route x =>
    simp only [step]
    split
    · exact Or.inl rfl
    · rename_i rt _
      have f := opSnapshot_frame grow w rt x
      left
      simp only [opTreeAdd]
      rw [f.2.2.2.2.2.2.2.2]
  | rUseReg r m rx x =>
    simp only [step]
    split
    · exact Or.inl rfl
    · rename_i rt _
      have f := opSnapshot_frame grow w rt x
      rcases ora (opSnapshot grow w rt x).1 m rx (opSnapshot grow w rt x).2 with h | h
      · left; rw [h, f.2.2.2.2.2.2.2.2]
      · exact Or.inr ⟨m, rx, _, rfl, by rw [h, f.2.2.2.2.2.2.2.2]⟩
  | rClone r => left; simp only [step]; split <;> rfl
  | rGetBefore r => left; simp only [step]; split <;> rfl
  | rGetAfter r => left; simp only [step]; split <;> rfl
  | sAdd m route x set => exact Or.inl (oadd m route x set)
  | sAddReg m rx x set =>
    simp only [step, opAddReg]
    split
    · exact Or.inl rfl
    · rename_i w' a he
      rcases ora w' m rx a with h | h
      · left; rw [h]; exact oc _ _ _ _ _ he
      · exact Or.inr ⟨m, rx, a, rfl, by rw [h, oc _ _ _ _ _ he]⟩
  | sConv m route x sets => exact Or.inl (oadd m route x (nonEmptySet sets))
  | mkSlice xs n => exact Or.inl rfl
  | slSet i k x =>
    left
    simp only [step]
    split
    · rfl
    · split <;> rfl
  | slAppend i xs => left; simp only [step]; split <;> rfl
  | slSub i lo hi mx =>
    left
    simp only [step]
    split
    · rfl
    · split <;> rfl

theorem rxLog_run (grow : Nat → Nat → Nat) (ops : List (Op η ρ)) : ∀ w : World η ρ,
    ∃ l, (runOps grow w ops).rxLog = w.rxLog ++ l ∧ ∀ x ∈ l, ∃ o ∈ ops, registersRx o = some (x.method, x.rx) := by
  induction ops with
  | nil => intro w; exact ⟨[], by simp [runOps], by simp⟩
  | cons o ops ih =>
    intro w
    obtain ⟨l, h1, h2⟩ := ih (step grow w o).1
    have hr : runOps grow w (o :: ops) = runOps grow (step grow w o).1 ops := rfl
    rcases rxLog_step grow o w with h | ⟨m, rx, a, hreg, h⟩
    · refine ⟨l, by rw [hr, h1, h], fun x hx => ?_⟩
      obtain ⟨o', ho', e⟩ := h2 x hx
      exact ⟨o', List.mem_cons_of_mem _ ho', e⟩
    · refine ⟨⟨m, rx, a⟩ :: l, by rw [hr, h1, h]; simp, fun x hx => ?_⟩
      rcases List.mem_cons.1 hx with rfl | hx
      · exact ⟨o, List.mem_cons_self .., hreg⟩
      · obtain ⟨o', ho', e⟩ := h2 x hx
        exact ⟨o', List.mem_cons_of_mem _ ho', e⟩

/-- The registrations of a program around one of its calls. -/
theorem rxLog_around (grow : Nat → Nat → Nat) (ops later : List (Op η ρ)) (o : Op η ρ) (m : Method) (rx : ρ) (a : Nat)
    (more : List (RxReg ρ Nat))
    (h : (progState grow (ops ++ o :: later)).rxLog = (progState grow ops).rxLog ++ ⟨m, rx, a⟩ :: more)
    (hlt : (progState grow ops).rxLog.length < (step grow (progState grow ops) o).1.rxLog.length) :
    (∀ x ∈ (progState grow ops).rxLog, ∃ p ∈ ops, registersRx p = some (x.method, x.rx)) ∧
    ∀ x ∈ more, ∃ p ∈ later, registersRx p = some (x.method, x.rx) := by
  obtain ⟨l0, g0, o0⟩ := rxLog_run grow ops (World.init : World η ρ)
  have hlog0 : (progState grow ops).rxLog = l0 := by unfold progState; rw [g0]; rfl
  refine ⟨by rw [hlog0]; exact o0, ?_⟩
  obtain ⟨l1, g1, o1⟩ := rxLog_run grow later (step grow (progState grow ops) o).1
  have hlog1 : (progState grow (ops ++ o :: later)).rxLog = (step grow (progState grow ops) o).1.rxLog ++ l1 := by
    rw [← g1]; simp [progState, runOps]
  rcases rxLog_step grow o (progState grow ops) with hs | ⟨m', rx', a', hr, hs⟩
  · rw [hs] at hlt; omega
  · have : (progState grow ops).rxLog ++ ⟨m, rx, a⟩ :: more = (progState grow ops).rxLog ++ ⟨m', rx', a'⟩ :: l1 := by
      rw [← h, hlog1, hs]; simp
    have := (List.cons.inj (List.append_cancel_left this)).2
    rw [this]
    exact o1


/-- The copy registered by Server.AddReg, for a class `P` of set variables used afterwards. -/
theorem reg_template (grow : Nat → Nat → Nat) (ops later : List (Op η ρ)) (j : Nat) (m : Method) (rx : ρ) (h : Option η)
    (v : HView η) (hv : setView (progState grow ops) j = some v) (hm : m ∈ rxMethods) (P : Nat → Prop)
    (hP : ∀ k b s addr s', P k → (progState grow ops).setVars[k]? = some b → (progState grow ops).sets[b]? = some s →
      (progState grow ops).setVars[j]? = some addr → (progState grow ops).sets[addr]? = some s' →
      Safe s.before s'.before ∧ Safe s.after s'.after)
    (hlater : ∀ o ∈ later, ∀ k, o.setVar? = some k → P k) :
    let w := progState grow (ops ++ .sAddReg m rx h (some j) :: later)
    ∃ a more, w.rxLog = (progState grow ops).rxLog ++ ⟨m, rx, a⟩ :: more ∧ w.regs = regOf w.rxLog ∧
      setHandlers w a = some { v with main := h } ∧
      (progState grow ops).rxLog.length < (step grow (progState grow ops) (.sAddReg m rx h (some j))).1.rxLog.length := by
  intro w
  have hwf := progState_wf (η := η) (ρ := ρ) grow ops
  have hw : w = runOps grow (step grow (progState grow ops) (.sAddReg m rx h (some j))).1 later := by
    simp [w, progState, runOps]
  have hex : ∃ w' a, opCopySet (progState grow ops) (some j) h = some (w', a) := by
    simp only [setView, Option.bind_eq_some_iff] at hv
    obtain ⟨addr, h1, _⟩ := hv
    simp [opCopySet, h1]
  obtain ⟨w', a, he⟩ := hex
  obtain ⟨s, hs⟩ := copy_sealed hwf hv he P hP
  have hstep : (step grow (progState grow ops) (.sAddReg m rx h (some j))).1 = (opRegAdd w' m rx a).1 := by
    simp only [step, opAddReg, he]
  have hs' : Sealed P w a s { v with main := h } := by
    rw [hw, hstep]
    exact (hs.opRegAdd m rx a).run grow later hlater
  obtain ⟨_, l, hl⟩ := log_grows_run grow later (step grow (progState grow ops) (.sAddReg m rx h (some j))).1
  have hw'log : w'.rxLog = (progState grow ops).rxLog ∧ w'.regs = (progState grow ops).regs := by
    obtain ⟨_, _, _, _, _, _, _, rfl⟩ := opCopySet_frame hwf he; exact ⟨rfl, rfl⟩
  have hok : (regAdd w'.regs m rx (some a)).2 = false := by
    rw [hw'log.2, hwf.regs]
    exact (C15_unsupported_method _ m rx _).1.1 hm
  have hone : (opRegAdd w' m rx a).1.rxLog = (progState grow ops).rxLog ++ [⟨m, rx, a⟩] := by
    unfold opRegAdd
    split
    · rename_i he; rw [he] at hok; simp at hok
    · simp only; rw [hw'log.1]
  refine ⟨a, l, ?_, (progState_wf grow _).regs, hs'.view, ?_⟩
  · rw [hw, hl, hstep, hone]; simp
  · rw [hstep, hone]; simp

/-- **C33** for regular expressions. -/
theorem C33_template_reg (grow : Nat → Nat → Nat) (ops later : List (Op η ρ)) (j : Nat) (m : Method)
    (rx : ρ) (h : Option η) (v : HView η) (hv : setView (progState grow ops) j = some v) (hm : m ∈ rxMethods)
    (hlater : ∀ o ∈ later, ¬ usesOtherSet j (progState grow ops).setVars.length o) :
    let w := progState grow (ops ++ .sAddReg m rx h (some j) :: later)
    ∃ a more, w.rxLog = (progState grow ops).rxLog ++ ⟨m, rx, a⟩ :: more ∧ w.regs = regOf w.rxLog ∧
      setHandlers w a = some { v with main := h } ∧
      (progState grow ops).rxLog.length < (step grow (progState grow ops) (.sAddReg m rx h (some j))).1.rxLog.length := by
  refine reg_template grow ops later j m rx h v hv hm (fun k => k = j ∨ (progState grow ops).setVars.length ≤ k) ?_ ?_
  · intro k b s addr s' hk hb hs ha hs'
    have : k = j := by
      rcases hk with rfl | hk
      · rfl
      · have := (List.getElem?_eq_some_iff.1 hb).1; omega
    subst this
    rw [ha] at hb
    simp only [Option.some.injEq] at hb
    subst hb
    rw [hs] at hs'
    simp only [Option.some.injEq] at hs'
    subst hs'
    exact ⟨fun _ => Nat.le_refl _, fun _ => Nat.le_refl _⟩
  · intro o ho k hk
    by_cases hkj : k = j
    · exact Or.inl hkj
    · by_cases hn : k < (progState grow ops).setVars.length
      · exact absurd ⟨k, hk, hkj, hn⟩ (hlater o ho)
      · exact Or.inr (by omega)

/-- No route registered by these calls matches the path for the method. -/
def NoTreeRoute (ops : List (Op η ρ)) (meth : Method) (path : Str) : Prop :=
  ∀ o ∈ ops, ∀ m route, registers o = some (m, route) → covers m meth = true →
    matchRoute ((segs route).map segPat) (segs path) = none

/-- No expression registered by these calls matches the path for the method. -/
def NoRxRival (rxMatch : ρ → Str → Bool) (ops : List (Op η ρ)) (meth : Method) (path : Str) : Prop :=
  ∀ o ∈ ops, ∀ m rx, registersRx o = some (m, rx) → covers m meth = true → rxMatch rx path = false

/-- The tree misses. -/
theorem tree_miss (grow : Nat → Nat → Nat) (ops : List (Op η ρ)) (meth : Method) (path : Str) (buf : Args)
    (hclean : cleanOps ops) (hnone : NoTreeRoute ops meth path) :
    ∃ rt, treeFind (progState grow ops).tree meth path buf = .ret rt ∧ rt.found = false := by
  obtain ⟨l0, g0, o0⟩ := log_run grow ops (World.init : World η ρ)
  have hlog : (progState grow ops).log = l0 := by unfold progState; rw [g0]; rfl
  refine ⟨_, treeFind_eq _ _ _ _, ?_⟩
  cases hf : (FindResult.found _) with
  | false => rfl
  | true =>
    obtain ⟨r, hr, -, hc, hmatch⟩ := sound_clean (progState grow ops).log (by
      intro x hx
      rw [hlog] at hx
      obtain ⟨o, ho, e⟩ := o0 x hx
      exact hclean o ho _ _ e) meth path buf _ ((progState_wf grow ops).tree ▸ treeFind_eq _ _ _ _) hf
    rw [hlog] at hr
    obtain ⟨o, ho, e⟩ := o0 r hr
    have := hnone o ho _ _ e hc
    rw [show (segs r.route).map segPat = routePats r from rfl, hmatch] at this
    simp at this

section
variable (I : Handlers3 η υ) (init : Option (RCtx υ → Prog υ)) (level : Int)
  (u : Str → Str) (env : Env υ) (rxMatch : ρ → Str → Bool) (visit : GoMap ρ (Option Nat) → List (ρ × Option Nat))
  (hv : AnyOrder visit)
  (ba : BaseAuth) (req : Req) (resp : Resp) (store : Args → υ) (buf : Args) (clock : Nat)

include hv in
/-- What is needed of the program around a call that registers an expression. -/
theorem around_rx (grow : Nat → Nat → Nat) (ops later : List (Op η ρ)) (o : Op η ρ) (m : Method) (rx : ρ) (a : Nat)
    (more : List (RxReg ρ Nat)) (v : HView η) (ho : registers o = none)
    (h : (progState grow (ops ++ o :: later)).rxLog = (progState grow ops).rxLog ++ ⟨m, rx, a⟩ :: more)
    (hlt : (progState grow ops).rxLog.length < (step grow (progState grow ops) o).1.rxLog.length)
    (hregs : (progState grow (ops ++ o :: later)).regs = regOf (progState grow (ops ++ o :: later)).rxLog)
    (hset : setHandlers (progState grow (ops ++ o :: later)) a = some v)
    (hclean : cleanOps (ops ++ later)) (hnone : NoTreeRoute (ops ++ later) req.method req.path)
    (hcov : covers m req.method = true) (hm : rxMatch rx req.path = true)
    (huniq : NoRxRival rxMatch (ops ++ later) req.method req.path) :
    serveHTTP u env rxMatch visit (serverOf I (progState grow (ops ++ o :: later)) init level) ba req
      resp store buf clock =
    serveHTTP u env rxMatch visit (soleRegServer I m rx v init level) ba req resp store buf clock := by
  obtain ⟨o0, o1⟩ := rxLog_around grow ops later o m rx a more h hlt
  have hsplit : ∀ p ∈ ops ++ o :: later, p = o ∨ p ∈ ops ++ later := by
    intro p hp
    simp only [List.mem_append, List.mem_cons] at hp ⊢
    rcases hp with h | h | h
    · exact Or.inr (Or.inl h)
    · exact Or.inl h
    · exact Or.inr (Or.inr h)
  have hwf := progState_wf (η := η) (ρ := ρ) grow (ops ++ o :: later)
  have hmeth : m ∈ rxMethods := hwf.rxOk ⟨m, rx, a⟩ (by rw [h]; simp)
  -- the lookup in the program's state
  have h1 : serverFind rxMatch visit (progState grow (ops ++ o :: later)).tree (progState grow (ops ++ o :: later)).regs
      req.method req.path buf = .ret ⟨some a, true, []⟩ := by
    obtain ⟨rt, ht, hf⟩ := tree_miss grow (ops ++ o :: later) req.method req.path buf
      (by
        intro p hp m' route' e
        rcases hsplit p hp with rfl | hp
        · rw [ho] at e; simp at e
        · exact hclean p hp m' route' e)
      (by
        intro p hp m' route' e
        rcases hsplit p hp with rfl | hp
        · rw [ho] at e; simp at e
        · exact hnone p hp m' route' e)
    obtain ⟨rt', ht', -, hmiss, -⟩ := C14_tree_first rxMatch visit (progState grow (ops ++ o :: later)).tree
      (progState grow (ops ++ o :: later)).regs req.method req.path buf
    rw [ht] at ht'
    cases ht'
    rw [hmiss hf, hregs]
    congr 1
    refine C13_determined _ hwf.rxOk rxMatch visit hv req.method req.path [] ⟨m, rx, a⟩ ?_ hm ?_
    · rw [h]
      simp only [List.reverse_append, List.reverse_cons, List.append_assoc, List.find?_append]
      have h0 : (more.reverse.find? fun x => decide (x.rx = rx) && covers x.method req.method) = none := by
        rw [List.find?_eq_none]
        intro x hx hc
        simp only [Bool.and_eq_true, decide_eq_true_eq] at hc
        obtain ⟨p, hp, e⟩ := o1 x (by simpa using hx)
        have := huniq p (List.mem_append_right _ hp) _ _ e hc.2
        rw [hc.1, hm] at this
        simp at this
      rw [h0]
      simp [hcov]
    · intro x hx hc hxm
      rw [h] at hx
      simp only [List.mem_append, List.mem_cons] at hx
      rcases hx with hx | rfl | hx
      · obtain ⟨p, hp, e⟩ := o0 x hx
        have := huniq p (List.mem_append_left _ hp) _ _ e hc
        rw [hxm] at this; simp at this
      · rfl
      · obtain ⟨p, hp, e⟩ := o1 x hx
        have := huniq p (List.mem_append_right _ hp) _ _ e hc
        rw [hxm] at this; simp at this
  -- the lookup in the sole server
  have h2 : serverFind rxMatch visit (newTree : Node Nat) (regOf [⟨m, rx, 0⟩]) req.method req.path buf =
      .ret ⟨some 0, true, []⟩ := by
    obtain ⟨rt, ht, -, hmiss, -⟩ := C14_tree_first rxMatch visit (newTree : Node Nat) (regOf [⟨m, rx, 0⟩])
      req.method req.path buf
    have hf : rt.found = false := by
      cases hf : rt.found with
      | false => rfl
      | true =>
        obtain ⟨r, hr, -⟩ := C02_sound ([] : List (Reg Nat)) req.method req.path buf rt ht hf
        simp at hr
    rw [hmiss hf]
    congr 1
    refine C13_determined _ (by simpa using hmeth) rxMatch visit hv req.method req.path [] ⟨m, rx, 0⟩ ?_ hm ?_
    · simp [hcov]
    · intro x hx _ _
      simp only [List.mem_singleton] at hx
      rw [hx]
  refine serveHTTP_same u env rxMatch visit _ _ ba req resp store buf clock fun resp => ?_
  refine runHTTP_same env rxMatch visit _ _ req.method req.path resp store buf clock a 0 [] h1 h2 ?_ rfl rfl
  simp [serverOf, soleRegServer, viewSet, hset]

include hv in
/-- **C75**, regular expressions: a request that matches no route of the tree and, of the expressions registered for its
method, only this one, is processed exactly as by a server that has only this expression, with the handlers that were
configured on the router when it was registered (and without parameters). -/
theorem C75_router_reg (grow : Nat → Nat → Nat) (ops later : List (Op η ρ)) (r : Nat) (m : Method) (rx : ρ)
    (h : Option η) (rv : RView η) (hr : routerView (progState grow ops) r = some rv) (hmeth : m ∈ rxMethods)
    (hclean : cleanOps (ops ++ later)) (hnone : NoTreeRoute (ops ++ later) req.method req.path)
    (hcov : covers m req.method = true) (hm : rxMatch rx req.path = true)
    (huniq : NoRxRival rxMatch (ops ++ later) req.method req.path) :
    serveHTTP u env rxMatch visit (serverOf I (progState grow (ops ++ .rUseReg r m rx h :: later)) init level) ba req
      resp store buf clock =
    serveHTTP u env rxMatch visit (soleRegServer I m rx ⟨rv.before, rv.after, rv.last, h⟩ init level) ba req
      resp store buf clock := by
  obtain ⟨a, more, h1, h2, h3⟩ := C32_snapshot_reg grow ops later r m rx h rv hr hmeth
  refine around_rx I init level u env rxMatch visit hv ba req resp store buf clock grow ops later _ m rx a more _ rfl h1 ?_ h2 h3
    hclean hnone hcov hm huniq
  obtain ⟨a', more', h1', -⟩ := C32_snapshot_reg grow ops [] r m rx h rv hr hmeth
  have : progState grow (ops ++ [Op.rUseReg r m rx h]) = (step grow (progState grow ops) (.rUseReg r m rx h)).1 := by
    simp [progState, runOps]
  rw [this] at h1'
  rw [h1']
  simp

include hv in
/-- **C75**, regular expressions registered with a handler set. -/
theorem C75_set_reg (grow : Nat → Nat → Nat) (ops later : List (Op η ρ)) (j : Nat) (m : Method) (rx : ρ)
    (h : Option η) (v : HView η) (hsv : setView (progState grow ops) j = some v) (hmeth : m ∈ rxMethods)
    (hlater : ∀ o ∈ later, ¬ usesOtherSet j (progState grow ops).setVars.length o)
    (hclean : cleanOps (ops ++ later)) (hnone : NoTreeRoute (ops ++ later) req.method req.path)
    (hcov : covers m req.method = true) (hm : rxMatch rx req.path = true)
    (huniq : NoRxRival rxMatch (ops ++ later) req.method req.path) :
    serveHTTP u env rxMatch visit (serverOf I (progState grow (ops ++ .sAddReg m rx h (some j) :: later)) init level) ba req
      resp store buf clock =
    serveHTTP u env rxMatch visit (soleRegServer I m rx { v with main := h } init level) ba req
      resp store buf clock := by
  obtain ⟨a, more, h1, h2, h3, h4⟩ := C33_template_reg grow ops later j m rx h v hsv hmeth hlater
  exact around_rx I init level u env rxMatch visit hv ba req resp store buf clock grow ops later _ m rx a more _ rfl h1 h4 h2 h3
    hclean hnone hcov hm huniq

end

/-! ### C76 Static routes -/

/-- A set made by `Set`. -/
theorem new_set (grow : Nat → Nat → Nat) (ops : List (Op η ρ)) :
    setView (progState grow (ops ++ [.newSet])) (progState grow ops).setVars.length = some ⟨[], [], none, none⟩ ∧
    ∀ (k b : Nat) (s : HSet η) (addr : Nat) (s' : HSet η), (progState grow (ops ++ [Op.newSet])).setVars[k]? = some b →
      (progState grow (ops ++ [Op.newSet])).sets[b]? = some s →
      (progState grow (ops ++ [Op.newSet])).setVars[(progState grow ops).setVars.length]? = some addr →
      (progState grow (ops ++ [Op.newSet])).sets[addr]? = some s' →
      Safe s.before s'.before ∧ Safe s.after s'.after := by
  have hwf := progState_wf (η := η) (ρ := ρ) grow ops
  generalize hw : progState grow ops = w at hwf ⊢
  have hp : progState grow (ops ++ [Op.newSet]) = (step grow w .newSet).1 := by
    rw [← hw]; simp [progState, runOps]
  rw [hp]
  simp only [step, opNewSet, allocSlice]
  refine ⟨by simp [setView, setHandlers, cells], ?_⟩
  intro k b s addr s' hk hs ha hs'
  have hadd : addr = w.sets.length := by simpa using ha.symm
  subst hadd
  have hs'' : s' = ⟨⟨w.arrs.length, 0, 0, 0⟩, ⟨(w.arrs ++ [[]]).length, 0, 0, 0⟩, none, none⟩ := by simpa using hs'.symm
  by_cases hb : b < w.sets.length
  · rw [List.getElem?_append_left hb] at hs
    have := hwf.sets s (List.mem_of_getElem? hs)
    have h1 := this.1.arr
    have h2 := this.2.arr
    rw [hs'']
    refine ⟨fun e => ?_, fun e => ?_⟩
    · simp only at e; omega
    · simp only [List.length_append, List.length_singleton] at e; omega
  · have hlt := (List.getElem?_eq_some_iff.1 hs).1
    simp only [List.length_append, List.length_singleton] at hlt
    have : b = w.sets.length := by omega
    subst this
    rw [hs] at hs'
    simp only [Option.some.injEq] at hs'
    subst hs'
    exact ⟨fun _ => Nat.le_refl _, fun _ => Nat.le_refl _⟩

section
variable (I : Handlers3 η υ) (init : Option (RCtx υ → Prog υ)) (level : Int)
  (u : Str → Str) (env : Env υ) (visit : GoMap RxPtr (Option Nat) → List (RxPtr × Option Nat))
  (hv : AnyOrder visit)
  (ba : BaseAuth) (req : Req) (resp : Resp) (store : Args → υ) (buf : Args) (clock : Nat)

include hv in
/-- **C76** StaticFile (StaticFileFS) without a set: for a prefix of ordinary characters, the call registers an expression
that matches exactly the paths that begin with the prefix and a slash; and a GET or HEAD request for such a path that no
route of the tree and no other expression answers is processed by the static handler alone. -/
theorem C76_serves (grow : Nat → Nat → Nat) (ops later : List (Op η RxPtr)) (addr : Nat) (urlPath : Str)
    (hord : PlainText urlPath) (h : η)
    (hmeth : req.method = b!"GET" ∨ req.method = b!"HEAD") (hpath : (urlPath ++ b!"/") <+: req.path)
    (hclean : cleanOps (ops ++ later)) (hnone : NoTreeRoute (ops ++ later) req.method req.path)
    (huniq : NoRxRival RxPtr.matches (ops ++ later) req.method req.path) :
    ∃ calls rx, staticCalls (rxCompileAt addr) (progState grow ops).setVars.length urlPath (some h) [] = some calls ∧
      (∀ s, rx.matches s = true ↔ (urlPath ++ b!"/") <+: s) ∧
      serveHTTP u env RxPtr.matches visit (serverOf I (progState grow (ops ++ calls ++ later)) init level) ba req
        resp store buf clock =
      serveHTTP u env RxPtr.matches visit (soleRegServer I b!"GETHEAD" rx ⟨[], [], none, some h⟩ init level) ba req
        resp store buf clock := by
  obtain ⟨parts, hc, hm⟩ := rx_literal urlPath hord
  obtain ⟨n1, n2⟩ := new_set (η := η) (ρ := RxPtr) grow ops
  generalize (progState grow ops).setVars.length = N at n1 n2 ⊢
  obtain ⟨rx, hrx⟩ : ∃ rx : RxPtr, rx = ⟨addr, parts⟩ := ⟨_, rfl⟩
  have hm' : ∀ s, rx.matches s = true ↔ (urlPath ++ b!"/") <+: s := by rw [hrx]; exact hm
  obtain ⟨calls, hcalls⟩ : ∃ c : List (Op η RxPtr),
    c = [.newSet, .sAddReg b!"GETHEAD" rx (some h) (some N)] := ⟨_, rfl⟩
  refine ⟨calls, rx, ?_, hm', ?_⟩
  · unfold staticCalls
    rw [show rxCompileAt addr (staticExpr urlPath) = some rx by rw [hrx]; unfold rxCompileAt staticExpr; rw [hc]; rfl, hcalls]
    rfl
  have hprog : ops ++ calls ++ later =
      (ops ++ [.newSet]) ++ .sAddReg b!"GETHEAD" rx (some h) (some N) :: later := by
    simp [hcalls]
  have hfree : ∀ p ∈ (ops ++ [.newSet]) ++ later, p = Op.newSet ∨ p ∈ ops ++ later := by
    intro p hp
    simp only [List.mem_append, List.mem_singleton] at hp ⊢
    rcases hp with (h | h) | h
    · exact Or.inr (Or.inl h)
    · exact Or.inl h
    · exact Or.inr (Or.inr h)
  rw [hprog]
  have hget : b!"GETHEAD" ∈ rxMethods := by decide
  obtain ⟨a, more, h1, h2, h3, h4⟩ := reg_template grow (ops ++ [.newSet]) later N b!"GETHEAD" rx
    (some h) _ n1 hget (fun _ => True) (fun k b s addr s' _ => n2 k b s addr s') (fun _ _ _ _ => trivial)
  have hreg : registers (Op.sAddReg (η := η) b!"GETHEAD" rx (some h) (some N)) = none := rfl
  clear n1 n2 hprog hc hcalls hrx hm
  have hA : cleanOps (ops ++ [Op.newSet] ++ later) := by
    intro p hp m route e
    rcases hfree p hp with rfl | hp
    · simp [registers] at e
    · exact hclean p hp m route e
  have hB : NoTreeRoute (ops ++ [Op.newSet] ++ later) req.method req.path := by
    intro p hp m route e
    rcases hfree p hp with rfl | hp
    · simp [registers] at e
    · exact hnone p hp m route e
  have hC : covers b!"GETHEAD" req.method = true := by
    rcases hmeth with e | e <;> rw [e] <;> decide
  have hD : NoRxRival RxPtr.matches (ops ++ [Op.newSet] ++ later) req.method req.path := by
    intro p hp m rx' e
    rcases hfree p hp with rfl | hp
    · simp [registersRx] at e
    · exact huniq p hp m rx' e
  have hE := (hm' _).2 hpath
  have key := @around_rx η RxPtr υ _ _ I init level u env RxPtr.matches visit hv ba req resp store buf clock grow
    (ops ++ [Op.newSet]) later (Op.sAddReg b!"GETHEAD" rx (some h) (some N)) b!"GETHEAD" rx a more ⟨[], [], none, some h⟩
    hreg h1 h4 h2 h3 hA hB hC hE hD
  exact key

include hv in
/-- **C76** with a set: the handlers of the set are used around the static handler (the set's own main handler is
replaced); what the program does to the set afterwards has no effect, under the condition of C33. -/
theorem C76_serves_set (grow : Nat → Nat → Nat) (ops later : List (Op η RxPtr)) (addr : Nat) (urlPath : Str)
    (hord : PlainText urlPath) (h : η) (j : Nat) (rest : List (Option Nat)) (v : HView η)
    (hsv : setView (progState grow ops) j = some v)
    (hlater : ∀ o ∈ later, ¬ usesOtherSet j (progState grow ops).setVars.length o)
    (hmeth : req.method = b!"GET" ∨ req.method = b!"HEAD") (hpath : (urlPath ++ b!"/") <+: req.path)
    (hclean : cleanOps (ops ++ later)) (hnone : NoTreeRoute (ops ++ later) req.method req.path)
    (huniq : NoRxRival RxPtr.matches (ops ++ later) req.method req.path) :
    ∃ calls rx, staticCalls (rxCompileAt addr) (progState grow ops).setVars.length urlPath (some h) (some j :: rest) = some calls ∧
      (∀ s, rx.matches s = true ↔ (urlPath ++ b!"/") <+: s) ∧
      serveHTTP u env RxPtr.matches visit (serverOf I (progState grow (ops ++ calls ++ later)) init level) ba req
        resp store buf clock =
      serveHTTP u env RxPtr.matches visit (soleRegServer I b!"GETHEAD" rx { v with main := some h } init level) ba req
        resp store buf clock := by
  obtain ⟨parts, hc, hm⟩ := rx_literal urlPath hord
  let rx : RxPtr := ⟨addr, parts⟩
  refine ⟨[.sAddReg b!"GETHEAD" rx (some h) (some j)], rx, ?_, hm, ?_⟩
  · simp only [staticCalls, rxCompileAt, staticExpr, hc, staticSet, Option.map_some]
    rfl
  rw [List.append_assoc]
  exact C75_set_reg I init level u env RxPtr.matches visit hv ba req resp store buf clock grow ops later j b!"GETHEAD" rx (some h) v
    hsv (by decide) hlater hclean hnone (by rcases hmeth with e | e <;> rw [e] <;> decide) ((hm _).2 hpath) huniq

end

/-- The expressions registered by the calls of StaticFile. -/
theorem static_log (grow : Nat → Nat → Nat) (ops : List (Op η ρ)) (rx : ρ) (h : Option η)
    (sets : List (Option Nat)) :
    let w := progState grow (ops ++ ((staticSet (progState grow ops).setVars.length sets).1 ++
      [.sAddReg b!"GETHEAD" rx h (staticSet (η := η) (ρ := ρ) (progState grow ops).setVars.length sets).2]))
    w.tree = (progState grow ops).tree ∧
    (w.rxLog = (progState grow ops).rxLog ∨ ∃ a, w.rxLog = (progState grow ops).rxLog ++ [⟨b!"GETHEAD", rx, a⟩]) := by
  intro w
  have one : ∀ (w0 : World η ρ) set, (step grow w0 (.sAddReg b!"GETHEAD" rx h set)).1.tree = w0.tree ∧
      ((step grow w0 (.sAddReg b!"GETHEAD" rx h set)).1.rxLog = w0.rxLog ∨
        ∃ a, (step grow w0 (.sAddReg b!"GETHEAD" rx h set)).1.rxLog = w0.rxLog ++ [⟨b!"GETHEAD", rx, a⟩]) := by
    intro w0 set
    refine ⟨?_, ?_⟩
    · simp only [step, opAddReg]
      split
      · rfl
      · rename_i w' a he
        have h1 : w'.tree = w0.tree := by
          unfold opCopySet at he
          split at he
          · simp at he
          · split at he
            · simp at he
            · simp only [Option.some.injEq, Prod.mk.injEq] at he
              rw [← he.1]
              unfold opClone
              split <;> rfl
        unfold opRegAdd
        split <;> exact h1
    · rcases rxLog_step grow (.sAddReg b!"GETHEAD" rx h set) w0 with e | ⟨m, r, a, e, e'⟩
      · exact Or.inl e
      · simp only [registersRx, Option.some.injEq, Prod.mk.injEq] at e
        obtain ⟨rfl, rfl⟩ := e
        exact Or.inr ⟨a, e'⟩
  cases sets with
  | cons s rest =>
    have : w = (step grow (progState grow ops) (.sAddReg b!"GETHEAD" rx h s)).1 := by
      simp [w, staticSet, progState, runOps]
    rw [this]
    exact one _ _
  | nil =>
    have : w = (step grow (step grow (progState grow ops) .newSet).1
        (.sAddReg b!"GETHEAD" rx h (some (progState grow ops).setVars.length))).1 := by
      simp [w, staticSet, progState, runOps]
    rw [this]
    exact one _ _

/-- A registration that does not cover the method or does not match the path changes no possible answer. -/
theorem rx_other (log : List (RxReg RxPtr Nat)) (hm : ∀ r ∈ log, r.method ∈ rxMethods) (new : RxReg RxPtr Nat)
    (hm' : ∀ r ∈ log ++ [new], r.method ∈ rxMethods) (meth : Method) (path : Str)
    (hother : covers new.method meth = false ∨ RxPtr.matches new.rx path = false) (buf : Args) (x : FindResult Nat) :
    (∃ visit, AnyOrder visit ∧ regFind RxPtr.matches visit (regOf (log ++ [new])) meth path buf = x) ↔
    (∃ visit, AnyOrder visit ∧ regFind RxPtr.matches visit (regOf log) meth path buf = x) := by
  obtain ⟨set, found, args⟩ := x
  have hno : ∀ r : RxReg RxPtr Nat, RxPtr.matches r.rx path = true →
      ((log ++ [new]).reverse.find? fun x => decide (x.rx = r.rx) && covers x.method meth) =
      log.reverse.find? fun x => decide (x.rx = r.rx) && covers x.method meth := by
    intro r hr
    rw [List.reverse_append, List.reverse_singleton, List.singleton_append, List.find?_cons_of_neg]
    intro h
    simp only [Bool.and_eq_true, decide_eq_true_eq] at h
    rcases hother with ho | ho
    · rw [ho] at h; cases h.2
    · rw [h.1, hr] at ho; cases ho
  have hargs : ∀ (l : List (RxReg RxPtr Nat)), (∀ r ∈ l, r.method ∈ rxMethods) →
      (∃ visit, AnyOrder visit ∧ regFind RxPtr.matches visit (regOf l) meth path buf = ⟨set, found, args⟩) → args = [] := by
    rintro l hl ⟨visit, hv, h⟩
    have := (C13_found_iff l hl RxPtr.matches visit hv meth path buf).2.2
    rw [h] at this
    exact this
  have hex : (∃ r ∈ log ++ [new], covers r.method meth = true ∧ RxPtr.matches r.rx path = true) ↔
      ∃ r ∈ log, covers r.method meth = true ∧ RxPtr.matches r.rx path = true := by
    constructor
    · rintro ⟨r, hr, hc1, hc2⟩
      rcases List.mem_append.1 hr with hr | hr
      · exact ⟨r, hr, hc1, hc2⟩
      · simp only [List.mem_singleton] at hr
        subst hr
        rcases hother with ho | ho
        · rw [ho] at hc1; cases hc1
        · rw [ho] at hc2; cases hc2
    · rintro ⟨r, hr, hc⟩
      exact ⟨r, List.mem_append_left _ hr, hc⟩
  cases found with
  | true =>
    constructor
    · intro h
      have ha := hargs _ hm' h
      subst ha
      obtain ⟨r, h1, h2, h3⟩ := (C13_possible (log ++ [new]) hm' RxPtr.matches meth path buf set).1 h
      rw [hno r h1] at h3
      exact (C13_possible log hm RxPtr.matches meth path buf set).2 ⟨r, h1, h2, h3⟩
    · intro h
      have ha := hargs _ hm h
      subst ha
      obtain ⟨r, h1, h2, h3⟩ := (C13_possible log hm RxPtr.matches meth path buf set).1 h
      rw [← hno r h1] at h3
      exact (C13_possible (log ++ [new]) hm' RxPtr.matches meth path buf set).2 ⟨r, h1, h2, h3⟩
  | false =>
    have lost : ∀ (l : List (RxReg RxPtr Nat)) visit,
        (regFind RxPtr.matches visit (regOf l) meth path buf).found = false →
        (regFind RxPtr.matches visit (regOf l) meth path buf) = ⟨none, false, []⟩ := by
      intro l visit h
      revert h
      unfold regFind
      simp only
      split
      · intro _; rfl
      · split
        · intro h; cases h
        · intro _; rfl
    constructor
    · rintro ⟨visit, hv, h⟩
      refine ⟨visit, hv, ?_⟩
      have h1 := lost _ visit (by rw [h])
      rw [h] at h1
      rw [h1]
      apply lost
      cases hf : (regFind RxPtr.matches visit (regOf log) meth path buf).found with
      | false => rfl
      | true =>
        have := (C13_found_iff (log ++ [new]) hm' RxPtr.matches visit hv meth path buf).1.2
          (hex.2 ((C13_found_iff log hm RxPtr.matches visit hv meth path buf).1.1 hf))
        rw [h] at this; cases this
    · rintro ⟨visit, hv, h⟩
      refine ⟨visit, hv, ?_⟩
      have h1 := lost _ visit (by rw [h])
      rw [h] at h1
      rw [h1]
      apply lost
      cases hf : (regFind RxPtr.matches visit (regOf (log ++ [new])) meth path buf).found with
      | false => rfl
      | true =>
        have := (C13_found_iff log hm RxPtr.matches visit hv meth path buf).1.2
          (hex.1 ((C13_found_iff (log ++ [new]) hm' RxPtr.matches visit hv meth path buf).1.1 hf))
        rw [h] at this; cases this

/-- **C76** A StaticFile (StaticFileFS) call changes nothing for other requests: for a request with another method, or whose
path does not begin with the prefix and a slash, the answers of the lookup that are possible (over the orders in which Go may
visit the table of expressions) are the same afterwards as before. -/
theorem C76_no_other
    (grow : Nat → Nat → Nat) (ops : List (Op η RxPtr)) (addr : Nat) (urlPath : Str)
    (hord : PlainText urlPath) (h : Option η) (sets : List (Option Nat)) (meth : Method) (path : Str)
    (hother : (meth ≠ b!"GET" ∧ meth ≠ b!"HEAD") ∨ ¬ (urlPath ++ b!"/") <+: path) (buf : Args) :
    ∃ calls, staticCalls (rxCompileAt addr) (progState grow ops).setVars.length urlPath h sets = some calls ∧
      ∀ answer,
        (∃ visit, AnyOrder visit ∧ serverFind RxPtr.matches visit (progState grow (ops ++ calls)).tree
          (progState grow (ops ++ calls)).regs meth path buf = .ret answer) ↔
        (∃ visit, AnyOrder visit ∧ serverFind RxPtr.matches visit (progState grow ops).tree
          (progState grow ops).regs meth path buf = .ret answer) := by
  obtain ⟨parts, hc, hm⟩ := rx_literal urlPath hord
  let rx : RxPtr := ⟨addr, parts⟩
  have hcalls : staticCalls (η := η) (rxCompileAt addr) (progState grow ops).setVars.length urlPath h sets =
      some ((staticSet (progState grow ops).setVars.length sets).1 ++
        [.sAddReg b!"GETHEAD" rx h (staticSet (η := η) (ρ := RxPtr) (progState grow ops).setVars.length sets).2]) := by
    simp only [staticCalls, rxCompileAt, staticExpr, hc, Option.map_some]
    rfl
  obtain ⟨s1, s2⟩ := static_log grow ops rx h sets
  generalize hcs : (staticSet (progState grow ops).setVars.length sets).1 ++
        [Op.sAddReg b!"GETHEAD" rx h (staticSet (η := η) (ρ := RxPtr) (progState grow ops).setVars.length sets).2] = calls at hcalls s1 s2
  have hwf := progState_wf (η := η) (ρ := RxPtr) grow ops
  have hwf' := progState_wf (η := η) (ρ := RxPtr) grow (ops ++ calls)
  refine ⟨calls, hcalls, fun answer => ?_⟩
  have key : ∀ (b : Args) (x : FindResult Nat),
      (∃ visit, AnyOrder visit ∧ regFind RxPtr.matches visit (progState grow (ops ++ calls)).regs meth path b = x) ↔
      (∃ visit, AnyOrder visit ∧ regFind RxPtr.matches visit (progState grow ops).regs meth path b = x) := by
    intro b x
    have hok' := hwf'.rxOk
    rw [hwf.regs, hwf'.regs]
    rcases s2 with e | ⟨a, e⟩
    · rw [e]
    · rw [e] at hok' ⊢
      refine rx_other _ hwf.rxOk _ hok' meth path ?_ b x
      rcases hother with ⟨g1, g2⟩ | g
      · left; simp [covers, g1, g2]
      · right
        cases hb : RxPtr.matches rx path with
        | false => rfl
        | true => exact absurd ((hm path).1 hb) g
  unfold serverFind
  rw [s1]
  cases ht : treeFind (progState grow ops).tree meth path buf with
  | panic => exact ⟨fun ⟨v, hv, e⟩ => ⟨v, hv, e⟩, fun ⟨v, hv, e⟩ => ⟨v, hv, e⟩⟩
  | outOfFuel => exact ⟨fun ⟨v, hv, e⟩ => ⟨v, hv, e⟩, fun ⟨v, hv, e⟩ => ⟨v, hv, e⟩⟩
  | ret res =>
    simp only [Outcome.bind_ret]
    cases hf : res.found with
    | true => exact ⟨fun ⟨v, hv, e⟩ => ⟨v, hv, e⟩, fun ⟨v, hv, e⟩ => ⟨v, hv, e⟩⟩
    | false =>
      simp only [Bool.false_eq_true, if_false]
      constructor
      · rintro ⟨v, hv, e⟩
        obtain ⟨v', hv', e'⟩ := (key res.args _).1 ⟨v, hv, rfl⟩
        exact ⟨v', hv', by rw [e']; exact e⟩
      · rintro ⟨v, hv, e⟩
        obtain ⟨v', hv', e'⟩ := (key res.args _).2 ⟨v, hv, rfl⟩
        exact ⟨v', hv', by rw [e']; exact e⟩

/-- **C76** For every prefix of plain text and dots, the expression that StaticFile (StaticFileFS) registers matches whatever begins with the
prefix and a slash; it matches nothing else exactly if the prefix has no dot. With a dot, for every ASCII character but a newline there is
another directory, of the same length, whose files are answered for as well. -/
theorem C76_exact (addr : Nat) (urlPath : Str) (h : DotText urlPath) :
    ∃ rx, rxCompileAt addr (staticExpr urlPath) = some rx ∧
      (∀ s, (urlPath ++ b!"/") <+: s → rx.matches s = true) ∧
      ((∀ s, rx.matches s = true → (urlPath ++ b!"/") <+: s) ↔ (46 : UInt8) ∉ urlPath) ∧
      (46 ∈ urlPath → ∀ x : UInt8, x ≠ 10 → x ≠ 46 → x < 128 →
        ∃ dir : Str, dir.length = urlPath.length ∧ dir ≠ urlPath ∧ ∀ s, (dir ++ b!"/") <+: s → rx.matches s = true) := by
  obtain ⟨parts, hc, h1, h2⟩ := rx_dots urlPath h
  refine ⟨⟨addr, parts⟩, by unfold rxCompileAt staticExpr; rw [hc]; rfl, h1, ⟨fun hall hm => ?_, fun hd s hs => ?_⟩, h2⟩
  · obtain ⟨dir, hl, hne, hdir⟩ := h2 hm 120 (by decide) (by decide) (by decide)
    have hpre := hall _ (hdir (dir ++ b!"/") ⟨[], by simp⟩)
    have := hpre.eq_of_length (by simp [hl])
    exact hne (List.append_inj_left this hl.symm).symm
  · obtain ⟨parts', hc', hm⟩ := rx_literal urlPath (dotText_plain h hd)
    rw [hc] at hc'
    cases hc'
    exact (hm s).1 hs

/-- **C76** fails for prefixes with a meaning in expressions, or without a slash in front: "/v1.0" also answers below
"/v1x0"; "/a*" does not answer below "/a*" but below "/aaa"; "html" answers nothing, since paths begin with a slash. -/
theorem C76_violated :
    (∃ rx, rxCompileAt 0 (staticExpr b!"/v1.0") = some rx ∧ rx.matches b!"/v1x0/secret" = true) ∧
    (∃ rx, rxCompileAt 0 (staticExpr b!"/a*") = some rx ∧ rx.matches b!"/a*/f" = false ∧ rx.matches b!"/f" = false ∧
      rx.matches b!"/aaa/f" = true ∧ rx.matches b!"//f" = true) ∧
    (∃ rx, rxCompileAt 0 (staticExpr b!"html") = some rx ∧ ∀ s, rx.matches (b!"/" ++ s) = false) := by
  refine ⟨⟨_, rfl, by decide +kernel⟩, ⟨_, rfl, by decide +kernel, by decide +kernel, by decide +kernel, by decide +kernel⟩, _, rfl, ?_⟩
  intro s
  rfl

/-- FixStaticFileFS answers GET and POST requests for its path and no HEAD requests (StaticFile answers GET and HEAD and
no POST requests). -/
theorem C76_fix_methods (grow : Nat → Nat → Nat) (urlPath : Str) (h : Option η)
    (hlit : ∀ s ∈ segs urlPath, s.head? ≠ some 58) (meth : Method) (path : Str) (buf : Args) :
    ∃ res, treeFind (progState grow (fixStaticCalls (ρ := ρ) 0 urlPath h [])).tree meth path buf = .ret res ∧
      (res.found = true ↔ segs path = segs urlPath ∧ (meth = b!"GET" ∨ meth = b!"POST")) := by
  have hlog : (progState grow (fixStaticCalls (η := η) (ρ := ρ) 0 urlPath h [])).log = [⟨b!"GETPOST", urlPath, 1⟩] := by
    rfl
  rw [(progState_wf grow _).tree, hlog, C01_literal_map _ (by intro x hx; simp only [List.mem_singleton] at hx; subst hx; exact hlit)]
  refine ⟨_, rfl, ?_⟩
  by_cases h1 : segs urlPath = segs path
  · by_cases h2 : meth = b!"GET" ∨ meth = b!"POST"
    · have : covers b!"GETPOST" meth = true := by rcases h2 with rfl | rfl <;> decide
      simp [h1, this, h2]
    · have : covers b!"GETPOST" meth = false := by
        simp only [not_or] at h2
        simp [covers, h2.1, h2.2]
      simp [h1, this, h2]
  · simp [h1, Ne.symm h1]

section Examples

/-- Static files below "/html" next to a route of the tree and another expression; the static calls come in between. -/
def exStaticOps : List (Op Nat RxPtr) := [.newRouter, .rUse 0 b!"GET" b!"/html/:name/info" (some 6),
  .rUseReg 0 b!"GET" ⟨1, [⟨.lit b!"/", false⟩, ⟨.lit b!"z", false⟩]⟩ (some 7)]

def exStaticLater : List (Op Nat RxPtr) := [.newSet, .setBefore 1 (.lit [4]), .setBefore 0 (.lit [5])]

example : staticCalls (rxCompileAt 2) (progState (fun c _ => 2 * c) exStaticOps).setVars.length b!"/html" (some 3) [] =
    some [.newSet, .sAddReg b!"GETHEAD" ⟨2, (rxCompile b!"^/html/.*").getD []⟩ (some 3) (some 0)] := rfl

def exStaticServer : Srv (List Nat) Nat RxPtr := serverOf exHandlers
  (progState (fun c _ => 2 * c) (exStaticOps ++
    (staticCalls (rxCompileAt 2) 0 b!"/html" (some 3) []).getD [] ++ exStaticLater)) none 5

def exStaticRequest (m path : Str) : Option (List Nat) :=
  match serveHTTP id ⟨fun _ c => (none, c.store), fun _ => [], fun _ => false⟩ RxPtr.matches id exStaticServer newBaseAuth
    ⟨m, path, []⟩ ⟨200, [], []⟩ (fun args => args.map fun x => x.2.length) [] 0 with
  | .ret d => (d.ran.bind (·.ctx)).map (·.store)
  | _ => none

example : exStaticRequest b!"GET" b!"/html/a/b.txt" = some [103, 3] := by decide +kernel
example : exStaticRequest b!"HEAD" b!"/html/" = some [103, 3] := by decide +kernel
example : exStaticRequest b!"POST" b!"/html/a" = none := by decide +kernel
example : exStaticRequest b!"GET" b!"/htmlx/a" = none := by decide +kernel
example : exStaticRequest b!"GET" b!"/html/x/info" = some [1, 106, 6] := by decide +kernel
example : exStaticRequest b!"GET" b!"/z/html/x" = some [107, 7] := by decide +kernel

/-- `C76_exact` applies to "/v1.0" and to "/я.d". -/
example : DotText b!"/v1.0" := .ascii (by decide) (.ascii (by decide) (.ascii (by decide) (.dot (.ascii (by decide) .nil))))
example : DotText b!"/я.d" :=
  .ascii (by decide) (.other (cs := [0xD1, 0x8F]) (by decide) (by decide) (by decide) (.dot (.ascii (by decide) .nil)))

/-- The hypotheses of `C76_serves` hold here. -/
example : PlainText b!"/html" ∧ (b!"/html" ++ b!"/") <+: b!"/html/a/b.txt" ∧
    cleanOps (exStaticOps ++ exStaticLater) ∧
    NoTreeRoute (exStaticOps ++ exStaticLater) b!"GET" b!"/html/a/b.txt" ∧
    NoRxRival RxPtr.matches (exStaticOps ++ exStaticLater) b!"GET" b!"/html/a/b.txt" := by
  refine ⟨plain_ascii _ (by decide +kernel), by decide +kernel, ?_, ?_, ?_⟩
  · intro o ho m route hr
    have : ∀ o ∈ exStaticOps ++ exStaticLater,
        ((registers o).all fun x => (segs x.2).all fun s => decide (s.dropWhile (· == 58) ≠ [])) = true := by
      decide +kernel
    have := this o ho
    rw [hr] at this
    simpa using this
  · intro o ho m route hr _
    have : ∀ o ∈ exStaticOps ++ exStaticLater,
        ((registers o).all fun x => (matchRoute ((segs x.2).map segPat) (segs b!"/html/a/b.txt")).isNone) = true := by
      decide +kernel
    have := this o ho
    rw [hr] at this
    simpa using this
  · intro o ho m rx hr _
    have : ∀ o ∈ exStaticOps ++ exStaticLater,
        ((registersRx o).all fun x => x.2.matches b!"/html/a/b.txt" == false) = true := by
      decide +kernel
    have := this o ho
    rw [hr] at this
    simpa using this

end Examples

end Verif
