import Verif.Spec.EndToEnd
import Verif.Props.Heap
import Verif.Props.RegTree
/-
C75: from a program of registrations to the handlers a request runs.
-/
namespace Verif
open Spec
set_option linter.unusedSectionVars false
variable {η ρ υ : Type} [Inhabited η] [DecidableEq ρ]

/-- Every registration in the log was made by a call of the program. -/
theorem log_step (grow : Nat → Nat → Nat) (o : Op η ρ) (w : World η ρ) :
    (step grow w o).1.log = w.log ∨
    ∃ m route a, registers o = some (m, route) ∧ (step grow w o).1.log = w.log ++ [⟨m, route, a⟩] := by
  have ev : ∀ arg w' x, evalArg w arg = some (w', x) → w'.log = w.log := by
    intro arg w' x he
    cases arg with
    | lit xs => simp only [evalArg, Option.some.injEq, Prod.mk.injEq] at he; rw [← he.1]
    | spread i =>
      simp only [evalArg, Option.map_eq_some_iff, Prod.mk.injEq] at he
      obtain ⟨_, _, h, _⟩ := he
      rw [← h]
  have ob : ∀ (w : World η ρ) b xs, (opBefore grow w b xs).log = w.log := by
    intro w b xs; unfold opBefore; split <;> rfl
  have oa : ∀ (w : World η ρ) b xs, (opAfter grow w b xs).log = w.log := by
    intro w b xs; unfold opAfter; split <;> rfl
  have ora : ∀ (w : World η ρ) m rx b, (opRegAdd w m rx b).1.log = w.log := by
    intro w m rx b
    unfold opRegAdd
    split <;> rfl
  have oc : ∀ (w w' : World η ρ) j x b, opCopySet w j x = some (w', b) → w'.log = w.log := by
    intro w w' j x b he
    unfold opCopySet at he
    split at he
    · simp at he
    · split at he
      · simp at he
      · simp only [Option.some.injEq, Prod.mk.injEq] at he
        rw [← he.1]
        unfold opClone
        split <;> rfl
  have oadd : ∀ m route x set, (opAdd w m route x set).1.log = w.log ∨
      ∃ a, (opAdd w m route x set).1.log = w.log ++ [⟨m, route, a⟩] := by
    intro m route x set
    unfold opAdd
    split
    · exact Or.inl rfl
    · rename_i he
      have := oc _ _ _ _ _ he
      exact Or.inr ⟨_, by simp only [opTreeAdd]; rw [this]⟩
  cases o with
  | newSet => exact Or.inl rfl
  | setBefore j arg =>
    left
    simp only [step]
    split
    · rfl
    · split
      · rfl
      · rename_i he
        exact (ob _ _ _).trans (ev _ _ _ he)
  | setAfter j arg =>
    left
    simp only [step]
    split
    · rfl
    · split
      · rfl
      · rename_i he
        exact (oa _ _ _).trans (ev _ _ _ he)
  | setLast j x => left; simp only [step]; split <;> rfl
  | setUse j x => left; simp only [step]; split <;> rfl
  | setClone j =>
    left
    simp only [step]
    split
    · rfl
    · unfold opClone; split <;> rfl
  | newRouter => exact Or.inl rfl
  | rFirst r x => left; simp only [step]; split <;> rfl
  | rBefore r arg =>
    left
    simp only [step]
    split
    · rfl
    · split
      · rfl
      · rename_i he; have := ev _ _ _ he; exact this
  | rAfter r arg =>
    left
    simp only [step]
    split
    · rfl
    · split
      · rfl
      · rename_i he; have := ev _ _ _ he; exact this
  | rLastAfter r x => left; simp only [step]; split <;> rfl
  | rLast r x => left; simp only [step]; split <;> rfl
  | rUse r m route x =>
    simp only [step]
    split
    · exact Or.inl rfl
    · rename_i rt _
      have f := opSnapshot_frame grow w rt x
      exact Or.inr ⟨m, route, _, rfl, by simp only [opTreeAdd]; rw [f.2.2.2.2.2.2.2.1]⟩
  | rUseReg r m rx x =>
    left
    simp only [step]
    split
    · rfl
    · rename_i rt _
      have f := opSnapshot_frame grow w rt x
      rw [ora, f.2.2.2.2.2.2.2.1]
  | rClone r => left; simp only [step]; split <;> rfl
  | rGetBefore r => left; simp only [step]; split <;> rfl
  | rGetAfter r => left; simp only [step]; split <;> rfl
  | sAdd m route x set =>
    rcases oadd m route x set with h | ⟨a, h⟩
    · exact Or.inl h
    · exact Or.inr ⟨m, route, a, rfl, h⟩
  | sAddReg m rx x set =>
    left
    simp only [step, opAddReg]
    split
    · rfl
    · rename_i w' a he
      rw [ora]; exact oc _ _ _ _ _ he
  | sConv m route x sets =>
    rcases oadd m route x (nonEmptySet sets) with h | ⟨a, h⟩
    · exact Or.inl h
    · exact Or.inr ⟨m, route, a, rfl, h⟩
  | mkSlice xs n => exact Or.inl rfl
  | slSet i k x =>
    left
    simp only [step]
    split
    · rfl
    · split <;> rfl
  | slAppend i xs => left; simp only [step]; split <;> rfl
  | slSub i lo hi mx =>
    left
    simp only [step]
    split
    · rfl
    · split <;> rfl

theorem log_run (grow : Nat → Nat → Nat) (ops : List (Op η ρ)) : ∀ w : World η ρ,
    ∃ l, (runOps grow w ops).log = w.log ++ l ∧ ∀ x ∈ l, ∃ o ∈ ops, registers o = some (x.method, x.route) := by
  induction ops with
  | nil => intro w; exact ⟨[], by simp [runOps], by simp⟩
  | cons o ops ih =>
    intro w
    obtain ⟨l, h1, h2⟩ := ih (step grow w o).1
    have hr : runOps grow w (o :: ops) = runOps grow (step grow w o).1 ops := rfl
    rcases log_step grow o w with h | ⟨m, route, a, hreg, h⟩
    · refine ⟨l, by rw [hr, h1, h], fun x hx => ?_⟩
      obtain ⟨o', ho', e⟩ := h2 x hx
      exact ⟨o', List.mem_cons_of_mem _ ho', e⟩
    · refine ⟨⟨m, route, a⟩ :: l, by rw [hr, h1, h]; simp, fun x hx => ?_⟩
      rcases List.mem_cons.1 hx with rfl | hx
      · exact ⟨o, List.mem_cons_self .., hreg⟩
      · obtain ⟨o', ho', e⟩ := h2 x hx
        exact ⟨o', List.mem_cons_of_mem _ ho', e⟩

/-- Processing depends only on the lookup and on the handlers of the set found. -/
theorem runHTTP_same (env : Env υ) (rxMatch : ρ → Str → Bool) (visit : GoMap ρ (Option Nat) → List (ρ × Option Nat))
    (s1 s2 : Srv υ Nat ρ) (meth : Method) (path : Str) (resp : Resp) (store : Args → υ) (buf : Args) (clock : Nat)
    (a1 a2 : Nat) (b : Args)
    (h1 : serverFind rxMatch visit s1.tree s1.regs meth path buf = .ret ⟨some a1, true, b⟩)
    (h2 : serverFind rxMatch visit s2.tree s2.regs meth path buf = .ret ⟨some a2, true, b⟩)
    (hs : s1.sets a1 = s2.sets a2) (hi : s1.initCtx = s2.initCtx) (hl : s1.logLevel = s2.logLevel) :
    runHTTP env rxMatch visit s1 meth path resp store buf clock =
      runHTTP env rxMatch visit s2 meth path resp store buf clock := by
  unfold runHTTP
  rw [h1, h2]
  simp only [Outcome.bind_ret, hs, hi, hl]

theorem serveHTTP_same (u : Str → Str) (env : Env υ) (rxMatch : ρ → Str → Bool)
    (visit : GoMap ρ (Option Nat) → List (ρ × Option Nat)) (s1 s2 : Srv υ Nat ρ) (ba : BaseAuth) (req : Req)
    (resp : Resp) (store : Args → υ) (buf : Args) (clock : Nat)
    (h : ∀ resp, runHTTP env rxMatch visit s1 req.method req.path resp store buf clock =
      runHTTP env rxMatch visit s2 req.method req.path resp store buf clock) :
    serveHTTP u env rxMatch visit s1 ba req resp store buf clock =
      serveHTTP u env rxMatch visit s2 ba req resp store buf clock := by
  unfold serveHTTP
  simp only [h]

theorem found_in_tree (rxMatch : ρ → Str → Bool) (visit : GoMap ρ (Option Nat) → List (ρ × Option Nat))
    (tree : Node Nat) (regs : RegTable ρ Nat) (meth : Method) (path : Str) (buf : Args) (a : Nat) (b : Args)
    (h : treeFind tree meth path buf = .ret ⟨some a, true, b⟩) :
    serverFind rxMatch visit tree regs meth path buf = .ret ⟨some a, true, b⟩ := by
  unfold serverFind
  rw [h]
  rfl

/-- A clean route alone. -/
theorem sole_find (m meth : Method) (route path : Str) (buf : Args) (b : List (Str × Str))
    (hclean : Clean (⟨m, route, 0⟩ : Reg Nat)) (hcov : covers m meth = true)
    (hm : matchRoute ((segs route).map segPat) (segs path) = some b) :
    treeFind (treeOf [(⟨m, route, 0⟩ : Reg Nat)]) meth path buf = .ret ⟨some 0, true, b⟩ :=
  C03_unique_partial [⟨m, route, 0⟩] (by simpa using hclean) meth path buf ⟨m, route, 0⟩ (by simp) hcov b hm
    (by intro o ho _; simpa using ho)

section
variable (I : Handlers3 η υ) (init : Option (RCtx υ → Prog υ)) (level : Int)
  (u : Str → Str) (env : Env υ) (rxMatch : ρ → Str → Bool) (visit : GoMap ρ (Option Nat) → List (ρ × Option Nat))
  (ba : BaseAuth) (req : Req) (resp : Resp) (store : Args → υ) (buf : Args) (clock : Nat)

/-- The registrations of a program around one of its calls. -/
theorem log_around (grow : Nat → Nat → Nat) (ops later : List (Op η ρ)) (o : Op η ρ) (m : Method) (route : Str) (a : Nat)
    (more : List (Reg Nat))
    (h : (progState grow (ops ++ o :: later)).log = (progState grow ops).log ++ ⟨m, route, a⟩ :: more)
    (hlt : (progState grow ops).log.length < (step grow (progState grow ops) o).1.log.length) :
    (∀ x ∈ (progState grow ops).log, ∃ p ∈ ops, registers p = some (x.method, x.route)) ∧
    ∀ x ∈ more, ∃ p ∈ later, registers p = some (x.method, x.route) := by
  obtain ⟨l0, g0, o0⟩ := log_run grow ops (World.init : World η ρ)
  have hlog0 : (progState grow ops).log = l0 := by unfold progState; rw [g0]; rfl
  refine ⟨by rw [hlog0]; exact o0, ?_⟩
  obtain ⟨l1, g1, o1⟩ := log_run grow later (step grow (progState grow ops) o).1
  have hlog1 : (progState grow (ops ++ o :: later)).log = (step grow (progState grow ops) o).1.log ++ l1 := by
    rw [← g1]; simp [progState, runOps]
  rcases log_step grow o (progState grow ops) with hs | ⟨m', route', a', hr, hs⟩
  · rw [hs] at hlt; omega
  · have : (progState grow ops).log ++ ⟨m, route, a⟩ :: more = (progState grow ops).log ++ ⟨m', route', a'⟩ :: l1 := by
      rw [← h, hlog1, hs]; simp
    have := (List.cons.inj (List.append_cancel_left this)).2
    rw [this]
    exact o1

/-- A route without competitors. -/
theorem alone (w : World η ρ) (m : Method) (route : Str) (a : Nat) (v : HView η) (htree : w.tree = treeOf w.log)
    (hv : setHandlers w a = some v) (hmem : (⟨m, route, a⟩ : Reg Nat) ∈ w.log) (hcl : ∀ x ∈ w.log, Clean x)
    (hcov : covers m req.method = true) (b : List (Str × Str))
    (hm : matchRoute ((segs route).map segPat) (segs req.path) = some b)
    (huniq : ∀ x ∈ w.log, competes (routePats x) (segs req.path) = true → x = ⟨m, route, a⟩) :
    serveHTTP u env rxMatch visit (serverOf I w init level) ba req resp store buf clock =
    serveHTTP u env rxMatch visit (soleServer I m route v init level) ba req resp store buf clock := by
  have hfind : treeFind w.tree req.method req.path buf = .ret ⟨some a, true, b⟩ := by
    rw [htree]
    exact C03_unique_partial w.log hcl req.method req.path buf ⟨m, route, a⟩ hmem hcov b hm huniq
  refine serveHTTP_same u env rxMatch visit _ _ ba req resp store buf clock fun resp => ?_
  refine runHTTP_same env rxMatch visit _ _ req.method req.path resp store buf clock a 0 b ?_ ?_ ?_ rfl rfl
  · exact found_in_tree rxMatch visit _ _ _ _ _ _ _ hfind
  · exact found_in_tree rxMatch visit _ _ _ _ _ _ _ (sole_find m req.method route req.path buf b (hcl ⟨m, route, a⟩ hmem) hcov hm)
  · simp [serverOf, soleServer, viewSet, hv]

/-- A literal route that is the latest one for its path. -/
theorem latest (w : World η ρ) (m : Method) (route : Str) (a : Nat) (v : HView η) (pre more : List (Reg Nat))
    (htree : w.tree = treeOf w.log) (hv : setHandlers w a = some v) (hlog : w.log = pre ++ ⟨m, route, a⟩ :: more)
    (hlit : ∀ x ∈ w.log, Literal x)
    (hcov : covers m req.method = true) (hm : segs route = segs req.path)
    (hlast : ∀ x ∈ more, ¬ (segs x.route = segs req.path ∧ covers x.method req.method = true)) :
    serveHTTP u env rxMatch visit (serverOf I w init level) ba req resp store buf clock =
    serveHTTP u env rxMatch visit (soleServer I m route v init level) ba req resp store buf clock := by
  have hmem : (⟨m, route, a⟩ : Reg Nat) ∈ w.log := by rw [hlog]; simp
  have hfind : treeFind w.tree req.method req.path buf = .ret ⟨some a, true, []⟩ := by
    rw [htree, C01_literal_map w.log hlit req.method req.path buf]
    have : (w.log.reverse.find? fun r => decide (segs r.route = segs req.path) && covers r.method req.method) =
        some ⟨m, route, a⟩ := by
      rw [hlog]
      simp only [List.reverse_append, List.reverse_cons, List.append_assoc, List.find?_append]
      have h0 : (more.reverse.find? fun r => decide (segs r.route = segs req.path) && covers r.method req.method) = none := by
        rw [List.find?_eq_none]
        intro x hx hc
        simp only [Bool.and_eq_true, decide_eq_true_eq] at hc
        exact hlast x (by simpa using hx) hc
      rw [h0]
      simp [hm, hcov]
    rw [this]
  have hsole : treeFind (treeOf [(⟨m, route, 0⟩ : Reg Nat)]) req.method req.path buf = .ret ⟨some 0, true, []⟩ := by
    rw [C01_literal_map [⟨m, route, 0⟩] (by intro x hx; simp only [List.mem_singleton] at hx; subst hx; exact hlit ⟨m, route, a⟩ hmem) req.method req.path buf]
    simp [hm, hcov]
  refine serveHTTP_same u env rxMatch visit _ _ ba req resp store buf clock fun resp => ?_
  refine runHTTP_same env rxMatch visit _ _ req.method req.path resp store buf clock a 0 [] ?_ ?_ ?_ rfl rfl
  · exact found_in_tree rxMatch visit _ _ _ _ _ _ _ hfind
  · exact found_in_tree rxMatch visit _ _ _ _ _ _ _ hsole
  · simp [serverOf, soleServer, viewSet, hv]

/-- No segment of a registered route is empty or consists of colons only. -/
def cleanOps (ops : List (Op η ρ)) : Prop :=
  ∀ o ∈ ops, ∀ m route, registers o = some (m, route) → ∀ s ∈ segs route, s.dropWhile (· == 58) ≠ []

/-- No route registered by these calls competes for the path. -/
def NoRival (ops : List (Op η ρ)) (path : Str) : Prop :=
  ∀ o ∈ ops, ∀ m route, registers o = some (m, route) → competes ((segs route).map segPat) (segs path) = false

/-- The calls register literal routes only (no segment starts with ':'). -/
def literalOps (ops : List (Op η ρ)) : Prop :=
  ∀ o ∈ ops, ∀ m route, registers o = some (m, route) → ∀ s ∈ segs route, s.head? ≠ some 58

/-- The calls register nothing for the method and path. -/
def NotReplaced (ops : List (Op η ρ)) (meth : Method) (path : Str) : Prop :=
  ∀ o ∈ ops, ∀ m route, registers o = some (m, route) → ¬ (segs route = segs path ∧ covers m meth = true)

/-- The situation of C75: what is needed of the program around the registering call `o`. -/
theorem around_alone (grow : Nat → Nat → Nat) (ops later : List (Op η ρ)) (o : Op η ρ) (m : Method) (route : Str) (a : Nat)
    (more : List (Reg Nat)) (v : HView η) (ho : registers o = some (m, route))
    (h : (progState grow (ops ++ o :: later)).log = (progState grow ops).log ++ ⟨m, route, a⟩ :: more)
    (hlt : (progState grow ops).log.length < (step grow (progState grow ops) o).1.log.length)
    (htree : (progState grow (ops ++ o :: later)).tree = treeOf (progState grow (ops ++ o :: later)).log)
    (hv : setHandlers (progState grow (ops ++ o :: later)) a = some v)
    (hclean : cleanOps (ops ++ o :: later)) (hcov : covers m req.method = true) (b : List (Str × Str))
    (hm : matchRoute ((segs route).map segPat) (segs req.path) = some b) (huniq : NoRival (ops ++ later) req.path) :
    serveHTTP u env rxMatch visit (serverOf I (progState grow (ops ++ o :: later)) init level) ba req
      resp store buf clock =
    serveHTTP u env rxMatch visit (soleServer I m route v init level) ba req resp store buf clock := by
  obtain ⟨o0, o1⟩ := log_around grow ops later o m route a more h hlt
  have horig : ∀ x ∈ (progState grow (ops ++ o :: later)).log,
      x = ⟨m, route, a⟩ ∨ ∃ p ∈ ops ++ later, registers p = some (x.method, x.route) := by
    intro x hx
    rw [h] at hx
    rcases List.mem_append.1 hx with hx | hx
    · obtain ⟨p, hp, e⟩ := o0 x hx
      exact Or.inr ⟨p, List.mem_append_left _ hp, e⟩
    · rcases List.mem_cons.1 hx with hx | hx
      · exact Or.inl hx
      · obtain ⟨p, hp, e⟩ := o1 x hx
        exact Or.inr ⟨p, List.mem_append_right _ hp, e⟩
  refine alone I init level u env rxMatch visit ba req resp store buf clock _ m route a v htree hv (by rw [h]; simp) ?_
    hcov b hm ?_
  · intro x hx
    rcases horig x hx with rfl | ⟨p, hp, e⟩
    · exact hclean o (by simp) m route ho
    · refine hclean p ?_ _ _ e
      rcases List.mem_append.1 hp with hp | hp
      · exact List.mem_append_left _ hp
      · exact List.mem_append_right _ (List.mem_cons_of_mem _ hp)
  · intro x hx hco
    rcases horig x hx with rfl | ⟨p, hp, e⟩
    · rfl
    · have := huniq p hp _ _ e
      rw [show (segs x.route).map segPat = routePats x from rfl, hco] at this
      simp at this

theorem around_latest (grow : Nat → Nat → Nat) (ops later : List (Op η ρ)) (o : Op η ρ) (m : Method) (route : Str) (a : Nat)
    (more : List (Reg Nat)) (v : HView η) (ho : registers o = some (m, route))
    (h : (progState grow (ops ++ o :: later)).log = (progState grow ops).log ++ ⟨m, route, a⟩ :: more)
    (hlt : (progState grow ops).log.length < (step grow (progState grow ops) o).1.log.length)
    (htree : (progState grow (ops ++ o :: later)).tree = treeOf (progState grow (ops ++ o :: later)).log)
    (hv : setHandlers (progState grow (ops ++ o :: later)) a = some v)
    (hlit : literalOps (ops ++ o :: later)) (hcov : covers m req.method = true)
    (hm : segs route = segs req.path) (hlast : NotReplaced later req.method req.path) :
    serveHTTP u env rxMatch visit (serverOf I (progState grow (ops ++ o :: later)) init level) ba req
      resp store buf clock =
    serveHTTP u env rxMatch visit (soleServer I m route v init level) ba req resp store buf clock := by
  obtain ⟨o0, o1⟩ := log_around grow ops later o m route a more h hlt
  refine latest I init level u env rxMatch visit ba req resp store buf clock _ m route a v _ more htree hv h ?_
    hcov hm ?_
  · intro x hx
    rw [h] at hx
    rcases List.mem_append.1 hx with hx | hx
    · obtain ⟨p, hp, e⟩ := o0 x hx
      exact hlit p (List.mem_append_left _ hp) _ _ e
    · rcases List.mem_cons.1 hx with rfl | hx
      · exact hlit o (by simp) m route ho
      · obtain ⟨p, hp, e⟩ := o1 x hx
        exact hlit p (List.mem_append_right _ (List.mem_cons_of_mem _ hp)) _ _ e
  · intro x hx
    obtain ⟨p, hp, e⟩ := o1 x hx
    exact hlast p hp _ _ e

theorem rUse_logs (grow : Nat → Nat → Nat) (ops : List (Op η ρ)) (r : Nat) (m : Method) (route : Str) (h : Option η)
    (rv : RView η) (hr : routerView (progState grow ops) r = some rv) :
    (progState grow ops).log.length < (step grow (progState grow ops) (.rUse r m route h)).1.log.length := by
  simp only [routerView, Option.map_eq_some_iff] at hr
  obtain ⟨rt, hrt, -⟩ := hr
  have f := opSnapshot_frame grow (progState grow ops) rt h
  simp only [step, hrt, opTreeAdd]
  rw [f.2.2.2.2.2.2.2.1]
  simp

theorem sAdd_logs (grow : Nat → Nat → Nat) (ops : List (Op η ρ)) (j : Nat) (m : Method) (route : Str) (h : Option η)
    (v : HView η) (hv : setView (progState grow ops) j = some v) :
    (progState grow ops).log.length < (step grow (progState grow ops) (.sAdd m route h (some j))).1.log.length := by
  simp only [setView, Option.bind_eq_some_iff] at hv
  obtain ⟨addr, h1, h2⟩ := hv
  simp only [step, opAdd, opCopySet, h1, opTreeAdd]
  have : (opUse (opClone (progState grow ops) addr).1 (opClone (progState grow ops) addr).2 h).log = (progState grow ops).log := by
    unfold opUse opClone
    split <;> rfl
  rw [this]
  simp

/-- **C75** A request for a route that no other registered route competes with is processed exactly as by a server that
has only this route, with the handlers that were configured on the router when the route was registered, whatever the
program registered or changed before or afterwards: same handlers in the same order with the same parameters, same
response, same result. -/
theorem C75_router_route (grow : Nat → Nat → Nat) (ops later : List (Op η ρ)) (r : Nat) (m : Method) (route : Str)
    (h : Option η) (rv : RView η) (hr : routerView (progState grow ops) r = some rv)
    (hclean : cleanOps (ops ++ .rUse r m route h :: later))
    (hcov : covers m req.method = true) (b : List (Str × Str))
    (hm : matchRoute ((segs route).map segPat) (segs req.path) = some b)
    (huniq : NoRival (ops ++ later) req.path) :
    serveHTTP u env rxMatch visit (serverOf I (progState grow (ops ++ .rUse r m route h :: later)) init level) ba req
      resp store buf clock =
    serveHTTP u env rxMatch visit (soleServer I m route ⟨rv.before, rv.after, rv.last, h⟩ init level) ba req
      resp store buf clock := by
  obtain ⟨a, more, h1, h2, h3⟩ := C32_snapshot grow ops later r m route h rv hr
  exact around_alone I init level u env rxMatch visit ba req resp store buf clock grow ops later (.rUse r m route h) m route
    a more _ rfl h1 (rUse_logs grow ops r m route h rv hr) h2 h3 hclean hcov b hm huniq

/-- **C75**, literal routes: if all routes of the program are literal, a request for a registered path is processed by
the handlers configured on the router at the latest registration for that path and method. -/
theorem C75_router_literal (grow : Nat → Nat → Nat) (ops later : List (Op η ρ)) (r : Nat) (m : Method) (route : Str)
    (h : Option η) (rv : RView η) (hr : routerView (progState grow ops) r = some rv)
    (hlit : literalOps (ops ++ .rUse r m route h :: later))
    (hcov : covers m req.method = true) (hm : segs route = segs req.path)
    (hlast : NotReplaced later req.method req.path) :
    serveHTTP u env rxMatch visit (serverOf I (progState grow (ops ++ .rUse r m route h :: later)) init level) ba req
      resp store buf clock =
    serveHTTP u env rxMatch visit (soleServer I m route ⟨rv.before, rv.after, rv.last, h⟩ init level) ba req
      resp store buf clock := by
  obtain ⟨a, more, h1, h2, h3⟩ := C32_snapshot grow ops later r m route h rv hr
  exact around_latest I init level u env rxMatch visit ba req resp store buf clock grow ops later (.rUse r m route h) m route
    a more _ rfl h1 (rUse_logs grow ops r m route h rv hr) h2 h3 hlit hcov hm hlast

/-- **C75**, Server.Add with a handler set: the same, for the handlers the set had, as long as the program does not
afterwards append through (or clone) some other set that existed when the route was registered (C33). -/
theorem C75_set_route (grow : Nat → Nat → Nat) (ops later : List (Op η ρ)) (j : Nat) (m : Method) (route : Str)
    (h : Option η) (v : HView η) (hv : setView (progState grow ops) j = some v)
    (hlater : ∀ o ∈ later, ¬ usesOtherSet j (progState grow ops).setVars.length o)
    (hclean : cleanOps (ops ++ .sAdd m route h (some j) :: later))
    (hcov : covers m req.method = true) (b : List (Str × Str))
    (hm : matchRoute ((segs route).map segPat) (segs req.path) = some b)
    (huniq : NoRival (ops ++ later) req.path) :
    serveHTTP u env rxMatch visit (serverOf I (progState grow (ops ++ .sAdd m route h (some j) :: later)) init level) ba req
      resp store buf clock =
    serveHTTP u env rxMatch visit (soleServer I m route { v with main := h } init level) ba req
      resp store buf clock := by
  obtain ⟨a, more, h1, h2, h3⟩ := C33_template grow ops later j m route h v hv hlater
  exact around_alone I init level u env rxMatch visit ba req resp store buf clock grow ops later (.sAdd m route h (some j)) m route
    a more _ rfl h1 (sAdd_logs grow ops j m route h v hv) h2 h3 hclean hcov b hm huniq

end

/-! ### A concrete program -/

section Examples

/-- Handler number `n`: appends its number to the state; used as main handler also in Init (as `100 + n`), used as last
handler as `200 + n`. -/
def exHandlers : Handlers3 Nat (List Nat) where
  hdl n := some ⟨b!"h", fun _ => .call (.upd (· ++ [n])) fun _ => .ret .ok⟩
  main n := some ⟨b!"m", fun _ => .call (.upd (· ++ [100 + n])) fun _ => .ret .ok, fun _ => .call (.upd (· ++ [n])) fun _ => .ret .ok⟩
  last n := some ⟨b!"l", fun _ _ => .call (.upd (· ++ [200 + n])) fun _ => .ret .ok⟩

def exOps : List (Op Nat Nat) := [.newRouter, .mkSlice [1, 2] 3, .rBefore 0 (.spread 0), .rLastAfter 0 5, .rLast 0 (some 4),
  .rUse 0 b!"GET" b!"/a/b" (some 6)]
def exLater : List (Op Nat Nat) := [.slSet 0 0 9, .rFirst 0 7, .rClone 0, .rLastAfter 1 8, .rUse 1 b!"GET" b!"/c/:id" (some 9),
  .newSet, .setBefore 0 (.lit [11]), .sAdd b!"POST" b!"/d" (some 12) (some 0), .setBefore 0 (.lit [13])]

def exServer : Srv (List Nat) Nat Nat := serverOf exHandlers
  (progState (fun c _ => 2 * c) (exOps ++ .rUse 0 b!"GETHEAD" b!"/x/:id/:k" (some 3) :: exLater)) none 5

/-- What the request leaves in the state, and its parameters. -/
def exRequest (srv : Srv (List Nat) Nat Nat) (m path : Str) : Option (List Nat) :=
  match serveHTTP id ⟨fun _ c => (none, c.store), fun _ => [], fun _ => false⟩ (fun _ _ => false) id srv newBaseAuth
    ⟨m, path, []⟩ ⟨200, [], []⟩ (fun args => args.map fun x => x.2.length) [] 0 with
  | .ret d => (d.ran.bind (·.ctx)).map (·.store)
  | _ => none

example : exRequest exServer b!"HEAD" b!"/x/seven/q" = some [5, 1, 103, 1, 2, 3, 5, 204] := by decide +kernel
example : exRequest exServer b!"GET" b!"/c/1" = some [1, 109, 7, 9, 2, 9, 5, 8, 204] := by decide +kernel
example : exRequest exServer b!"POST" b!"/d" = some [112, 11, 12] := by decide +kernel

/-- The hypotheses of `C75_router_route` hold here. -/
example : routerView (progState (fun c _ => 2 * c) exOps) 0 = some ⟨[1, 2], [5], some 4⟩ ∧
    cleanOps (exOps ++ .rUse 0 b!"GETHEAD" b!"/x/:id/:k" (some 3) :: exLater) ∧
    covers b!"GETHEAD" b!"HEAD" = true ∧
    matchRoute ((segs b!"/x/:id/:k").map segPat) (segs b!"/x/seven/q") = some [(b!"id", b!"seven"), (b!"k", b!"q")] ∧
    NoRival (exOps ++ exLater) b!"/x/seven/q" := by
  refine ⟨by decide +kernel, ?_, by decide +kernel, by decide +kernel, ?_⟩
  · intro o ho m route hr
    have : ∀ o ∈ exOps ++ .rUse 0 b!"GETHEAD" b!"/x/:id/:k" (some 3) :: exLater,
        ((registers o).all fun x => (segs x.2).all fun s => decide (s.dropWhile (· == 58) ≠ [])) = true := by
      decide +kernel
    have := this o ho
    rw [hr] at this
    simpa using this
  · intro o ho m route hr
    have : ∀ o ∈ exOps ++ exLater,
        ((registers o).all fun x => competes ((segs x.2).map segPat) (segs b!"/x/seven/q") == false) = true := by
      decide +kernel
    have := this o ho
    rw [hr] at this
    simpa using this

end Examples

end Verif
