import Verif.Lemmas.ValueSem
import Verif.Spec.Builders
/-
Properties C34 and C35: the builders keep order; cloned routers.

The specification is `Spec.vrun` (Spec/Builders.lean): handler sets and routers as plain values.
-/
namespace Verif
set_option linter.unusedSectionVars false
set_option linter.unusedSimpArgs false
open Spec
variable {η ρ : Type} [Inhabited η] [DecidableEq ρ]

/-! ### C34 -/

/-- C34 for whole programs.  For every program that writes its variadic arguments out and does not clone
sets or routers: every set, every router and every registered route has exactly the handlers, in
exactly the order, that the plain-value reading of the calls gives. -/
theorem C34_programs (grow : Nat → Nat → Nat) (ops : List (Op η ρ)) (hp : ∀ o ∈ ops, plain o = true)
    (hc : ∀ o ∈ ops, isRClone o = false) :
    let w := progState grow ops
    let v := vrun rxMethods ops
    (∀ j, setView w j = v.sets[j]?) ∧ (∀ r, routerView w r = v.routers[r]?) ∧
    w.log.map (fun r => (r.method, r.route, setHandlers w r.set)) = v.routes.map (fun x => (x.1, x.2.1, some x.2.2)) ∧
    w.rxLog.map (fun r => (r.method, r.rx, setHandlers w r.set)) = v.rxRoutes.map (fun x => (x.1, x.2.1, some x.2.2)) := by
  have h := rel_run true grow ops hp (fun _ => hc) (fun e => by simp at e)
  exact ⟨h.sets, h.rts, h.log, h.rx⟩

/-- Two sets, two routers, interleaved. -/
example :
    let ops : List (Op Nat Nat) := [.newSet, .newRouter, .setBefore 0 (.lit [1, 2]), .rLastAfter 0 4, .newSet,
      .setBefore 1 (.lit [9]), .setBefore 0 (.lit [3]), .rFirst 0 5, .rFirst 0 6, .rLastAfter 0 7, .newRouter,
      .rBefore 1 (.lit [8]), .rBefore 1 (.lit [7, 7]), .sAdd b!"GET" b!"/a" (some 1) (some 0),
      .rUse 0 b!"GET" b!"/b" (some 2), .setAfter 0 (.lit [4])]
    (∀ o ∈ ops, plain o = true) ∧ (∀ o ∈ ops, isRClone o = false) ∧
    (vrun rxMethods ops).sets = [⟨[1, 2, 3], [4], none, none⟩, ⟨[9], [], none, none⟩] ∧
    (vrun rxMethods ops).routers = [⟨[6, 5], [4, 7], none⟩, ⟨[7, 7], [], none⟩] ∧
    (vrun rxMethods ops).routes = [(b!"GET", b!"/a", ⟨[1, 2, 3], [], none, some 1⟩),
      (b!"GET", b!"/b", ⟨[6, 5], [4, 7], none, some 2⟩)] := by decide +kernel

/-- C34, call by call and for EVERY program before it (clones, shared slices, anything): the effect of a
call on the handler set it is called on. -/
theorem C34_set_calls (grow : Nat → Nat → Nat) (ops : List (Op η ρ)) (j : Nat) (v : HView η) (xs : List η)
    (x : Option η) (hv : setView (progState grow ops) j = some v) :
    let w := progState grow ops
    setView (step grow w (.setBefore j (.lit xs))).1 j = some { v with before := v.before ++ xs } ∧
    setView (step grow w (.setAfter j (.lit xs))).1 j = some { v with after := v.after ++ xs } ∧
    setView (step grow w (.setLast j x)).1 j = some { v with last := x } ∧
    setView (step grow w (.setUse j x)).1 j = some { v with main := x } := by
  have h : WF (progState grow ops) := progState_wf grow ops
  intro w
  generalize hw : progState grow ops = w0 at *
  subst hw
  simp only [setView, Option.bind_eq_some_iff, setHandlers, Option.map_eq_some_iff] at hv
  obtain ⟨b, hb, s, hs, rfl⟩ := hv
  have hblt := (List.getElem?_eq_some_iff.1 hs).1
  have hm := List.mem_of_getElem? hs
  have hsw := h.sets s hm
  have hne := h.sepBA s hm s hm
  have hcl : cells ((progState grow ops).arrs ++ [xs]) (allocSlice (progState grow ops).arrs xs).2 = xs :=
    (allocSlice_spec (progState grow ops).arrs xs).2.2.2
  refine ⟨?_, ?_, ?_, ?_⟩
  · have h1 := appendSlice_spec grow ((progState grow ops).arrs ++ [xs]) s.before xs (swf_push xs hsw.1)
    have h2 := cells_append_other grow ((progState grow ops).arrs ++ [xs]) s.before s.after xs
      (by have := hsw.2.arr; simp; omega) (fun e => absurd e hne)
    have e1 : (step grow (progState grow ops) (.setBefore j (.lit xs))).1 =
        opBefore grow { (progState grow ops) with arrs := (progState grow ops).arrs ++ [xs] } b xs := by
      simp only [step, hb, evalArg]
      show opBefore grow { (progState grow ops) with arrs := (progState grow ops).arrs ++ [xs] } b
        (cells ((progState grow ops).arrs ++ [xs]) (allocSlice (progState grow ops).arrs xs).2) = _
      rw [hcl]
    rw [e1]
    simp only [opBefore, hs, setView, hb, Option.bind_some, setHandlers, List.getElem?_set, hblt, if_true,
      Option.map_some, h1.2, h2, cells_push _ _ _ hsw.1.arr, cells_push _ _ _ hsw.2.arr]
  · have h1 := appendSlice_spec grow ((progState grow ops).arrs ++ [xs]) s.after xs (swf_push xs hsw.2)
    have h2 := cells_append_other grow ((progState grow ops).arrs ++ [xs]) s.after s.before xs
      (by have := hsw.1.arr; simp; omega) (fun e => absurd e.symm hne)
    have e1 : (step grow (progState grow ops) (.setAfter j (.lit xs))).1 =
        opAfter grow { (progState grow ops) with arrs := (progState grow ops).arrs ++ [xs] } b xs := by
      simp only [step, hb, evalArg]
      show opAfter grow { (progState grow ops) with arrs := (progState grow ops).arrs ++ [xs] } b
        (cells ((progState grow ops).arrs ++ [xs]) (allocSlice (progState grow ops).arrs xs).2) = _
      rw [hcl]
    rw [e1]
    simp only [opAfter, hs, setView, hb, Option.bind_some, setHandlers, List.getElem?_set, hblt, if_true,
      Option.map_some, h1.2, h2, cells_push _ _ _ hsw.1.arr, cells_push _ _ _ hsw.2.arr]
  · simp [w, step, hb, opLast, setView, setHandlers, List.getElem?_modify, hs]
  · simp [w, step, hb, opUse, setView, setHandlers, List.getElem?_modify, hs]

/-- C34, call by call, for routers, after EVERY program: First prepends, LastAfter appends, Before and
After replace, Last replaces. -/
theorem C34_router_calls (grow : Nat → Nat → Nat) (ops : List (Op η ρ)) (r : Nat) (v : RView η) (xs : List η)
    (x : η) (y : Option η) (hv : routerView (progState grow ops) r = some v) :
    let w := progState grow ops
    routerView (step grow w (.rFirst r x)).1 r = some { v with before := x :: v.before } ∧
    ((routerView (step grow w (.rLastAfter r x)).1 r).map (·.after)) = some (v.after ++ [x]) ∧
    routerView (step grow w (.rBefore r (.lit xs))).1 r = some { v with before := xs } ∧
    routerView (step grow w (.rAfter r (.lit xs))).1 r = some { v with after := xs } ∧
    routerView (step grow w (.rLast r y)).1 r = some { v with last := y } := by
  have h : WF (progState grow ops) := progState_wf grow ops
  intro w
  simp only [routerView, Option.map_eq_some_iff] at hv
  obtain ⟨rt, hr, rfl⟩ := hv
  have hlt := (List.getElem?_eq_some_iff.1 hr).1
  have hsw := h.rts rt (List.mem_of_getElem? hr)
  refine ⟨?_, ?_, ?_, ?_, ?_⟩
  · have hal := allocSlice_spec w.arrs [x]
    have h1 := appendSlice_spec grow (w.arrs ++ [[x]]) (allocSlice w.arrs [x]).2 (cells (w.arrs ++ [[x]]) rt.before) hal.2.2.1
    have hc0 : cells (w.arrs ++ [[x]]) (allocSlice w.arrs [x]).2 = [x] := hal.2.2.2
    have h2 := cells_append_other grow (w.arrs ++ [[x]]) (allocSlice w.arrs [x]).2 rt.after
      (cells (w.arrs ++ [[x]]) rt.before) (by have := hsw.2.arr; simp [w]; omega)
      (fun e => by have := hsw.2.arr; simp [allocSlice, w] at e; omega)
    have e1 : (step grow w (.rFirst r x)).1 = { w with
        arrs := (appendSlice grow (w.arrs ++ [[x]]) (allocSlice w.arrs [x]).2 (cells (w.arrs ++ [[x]]) rt.before)).1,
        routers := w.routers.set r { rt with before := (appendSlice grow (w.arrs ++ [[x]]) (allocSlice w.arrs [x]).2 (cells (w.arrs ++ [[x]]) rt.before)).2 } } := by
      simp only [w, step, hr]; rfl
    rw [e1]
    simp only [routerView, List.getElem?_set, hlt, if_true, Option.map_some, w]
    rw [h1.2, h2, hc0, cells_push _ _ _ hsw.1.arr, cells_push _ _ _ hsw.2.arr]
    rfl
  · have h1 := appendSlice_spec grow w.arrs rt.after [x] hsw.2
    simp only [w, step, hr, routerView, List.getElem?_set, hlt, if_true, Option.map_some]
    rw [h1.2]
  · simp only [w, step, hr, evalArg, routerView]
    simp only [allocSlice, List.getElem?_set, hlt, if_true, Option.map_some]
    rw [cells_push _ _ _ hsw.2.arr]
    simp [cells]
  · simp only [w, step, hr, evalArg, routerView]
    simp only [allocSlice, List.getElem?_set, hlt, if_true, Option.map_some]
    rw [cells_push _ _ _ hsw.1.arr]
    simp [cells]
  · simp only [w, step, hr, routerView, List.getElem?_set, hlt, if_true, Option.map_some]

/-- A router configured from a user slice, and a set cloned from another. -/
example :
    let ops : List (Op Nat Nat) := [.newRouter, .mkSlice [1, 2] 3, .rAfter 0 (.spread 0), .rFirst 0 5,
      .newSet, .setBefore 0 (.lit [1]), .setClone 0]
    routerView (progState (fun c _ => 2 * c) ops) 0 = some ⟨[5], [1, 2], none⟩ ∧
    setView (progState (fun c _ => 2 * c) ops) 1 = some ⟨[1], [], none, none⟩ := by decide +kernel

/-! ### C35 -/

/-- C35, violated in general: with Go's doubling growth, LastAfter on a clone replaces the handler that
LastAfter appended on the original. -/
theorem C35_violated :
    let ops : List (Op Nat Nat) := [.newRouter, .rLastAfter 0 1, .rLastAfter 0 2, .rLastAfter 0 3, .rClone 0,
      .rLastAfter 0 4]
    routerView (progState (fun c _ => 2 * c) ops) 0 = some ⟨[], [1, 2, 3, 4], none⟩ ∧
    routerView (progState (fun c _ => 2 * c) (ops ++ [.rLastAfter 1 5])) 0 = some ⟨[], [1, 2, 3, 5], none⟩ := by
  decide +kernel

/-- C35, the part that holds for whole programs: as long as LastAfter is not used, routers and their
clones behave as independent values (and so do sets and registered routes). -/
theorem C35_programs_partial (grow : Nat → Nat → Nat) (ops : List (Op η ρ)) (hp : ∀ o ∈ ops, plain o = true)
    (hl : ∀ o ∈ ops, isLastAfter o = false) :
    let w := progState grow ops
    let v := vrun rxMethods ops
    (∀ r, routerView w r = v.routers[r]?) ∧ (∀ j, setView w j = v.sets[j]?) ∧
    w.log.map (fun r => (r.method, r.route, setHandlers w r.set)) = v.routes.map (fun x => (x.1, x.2.1, some x.2.2)) := by
  have h := rel_run false grow ops hp (fun e => by simp at e) (fun _ => hl)
  exact ⟨h.rts, h.sets, h.log⟩

example :
    let ops : List (Op Nat Nat) := [.newRouter, .rAfter 0 (.lit [1, 2]), .rFirst 0 3, .rClone 0, .rFirst 1 4,
      .rFirst 0 5, .rAfter 1 (.lit [6]), .rLast 1 (some 9), .rClone 1, .rBefore 1 (.lit [])]
    (∀ o ∈ ops, plain o = true) ∧ (∀ o ∈ ops, isLastAfter o = false) ∧
    (vrun rxMethods ops).routers = [⟨[5, 3], [1, 2], none⟩, ⟨[], [6], some 9⟩, ⟨[4, 3], [6], some 9⟩] := by
  decide +kernel

/-- C35, call by call and after EVERY program: a call on router `r` (a clone or not) other than LastAfter
changes no other router; nor does LastAfter when `r`'s after-list has no spare capacity
(`len(r.GetAfter()) = cap(r.GetAfter())`). -/
theorem C35_calls_partial (grow : Nat → Nat → Nat) (ops : List (Op η ρ)) (r k : Nat) (xs : List η) (x : η)
    (y : Option η) (hk : k ≠ r) :
    let w := progState grow ops
    routerView (step grow w (.rFirst r x)).1 k = routerView w k ∧
    routerView (step grow w (.rBefore r (.lit xs))).1 k = routerView w k ∧
    routerView (step grow w (.rAfter r (.lit xs))).1 k = routerView w k ∧
    routerView (step grow w (.rLast r y)).1 k = routerView w k ∧
    (∀ rt, w.routers[r]? = some rt → rt.after.len = rt.after.cap →
      routerView (step grow w (.rLastAfter r x)).1 k = routerView w k) ∧
    (k < w.routers.length → routerView (step grow w (.rClone r)).1 k = routerView w k) := by
  have h : WF (progState grow ops) := progState_wf grow ops
  intro w
  have hkr : ¬ r = k := fun e => hk e.symm
  have push : ∀ (l : List η) (q : RouterRec η), w.routers[k]? = some q →
      cells (w.arrs ++ [l]) q.before = cells w.arrs q.before ∧ cells (w.arrs ++ [l]) q.after = cells w.arrs q.after :=
    fun l q hq => ⟨cells_push _ _ _ (h.rts q (List.mem_of_getElem? hq)).1.arr,
      cells_push _ _ _ (h.rts q (List.mem_of_getElem? hq)).2.arr⟩
  have set' : ∀ (A : Arrs η) (rt' : RouterRec η),
      (∀ q, w.routers[k]? = some q → cells A q.before = cells w.arrs q.before ∧ cells A q.after = cells w.arrs q.after) →
      routerView { w with arrs := A, routers := w.routers.set r rt' } k = routerView w k := by
    intro A rt' hA
    simp only [routerView, List.getElem?_set, if_neg hkr]
    cases hq : w.routers[k]? with
    | none => rfl
    | some q => simp only [Option.map_some, (hA q hq).1, (hA q hq).2]
  refine ⟨?_, ?_, ?_, ?_, ?_, ?_⟩
  · cases hr : w.routers[r]? with
    | none => simp [step, hr]
    | some rt =>
      simp only [step, hr]
      refine set' _ _ ?_
      intro q hq
      have ha := h.rts q (List.mem_of_getElem? hq)
      have other : ∀ z : Slice, z.arr < w.arrs.length →
          cells (appendSlice grow (w.arrs ++ [[x]]) (allocSlice w.arrs [x]).2 (cells (w.arrs ++ [[x]]) rt.before)).1 z = cells w.arrs z := by
        intro z hz
        rw [cells_append_other grow _ _ _ _ (by simp; omega) (fun e => by simp [allocSlice] at e; omega), cells_push _ _ _ hz]
      exact ⟨other _ ha.1.arr, other _ ha.2.arr⟩
  · cases hr : w.routers[r]? with
    | none => simp [step, hr]
    | some rt => simp only [step, hr, evalArg]; exact set' _ _ (push xs)
  · cases hr : w.routers[r]? with
    | none => simp [step, hr]
    | some rt => simp only [step, hr, evalArg]; exact set' _ _ (push xs)
  · cases hr : w.routers[r]? with
    | none => simp [step, hr]
    | some rt => simp only [step, hr]; exact set' w.arrs _ (fun _ _ => ⟨rfl, rfl⟩)
  · intro rt hr hfull
    simp only [step, hr]
    refine set' _ _ ?_
    rcases appendSlice_slice grow w.arrs rt.after [x] with ⟨hle, _⟩ | ⟨_, _, _, _, l, hl⟩
    · simp at hle; omega
    · rw [hl]; exact push l
  · intro hlt
    cases hr : w.routers[r]? with
    | none => simp [step, hr]
    | some rt => simp only [step, hr, routerView, List.getElem?_append_left hlt]

/-- A router whose after-list is exactly full, and its clone. -/
example :
    let ops : List (Op Nat Nat) := [.newRouter, .rAfter 0 (.lit [1, 2]), .rClone 0]
    ((progState (fun c _ => 2 * c) ops).routers[1]?).map (fun rt => (rt.after.len, rt.after.cap)) = some (2, 2) ∧
    routerView (progState (fun c _ => 2 * c) (ops ++ [.rLastAfter 1 5, .rLastAfter 0 6])) 0 = some ⟨[], [1, 2, 6], none⟩ ∧
    routerView (progState (fun c _ => 2 * c) (ops ++ [.rLastAfter 1 5, .rLastAfter 0 6])) 1 = some ⟨[], [1, 2, 5], none⟩ := by
  decide +kernel

end Verif
