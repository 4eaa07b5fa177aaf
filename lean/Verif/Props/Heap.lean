import Verif.Lemmas.HeapWF
/-
Properties C16 and C32–C35: handler sets, routers and registration.

Vocabulary: `runOps grow World.init ops` is the state after a program `ops` (a list of API calls);
`setHandlers w a` are the handlers a registered set runs, `setView w j` those of the program's set
variable `j`, `routerView w r` what is configured on the program's router `r` (Model/Heap.lean).
-/
namespace Verif
set_option linter.unusedSectionVars false
set_option linter.unusedSimpArgs false
variable {η ρ : Type} [Inhabited η] [DecidableEq ρ]

/-- The state after a program, from a new server. -/
def progState (grow : Nat → Nat → Nat) (ops : List (Op η ρ)) : World η ρ := runOps grow World.init ops

theorem progState_wf (grow : Nat → Nat → Nat) (ops : List (Op η ρ)) : WF (progState grow ops) :=
  wf_init.run grow ops

/-- The registrations of a program are never forgotten by its continuation. -/
theorem log_grows (grow : Nat → Nat → Nat) (o : Op η ρ) (w : World η ρ) :
    (∃ l, (step grow w o).1.log = w.log ++ l) ∧ ∃ l, (step grow w o).1.rxLog = w.rxLog ++ l := by
  have ev : ∀ arg w' x, evalArg w arg = some (w', x) → w'.log = w.log ∧ w'.rxLog = w.rxLog := by
    intro arg w' x he
    cases arg with
    | lit xs => simp only [evalArg, Option.some.injEq, Prod.mk.injEq] at he; rw [← he.1]; exact ⟨rfl, rfl⟩
    | spread i =>
      simp only [evalArg, Option.map_eq_some_iff, Prod.mk.injEq] at he
      obtain ⟨_, _, h, _⟩ := he
      rw [← h]; exact ⟨rfl, rfl⟩
  have ob : ∀ (w : World η ρ) b xs, (opBefore grow w b xs).log = w.log ∧ (opBefore grow w b xs).rxLog = w.rxLog := by
    intro w b xs; unfold opBefore; split <;> exact ⟨rfl, rfl⟩
  have oa : ∀ (w : World η ρ) b xs, (opAfter grow w b xs).log = w.log ∧ (opAfter grow w b xs).rxLog = w.rxLog := by
    intro w b xs; unfold opAfter; split <;> exact ⟨rfl, rfl⟩
  have ora : ∀ (w : World η ρ) m rx b, (∃ l, (opRegAdd w m rx b).1.log = w.log ++ l) ∧
      ∃ l, (opRegAdd w m rx b).1.rxLog = w.rxLog ++ l := by
    intro w m rx b
    unfold opRegAdd
    split
    · exact ⟨⟨[], by simp⟩, [], by simp⟩
    · exact ⟨⟨[], by simp⟩, [_], rfl⟩
  have oc : ∀ (w w' : World η ρ) j x b, opCopySet w j x = some (w', b) → w'.log = w.log ∧ w'.rxLog = w.rxLog := by
    intro w w' j x b he
    unfold opCopySet at he
    split at he
    · simp at he
    · split at he
      · simp at he
      · simp only [Option.some.injEq, Prod.mk.injEq] at he
        rw [← he.1]
        unfold opClone
        split <;> exact ⟨rfl, rfl⟩
  have triv : ∀ {w' : World η ρ}, w'.log = w.log → w'.rxLog = w.rxLog →
      (∃ l, w'.log = w.log ++ l) ∧ ∃ l, w'.rxLog = w.rxLog ++ l :=
    fun h1 h2 => ⟨⟨[], by simp [h1]⟩, [], by simp [h2]⟩
  have oadd : ∀ m route x set, (∃ l, (opAdd w m route x set).1.log = w.log ++ l) ∧
      ∃ l, (opAdd w m route x set).1.rxLog = w.rxLog ++ l := by
    intro m route x set
    unfold opAdd
    split
    · exact triv rfl rfl
    · rename_i he
      have := oc _ _ _ _ _ he
      exact ⟨⟨[_], by simp only [opTreeAdd]; rw [this.1]⟩, [], by simp only [opTreeAdd]; rw [this.2]; simp⟩
  cases o with
  | newSet => exact triv rfl rfl
  | setBefore j arg =>
    simp only [step]
    split
    · exact triv rfl rfl
    · split
      · exact triv rfl rfl
      · rename_i he
        exact triv ((ob _ _ _).1.trans (ev _ _ _ he).1) ((ob _ _ _).2.trans (ev _ _ _ he).2)
  | setAfter j arg =>
    simp only [step]
    split
    · exact triv rfl rfl
    · split
      · exact triv rfl rfl
      · rename_i he
        exact triv ((oa _ _ _).1.trans (ev _ _ _ he).1) ((oa _ _ _).2.trans (ev _ _ _ he).2)
  | setLast j x => simp only [step]; split <;> exact triv rfl rfl
  | setUse j x => simp only [step]; split <;> exact triv rfl rfl
  | setClone j =>
    simp only [step]
    split
    · exact triv rfl rfl
    · unfold opClone; split <;> exact triv rfl rfl
  | newRouter => exact triv rfl rfl
  | rFirst r x => simp only [step]; split <;> exact triv rfl rfl
  | rBefore r arg =>
    simp only [step]
    split
    · exact triv rfl rfl
    · split
      · exact triv rfl rfl
      · rename_i he; exact triv (ev _ _ _ he).1 (ev _ _ _ he).2
  | rAfter r arg =>
    simp only [step]
    split
    · exact triv rfl rfl
    · split
      · exact triv rfl rfl
      · rename_i he; exact triv (ev _ _ _ he).1 (ev _ _ _ he).2
  | rLastAfter r x => simp only [step]; split <;> exact triv rfl rfl
  | rLast r x => simp only [step]; split <;> exact triv rfl rfl
  | rUse r m route x =>
    simp only [step]
    split
    · exact triv rfl rfl
    · rename_i rt _
      have f := opSnapshot_frame grow w rt x
      exact ⟨⟨[_], by simp only [opTreeAdd]; rw [f.2.2.2.2.2.2.2.1]⟩, [], by
        simp only [opTreeAdd]; rw [f.2.2.2.2.2.2.2.2]; simp⟩
  | rUseReg r m rx x =>
    simp only [step]
    split
    · exact triv rfl rfl
    · rename_i rt _
      have f := opSnapshot_frame grow w rt x
      have := ora (opSnapshot grow w rt x).1 m rx (opSnapshot grow w rt x).2
      rw [f.2.2.2.2.2.2.2.1, f.2.2.2.2.2.2.2.2] at this
      exact this
  | rClone r => simp only [step]; split <;> exact triv rfl rfl
  | rGetBefore r => simp only [step]; split <;> exact triv rfl rfl
  | rGetAfter r => simp only [step]; split <;> exact triv rfl rfl
  | sAdd m route x set => exact oadd m route x set
  | sAddReg m rx x set =>
    simp only [step, opAddReg]
    split
    · exact triv rfl rfl
    · rename_i w' a he
      have h := oc _ _ _ _ _ he
      have := ora w' m rx a
      rw [h.1, h.2] at this
      exact this
  | sConv m route x sets => exact oadd m route x _
  | mkSlice xs n => exact triv rfl rfl
  | slSet i k x =>
    simp only [step]
    split
    · exact triv rfl rfl
    · split <;> exact triv rfl rfl
  | slAppend i xs => simp only [step]; split <;> exact triv rfl rfl
  | slSub i lo hi mx =>
    simp only [step]
    split
    · exact triv rfl rfl
    · split <;> exact triv rfl rfl

theorem log_grows_run (grow : Nat → Nat → Nat) (ops : List (Op η ρ)) : ∀ w : World η ρ,
    (∃ l, (runOps grow w ops).log = w.log ++ l) ∧ ∃ l, (runOps grow w ops).rxLog = w.rxLog ++ l := by
  induction ops with
  | nil => intro w; exact ⟨⟨[], by simp [runOps]⟩, [], by simp [runOps]⟩
  | cons o ops ih =>
    intro w
    obtain ⟨⟨l1, h1⟩, l2, h2⟩ := ih (step grow w o).1
    obtain ⟨⟨k1, g1⟩, k2, g2⟩ := log_grows grow o w
    refine ⟨⟨k1 ++ l1, ?_⟩, k2 ++ l2, ?_⟩
    · rw [← List.append_assoc, ← g1]; exact h1
    · rw [← List.append_assoc, ← g2]; exact h2

/-! ### C32 -/

/-- What the snapshot made by Router.Use looks like. -/
theorem opSnapshot_spec {w : World η ρ} (h : WF w) (grow : Nat → Nat → Nat) {rt : RouterRec η}
    (hr : rt ∈ w.routers) (x : Option η) :
    ∃ s A, (opSnapshot grow w rt x).1 = { w with arrs := A, sets := w.sets ++ [s] } ∧
      (opSnapshot grow w rt x).2 = w.sets.length ∧
      w.arrs.length ≤ s.before.arr ∧ w.arrs.length ≤ s.after.arr ∧
      s.before.arr < A.length ∧ s.after.arr < A.length ∧
      cells A s.before = cells w.arrs rt.before ∧ cells A s.after = cells w.arrs rt.after ∧
      s.last = rt.last ∧ s.handler = x ∧ ∀ z, z.arr < w.arrs.length → cells A z = cells w.arrs z := by
  have hrt := h.rts rt hr
  let n := w.arrs.length
  let A0 : Arrs η := w.arrs ++ [[]] ++ [[]]
  let b0 : Slice := ⟨n, 0, 0, 0⟩
  let a0 : Slice := ⟨n + 1, 0, 0, 0⟩
  let r1 := appendSlice grow A0 a0 (cells A0 rt.after)
  let r2 := appendSlice grow r1.1 b0 (cells r1.1 rt.before)
  have hA0 : A0.length = n + 2 := by simp [A0, n]
  have old0 : ∀ z, z.arr < n → cells A0 z = cells w.arrs z := by
    intro z hz
    show cells (w.arrs ++ [[]] ++ [[]]) z = _
    rw [cells_push _ _ _ (by simp; omega), cells_push _ _ _ hz]
  have sa0 : SWF A0 a0 := ⟨by simp [hA0, a0], by simp [a0], by simp [a0]⟩
  have sb0 : SWF A0 b0 := ⟨by simp [hA0, b0], by simp [b0], by simp [b0]⟩
  have ca0 : cells A0 a0 = [] := by simp [cells, a0]
  have cb0 : cells A0 b0 = [] := by simp [cells, b0]
  have ra1 : n + 1 ≤ r1.2.arr := by
    rcases append_arr grow A0 a0 (cells A0 rt.after) with e | e
    · show n + 1 ≤ (appendSlice grow A0 a0 (cells A0 rt.after)).2.arr; rw [e]; exact Nat.le_refl _
    · show n + 1 ≤ (appendSlice grow A0 a0 (cells A0 rt.after)).2.arr; rw [e, hA0]; omega
  have sp1 := appendSlice_spec grow A0 a0 (cells A0 rt.after) sa0
  have len1 := appendSlice_length grow A0 a0 (cells A0 rt.after)
  have old1 : ∀ z, z.arr ≤ n → cells r1.1 z = cells A0 z := by
    intro z hz
    refine cells_append_other grow A0 a0 z _ (by omega) ?_
    intro e
    simp only [a0] at e
    omega
  have sb1 : SWF r1.1 b0 := swf_append grow _ _ _ _ sb0
  have sp2 := appendSlice_spec grow r1.1 b0 (cells r1.1 rt.before) sb1
  have len2 := appendSlice_length grow r1.1 b0 (cells r1.1 rt.before)
  have ra2 : n ≤ r2.2.arr := by
    rcases append_arr grow r1.1 b0 (cells r1.1 rt.before) with e | e
    · show n ≤ (appendSlice grow r1.1 b0 (cells r1.1 rt.before)).2.arr; rw [e]; exact Nat.le_refl _
    · show n ≤ (appendSlice grow r1.1 b0 (cells r1.1 rt.before)).2.arr; rw [e]
      have : A0.length ≤ r1.1.length := len1
      omega
  have old2 : ∀ z, z.arr < r1.1.length → z.arr ≠ n → cells r2.1 z = cells r1.1 z := by
    intro z hz hne
    refine cells_append_other grow r1.1 b0 z _ hz ?_
    intro e
    simp only [b0] at e
    omega
  refine ⟨⟨r2.2, r1.2, rt.last, x⟩, r2.1, ?_, rfl, ra2, (by omega : n ≤ r1.2.arr), sp2.1.arr, ?_, ?_, ?_, rfl, rfl, ?_⟩
  · simp only [opSnapshot, opNewSet, allocSlice, opAfter, opBefore, opLast, opUse, List.getElem?_concat_length,
      List.getElem?_set, List.length_append, List.length_set, List.length_modify]
    simp only [List.length_singleton, Nat.lt_add_one, if_true]
    simp only [show (w.arrs ++ [[]]).length = n + 1 by simp [n], show (w.arrs ++ [[]] ++ [[]]) = A0 from rfl, show w.arrs.length = n from rfl]
    congr 1
    apply List.ext_getElem?
    intro k
    rw [List.getElem?_modify, List.getElem?_modify]
    by_cases hk : k < w.sets.length
    · have e1 : ¬ w.sets.length = k := by omega
      rw [List.getElem?_append_left hk]
      simp [e1, List.getElem?_set, List.getElem?_append_left hk]
    · by_cases e : w.sets.length = k
      · subst e; simp [r1, r2, a0, b0]
      · simp [e, List.getElem?_set]
        rw [List.getElem?_eq_none (by simp; omega), List.getElem?_eq_none (by simp; omega)]
  · have : r1.2.arr < r1.1.length := sp1.1.arr
    exact Nat.lt_of_lt_of_le this len2
  · show cells r2.1 r2.2 = _
    rw [sp2.2, old1 b0 (Nat.le_refl _), cb0, List.nil_append]
    have h1 := hrt.1.arr
    rw [old1 _ (by omega), old0 _ h1]
  · show cells r2.1 r1.2 = _
    rw [old2 r1.2 sp1.1.arr (by omega), sp1.2, ca0, List.nil_append, old0 _ hrt.2.arr]
  · intro z hz
    have : A0.length ≤ r1.1.length := len1
    rw [old2 z (by omega) (by omega), old1 z (by omega), old0 z hz]

/-- The snapshot is sealed. -/
theorem snapshot_sealed {w : World η ρ} (h : WF w) (grow : Nat → Nat → Nat) {rt : RouterRec η}
    (hr : rt ∈ w.routers) (x : Option η) :
    ∃ s, Sealed (fun _ => True) (opSnapshot grow w rt x).1 w.sets.length s
      ⟨cells w.arrs rt.before, cells w.arrs rt.after, rt.last, x⟩ := by
  obtain ⟨s, A, e, _, l1, l2, l3, l4, c1, c2, e1, e2, _⟩ := opSnapshot_spec h grow hr x
  refine ⟨s, ?_⟩
  rw [e]
  refine ⟨by simp, c1, c2, e1, e2, l3, l4, ?_, ?_, ?_, ?_, ?_⟩
  · intro b hb; have := h.vars b hb; omega
  · intro b hb; have := h.vars b hb; simp; omega
  · intro j b s' _ hj hs'
    have hb := h.vars b (List.mem_of_getElem? hj)
    simp only [List.getElem?_append_left hb] at hs'
    have := h.sets s' (List.mem_of_getElem? hs')
    have h1 := this.1.arr
    have h2 := this.2.arr
    exact ⟨⟨fun e => by omega, fun e => by omega⟩, fun e => by omega, fun e => by omega⟩
  · intro r hr
    have := h.rts r hr
    have h1 := this.1.arr
    have h2 := this.2.arr
    exact ⟨⟨by omega, by omega⟩, by omega, by omega⟩
  · intro y hy
    have := (h.sls y hy).arr
    exact ⟨by omega, by omega⟩

/-- C32.  A route registered through a router, in any program, serves forever — whatever the program
does afterwards — exactly the handlers configured on the router when it was registered: the
registration `⟨m, route, a⟩` stays in the history the tree is built from, and the set `a` it points
to always shows the snapshot. -/
theorem C32_snapshot (grow : Nat → Nat → Nat) (ops later : List (Op η ρ)) (r : Nat) (m : Method)
    (route : Str) (h : Option η) (rv : RView η) (hr : routerView (progState grow ops) r = some rv) :
    let w := progState grow (ops ++ .rUse r m route h :: later)
    ∃ a more, w.log = (progState grow ops).log ++ ⟨m, route, a⟩ :: more ∧ w.tree = treeOf w.log ∧
      setHandlers w a = some ⟨rv.before, rv.after, rv.last, h⟩ := by
  intro w
  have hwf := progState_wf (η := η) (ρ := ρ) grow ops
  simp only [routerView, Option.map_eq_some_iff] at hr
  obtain ⟨rt, hrt, rfl⟩ := hr
  have hw : w = runOps grow (step grow (progState grow ops) (.rUse r m route h)).1 later := by
    simp [w, progState, runOps]
  have f := opSnapshot_frame grow (progState grow ops) rt h
  obtain ⟨s, hs⟩ := snapshot_sealed hwf grow (List.mem_of_getElem? hrt) h
  have hstep : (step grow (progState grow ops) (.rUse r m route h)).1
      = (opTreeAdd (opSnapshot grow (progState grow ops) rt h).1 m route (opSnapshot grow (progState grow ops) rt h).2).1 := by
    simp only [step, hrt]
  have hs' : Sealed (fun _ => True) w (progState grow ops).sets.length s
      ⟨cells (progState grow ops).arrs rt.before, cells (progState grow ops).arrs rt.after, rt.last, h⟩ := by
    rw [hw, hstep]
    exact (hs.opTreeAdd m route _).run grow later fun _ _ _ _ => trivial
  obtain ⟨⟨l, hl⟩, _⟩ := log_grows_run grow later (step grow (progState grow ops) (.rUse r m route h)).1
  refine ⟨(progState grow ops).sets.length, l, ?_, (progState_wf grow _).tree, hs'.view⟩
  rw [hw, hl, hstep]
  simp [opTreeAdd, f.2.2.2.2.2.2.2.1, f.1]

/-- C32 for regular expressions: same, for the supported methods (C15). -/
theorem C32_snapshot_reg (grow : Nat → Nat → Nat) (ops later : List (Op η ρ)) (r : Nat) (m : Method)
    (rx : ρ) (h : Option η) (rv : RView η) (hr : routerView (progState grow ops) r = some rv)
    (hm : m ∈ rxMethods) :
    let w := progState grow (ops ++ .rUseReg r m rx h :: later)
    ∃ a more, w.rxLog = (progState grow ops).rxLog ++ ⟨m, rx, a⟩ :: more ∧ w.regs = regOf w.rxLog ∧
      setHandlers w a = some ⟨rv.before, rv.after, rv.last, h⟩ := by
  intro w
  have hwf := progState_wf (η := η) (ρ := ρ) grow ops
  simp only [routerView, Option.map_eq_some_iff] at hr
  obtain ⟨rt, hrt, rfl⟩ := hr
  have hw : w = runOps grow (step grow (progState grow ops) (.rUseReg r m rx h)).1 later := by
    simp [w, progState, runOps]
  have f := opSnapshot_frame grow (progState grow ops) rt h
  obtain ⟨s, hs⟩ := snapshot_sealed hwf grow (List.mem_of_getElem? hrt) h
  have hstep : (step grow (progState grow ops) (.rUseReg r m rx h)).1
      = (opRegAdd (opSnapshot grow (progState grow ops) rt h).1 m rx (opSnapshot grow (progState grow ops) rt h).2).1 := by
    simp only [step, hrt]
  have hs' : Sealed (fun _ => True) w (progState grow ops).sets.length s
      ⟨cells (progState grow ops).arrs rt.before, cells (progState grow ops).arrs rt.after, rt.last, h⟩ := by
    rw [hw, hstep]
    exact (hs.opRegAdd m rx _).run grow later fun _ _ _ _ => trivial
  obtain ⟨_, l, hl⟩ := log_grows_run grow later (step grow (progState grow ops) (.rUseReg r m rx h)).1
  refine ⟨(progState grow ops).sets.length, l, ?_, (progState_wf grow _).regs, hs'.view⟩
  rw [hw, hl, hstep]
  have hok : (regAdd (opSnapshot grow (progState grow ops) rt h).1.regs m rx (some (opSnapshot grow (progState grow ops) rt h).2)).2 = false := by
    rw [f.2.2.2.2.2.2.1, hwf.regs]
    exact (C15_unsupported_method _ m rx _).1.1 hm
  have : (opRegAdd (opSnapshot grow (progState grow ops) rt h).1 m rx (opSnapshot grow (progState grow ops) rt h).2).1.rxLog
      = (progState grow ops).rxLog ++ [⟨m, rx, (progState grow ops).sets.length⟩] := by
    unfold opRegAdd
    split
    · rename_i he; rw [he] at hok; simp at hok
    · simp only; rw [f.2.2.2.2.2.2.2.2, f.1]
  rw [this]; simp

/-- A program that registers through a router, then changes the router, the slice it was given, a
clone and a copy of its slice. -/
example :
    let ops : List (Op Nat Nat) := [.newRouter, .mkSlice [1, 2] 3, .rBefore 0 (.spread 0), .rLastAfter 0 5]
    let later : List (Op Nat Nat) := [.slSet 0 0 9, .rFirst 0 7, .rClone 0, .rLastAfter 1 8, .rGetAfter 0,
      .slSet 1 0 6, .rLast 0 (some 4)]
    routerView (progState (fun c _ => 2 * c) ops) 0 = some ⟨[1, 2], [5], none⟩ ∧
    setHandlers (progState (fun c _ => 2 * c) (ops ++ .rUse 0 b!"GET" b!"/a" (some 3) :: later)) 0
      = some ⟨[1, 2], [5], none, some 3⟩ ∧
    routerView (progState (fun c _ => 2 * c) (ops ++ .rUse 0 b!"GET" b!"/a" (some 3) :: later)) 0
      = some ⟨[7, 9, 2], [6], some 4⟩ := by decide +kernel

/-! ### C33 -/

/-- The copy registered by Server.Add, sealed against a class `P` of set variables. -/
theorem copy_sealed {w w' : World η ρ} (h : WF w) {j : Nat} {x : Option η} {a : Nat} {v : HView η}
    (hv : setView w j = some v) (he : opCopySet w (some j) x = some (w', a)) (P : Nat → Prop)
    (hP : ∀ k b s addr s', P k → w.setVars[k]? = some b → w.sets[b]? = some s → w.setVars[j]? = some addr →
      w.sets[addr]? = some s' → Safe s.before s'.before ∧ Safe s.after s'.after) :
    ∃ s, Sealed P w' a s { v with main := x } := by
  obtain ⟨rfl, i, addr, s, hij, ha, hs, rfl⟩ := opCopySet_frame h he
  simp only [Option.some.injEq] at hij
  subst hij
  have hsm := List.mem_of_getElem? hs
  simp only [setView, ha, Option.bind_some, setHandlers, hs, Option.map_some, Option.some.injEq] at hv
  subst hv
  refine ⟨{ s with handler := x }, by simp, rfl, rfl, rfl, rfl, (h.sets s hsm).1.arr, (h.sets s hsm).2.arr, ?_, ?_, ?_, ?_, ?_⟩
  · intro b hb; have := h.vars b hb; omega
  · intro b hb; have := h.vars b hb; simp; omega
  · intro k b s' hk hb hs'
    have hlt := h.vars b (List.mem_of_getElem? hb)
    simp only [List.getElem?_append_left hlt] at hs'
    have := hP k b s' addr s hk hb hs' ha hs
    have hs'm := List.mem_of_getElem? hs'
    refine ⟨⟨this.1, fun e => absurd e (h.sepBA s' hs'm s hsm)⟩, fun e => absurd e.symm (h.sepBA s hsm s' hs'm), this.2⟩
  · intro r hr; exact h.sepR s hsm r hr
  · intro y hy; exact h.sepS s hsm y hy

/-- The operations that append through, or clone, a set variable other than `j` which existed among the
first `n`. -/
def usesOtherSet (j n : Nat) (o : Op η ρ) : Prop := ∃ k, o.setVar? = some k ∧ k ≠ j ∧ k < n

/-- C33.  After Server.Add (or Get, Post, …) with the program's set `j`, whatever the program did
before, the registered route keeps exactly the handlers the set had — through any later calls on
that same set, on sets created or cloned from it later, on routers and slices — as long as the
program does not append through (or clone) some OTHER set that existed when the route was
registered. -/
theorem C33_template (grow : Nat → Nat → Nat) (ops later : List (Op η ρ)) (j : Nat) (m : Method)
    (route : Str) (h : Option η) (v : HView η) (hv : setView (progState grow ops) j = some v)
    (hlater : ∀ o ∈ later, ¬ usesOtherSet j (progState grow ops).setVars.length o) :
    let w := progState grow (ops ++ .sAdd m route h (some j) :: later)
    ∃ a more, w.log = (progState grow ops).log ++ ⟨m, route, a⟩ :: more ∧ w.tree = treeOf w.log ∧
      setHandlers w a = some { v with main := h } := by
  intro w
  have hwf := progState_wf (η := η) (ρ := ρ) grow ops
  have hw : w = runOps grow (step grow (progState grow ops) (.sAdd m route h (some j))).1 later := by
    simp [w, progState, runOps]
  have hex : ∃ w' a, opCopySet (progState grow ops) (some j) h = some (w', a) := by
    simp only [setView, Option.bind_eq_some_iff] at hv
    obtain ⟨addr, h1, _⟩ := hv
    simp [opCopySet, h1]
  obtain ⟨w', a, he⟩ := hex
  let P : Nat → Prop := fun k => k = j ∨ (progState grow ops).setVars.length ≤ k
  obtain ⟨s, hs⟩ := copy_sealed hwf hv he P (by
    intro k b s addr s' hk hb hs ha hs'
    have : k = j := by
      rcases hk with rfl | hk
      · rfl
      · have := (List.getElem?_eq_some_iff.1 hb).1; omega
    subst this
    rw [ha] at hb
    simp only [Option.some.injEq] at hb
    subst hb
    rw [hs] at hs'
    simp only [Option.some.injEq] at hs'
    subst hs'
    exact ⟨fun _ => Nat.le_refl _, fun _ => Nat.le_refl _⟩)
  have hstep : (step grow (progState grow ops) (.sAdd m route h (some j))).1 = (opTreeAdd w' m route a).1 := by
    simp only [step, opAdd, he]
  have hs' : Sealed P w a s { v with main := h } := by
    rw [hw, hstep]
    refine (hs.opTreeAdd m route a).run grow later ?_
    intro o ho k hk
    by_cases hkj : k = j
    · exact Or.inl hkj
    · by_cases hn : k < (progState grow ops).setVars.length
      · exact absurd ⟨k, hk, hkj, hn⟩ (hlater o ho)
      · exact Or.inr (by omega)
  obtain ⟨⟨l, hl⟩, _⟩ := log_grows_run grow later (step grow (progState grow ops) (.sAdd m route h (some j))).1
  refine ⟨a, l, ?_, (progState_wf grow _).tree, hs'.view⟩
  have hw'log : w'.log = (progState grow ops).log := by
    obtain ⟨_, _, _, _, _, _, _, rfl⟩ := opCopySet_frame hwf he; rfl
  rw [hw, hl, hstep]
  simp [opTreeAdd, hw'log]

/-- The set had three appended handlers (capacity 4): the registered copy shares the array, and a later
Before on the set writes into it, behind the copy's end. -/
example :
    let ops : List (Op Nat Nat) := [.newSet, .setBefore 0 (.lit [1]), .setBefore 0 (.lit [2]), .setBefore 0 (.lit [3])]
    let later : List (Op Nat Nat) := [.setBefore 0 (.lit [4]), .setClone 0, .setBefore 1 (.lit [5]), .setUse 0 (some 8)]
    setView (progState (fun c _ => 2 * c) ops) 0 = some ⟨[1, 2, 3], [], none, none⟩ ∧
    setHandlers (progState (fun c _ => 2 * c) (ops ++ .sAdd b!"GET" b!"/" (some 7) (some 0) :: later)) 1
      = some ⟨[1, 2, 3], [], none, some 7⟩ ∧
    setView (progState (fun c _ => 2 * c) (ops ++ .sAdd b!"GET" b!"/" (some 7) (some 0) :: later)) 1
      = some ⟨[1, 2, 3, 4, 5], [], none, none⟩ := by decide +kernel

/-- C33, violated in general: with Go's doubling growth, appending to an earlier clone of the set
replaces a handler of the registered route. -/
theorem C33_violated :
    let ops : List (Op Nat Nat) := [.newSet, .setBefore 0 (.lit [1]), .setBefore 0 (.lit [2]),
      .setBefore 0 (.lit [3]), .setClone 0, .setBefore 0 (.lit [4]), .sAdd b!"GET" b!"/" (some 7) (some 0)]
    setHandlers (progState (fun c _ => 2 * c) ops) 2 = some ⟨[1, 2, 3, 4], [], none, some 7⟩ ∧
    setHandlers (progState (fun c _ => 2 * c) (ops ++ [.setBefore 1 (.lit [5])])) 2
      = some ⟨[1, 2, 3, 5], [], none, some 7⟩ := by decide +kernel

/-! ### C16 -/

/-- C16.  The convenience methods with an explicit set do what Server.Add does with it; without a set
(or with a nil one) the call panics and the program state — tables, sets, routers — is unchanged. -/
theorem C16_convenience (grow : Nat → Nat → Nat) (w : World η ρ) (m : Method) (route : Str) (h : Option η) :
    (∀ j rest, step grow w (.sConv m route h (some j :: rest)) = step grow w (.sAdd m route h (some j))) ∧
    step grow w (.sConv m route h []) = (w, true) ∧
    (∀ rest, step grow w (.sConv m route h (none :: rest)) = (w, true)) :=
  ⟨fun _ _ => rfl, rfl, fun _ => rfl⟩

/-- C16.  Add and AddReg without a set: the call panics and changes nothing, whatever the method, the route or the expression. -/
theorem C16_nil_set (grow : Nat → Nat → Nat) (w : World η ρ) (m : Method) (route : Str) (rx : ρ) (h : Option η) :
    step grow w (.sAdd m route h none) = (w, true) ∧ step grow w (.sAddReg m rx h none) = (w, true) :=
  ⟨rfl, rfl⟩

/-- C16.  With an explicit set the call succeeds and registers a copy of the set with the given main
handler, leaving the set itself as it was. -/
theorem C16_registers_copy (grow : Nat → Nat → Nat) (ops : List (Op η ρ)) (j : Nat) (rest : List (Option Nat))
    (m : Method) (route : Str) (h : Option η) (v : HView η) (hv : setView (progState grow ops) j = some v) :
    let w := (step grow (progState grow ops) (.sConv m route h (some j :: rest))).1
    (step grow (progState grow ops) (.sConv m route h (some j :: rest))).2 = false ∧
    ∃ a, w.log = (progState grow ops).log ++ [⟨m, route, a⟩] ∧ w.tree = treeOf w.log ∧
      setHandlers w a = some { v with main := h } ∧
      ∀ k, setView w k = setView (progState grow ops) k := by
  intro w
  have hwf := progState_wf (η := η) (ρ := ρ) grow ops
  have hv' := hv
  simp only [setView, Option.bind_eq_some_iff] at hv
  obtain ⟨addr, h1, h2⟩ := hv
  have hex : ∃ w' a, opCopySet (progState grow ops) (some j) h = some (w', a) := by
    simp [opCopySet, h1]
  obtain ⟨w', a, he⟩ := hex
  have hstep : step grow (progState grow ops) (.sConv m route h (some j :: rest)) = opTreeAdd w' m route a := by
    simp only [step, opAdd, nonEmptySet, he]
  have hw : w = (opTreeAdd w' m route a).1 := by simp only [w, hstep]
  obtain ⟨s, hs⟩ := copy_sealed hwf hv' he (fun _ => False) (fun _ _ _ _ _ hf => absurd hf id)
  refine ⟨by rw [hstep]; rfl, a, ?_, ?_, ?_, ?_⟩
  · rw [hw]
    obtain ⟨_, _, _, _, _, _, _, rfl⟩ := opCopySet_frame hwf he
    rfl
  · rw [hw, ← hstep]; exact (hwf.step grow _).tree
  · rw [hw]; exact (hs.opTreeAdd m route a).view
  · intro k
    rw [hw]
    obtain ⟨_, i, ad, s', _, _, _, rfl⟩ := opCopySet_frame hwf he
    simp only [opTreeAdd, setView, setHandlers]
    cases hk : (progState grow ops).setVars[k]? with
    | none => rfl
    | some b =>
      have := hwf.vars b (List.mem_of_getElem? hk)
      simp only [Option.bind_some, setHandlers, List.getElem?_append_left this]

example : setView (progState (fun c _ => 2 * c) ([.newSet, .setAfter 0 (.lit [1, 2])] : List (Op Nat Nat))) 0
    = some ⟨[], [1, 2], none, none⟩ := by decide +kernel

/-- C16: a call without a set, and what the table then answers. -/
example :
    let w := step (fun c _ => 2 * c) (World.init : World Nat Nat) (.sConv b!"GET" b!"/a" (some 1) [])
    w.2 = true ∧ treeFind w.1.tree b!"GET" b!"/a" [] = .ret ⟨none, false, []⟩ := by decide +kernel

end Verif
