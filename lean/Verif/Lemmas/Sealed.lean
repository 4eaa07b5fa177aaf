import Verif.Lemmas.Heap
/-
The ownership invariant behind C32 and C33: a registered set whose arrays nobody can write to.
-/
namespace Verif
set_option linter.unusedSectionVars false
variable {η ρ : Type} [Inhabited η] [DecidableEq ρ]

/-- Appending through `x` cannot reach `z`. -/
def Safe (x z : Slice) : Prop := x.arr = z.arr → z.off + z.len ≤ x.off + x.len

/-- Appending through `x` cannot reach either slice of `s`. -/
def Safe2 (x : Slice) (s : HSet η) : Prop := Safe x s.before ∧ Safe x s.after

/-- `x` shares no array with `s`. -/
def NoAl (x : Slice) (s : HSet η) : Prop := x.arr ≠ s.before.arr ∧ x.arr ≠ s.after.arr

theorem NoAl.safe {x : Slice} {s : HSet η} (h : NoAl x s) : Safe2 x s :=
  ⟨fun e => absurd e h.1, fun e => absurd e h.2⟩

/-- The set at address `a` is `s`, shows the handlers `v`, is not a user variable, and no slice the
program may still append to or write through (set variables in `P`, routers, slice variables)
reaches its elements. -/
structure Sealed (P : Nat → Prop) (w : World η ρ) (a : Nat) (s : HSet η) (v : HView η) : Prop where
  here : w.sets[a]? = some s
  vBefore : cells w.arrs s.before = v.before
  vAfter : cells w.arrs s.after = v.after
  vLast : s.last = v.last
  vMain : s.handler = v.main
  bArr : s.before.arr < w.arrs.length
  aArr : s.after.arr < w.arrs.length
  notVar : ∀ b ∈ w.setVars, b ≠ a
  vars : ∀ b ∈ w.setVars, b < w.sets.length
  held : ∀ j b s', P j → w.setVars[j]? = some b → w.sets[b]? = some s' →
    Safe2 s'.before s ∧ Safe2 s'.after s
  rts : ∀ r ∈ w.routers, NoAl r.before s ∧ NoAl r.after s
  sls : ∀ x ∈ w.slices, NoAl x s

theorem Sealed.view {P : Nat → Prop} {w : World η ρ} {a : Nat} {s : HSet η} {v : HView η}
    (h : Sealed P w a s v) : setHandlers w a = some v := by
  simp [setHandlers, h.here, h.vBefore, h.vAfter, h.vLast, h.vMain]

section
variable {P : Nat → Prop} {w : World η ρ} {a : Nat} {s : HSet η} {v : HView η}

theorem Sealed.fresh (h : Sealed P w a s v) {x : Slice} (hx : w.arrs.length ≤ x.arr) : NoAl x s :=
  ⟨by have := h.bArr; omega, by have := h.aArr; omega⟩

/-- The arrays change, but not under `s`. -/
theorem Sealed.arrs (h : Sealed P w a s v) {A : Arrs η} (hl : w.arrs.length ≤ A.length)
    (hb : cells A s.before = cells w.arrs s.before) (ha : cells A s.after = cells w.arrs s.after) :
    Sealed P { w with arrs := A } a s v :=
  { here := h.here, vBefore := hb.trans h.vBefore, vAfter := ha.trans h.vAfter, vLast := h.vLast,
    vMain := h.vMain, bArr := Nat.lt_of_lt_of_le h.bArr hl, aArr := Nat.lt_of_lt_of_le h.aArr hl,
    notVar := h.notVar, vars := h.vars, held := h.held, rts := h.rts, sls := h.sls }

theorem Sealed.push (h : Sealed P w a s v) (l : List η) : Sealed P { w with arrs := w.arrs ++ [l] } a s v :=
  h.arrs (by simp) (cells_push _ _ _ h.bArr) (cells_push _ _ _ h.aArr)

theorem Sealed.append (h : Sealed P w a s v) (grow : Nat → Nat → Nat) (x : Slice) (xs : List η)
    (hx : Safe2 x s) : Sealed P { w with arrs := (appendSlice grow w.arrs x xs).1 } a s v :=
  h.arrs (appendSlice_length _ _ _ _) (cells_append_other _ _ _ _ _ h.bArr hx.1)
    (cells_append_other _ _ _ _ _ h.aArr hx.2)

theorem Sealed.write (h : Sealed P w a s v) (x : Slice) (i : Nat) (xs : List η) (hx : NoAl x s) :
    Sealed P { w with arrs := w.arrs.modify x.arr fun l => writeAt l i xs } a s v :=
  h.arrs (by simp) (cells_modify_ne _ _ _ _ fun e => hx.1 e.symm)
    (cells_modify_ne _ _ _ _ fun e => hx.2 e.symm)

/-- The slice returned by an append through a slice that cannot reach `s` cannot either. -/
theorem Sealed.safe_result (h : Sealed P w a s v) (grow : Nat → Nat → Nat) (x : Slice) (xs : List η)
    (hx : Safe2 x s) : Safe2 (appendSlice grow w.arrs x xs).2 s := by
  rcases appendSlice_slice grow w.arrs x xs with ⟨_, h2, _⟩ | ⟨_, h2, _⟩
  · rw [h2]
    exact ⟨fun e => Nat.le_trans (hx.1 e) (by simp), fun e => Nat.le_trans (hx.2 e) (by simp)⟩
  · exact (h.fresh (by omega)).safe

theorem Sealed.noal_result (h : Sealed P w a s v) (grow : Nat → Nat → Nat) (x : Slice) (xs : List η)
    (hx : NoAl x s) : NoAl (appendSlice grow w.arrs x xs).2 s := by
  rcases appendSlice_slice grow w.arrs x xs with ⟨_, h2, _⟩ | ⟨_, h2, _⟩
  · rw [h2]; exact hx
  · exact h.fresh (by omega)

/-- Update of another set. -/
theorem Sealed.setAt (h : Sealed P w a s v) (b : Nat) (x : HSet η) (hb : b ≠ a)
    (hx : Safe2 x.before s ∧ Safe2 x.after s) : Sealed P { w with sets := w.sets.set b x } a s v :=
  { here := by
      show (w.sets.set b x)[a]? = some s
      rw [List.getElem?_set_ne hb]; exact h.here
    vBefore := h.vBefore, vAfter := h.vAfter, vLast := h.vLast, vMain := h.vMain
    bArr := h.bArr, aArr := h.aArr, notVar := h.notVar
    vars := fun b' hb' => by show b' < (w.sets.set b x).length; simpa using h.vars b' hb'
    held := by
      intro j b' s' hP hj hs'
      change (w.sets.set b x)[b']? = some s' at hs'
      by_cases e : b = b'
      · subst e
        rw [List.getElem?_set] at hs'
        simp only [if_true] at hs'
        split at hs'
        · simp only [Option.some.injEq] at hs'; subst hs'; exact hx
        · simp at hs'
      · rw [List.getElem?_set_ne e] at hs'
        exact h.held j b' s' hP hj hs'
    rts := h.rts, sls := h.sls }

/-- A new set that is not (yet) a variable. -/
theorem Sealed.pushSet (h : Sealed P w a s v) (x : HSet η) : Sealed P { w with sets := w.sets ++ [x] } a s v :=
  { here := by
      have hlt := (List.getElem?_eq_some_iff.1 h.here).1
      show (w.sets ++ [x])[a]? = some s
      rw [List.getElem?_append_left hlt]; exact h.here
    vBefore := h.vBefore, vAfter := h.vAfter, vLast := h.vLast, vMain := h.vMain
    bArr := h.bArr, aArr := h.aArr, notVar := h.notVar
    vars := fun b hb => by
      show b < (w.sets ++ [x]).length
      have := h.vars b hb; simp; omega
    held := by
      intro j b s' hP hj hs'
      have hb := h.vars b (List.mem_of_getElem? hj)
      change (w.sets ++ [x])[b]? = some s' at hs'
      rw [List.getElem?_append_left hb] at hs'
      exact h.held j b s' hP hj hs'
    rts := h.rts, sls := h.sls }

/-- A new variable for another set. -/
theorem Sealed.pushVar (h : Sealed P w a s v) (b : Nat) (hb : b ≠ a) (hlt : b < w.sets.length)
    (hx : ∀ x, w.sets[b]? = some x → Safe2 x.before s ∧ Safe2 x.after s) :
    Sealed P { w with setVars := w.setVars ++ [b] } a s v :=
  { here := h.here, vBefore := h.vBefore, vAfter := h.vAfter, vLast := h.vLast, vMain := h.vMain
    bArr := h.bArr, aArr := h.aArr
    notVar := fun b' hb' => by
      change b' ∈ w.setVars ++ [b] at hb'
      simp only [List.mem_append, List.mem_singleton] at hb'
      rcases hb' with h' | rfl
      · exact h.notVar b' h'
      · exact hb
    vars := fun b' hb' => by
      change b' ∈ w.setVars ++ [b] at hb'
      simp only [List.mem_append, List.mem_singleton] at hb'
      rcases hb' with h' | rfl
      · exact h.vars b' h'
      · exact hlt
    held := by
      intro j b' s' hP hj hs'
      change (w.setVars ++ [b])[j]? = some b' at hj
      by_cases hlt : j < w.setVars.length
      · rw [List.getElem?_append_left hlt] at hj; exact h.held j b' s' hP hj hs'
      · rw [List.getElem?_append_right (by omega)] at hj
        have : b' = b := by
          have := List.mem_of_getElem? hj; simpa using this
        subst this
        exact hx s' hs'
    rts := h.rts, sls := h.sls }

theorem Sealed.setRouter (h : Sealed P w a s v) (r : Nat) (x : RouterRec η)
    (hx : NoAl x.before s ∧ NoAl x.after s) : Sealed P { w with routers := w.routers.set r x } a s v :=
  { h with
    rts := fun y hy => by
      rcases List.mem_or_eq_of_mem_set hy with h' | rfl
      · exact h.rts y h'
      · exact hx }

theorem Sealed.pushRouter (h : Sealed P w a s v) (x : RouterRec η)
    (hx : NoAl x.before s ∧ NoAl x.after s) : Sealed P { w with routers := w.routers ++ [x] } a s v :=
  { h with
    rts := fun y hy => by
      change y ∈ w.routers ++ [x] at hy
      simp only [List.mem_append, List.mem_singleton] at hy
      rcases hy with h' | rfl
      · exact h.rts y h'
      · exact hx }

theorem Sealed.pushSlice (h : Sealed P w a s v) (x : Slice) (hx : NoAl x s) :
    Sealed P { w with slices := w.slices ++ [x] } a s v :=
  { h with
    sls := fun y hy => by
      change y ∈ w.slices ++ [x] at hy
      simp only [List.mem_append, List.mem_singleton] at hy
      rcases hy with h' | rfl
      · exact h.sls y h'
      · exact hx }

theorem Sealed.tables (h : Sealed P w a s v) (t : Node Nat) (g : RegTable ρ Nat) (l : List (Reg Nat))
    (rl : List (RxReg ρ Nat)) : Sealed P { w with tree := t, regs := g, log := l, rxLog := rl } a s v :=
  { h with }

/-! Composite operations. -/

theorem Sealed.evalArg (h : Sealed P w a s v) (arg : Arg η) {w' : World η ρ} {x : Slice}
    (he : evalArg w arg = some (w', x)) : Sealed P w' a s v ∧ NoAl x s ∧
      w'.sets = w.sets ∧ w'.setVars = w.setVars ∧ w'.routers = w.routers := by
  cases arg with
  | lit xs =>
    simp only [Verif.evalArg, allocSlice, Option.some.injEq, Prod.mk.injEq] at he
    obtain ⟨rfl, rfl⟩ := he
    exact ⟨h.push xs, h.fresh (by simp), rfl, rfl, rfl⟩
  | spread i =>
    simp only [Verif.evalArg, Option.map_eq_some_iff] at he
    obtain ⟨y, hy, he⟩ := he
    simp only [Prod.mk.injEq] at he
    obtain ⟨rfl, rfl⟩ := he
    exact ⟨h, h.sls _ (List.mem_of_getElem? hy), rfl, rfl, rfl⟩

theorem Sealed.newSet (h : Sealed P w a s v) : Sealed P (opNewSet w).1 a s v :=
  ((h.push []).push []).pushSet _

theorem Sealed.opBefore (h : Sealed P w a s v) (grow : Nat → Nat → Nat) (b : Nat) (xs : List η) (hb : b ≠ a)
    (hx : ∀ x, w.sets[b]? = some x → Safe2 x.before s ∧ Safe2 x.after s) :
    Sealed P (opBefore grow w b xs) a s v := by
  unfold Verif.opBefore
  split
  · exact h
  · rename_i x hx'
    exact (h.append grow x.before xs (hx x hx').1).setAt b _ hb
      ⟨h.safe_result grow _ _ (hx x hx').1, (hx x hx').2⟩

theorem Sealed.opAfter (h : Sealed P w a s v) (grow : Nat → Nat → Nat) (b : Nat) (xs : List η) (hb : b ≠ a)
    (hx : ∀ x, w.sets[b]? = some x → Safe2 x.before s ∧ Safe2 x.after s) :
    Sealed P (opAfter grow w b xs) a s v := by
  unfold Verif.opAfter
  split
  · exact h
  · rename_i x hx'
    exact (h.append grow x.after xs (hx x hx').2).setAt b _ hb
      ⟨(hx x hx').1, h.safe_result grow _ _ (hx x hx').2⟩

/-- A change of another set that leaves its slices alone. -/
theorem Sealed.modify (h : Sealed P w a s v) (b : Nat) (hb : b ≠ a) (f : HSet η → HSet η)
    (hf : ∀ x, (f x).before = x.before ∧ (f x).after = x.after) :
    Sealed P { w with sets := w.sets.modify b f } a s v :=
  { here := by
      show (w.sets.modify b f)[a]? = some s
      rw [List.getElem?_modify]; simp [hb, h.here]
    vBefore := h.vBefore, vAfter := h.vAfter, vLast := h.vLast, vMain := h.vMain
    bArr := h.bArr, aArr := h.aArr, notVar := h.notVar
    vars := fun b' hb' => by show b' < (w.sets.modify b f).length; simpa using h.vars b' hb'
    held := by
      intro j b' s' hP hj hs'
      change (w.sets.modify b f)[b']? = some s' at hs'
      rw [List.getElem?_modify] at hs'
      simp only [Option.map_eq_map, Option.map_eq_some_iff] at hs'
      obtain ⟨y, hy, rfl⟩ := hs'
      have := h.held j b' y hP hj hy
      split
      · rw [(hf y).1, (hf y).2]; exact this
      · exact this
    rts := h.rts, sls := h.sls }

theorem Sealed.opLast (h : Sealed P w a s v) (b : Nat) (hb : b ≠ a) (x : Option η) :
    Sealed P (opLast w b x) a s v := h.modify b hb _ fun _ => ⟨rfl, rfl⟩

theorem Sealed.opUse (h : Sealed P w a s v) (b : Nat) (hb : b ≠ a) (x : Option η) :
    Sealed P (opUse w b x) a s v := h.modify b hb _ fun _ => ⟨rfl, rfl⟩

theorem Sealed.opClone (h : Sealed P w a s v) (b : Nat) : Sealed P (opClone w b).1 a s v := by
  unfold Verif.opClone
  split
  · exact h
  · exact h.pushSet _

theorem Sealed.lt (h : Sealed P w a s v) : a < w.sets.length := (List.getElem?_eq_some_iff.1 h.here).1

theorem opBefore_sets_length (grow : Nat → Nat → Nat) (w : World η ρ) (b : Nat) (xs : List η) :
    (opBefore grow w b xs).sets.length = w.sets.length ∧ (opBefore grow w b xs).setVars = w.setVars ∧
    (opBefore grow w b xs).routers = w.routers := by
  unfold opBefore; split <;> simp

theorem opAfter_sets_length (grow : Nat → Nat → Nat) (w : World η ρ) (b : Nat) (xs : List η) :
    (opAfter grow w b xs).sets.length = w.sets.length ∧ (opAfter grow w b xs).setVars = w.setVars ∧
    (opAfter grow w b xs).routers = w.routers := by
  unfold opAfter; split <;> simp

theorem Sealed.opSnapshot (h : Sealed P w a s v) (grow : Nat → Nat → Nat) (rt : RouterRec η) (x : Option η) :
    Sealed P (opSnapshot grow w rt x).1 a s v := by
  have hlt := h.lt
  have h0 := h.newSet
  have hb : (opNewSet w).2 ≠ a := by simp [opNewSet]; omega
  have hs0 : ∀ y, (opNewSet w).1.sets[(opNewSet w).2]? = some y → Safe2 y.before s ∧ Safe2 y.after s := by
    intro y hy
    simp only [opNewSet, allocSlice, List.getElem?_concat_length, Option.some.injEq] at hy
    subst hy
    exact ⟨(h.fresh (by simp)).safe, (h.fresh (by simp)).safe⟩
  have h1 := h0.opAfter grow _ (cells (opNewSet w).1.arrs rt.after) hb hs0
  have hs1 : ∀ y, (Verif.opAfter grow (opNewSet w).1 (opNewSet w).2 (cells (opNewSet w).1.arrs rt.after)).sets[(opNewSet w).2]? = some y →
      Safe2 y.before s ∧ Safe2 y.after s := by
    intro y hy
    unfold Verif.opAfter at hy
    split at hy
    · exact hs0 y hy
    · rename_i z hz
      have hlt2 := (List.getElem?_eq_some_iff.1 hz).1
      simp only [List.getElem?_set, if_true, hlt2, Option.some.injEq] at hy
      subst hy
      exact ⟨(hs0 z hz).1, h0.safe_result grow _ _ (hs0 z hz).2⟩
  have h2 := h1.opBefore grow _ (cells (Verif.opAfter grow (opNewSet w).1 (opNewSet w).2 (cells (opNewSet w).1.arrs rt.after)).arrs rt.before) hb hs1
  exact (h2.opLast _ hb _).opUse _ hb _

theorem Sealed.opCopySet (h : Sealed P w a s v) (j : Option Nat) (x : Option η) {w' : World η ρ} {b : Nat}
    (he : opCopySet w j x = some (w', b)) : Sealed P w' a s v := by
  have hlt := h.lt
  unfold Verif.opCopySet at he
  split at he
  · simp at he
  · split at he
    · simp at he
    · rename_i addr _
      simp only [Option.some.injEq, Prod.mk.injEq] at he
      obtain ⟨rfl, rfl⟩ := he
      refine (h.opClone addr).opUse _ ?_ _
      unfold Verif.opClone; split <;> simp <;> omega

theorem Sealed.opTreeAdd (h : Sealed P w a s v) (m : Method) (route : Str) (b : Nat) :
    Sealed P (opTreeAdd w m route b).1 a s v := { h with }

theorem Sealed.opRegAdd (h : Sealed P w a s v) (m : Method) (rx : ρ) (b : Nat) :
    Sealed P (opRegAdd w m rx b).1 a s v := by
  unfold Verif.opRegAdd
  split <;> exact { h with }

end

/-- The set variable through which a call appends or copies. -/
def Op.setVar? : Op η ρ → Option Nat
  | .setBefore j _ => some j
  | .setAfter j _ => some j
  | .setClone j => some j
  | _ => none

/-- Every call preserves the seal, if it goes through permitted set variables only. -/
theorem Sealed.step {P : Nat → Prop} {w : World η ρ} {a : Nat} {s : HSet η} {v : HView η}
    (h : Sealed P w a s v) (grow : Nat → Nat → Nat) (o : Op η ρ)
    (ho : ∀ j, o.setVar? = some j → P j) :
    Sealed P (step grow w o).1 a s v := by
  have hlt := h.lt
  cases o with
  | newSet =>
    refine h.newSet.pushVar _ ?_ ?_ ?_
    · simp [opNewSet]; omega
    · simp [opNewSet]
    · intro y hy
      simp only [opNewSet, allocSlice, List.getElem?_concat_length, Option.some.injEq] at hy
      subst hy
      exact ⟨(h.fresh (by simp)).safe, (h.fresh (by simp)).safe⟩
  | setBefore j arg =>
    simp only [Verif.step]
    split
    · exact h
    · rename_i addr hj
      split
      · exact h
      · rename_i w' x he
        obtain ⟨h', _, e1, e2, _⟩ := h.evalArg arg he
        refine h'.opBefore grow _ _ (h.notVar _ (List.mem_of_getElem? hj)) ?_
        intro y hy
        exact h'.held j addr y (ho j rfl) (by rw [e2]; exact hj) hy
  | setAfter j arg =>
    simp only [Verif.step]
    split
    · exact h
    · rename_i addr hj
      split
      · exact h
      · rename_i w' x he
        obtain ⟨h', _, e1, e2, _⟩ := h.evalArg arg he
        refine h'.opAfter grow _ _ (h.notVar _ (List.mem_of_getElem? hj)) ?_
        intro y hy
        exact h'.held j addr y (ho j rfl) (by rw [e2]; exact hj) hy
  | setLast j x =>
    simp only [Verif.step]
    split
    · exact h
    · rename_i addr hj
      exact h.opLast _ (h.notVar _ (List.mem_of_getElem? hj)) _
  | setUse j x =>
    simp only [Verif.step]
    split
    · exact h
    · rename_i addr hj
      exact h.opUse _ (h.notVar _ (List.mem_of_getElem? hj)) _
  | setClone j =>
    simp only [Verif.step]
    split
    · exact h
    · rename_i addr hj
      have hv := h.vars _ (List.mem_of_getElem? hj)
      have hsome : w.sets[addr]? = some w.sets[addr] := by simp [hv]
      have hc : Verif.opClone w addr = ({ w with sets := w.sets ++ [w.sets[addr]] }, w.sets.length) := by
        simp [Verif.opClone, hsome]
      rw [hc]
      refine (h.pushSet w.sets[addr]).pushVar w.sets.length (by omega) (by simp) ?_
      intro y hy
      simp only [List.getElem?_concat_length, Option.some.injEq] at hy
      subst hy
      exact h.held j addr _ (ho j rfl) hj hsome
  | newRouter =>
    exact ((h.push []).push []).pushRouter _ ⟨h.fresh (by simp), h.fresh (by simp)⟩
  | rFirst r x =>
    simp only [Verif.step]
    split
    · exact h
    · rename_i rt hr
      have hrt := h.rts rt (List.mem_of_getElem? hr)
      have h1 := h.push [x]
      have hn : NoAl (allocSlice w.arrs [x]).2 s := h.fresh (by simp [allocSlice])
      exact (h1.append grow _ _ hn.safe).setRouter r _ ⟨h1.noal_result grow _ _ hn, hrt.2⟩
  | rBefore r arg =>
    simp only [Verif.step]
    split
    · exact h
    · rename_i rt hr
      have hrt := h.rts rt (List.mem_of_getElem? hr)
      split
      · exact h
      · rename_i w' x he
        obtain ⟨h', hx, _⟩ := h.evalArg arg he
        exact h'.setRouter r _ ⟨hx, hrt.2⟩
  | rAfter r arg =>
    simp only [Verif.step]
    split
    · exact h
    · rename_i rt hr
      have hrt := h.rts rt (List.mem_of_getElem? hr)
      split
      · exact h
      · rename_i w' x he
        obtain ⟨h', hx, _⟩ := h.evalArg arg he
        exact h'.setRouter r _ ⟨hrt.1, hx⟩
  | rLastAfter r x =>
    simp only [Verif.step]
    split
    · exact h
    · rename_i rt hr
      have hrt := h.rts rt (List.mem_of_getElem? hr)
      exact (h.append grow _ _ hrt.2.safe).setRouter r _ ⟨hrt.1, h.noal_result grow _ _ hrt.2⟩
  | rLast r x =>
    simp only [Verif.step]
    split
    · exact h
    · rename_i rt hr
      exact h.setRouter r _ (h.rts rt (List.mem_of_getElem? hr))
  | rUse r m route x =>
    simp only [Verif.step]
    split
    · exact h
    · exact (h.opSnapshot grow _ x).opTreeAdd _ _ _
  | rUseReg r m rx x =>
    simp only [Verif.step]
    split
    · exact h
    · exact (h.opSnapshot grow _ x).opRegAdd _ _ _
  | rClone r =>
    simp only [Verif.step]
    split
    · exact h
    · rename_i rt hr
      exact h.pushRouter _ (h.rts rt (List.mem_of_getElem? hr))
  | rGetBefore r =>
    simp only [Verif.step]
    split
    · exact h
    · rename_i rt hr
      exact h.pushSlice _ (h.rts rt (List.mem_of_getElem? hr)).1
  | rGetAfter r =>
    simp only [Verif.step]
    split
    · exact h
    · rename_i rt hr
      exact h.pushSlice _ (h.rts rt (List.mem_of_getElem? hr)).2
  | sAdd m route x set =>
    simp only [Verif.step, opAdd]
    split
    · exact h
    · rename_i he; exact (h.opCopySet _ _ he).opTreeAdd _ _ _
  | sAddReg m rx x set =>
    simp only [Verif.step, opAddReg]
    split
    · exact h
    · rename_i he; exact (h.opCopySet _ _ he).opRegAdd _ _ _
  | sConv m route x sets =>
    simp only [Verif.step, opAdd]
    split
    · exact h
    · rename_i he; exact (h.opCopySet _ _ he).opTreeAdd _ _ _
  | mkSlice xs n =>
    exact (h.push (xs ++ List.replicate n default)).pushSlice _ (h.fresh (by simp))
  | slSet i k x =>
    simp only [Verif.step]
    split
    · exact h
    · rename_i y hy
      split
      · exact h.write y _ _ (h.sls _ (List.mem_of_getElem? hy))
      · exact h
  | slAppend i xs =>
    simp only [Verif.step]
    split
    · exact h
    · rename_i y hy
      have hy' := h.sls _ (List.mem_of_getElem? hy)
      exact (h.append grow y xs hy'.safe).pushSlice _ (h.noal_result grow y xs hy')
  | slSub i lo hi mx =>
    simp only [Verif.step]
    split
    · exact h
    · rename_i y hy
      have hy' := h.sls _ (List.mem_of_getElem? hy)
      split
      · exact h.pushSlice _ hy'
      · exact h

/-- And so does every program. -/
theorem Sealed.run {P : Nat → Prop} {a : Nat} {s : HSet η} {v : HView η} (grow : Nat → Nat → Nat)
    (ops : List (Op η ρ)) : ∀ {w : World η ρ}, Sealed P w a s v →
    (∀ o ∈ ops, ∀ j, o.setVar? = some j → P j) → Sealed P (runOps grow w ops) a s v := by
  induction ops with
  | nil => intro w h _; exact h
  | cons o ops ih =>
    intro w h ho
    exact ih (h.step grow o (ho o (by simp))) fun o' ho' => ho o' (by simp [ho'])

end Verif
