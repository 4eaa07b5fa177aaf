import Verif.Spec.Panics
import Verif.Props.StaticReg
/-
C123: which calls panic.
-/
namespace Verif
open Spec
variable {η ρ : Type} [DecidableEq ρ] [Inhabited η]

omit [Inhabited η] in
theorem opRegAdd_flag (w : World η ρ) (m : Method) (rx : ρ) (a : Nat) : (opRegAdd w m rx a).2 = (regAdd w.regs m rx (some a)).2 := by
  unfold opRegAdd
  generalize regAdd w.regs m rx (some a) = q
  obtain ⟨t, b⟩ := q
  cases b <;> rfl

omit [Inhabited η] in
theorem opRegAdd_table {w : World η ρ} {m : Method} {rx : ρ} {a : Nat} (h : (opRegAdd w m rx a).2 = true) :
    (opRegAdd w m rx a).1 = { w with regs := (regAdd w.regs m rx (some a)).1 } := by
  unfold opRegAdd at h ⊢
  generalize regAdd w.regs m rx (some a) = q at h ⊢
  obtain ⟨t, b⟩ := q
  cases b with
  | false => cases h
  | true => rfl

/-- **C123.** After any program, a call panics exactly if it is one of those listed. -/
theorem C123_exact (grow : Nat → Nat → Nat) (ops : List (Op η ρ)) (op : Op η ρ) (hs : Scoped (progState grow ops) op) :
    (step grow (progState grow ops) op).2 = true ↔ PanicCall op := by
  have hwf := progState_wf (η := η) (ρ := ρ) grow ops
  generalize progState grow ops = w at *
  have reg : ∀ (w' : World η ρ) (m : Method) (rx : ρ) (a : Nat), w'.regs = w.regs → ((opRegAdd w' m rx a).2 = true ↔ m ∉ rxMethods) := by
    intro w' m rx a e
    rw [opRegAdd_flag, e, hwf.regs, ← Bool.not_eq_false]
    exact not_congr (C15_unsupported_method w.rxLog m rx a).1.symm
  have setOk : ∀ j, j < w.setVars.length → ∃ a, w.setVars[j]? = some a := fun j h => ⟨_, List.getElem?_eq_getElem h⟩
  have rtOk : ∀ r, r < w.routers.length → ∃ a, w.routers[r]? = some a := fun j h => ⟨_, List.getElem?_eq_getElem h⟩
  have argOk : ∀ a, ArgExists w a → ∃ p, evalArg w a = some p := by
    intro a h
    cases a with
    | lit xs => exact ⟨_, rfl⟩
    | spread v => simp only [evalArg]; rw [List.getElem?_eq_getElem h]; exact ⟨_, rfl⟩
  have copyOk : ∀ (j : Nat) (h : Option η), j < w.setVars.length → ∃ w' a, opCopySet w (some j) h = some (w', a) ∧ w'.regs = w.regs := by
    intro j h hj
    obtain ⟨a, ha⟩ := setOk j hj
    have : ∃ w' a', opCopySet w (some j) h = some (w', a') := by simp [opCopySet, ha]
    obtain ⟨w', a', he⟩ := this
    refine ⟨w', a', he, ?_⟩
    obtain ⟨_, _, _, _, _, _, _, rfl⟩ := opCopySet_frame hwf he
    rfl
  cases op with
  | newSet => simp [step, PanicCall]
  | newRouter => simp [step, PanicCall]
  | mkSlice xs n => simp [step, PanicCall]
  | setBefore j a =>
    obtain ⟨x, hx⟩ := setOk j hs.1
    obtain ⟨p, hp⟩ := argOk a hs.2
    simp [step, PanicCall, hx, hp]
  | setAfter j a =>
    obtain ⟨x, hx⟩ := setOk j hs.1
    obtain ⟨p, hp⟩ := argOk a hs.2
    simp [step, PanicCall, hx, hp]
  | setLast j h => obtain ⟨x, hx⟩ := setOk j hs; simp [step, PanicCall, hx]
  | setUse j h => obtain ⟨x, hx⟩ := setOk j hs; simp [step, PanicCall, hx]
  | setClone j => obtain ⟨x, hx⟩ := setOk j hs; simp [step, PanicCall, hx]
  | rFirst r h => obtain ⟨x, hx⟩ := rtOk r hs; simp [step, PanicCall, hx]
  | rLastAfter r h => obtain ⟨x, hx⟩ := rtOk r hs; simp [step, PanicCall, hx]
  | rLast r h => obtain ⟨x, hx⟩ := rtOk r hs; simp [step, PanicCall, hx]
  | rClone r => obtain ⟨x, hx⟩ := rtOk r hs; simp [step, PanicCall, hx]
  | rGetBefore r => obtain ⟨x, hx⟩ := rtOk r hs; simp [step, PanicCall, hx]
  | rGetAfter r => obtain ⟨x, hx⟩ := rtOk r hs; simp [step, PanicCall, hx]
  | rUse r m route h => obtain ⟨x, hx⟩ := rtOk r hs; simp [step, PanicCall, hx, opTreeAdd]
  | rBefore r a =>
    obtain ⟨x, hx⟩ := rtOk r hs.1
    obtain ⟨p, hp⟩ := argOk a hs.2
    simp [step, PanicCall, hx, hp]
  | rAfter r a =>
    obtain ⟨x, hx⟩ := rtOk r hs.1
    obtain ⟨p, hp⟩ := argOk a hs.2
    simp [step, PanicCall, hx, hp]
  | rUseReg r m rx h =>
    obtain ⟨x, hx⟩ := rtOk r hs
    simp only [step, PanicCall, hx]
    exact reg _ m rx _ (opSnapshot_frame grow w x h).2.2.2.2.2.2.1
  | sAdd m route h s =>
    cases s with
    | none => simp [step, opAdd, opCopySet, PanicCall]
    | some j =>
      obtain ⟨w', a, he, -⟩ := copyOk j h (hs j rfl)
      simp [step, opAdd, he, PanicCall, opTreeAdd]
  | sAddReg m rx h s =>
    cases s with
    | none => simp [step, opAddReg, opCopySet, PanicCall]
    | some j =>
      obtain ⟨w', a, he, hr⟩ := copyOk j h (hs j rfl)
      simp only [step, opAddReg, he, PanicCall]
      rw [reg w' m rx a hr]
      simp
  | sConv m route h l =>
    cases l with
    | nil => simp [step, opAdd, nonEmptySet, opCopySet, PanicCall]
    | cons s l =>
      cases s with
      | none => simp [step, opAdd, nonEmptySet, opCopySet, PanicCall]
      | some j =>
        obtain ⟨w', a, he, -⟩ := copyOk j h (hs _ (List.mem_cons_self ..) j rfl)
        simp [step, opAdd, nonEmptySet, he, PanicCall, opTreeAdd]
  | slSet v i x =>
    obtain ⟨s, h1, h2⟩ := hs
    simp [step, PanicCall, h1, h2]
  | slAppend v xs =>
    have := List.getElem?_eq_getElem (l := w.slices) hs
    simp [step, PanicCall, this]
  | slSub v lo hi mx =>
    obtain ⟨s, h1, h2⟩ := hs
    simp [step, PanicCall, h1, h2]

/-- **C123.** A call that panics leaves everything as it was: routes and expressions, the handlers of every set and of every
registered route, and what is configured on the routers. -/
theorem C123_unchanged (grow : Nat → Nat → Nat) (ops : List (Op η ρ)) (op : Op η ρ)
    (hp : (step grow (progState grow ops) op).2 = true) :
    let w := progState grow ops
    let w' := (step grow w op).1
    w'.tree = w.tree ∧ w'.regs = w.regs ∧ w'.setVars = w.setVars ∧ w'.routers.length = w.routers.length ∧
      (∀ a, a < w.sets.length → setHandlers w' a = setHandlers w a) ∧ (∀ r, routerView w' r = routerView w r) := by
  have hwf := progState_wf (η := η) (ρ := ρ) grow ops
  dsimp only
  generalize progState grow ops = w at *
  have same : ∀ w', w' = w → w'.tree = w.tree ∧ w'.regs = w.regs ∧ w'.setVars = w.setVars ∧ w'.routers.length = w.routers.length ∧
      (∀ a, a < w.sets.length → setHandlers w' a = setHandlers w a) ∧ (∀ r, routerView w' r = routerView w r) := by
    rintro _ rfl
    exact ⟨rfl, rfl, rfl, rfl, fun _ _ => rfl, fun _ => rfl⟩
  -- an expression that is refused, after the set was made
  have refused : ∀ (w1 : World η ρ) (m : Method) (rx : ρ) (a : Nat), w1.regs = w.regs → (opRegAdd w1 m rx a).2 = true →
      (opRegAdd w1 m rx a).1 = w1 := by
    intro w1 m rx a e h
    have h' := h
    rw [opRegAdd_table h]
    rw [opRegAdd_flag, e, hwf.regs] at h'
    obtain ⟨k1, k2⟩ := C15_unsupported_method w.rxLog m rx a
    have hm : m ∉ rxMethods := fun hm => by rw [k1.1 hm] at h'; cases h'
    have : (regAdd w1.regs m rx (some a)).1 = w1.regs := by rw [e, hwf.regs, k2 hm]
    rw [this]
  have adds : ∀ (m : Method) (route : Str) (h : Option η) (s : Option Nat), (opAdd w m route h s).2 = true → (opAdd w m route h s).1 = w := by
    intro m route h s hp
    unfold opAdd at hp ⊢
    cases hc : opCopySet w s h with
    | none => rfl
    | some q => rw [hc] at hp; cases hp
  cases op with
  | newSet => cases hp
  | newRouter => cases hp
  | mkSlice xs n => cases hp
  | setBefore j a =>
    simp only [step] at hp ⊢
    cases hj : w.setVars[j]? with
    | none => exact same _ rfl
    | some x =>
      cases ha : evalArg w a with
      | none => exact same _ (by simp)
      | some q => rw [hj, ha] at hp; cases hp
  | setAfter j a =>
    simp only [step] at hp ⊢
    cases hj : w.setVars[j]? with
    | none => exact same _ rfl
    | some x =>
      cases ha : evalArg w a with
      | none => exact same _ (by simp)
      | some q => rw [hj, ha] at hp; cases hp
  | setLast j h =>
    simp only [step] at hp ⊢
    cases hj : w.setVars[j]? with
    | none => exact same _ rfl
    | some x => rw [hj] at hp; cases hp
  | setUse j h =>
    simp only [step] at hp ⊢
    cases hj : w.setVars[j]? with
    | none => exact same _ rfl
    | some x => rw [hj] at hp; cases hp
  | setClone j =>
    simp only [step] at hp ⊢
    cases hj : w.setVars[j]? with
    | none => exact same _ rfl
    | some x => rw [hj] at hp; cases hp
  | rFirst r h =>
    simp only [step] at hp ⊢
    cases hj : w.routers[r]? with
    | none => exact same _ rfl
    | some x => rw [hj] at hp; cases hp
  | rLastAfter r h =>
    simp only [step] at hp ⊢
    cases hj : w.routers[r]? with
    | none => exact same _ rfl
    | some x => rw [hj] at hp; cases hp
  | rLast r h =>
    simp only [step] at hp ⊢
    cases hj : w.routers[r]? with
    | none => exact same _ rfl
    | some x => rw [hj] at hp; cases hp
  | rClone r =>
    simp only [step] at hp ⊢
    cases hj : w.routers[r]? with
    | none => exact same _ rfl
    | some x => rw [hj] at hp; cases hp
  | rGetBefore r =>
    simp only [step] at hp ⊢
    cases hj : w.routers[r]? with
    | none => exact same _ rfl
    | some x => rw [hj] at hp; cases hp
  | rGetAfter r =>
    simp only [step] at hp ⊢
    cases hj : w.routers[r]? with
    | none => exact same _ rfl
    | some x => rw [hj] at hp; cases hp
  | rUse r m route h =>
    simp only [step] at hp ⊢
    cases hj : w.routers[r]? with
    | none => exact same _ rfl
    | some x => rw [hj] at hp; cases hp
  | rBefore r a =>
    simp only [step] at hp ⊢
    cases hj : w.routers[r]? with
    | none => exact same _ rfl
    | some x =>
      cases ha : evalArg w a with
      | none => exact same _ (by simp)
      | some q => rw [hj, ha] at hp; cases hp
  | rAfter r a =>
    simp only [step] at hp ⊢
    cases hj : w.routers[r]? with
    | none => exact same _ rfl
    | some x =>
      cases ha : evalArg w a with
      | none => exact same _ (by simp)
      | some q => rw [hj, ha] at hp; cases hp
  | rUseReg r m rx h =>
    simp only [step] at hp ⊢
    cases hj : w.routers[r]? with
    | none => exact same _ rfl
    | some x =>
      rw [hj] at hp
      dsimp only at hp ⊢
      rw [refused _ m rx _ (opSnapshot_frame grow w x h).2.2.2.2.2.2.1 hp]
      obtain ⟨s, A, e, -, -, -, -, -, -, -, -, -, hold⟩ := opSnapshot_spec hwf grow (List.mem_of_getElem? hj) h
      rw [e]
      refine ⟨rfl, rfl, rfl, rfl, fun a ha => ?_, fun r => ?_⟩
      · simp only [setHandlers, List.getElem?_append_left ha]
        rw [List.getElem?_eq_getElem ha]
        obtain ⟨h1, h2⟩ := hwf.sets _ (List.getElem_mem ha)
        simp only [Option.map_some]
        rw [hold _ h1.arr, hold _ h2.arr]
      · simp only [routerView]
        cases hr : w.routers[r]? with
        | none => rfl
        | some rt =>
          obtain ⟨h1, h2⟩ := hwf.rts _ (List.mem_of_getElem? hr)
          simp only [Option.map_some]
          rw [hold _ h1.arr, hold _ h2.arr]
  | sAdd m route h s => exact same _ (adds m route h s hp)
  | sConv m route h l => exact same _ (adds m route h _ hp)
  | sAddReg m rx h s =>
    simp only [step, opAddReg] at hp ⊢
    cases hc : opCopySet w s h with
    | none => exact same _ rfl
    | some q =>
      obtain ⟨w1, a⟩ := q
      rw [hc] at hp
      dsimp only at hp ⊢
      obtain ⟨-, i, addr, s', -, -, -, rfl⟩ := opCopySet_frame hwf hc
      have e := refused { w with sets := w.sets ++ [{ s' with handler := h }] } m rx a rfl hp
      rw [e]
      refine ⟨rfl, rfl, rfl, rfl, fun a ha => ?_, fun r => rfl⟩
      simp only [setHandlers, List.getElem?_append_left ha]
  | slSet v i x =>
    simp only [step] at hp ⊢
    cases hj : w.slices[v]? with
    | none => exact same _ rfl
    | some s =>
      rw [hj] at hp
      dsimp only at hp ⊢
      split at hp
      · cases hp
      · rename_i hn; rw [if_neg hn]; exact same _ rfl
  | slAppend v xs =>
    simp only [step] at hp ⊢
    cases hj : w.slices[v]? with
    | none => exact same _ rfl
    | some s => rw [hj] at hp; cases hp
  | slSub v lo hi mx =>
    simp only [step] at hp ⊢
    cases hj : w.slices[v]? with
    | none => exact same _ rfl
    | some s =>
      rw [hj] at hp
      dsimp only at hp ⊢
      split at hp
      · cases hp
      · rename_i hn; rw [if_neg hn]; exact same _ rfl

/-- Calls that panic and calls that do not, after a program that made a set and a router. -/
example :
    let w : World Nat Nat := progState (fun _ n => n) [.newSet, .newRouter, .rUse 0 b!"GET" b!"/a" (some 1)]
    (step (fun _ n => n) w (.sAddReg b!"get" 7 (some 1) (some 0))).2 = true ∧
    (step (fun _ n => n) w (.sAddReg b!"GET" 7 (some 1) (some 0))).2 = false ∧
    (step (fun _ n => n) w (.rUseReg 0 b!"FOO" 7 (some 1))).2 = true ∧
    (step (fun _ n => n) w (.sConv b!"GET" b!"/x" (some 1) [])).2 = true ∧
    (step (fun _ n => n) w (.sConv b!"GET" b!"/x" (some 1) [some 0])).2 = false ∧
    Scoped w (.sAddReg b!"get" 7 (some 1) (some 0)) ∧ Scoped w (.rUseReg 0 b!"FOO" 7 (some 1)) := by
  refine ⟨by decide +kernel, by decide +kernel, by decide +kernel, by decide +kernel, by decide +kernel, ?_, ?_⟩
  · rintro j ⟨⟩; decide +kernel
  · show 0 < _; decide +kernel

end Verif
