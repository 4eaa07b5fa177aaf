import Verif.Lemmas.Sealed
import Verif.Props.RegTree
/-
Well-formedness of every reachable state of the heap model.
-/
namespace Verif
set_option linter.unusedSectionVars false
set_option linter.unusedSimpArgs false
variable {η ρ : Type} [Inhabited η] [DecidableEq ρ]

/-- Invariants of all reachable states. -/
structure WF (w : World η ρ) : Prop where
  sets : ∀ s ∈ w.sets, SWF w.arrs s.before ∧ SWF w.arrs s.after
  rts : ∀ r ∈ w.routers, SWF w.arrs r.before ∧ SWF w.arrs r.after
  sls : ∀ x ∈ w.slices, SWF w.arrs x
  vars : ∀ b ∈ w.setVars, b < w.sets.length
  nodup : w.setVars.Nodup
  sepBA : ∀ s ∈ w.sets, ∀ s' ∈ w.sets, s.before.arr ≠ s'.after.arr
  sepR : ∀ s ∈ w.sets, ∀ r ∈ w.routers, NoAl r.before s ∧ NoAl r.after s
  sepS : ∀ s ∈ w.sets, ∀ x ∈ w.slices, NoAl x s
  tree : w.tree = treeOf w.log
  regs : w.regs = regOf w.rxLog
  rxOk : ∀ r ∈ w.rxLog, r.method ∈ rxMethods
  logOk : ∀ r ∈ w.log, r.set < w.sets.length ∧ r.set ∉ w.setVars
  rxLogOk : ∀ r ∈ w.rxLog, r.set < w.sets.length ∧ r.set ∉ w.setVars

theorem wf_init : WF (World.init : World η ρ) := by
  constructor <;> simp [World.init, treeOf, regOf]

section
variable {w : World η ρ}

theorem WF.arrs (h : WF w) {A : Arrs η} (hA : ∀ z, SWF w.arrs z → SWF A z) : WF { w with arrs := A } :=
  { h with
    sets := fun s hs => ⟨hA _ (h.sets s hs).1, hA _ (h.sets s hs).2⟩
    rts := fun s hs => ⟨hA _ (h.rts s hs).1, hA _ (h.rts s hs).2⟩
    sls := fun s hs => hA _ (h.sls s hs) }

theorem WF.push (h : WF w) (l : List η) : WF { w with arrs := w.arrs ++ [l] } :=
  h.arrs fun _ hz => swf_push l hz

theorem WF.append (h : WF w) (grow : Nat → Nat → Nat) (x : Slice) (xs : List η) :
    WF { w with arrs := (appendSlice grow w.arrs x xs).1 } := h.arrs fun _ hz => swf_append grow _ _ _ _ hz

theorem WF.write (h : WF w) (k i : Nat) (xs : List η) :
    WF { w with arrs := w.arrs.modify k fun l => writeAt l i xs } := h.arrs fun _ hz => swf_modify k i xs hz

/-- An array number no set uses. -/
theorem WF.fresh (h : WF w) {x : Slice} (hx : w.arrs.length ≤ x.arr) {s : HSet η} (hs : s ∈ w.sets) : NoAl x s :=
  ⟨by have := (h.sets s hs).1.arr; omega, by have := (h.sets s hs).2.arr; omega⟩

theorem append_arr (grow : Nat → Nat → Nat) (A : Arrs η) (x : Slice) (xs : List η) :
    (appendSlice grow A x xs).2.arr = x.arr ∨ (appendSlice grow A x xs).2.arr = A.length := by
  rcases appendSlice_slice grow A x xs with ⟨_, h2, _⟩ | ⟨_, h2, _⟩
  · left; rw [h2]
  · right; exact h2

/-- Conditions on a set added to or replaced in the state. -/
structure SetOk (w : World η ρ) (x : HSet η) : Prop where
  swf : SWF w.arrs x.before ∧ SWF w.arrs x.after
  self : x.before.arr ≠ x.after.arr
  others : ∀ s ∈ w.sets, x.before.arr ≠ s.after.arr ∧ s.before.arr ≠ x.after.arr
  rts : ∀ r ∈ w.routers, NoAl r.before x ∧ NoAl r.after x
  sls : ∀ y ∈ w.slices, NoAl y x

theorem WF.setOk (h : WF w) {x : HSet η} (hx : x ∈ w.sets) : SetOk w x :=
  ⟨h.sets x hx, h.sepBA x hx x hx, fun s hs => ⟨h.sepBA x hx s hs, h.sepBA s hs x hx⟩, h.sepR x hx, h.sepS x hx⟩

theorem WF.setAt (h : WF w) (b : Nat) (x : HSet η) (hx : SetOk w x) : WF { w with sets := w.sets.set b x } := by
  have mem : ∀ s ∈ w.sets.set b x, s ∈ w.sets ∨ s = x := fun s hs => List.mem_or_eq_of_mem_set hs
  refine { h with sets := ?_, vars := ?_, sepBA := ?_, sepR := ?_, sepS := ?_, logOk := ?_, rxLogOk := ?_ }
  · intro s hs; rcases mem s hs with h' | rfl
    · exact h.sets s h'
    · exact hx.swf
  · intro c hc; simpa using h.vars c hc
  · intro s hs s' hs'
    rcases mem s hs with h1 | rfl <;> rcases mem s' hs' with h2 | rfl
    · exact h.sepBA s h1 s' h2
    · exact (hx.others s h1).2
    · exact (hx.others s' h2).1
    · exact hx.self
  · intro s hs r hr; rcases mem s hs with h' | rfl
    · exact h.sepR s h' r hr
    · exact hx.rts r hr
  · intro s hs r hr; rcases mem s hs with h' | rfl
    · exact h.sepS s h' r hr
    · exact hx.sls r hr
  · intro r hr; simpa using h.logOk r hr
  · intro r hr; simpa using h.rxLogOk r hr

theorem WF.pushSet (h : WF w) (x : HSet η) (hx : SetOk w x) : WF { w with sets := w.sets ++ [x] } := by
  have mem : ∀ s ∈ w.sets ++ [x], s ∈ w.sets ∨ s = x := fun s hs => by simpa using hs
  refine { h with sets := ?_, vars := ?_, sepBA := ?_, sepR := ?_, sepS := ?_, logOk := ?_, rxLogOk := ?_ }
  · intro s hs; rcases mem s hs with h' | rfl
    · exact h.sets s h'
    · exact hx.swf
  · intro c hc; have := h.vars c hc; simp; omega
  · intro s hs s' hs'
    rcases mem s hs with h1 | rfl <;> rcases mem s' hs' with h2 | rfl
    · exact h.sepBA s h1 s' h2
    · exact (hx.others s h1).2
    · exact (hx.others s' h2).1
    · exact hx.self
  · intro s hs r hr; rcases mem s hs with h' | rfl
    · exact h.sepR s h' r hr
    · exact hx.rts r hr
  · intro s hs r hr; rcases mem s hs with h' | rfl
    · exact h.sepS s h' r hr
    · exact hx.sls r hr
  · intro r hr; have := h.logOk r hr; exact ⟨by simp; omega, this.2⟩
  · intro r hr; have := h.rxLogOk r hr; exact ⟨by simp; omega, this.2⟩

theorem WF.pushVar (h : WF w) (b : Nat) (hlt : b < w.sets.length) (hn : b ∉ w.setVars)
    (hl : ∀ r ∈ w.log, r.set ≠ b) (hrl : ∀ r ∈ w.rxLog, r.set ≠ b) :
    WF { w with setVars := w.setVars ++ [b] } := by
  refine { h with vars := ?_, nodup := ?_, logOk := ?_, rxLogOk := ?_ }
  · intro c hc
    simp only [List.mem_append, List.mem_singleton] at hc
    rcases hc with h' | rfl
    · exact h.vars c h'
    · exact hlt
  · rw [List.nodup_append]
    refine ⟨h.nodup, by simp, ?_⟩
    intro c hc d hd
    simp only [List.mem_singleton] at hd
    subst hd
    intro e; subst e; exact hn hc
  · intro r hr
    refine ⟨(h.logOk r hr).1, ?_⟩
    simp only [List.mem_append, List.mem_singleton, not_or]
    exact ⟨(h.logOk r hr).2, hl r hr⟩
  · intro r hr
    refine ⟨(h.rxLogOk r hr).1, ?_⟩
    simp only [List.mem_append, List.mem_singleton, not_or]
    exact ⟨(h.rxLogOk r hr).2, hrl r hr⟩

theorem WF.setRouter (h : WF w) (r : Nat) (x : RouterRec η) (h1 : SWF w.arrs x.before ∧ SWF w.arrs x.after)
    (h2 : ∀ s ∈ w.sets, NoAl x.before s ∧ NoAl x.after s) : WF { w with routers := w.routers.set r x } := by
  refine { h with rts := ?_, sepR := ?_ }
  · intro y hy
    rcases List.mem_or_eq_of_mem_set hy with h' | rfl
    · exact h.rts y h'
    · exact h1
  · intro s hs y hy
    rcases List.mem_or_eq_of_mem_set hy with h' | rfl
    · exact h.sepR s hs y h'
    · exact h2 s hs

theorem WF.pushRouter (h : WF w) (x : RouterRec η) (h1 : SWF w.arrs x.before ∧ SWF w.arrs x.after)
    (h2 : ∀ s ∈ w.sets, NoAl x.before s ∧ NoAl x.after s) : WF { w with routers := w.routers ++ [x] } := by
  refine { h with rts := ?_, sepR := ?_ }
  · intro y hy
    have hy : y ∈ w.routers ∨ y = x := by simpa using hy
    rcases hy with h' | rfl
    · exact h.rts y h'
    · exact h1
  · intro s hs y hy
    have hy : y ∈ w.routers ∨ y = x := by simpa using hy
    rcases hy with h' | rfl
    · exact h.sepR s hs y h'
    · exact h2 s hs

theorem WF.pushSlice (h : WF w) (x : Slice) (h1 : SWF w.arrs x) (h2 : ∀ s ∈ w.sets, NoAl x s) :
    WF { w with slices := w.slices ++ [x] } := by
  refine { h with sls := ?_, sepS := ?_ }
  · intro y hy
    have hy : y ∈ w.slices ∨ y = x := by simpa using hy
    rcases hy with h' | rfl
    · exact h.sls y h'
    · exact h1
  · intro s hs y hy
    have hy : y ∈ w.slices ∨ y = x := by simpa using hy
    rcases hy with h' | rfl
    · exact h.sepS s hs y h'
    · exact h2 s hs

theorem WF.evalArg (h : WF w) (arg : Arg η) {w' : World η ρ} {x : Slice}
    (he : evalArg w arg = some (w', x)) : WF w' ∧ SWF w'.arrs x ∧ (∀ s ∈ w.sets, NoAl x s) ∧
      w'.sets = w.sets ∧ w'.setVars = w.setVars ∧ w'.routers = w.routers ∧ w'.slices = w.slices ∧
      (∃ l, w'.arrs = w.arrs ++ l) := by
  cases arg with
  | lit xs =>
    simp only [Verif.evalArg, Option.some.injEq, Prod.mk.injEq] at he
    obtain ⟨rfl, rfl⟩ := he
    refine ⟨h.push xs, (allocSlice_spec w.arrs xs).2.2.1, fun s hs => h.fresh (by simp [allocSlice]) hs, rfl, rfl, rfl, rfl, [xs], rfl⟩
  | spread i =>
    simp only [Verif.evalArg, Option.map_eq_some_iff] at he
    obtain ⟨y, hy, he⟩ := he
    simp only [Prod.mk.injEq] at he
    obtain ⟨rfl, rfl⟩ := he
    have hm := List.mem_of_getElem? hy
    exact ⟨h, h.sls _ hm, fun s hs => h.sepS s hs _ hm, rfl, rfl, rfl, rfl, [], by simp⟩

/-- A set whose `before` slice has been appended to. -/
theorem SetOk.appendBefore {x : HSet η} (h : WF w) (hx : SetOk w x) (grow : Nat → Nat → Nat) (xs : List η) :
    SetOk { w with arrs := (appendSlice grow w.arrs x.before xs).1 }
      { x with before := (appendSlice grow w.arrs x.before xs).2 } := by
  refine ⟨⟨(appendSlice_spec grow _ _ _ hx.swf.1).1, swf_append grow _ _ _ _ hx.swf.2⟩, ?_, ?_, ?_, ?_⟩
  · rcases append_arr grow w.arrs x.before xs with e | e
    · simp only; rw [e]; exact hx.self
    · simp only; rw [e]; have := hx.swf.2.arr; omega
  · intro s hs
    refine ⟨?_, (hx.others s hs).2⟩
    rcases append_arr grow w.arrs x.before xs with e | e
    · simp only; rw [e]; exact (hx.others s hs).1
    · simp only; rw [e]; have := (h.sets s hs).2.arr; omega
  · intro r hr
    have h1 := hx.rts r hr
    have h2 := h.rts r hr
    rcases append_arr grow w.arrs x.before xs with e | e
    · exact ⟨⟨by simp only; rw [e]; exact h1.1.1, h1.1.2⟩, ⟨by simp only; rw [e]; exact h1.2.1, h1.2.2⟩⟩
    · exact ⟨⟨by simp only; rw [e]; have := h2.1.arr; omega, h1.1.2⟩,
        ⟨by simp only; rw [e]; have := h2.2.arr; omega, h1.2.2⟩⟩
  · intro r hr
    have h1 := hx.sls r hr
    have h2 := h.sls r hr
    rcases append_arr grow w.arrs x.before xs with e | e
    · exact ⟨by simp only; rw [e]; exact h1.1, h1.2⟩
    · exact ⟨by simp only; rw [e]; have := h2.arr; omega, h1.2⟩

theorem SetOk.appendAfter {x : HSet η} (h : WF w) (hx : SetOk w x) (grow : Nat → Nat → Nat) (xs : List η) :
    SetOk { w with arrs := (appendSlice grow w.arrs x.after xs).1 }
      { x with after := (appendSlice grow w.arrs x.after xs).2 } := by
  refine ⟨⟨swf_append grow _ _ _ _ hx.swf.1, (appendSlice_spec grow _ _ _ hx.swf.2).1⟩, ?_, ?_, ?_, ?_⟩
  · rcases append_arr grow w.arrs x.after xs with e | e
    · simp only; rw [e]; exact hx.self
    · simp only; rw [e]; have := hx.swf.1.arr; omega
  · intro s hs
    refine ⟨(hx.others s hs).1, ?_⟩
    rcases append_arr grow w.arrs x.after xs with e | e
    · simp only; rw [e]; exact (hx.others s hs).2
    · simp only; rw [e]; have := (h.sets s hs).1.arr; omega
  · intro r hr
    have h1 := hx.rts r hr
    have h2 := h.rts r hr
    rcases append_arr grow w.arrs x.after xs with e | e
    · exact ⟨⟨h1.1.1, by simp only; rw [e]; exact h1.1.2⟩, ⟨h1.2.1, by simp only; rw [e]; exact h1.2.2⟩⟩
    · exact ⟨⟨h1.1.1, by simp only; rw [e]; have := h2.1.arr; omega⟩,
        ⟨h1.2.1, by simp only; rw [e]; have := h2.2.arr; omega⟩⟩
  · intro r hr
    have h1 := hx.sls r hr
    have h2 := h.sls r hr
    rcases append_arr grow w.arrs x.after xs with e | e
    · exact ⟨h1.1, by simp only; rw [e]; exact h1.2⟩
    · exact ⟨h1.1, by simp only; rw [e]; have := h2.arr; omega⟩

theorem WF.opBefore (h : WF w) (grow : Nat → Nat → Nat) (b : Nat) (xs : List η) : WF (opBefore grow w b xs) := by
  unfold Verif.opBefore
  split
  · exact h
  · rename_i x hx
    exact (h.append grow x.before xs).setAt b _ ((h.setOk (List.mem_of_getElem? hx)).appendBefore h grow xs)

theorem WF.opAfter (h : WF w) (grow : Nat → Nat → Nat) (b : Nat) (xs : List η) : WF (opAfter grow w b xs) := by
  unfold Verif.opAfter
  split
  · exact h
  · rename_i x hx
    exact (h.append grow x.after xs).setAt b _ ((h.setOk (List.mem_of_getElem? hx)).appendAfter h grow xs)

theorem WF.modify (h : WF w) (b : Nat) (f : HSet η → HSet η)
    (hf : ∀ x, (f x).before = x.before ∧ (f x).after = x.after) : WF { w with sets := w.sets.modify b f } := by
  cases hb : w.sets[b]? with
  | none =>
    have : w.sets.modify b f = w.sets := by
      apply List.ext_getElem?
      intro i
      rw [List.getElem?_modify]
      by_cases e : b = i
      · subst e; simp [hb]
      · simp [e]
    rw [this]; exact h
  | some x =>
    have hlt := (List.getElem?_eq_some_iff.1 hb).1
    have : w.sets.modify b f = w.sets.set b (f x) := by
      apply List.ext_getElem?
      intro i
      rw [List.getElem?_modify, List.getElem?_set]
      by_cases e : b = i
      · subst e; have := (List.getElem?_eq_some_iff.1 hb).2; simp [hlt, this]
      · simp [e]
    rw [this]
    have hx := h.setOk (List.mem_of_getElem? hb)
    refine h.setAt b _ ⟨?_, ?_, ?_, ?_, ?_⟩
    · rw [(hf x).1, (hf x).2]; exact hx.swf
    · rw [(hf x).1, (hf x).2]; exact hx.self
    · rw [(hf x).1, (hf x).2]; exact hx.others
    · intro r hr; simp only [NoAl, (hf x).1, (hf x).2]; exact hx.rts r hr
    · intro r hr; simp only [NoAl, (hf x).1, (hf x).2]; exact hx.sls r hr

theorem WF.opClone (h : WF w) (b : Nat) : WF (opClone w b).1 := by
  unfold Verif.opClone
  split
  · exact h
  · rename_i x hx; exact h.pushSet _ (h.setOk (List.mem_of_getElem? hx))

theorem WF.newSet (h : WF w) : WF (opNewSet w).1 := by
  have h2 := (h.push []).push []
  refine h2.pushSet _ ⟨⟨⟨?_, ?_, ?_⟩, ?_, ?_, ?_⟩, ?_, ?_, ?_, ?_⟩
  · simp [allocSlice]
  · simp [allocSlice]
  · simp [allocSlice]
  · simp [allocSlice]
  · simp [allocSlice]
  · simp [allocSlice]
  · simp [allocSlice]
  · intro s hs
    have := h.sets s hs
    have h1 := this.1.arr
    have h2 := this.2.arr
    constructor <;> (simp [allocSlice]; omega)
  · intro r hr
    have h1 := (h.rts r hr).1.arr
    have h2 := (h.rts r hr).2.arr
    refine ⟨⟨?_, ?_⟩, ?_, ?_⟩ <;> (simp [allocSlice]; omega)
  · intro r hr
    have h1 := (h.sls r hr).arr
    refine ⟨?_, ?_⟩ <;> (simp [allocSlice]; omega)

theorem WF.opSnapshot (h : WF w) (grow : Nat → Nat → Nat) (rt : RouterRec η) (x : Option η) :
    WF (opSnapshot grow w rt x).1 := by
  have h2 := ((h.newSet.opAfter grow (opNewSet w).2 (cells (opNewSet w).1.arrs rt.after)).opBefore grow
    (opNewSet w).2 (cells (Verif.opAfter grow (opNewSet w).1 (opNewSet w).2 (cells (opNewSet w).1.arrs rt.after)).arrs rt.before))
  have h3 := (h2.modify (opNewSet w).2 (fun s => { s with last := rt.last }) fun _ => ⟨rfl, rfl⟩)
  exact h3.modify (opNewSet w).2 (fun s => { s with handler := x }) fun _ => ⟨rfl, rfl⟩

theorem WF.opTreeAdd (h : WF w) (m : Method) (route : Str) (b : Nat) (hb : b < w.sets.length)
    (hv : b ∉ w.setVars) : WF (opTreeAdd w m route b).1 := by
  refine { h with tree := ?_, logOk := ?_ }
  · simp [Verif.opTreeAdd, treeOf, h.tree]
  · intro r hr
    simp only [Verif.opTreeAdd, List.mem_append, List.mem_singleton] at hr
    rcases hr with h' | rfl
    · exact h.logOk r h'
    · exact ⟨hb, hv⟩

theorem WF.opRegAdd (h : WF w) (m : Method) (rx : ρ) (b : Nat) (hb : b < w.sets.length)
    (hv : b ∉ w.setVars) : WF (opRegAdd w m rx b).1 := by
  have hC := C15_unsupported_method w.rxLog m rx b
  rw [← h.regs] at hC
  have hsnd : (Verif.opRegAdd w m rx b).1 = if (regAdd w.regs m rx (some b)).2
      then { w with regs := (regAdd w.regs m rx (some b)).1 }
      else { w with regs := (regAdd w.regs m rx (some b)).1, rxLog := w.rxLog ++ [⟨m, rx, b⟩] } := by
    unfold Verif.opRegAdd
    generalize regAdd w.regs m rx (some b) = q
    obtain ⟨t, f⟩ := q
    cases f <;> rfl
  rw [hsnd]
  by_cases hp : (regAdd w.regs m rx (some b)).2
  · rw [if_pos hp]
    have hm : m ∉ rxMethods := fun hm => by have := hC.1.1 hm; rw [hp] at this; simp at this
    rw [hC.2 hm]
    exact h
  · rw [if_neg hp]
    simp only [Bool.not_eq_true] at hp
    have hm := hC.1.2 hp
    refine { h with regs := ?_, rxOk := ?_, rxLogOk := ?_ }
    · have := h.regs
      simp only [regOf] at this ⊢
      simp only [List.foldl_append, List.foldl_cons, List.foldl_nil, ← this]
    · intro r hr
      simp only [List.mem_append, List.mem_singleton] at hr
      rcases hr with h' | rfl
      · exact h.rxOk r h'
      · exact hm
    · intro r hr
      simp only [List.mem_append, List.mem_singleton] at hr
      rcases hr with h' | rfl
      · exact h.rxLogOk r h'
      · exact ⟨hb, hv⟩

end

/-- Sizes and variables are untouched by the operations on one set. -/
theorem opSnapshot_frame (grow : Nat → Nat → Nat) (w : World η ρ) (rt : RouterRec η) (x : Option η) :
    (opSnapshot grow w rt x).2 = w.sets.length ∧
    (opSnapshot grow w rt x).1.sets.length = w.sets.length + 1 ∧
    (opSnapshot grow w rt x).1.setVars = w.setVars ∧ (opSnapshot grow w rt x).1.routers = w.routers ∧
    (opSnapshot grow w rt x).1.slices = w.slices ∧ (opSnapshot grow w rt x).1.tree = w.tree ∧
    (opSnapshot grow w rt x).1.regs = w.regs ∧ (opSnapshot grow w rt x).1.log = w.log ∧
    (opSnapshot grow w rt x).1.rxLog = w.rxLog := by
  simp only [opSnapshot, opNewSet, allocSlice, opAfter, opBefore, opLast, opUse, List.getElem?_concat_length,
    List.getElem?_set, List.length_append, List.length_set, List.length_modify]
  simp

theorem opCopySet_frame {w w' : World η ρ} {j : Option Nat} {x : Option η} {b : Nat} (h : WF w)
    (he : opCopySet w j x = some (w', b)) : b = w.sets.length ∧
      ∃ i addr s, j = some i ∧ w.setVars[i]? = some addr ∧ w.sets[addr]? = some s ∧
        w' = { w with sets := w.sets ++ [{ s with handler := x }] } := by
  unfold opCopySet at he
  split at he
  · simp at he
  · rename_i i
    split at he
    · simp at he
    · rename_i addr hv
      have hlt := h.vars _ (List.mem_of_getElem? hv)
      have hs : w.sets[addr]? = some w.sets[addr] := by simp [hlt]
      simp only [opClone, hs, Option.some.injEq, Prod.mk.injEq] at he
      obtain ⟨rfl, rfl⟩ := he
      refine ⟨rfl, i, addr, w.sets[addr], rfl, hv, hs, ?_⟩
      simp only [opUse]
      congr 1
      apply List.ext_getElem?
      intro k
      rw [List.getElem?_modify]
      by_cases hk : k < w.sets.length
      · rw [List.getElem?_append_left hk, List.getElem?_append_left hk]
        have : ¬ w.sets.length = k := by omega
        simp [this]
      · rw [List.getElem?_append_right (by omega), List.getElem?_append_right (by omega)]
        by_cases e : w.sets.length = k
        · subst e; simp
        · have : k - w.sets.length ≠ 0 := by omega
          rw [List.getElem?_eq_none (by simp; omega), List.getElem?_eq_none (by simp; omega)]
          simp

theorem WF.opCopySet {w w' : World η ρ} {j : Option Nat} {x : Option η} {b : Nat} (h : WF w)
    (he : opCopySet w j x = some (w', b)) : WF w' ∧ b < w'.sets.length ∧ b ∉ w'.setVars := by
  obtain ⟨rfl, i, addr, s, rfl, hv, hs, rfl⟩ := opCopySet_frame h he
  have hok := h.setOk (List.mem_of_getElem? hs)
  refine ⟨h.pushSet _ ⟨hok.swf, hok.self, hok.others, hok.rts, hok.sls⟩, by simp, ?_⟩
  intro hc
  exact absurd (h.vars _ hc) (by omega)

theorem WF.step {w : World η ρ} (h : WF w) (grow : Nat → Nat → Nat) (o : Op η ρ) : WF (step grow w o).1 := by
  have hfv : w.sets.length ∉ w.setVars := fun hc => absurd (h.vars _ hc) (by omega)
  have hfl : ∀ r ∈ w.log, r.set ≠ w.sets.length := fun r hr => by have := (h.logOk r hr).1; omega
  have hfr : ∀ r ∈ w.rxLog, r.set ≠ w.sets.length := fun r hr => by have := (h.rxLogOk r hr).1; omega
  cases o with
  | newSet =>
    exact h.newSet.pushVar _ (by simp [opNewSet]) hfv hfl hfr
  | setBefore j arg =>
    simp only [Verif.step]
    split
    · exact h
    · split
      · exact h
      · rename_i he; exact (h.evalArg arg he).1.opBefore grow _ _
  | setAfter j arg =>
    simp only [Verif.step]
    split
    · exact h
    · split
      · exact h
      · rename_i he; exact (h.evalArg arg he).1.opAfter grow _ _
  | setLast j x =>
    simp only [Verif.step]
    split
    · exact h
    · exact h.modify _ _ fun _ => ⟨rfl, rfl⟩
  | setUse j x =>
    simp only [Verif.step]
    split
    · exact h
    · exact h.modify _ _ fun _ => ⟨rfl, rfl⟩
  | setClone j =>
    simp only [Verif.step]
    split
    · exact h
    · rename_i addr hj
      have hv := h.vars _ (List.mem_of_getElem? hj)
      have hsome : w.sets[addr]? = some w.sets[addr] := by simp [hv]
      have hc : Verif.opClone w addr = ({ w with sets := w.sets ++ [w.sets[addr]] }, w.sets.length) := by
        simp [Verif.opClone, hsome]
      rw [hc]
      exact (h.pushSet _ (h.setOk (List.mem_of_getElem? hsome))).pushVar _ (by simp) hfv hfl hfr
  | newRouter =>
    refine ((h.push []).push []).pushRouter _ ⟨⟨?_, ?_, ?_⟩, ?_, ?_, ?_⟩ ?_
    · simp [allocSlice]
    · simp [allocSlice]
    · simp [allocSlice]
    · simp [allocSlice]
    · simp [allocSlice]
    · simp [allocSlice]
    · intro s hs
      exact ⟨h.fresh (by simp [allocSlice]) hs, h.fresh (by simp [allocSlice]) hs⟩
  | rFirst r x =>
    simp only [Verif.step]
    split
    · exact h
    · rename_i rt hr
      have hrm := List.mem_of_getElem? hr
      have ha := allocSlice_spec w.arrs [x]
      refine ((h.push [x]).append grow _ _).setRouter r _ ⟨?_, ?_⟩ ?_
      · exact (appendSlice_spec grow _ _ _ ha.2.2.1).1
      · exact swf_append grow _ _ _ _ (swf_push _ (h.rts rt hrm).2)
      · intro s hs
        refine ⟨?_, (h.sepR s hs rt hrm).2⟩
        refine h.fresh ?_ hs
        rcases append_arr grow (w.arrs ++ [[x]]) (allocSlice w.arrs [x]).2 (cells (w.arrs ++ [[x]]) rt.before) with e | e
        · show _ ≤ (appendSlice grow (w.arrs ++ [[x]]) (allocSlice w.arrs [x]).2 (cells (w.arrs ++ [[x]]) rt.before)).2.arr
          rw [e]; simp [allocSlice]
        · show _ ≤ (appendSlice grow (w.arrs ++ [[x]]) (allocSlice w.arrs [x]).2 (cells (w.arrs ++ [[x]]) rt.before)).2.arr
          rw [e]; simp
  | rBefore r arg =>
    simp only [Verif.step]
    split
    · exact h
    · rename_i rt hr
      have hrm := List.mem_of_getElem? hr
      split
      · exact h
      · rename_i w' x he
        obtain ⟨h', hx, hn, e1, _, e3, _⟩ := h.evalArg arg he
        refine h'.setRouter r _ ⟨hx, (h'.rts rt (by rw [e3]; exact hrm)).2⟩ ?_
        intro s hs
        exact ⟨hn s (by rw [← e1]; exact hs), (h'.sepR s hs rt (by rw [e3]; exact hrm)).2⟩
  | rAfter r arg =>
    simp only [Verif.step]
    split
    · exact h
    · rename_i rt hr
      have hrm := List.mem_of_getElem? hr
      split
      · exact h
      · rename_i w' x he
        obtain ⟨h', hx, hn, e1, _, e3, _⟩ := h.evalArg arg he
        refine h'.setRouter r _ ⟨(h'.rts rt (by rw [e3]; exact hrm)).1, hx⟩ ?_
        intro s hs
        exact ⟨(h'.sepR s hs rt (by rw [e3]; exact hrm)).1, hn s (by rw [← e1]; exact hs)⟩
  | rLastAfter r x =>
    simp only [Verif.step]
    split
    · exact h
    · rename_i rt hr
      have hrm := List.mem_of_getElem? hr
      have hrt := h.rts rt hrm
      refine (h.append grow _ _).setRouter r _ ⟨swf_append grow _ _ _ _ hrt.1, (appendSlice_spec grow _ _ _ hrt.2).1⟩ ?_
      intro s hs
      refine ⟨(h.sepR s hs rt hrm).1, ?_⟩
      rcases append_arr grow w.arrs rt.after [x] with e | e
      · have := (h.sepR s hs rt hrm).2
        exact ⟨by simp only; rw [e]; exact this.1, by simp only; rw [e]; exact this.2⟩
      · exact h.fresh (by simp only; rw [e]; exact Nat.le_refl _) hs
  | rLast r x =>
    simp only [Verif.step]
    split
    · exact h
    · rename_i rt hr
      have hrm := List.mem_of_getElem? hr
      exact h.setRouter r _ (h.rts rt hrm) fun s hs => h.sepR s hs rt hrm
  | rUse r m route x =>
    simp only [Verif.step]
    split
    · exact h
    · rename_i rt hr
      obtain ⟨f1, f2, f3, _⟩ := opSnapshot_frame grow w rt x
      exact (h.opSnapshot grow rt x).opTreeAdd _ _ _ (by omega) (by rw [f3, f1]; exact hfv)
  | rUseReg r m rx x =>
    simp only [Verif.step]
    split
    · exact h
    · rename_i rt hr
      obtain ⟨f1, f2, f3, _⟩ := opSnapshot_frame grow w rt x
      exact (h.opSnapshot grow rt x).opRegAdd _ _ _ (by omega) (by rw [f3, f1]; exact hfv)
  | rClone r =>
    simp only [Verif.step]
    split
    · exact h
    · rename_i rt hr
      have hrm := List.mem_of_getElem? hr
      exact h.pushRouter _ (h.rts rt hrm) fun s hs => h.sepR s hs rt hrm
  | rGetBefore r =>
    simp only [Verif.step]
    split
    · exact h
    · rename_i rt hr
      have hrm := List.mem_of_getElem? hr
      exact h.pushSlice _ (h.rts rt hrm).1 fun s hs => (h.sepR s hs rt hrm).1
  | rGetAfter r =>
    simp only [Verif.step]
    split
    · exact h
    · rename_i rt hr
      have hrm := List.mem_of_getElem? hr
      exact h.pushSlice _ (h.rts rt hrm).2 fun s hs => (h.sepR s hs rt hrm).2
  | sAdd m route x set =>
    simp only [Verif.step, opAdd]
    split
    · exact h
    · rename_i he
      obtain ⟨h', h1, h2⟩ := h.opCopySet he
      exact h'.opTreeAdd _ _ _ h1 h2
  | sAddReg m rx x set =>
    simp only [Verif.step, opAddReg]
    split
    · exact h
    · rename_i he
      obtain ⟨h', h1, h2⟩ := h.opCopySet he
      exact h'.opRegAdd _ _ _ h1 h2
  | sConv m route x sets =>
    simp only [Verif.step, opAdd]
    split
    · exact h
    · rename_i he
      obtain ⟨h', h1, h2⟩ := h.opCopySet he
      exact h'.opTreeAdd _ _ _ h1 h2
  | mkSlice xs n =>
    refine (h.push (xs ++ List.replicate n default)).pushSlice _ ⟨?_, ?_, ?_⟩ ?_
    · simp
    · simp
    · simp
    · intro s hs; exact h.fresh (by simp) hs
  | slSet i k x =>
    simp only [Verif.step]
    split
    · exact h
    · split
      · exact h.write _ _ _
      · exact h
  | slAppend i xs =>
    simp only [Verif.step]
    split
    · exact h
    · rename_i y hy
      have hym := List.mem_of_getElem? hy
      refine (h.append grow y xs).pushSlice _ (appendSlice_spec grow _ _ _ (h.sls y hym)).1 ?_
      intro s hs
      rcases append_arr grow w.arrs y xs with e | e
      · have := h.sepS s hs y hym
        exact ⟨by rw [e]; exact this.1, by rw [e]; exact this.2⟩
      · exact h.fresh (by rw [e]; exact Nat.le_refl _) hs
  | slSub i lo hi mx =>
    simp only [Verif.step]
    split
    · exact h
    · rename_i y hy
      have hym := List.mem_of_getElem? hy
      have hyw := h.sls y hym
      split
      · rename_i hc
        refine h.pushSlice _ ⟨hyw.arr, ?_, ?_⟩ fun s hs => h.sepS s hs y hym
        · simp only; omega
        · have := hyw.cap; simp only; omega
      · exact h

theorem WF.run (grow : Nat → Nat → Nat) (ops : List (Op η ρ)) :
    ∀ {w : World η ρ}, WF w → WF (runOps grow w ops) := by
  induction ops with
  | nil => intro w h; exact h
  | cons o ops ih => intro w h; exact ih (h.step grow o)

end Verif
