import Verif.Lemmas.Request2
import Verif.Lemmas.QuietProg
/-
The debug trace of a chain of quiet handlers.
-/
namespace Verif
set_option linter.unusedSectionVars false
set_option linter.unusedSimpArgs false
open Spec
variable {υ : Type}

/-- The effect of a list of quiet steps on the debug trace. -/
theorem runSteps_names (env : Env υ) (nm : HId → Option Str) (l : List (Step υ))
    (hq : ∀ s ∈ l, ∀ h, s.h = some h → (∀ c, Quiet (h.run c)) ∧ nm s.id = some h.name) : ∀ c : RCtx υ,
    ∃ new, (runSteps env l c).1.trace = c.trace ++ new ∧ (runSteps env l c).1.level = c.level ∧
      (runSteps env l c).1.names.map some =
        c.names.map some ++ (if c.level ≥ 5 then (starts new).map nm else []) := by
  induction l with
  | nil => intro c; exact ⟨[], by simp [runSteps], rfl, by simp [runSteps, starts]⟩
  | cons s t ih =>
    intro c
    have iht := ih (fun s' hs' => hq s' (by simp [hs']))
    unfold runSteps
    cases hs : (s.skippable && c.skipped) with
    | true => simp only [if_true]; exact iht c
    | false =>
      simp only [Bool.false_eq_true, if_false]
      cases hh : s.h with
      | none => exact ⟨[], by simp, rfl, by simp [starts]⟩
      | some h =>
        obtain ⟨hq1, hq2⟩ := hq s (by simp) h hh
        obtain ⟨b, hb1, hb2, hbd, _, hb3, hb4⟩ := callProg_block env s.id h.run (addDebugName c h.name)
        have hdbg := dbg_callProg env s.id hq1 (addDebugName c h.name)
        simp only
        rcases hcall : callProg env s.id h.run (addDebugName c h.name) with ⟨c', o⟩
        rw [hcall] at hb2 hb4 hdbg
        simp only at hb2 hb4 hdbg
        have htr : c'.trace = c.trace ++ b.evs := by
          rw [hb4.tr]; unfold addDebugName; split <;> rfl
        have hlv : c'.level = c.level := by
          have := congrArg Prod.fst hdbg
          simp only [dbg] at this
          rw [this]; unfold addDebugName; split <;> rfl
        have hnm : c'.names.map some = c.names.map some ++ (if c.level ≥ 5 then [nm s.id] else []) := by
          have := congrArg Prod.snd hdbg
          simp only [dbg] at this
          rw [this, hq2]
          unfold addDebugName
          split <;> simp
        have hst := starts_evs hb3
        have one : ∃ new, c'.trace = c.trace ++ new ∧ c'.level = c.level ∧
            c'.names.map some = c.names.map some ++ (if c.level ≥ 5 then (starts new).map nm else []) :=
          ⟨b.evs, htr, hlv, by rw [hnm, hst, hb1]; rfl⟩
        cases o with
        | panic => exact one
        | err e => exact one
        | ok =>
          simp only
          cases hc : (s.chk && c'.isStopped) with
          | true => simp only [if_true]; exact one
          | false =>
            simp only [Bool.false_eq_true, if_false]
            obtain ⟨new, g1, g2, g3⟩ := iht c'
            refine ⟨b.evs ++ new, by rw [g1, htr, List.append_assoc], by rw [g2, hlv], ?_⟩
            rw [g3, hnm, hlv, starts_append, hst, hb1]
            split <;> simp

theorem listSteps_get (id : Nat → HId) (l : List (Option (Hdl υ))) : ∀ (i : Nat) (s : Step υ), s ∈ listSteps id i l →
    ∃ j, s.id = id (i + j) ∧ l[j]? = some s.h := by
  induction l with
  | nil => intro i s h; simp [listSteps] at h
  | cons h l ih =>
    intro i s hs
    simp only [listSteps, List.mem_cons] at hs
    rcases hs with rfl | hs
    · exact ⟨0, rfl, rfl⟩
    · obtain ⟨j, h1, h2⟩ := ih (i + 1) s hs
      exact ⟨j + 1, by rw [h1]; congr 1; omega, by simpa using h2⟩

/-- The effect of a quiet chain on the debug trace. -/
theorem runSet_names (env : Env υ) (set : HSetV υ) (hq : QuietSet set) (c : RCtx υ) :
    ∃ new, (runSet env set c).1.trace = c.trace ++ new ∧ (runSet env set c).1.level = c.level ∧
      (runSet env set c).1.names.map some =
        c.names.map some ++ (if c.level ≥ 5 then (starts new).map (nameOf set) else []) := by
  rw [runSet_steps]
  apply runSteps_names
  intro s hs h hh
  simp only [chainSteps, List.mem_cons, List.mem_append] at hs
  rcases hs with rfl | hs | rfl | hs
  · simp only [Option.map_eq_some_iff] at hh
    obtain ⟨m, hm, rfl⟩ := hh
    exact ⟨(hq.1 m hm).1, by simp [nameOf, hm]⟩
  · obtain ⟨j, h1, h2⟩ := listSteps_get _ _ _ _ hs
    rw [hh] at h2
    refine ⟨hq.2.1 h (List.mem_append_left _ (List.mem_of_getElem? h2)), ?_⟩
    rw [h1]; simp [nameOf, h2]
  · simp only [Option.map_eq_some_iff] at hh
    obtain ⟨m, hm, rfl⟩ := hh
    exact ⟨(hq.1 m hm).2, by simp [nameOf, hm]⟩
  · obtain ⟨j, h1, h2⟩ := listSteps_get _ _ _ _ hs
    rw [hh] at h2
    refine ⟨hq.2.1 h (List.mem_append_right _ (List.mem_of_getElem? h2)), ?_⟩
    rw [h1]; simp [nameOf, h2]

theorem dbg_runRouted (env : Env υ) (set : HSetV υ) (hq : QuietSet set) (c : RCtx υ) :
    dbg (runRouted env set c).1 = dbg (runSet env set c).1 := by
  unfold runRouted
  rcases hrun : runSet env set c with ⟨c1, f⟩
  cases f with
  | next => rfl
  | panicked => rfl
  | returned err =>
    simp only
    split
    · rfl
    · unfold runLast
      cases hl : set.last with
      | none => simp only; rw [dbg_egWait]
      | some l =>
        simp only
        have := dbg_callProg env (.last (mergeErr err (egWait env c1).2)) (hq.2.2 l hl (mergeErr err (egWait env c1).2)) (egWait env c1).1
        rcases hcall : callProg env (.last (mergeErr err (egWait env c1).2)) (l.run (mergeErr err (egWait env c1).2)) (egWait env c1).1 with ⟨c2, o⟩
        rw [hcall] at this
        simp only [dbg_egWait] at this
        cases o <;> exact this

end Verif
