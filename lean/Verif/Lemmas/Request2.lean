import Verif.Lemmas.Request
/-
Traces of whole requests as sequences of handler calls.
-/
namespace Verif
set_option linter.unusedSectionVars false
set_option linter.unusedSimpArgs false
open Spec
variable {υ : Type}

/-- Where a `start` event of a trace sits. -/
theorem flat_split_start {bs : List Block} (h : Inner bs) {R pre post : List Ev} {i : HId} {d : Bool}
    (heq : flat bs ++ R = pre ++ .start i d :: post) :
    (∃ bs1 b bs2, bs = bs1 ++ b :: bs2 ∧ b.id = i ∧ b.d = d ∧ pre = flat bs1 ∧
      post = b.body ++ .ret b.o b.d' :: (flat bs2 ++ R)) ∨
    (∃ pre2, pre = flat bs ++ pre2 ∧ R = pre2 ++ .start i d :: post) := by
  induction bs generalizing pre with
  | nil => exact Or.inr ⟨pre, by simp [flat], by simpa [flat] using heq⟩
  | cons b bs ih =>
    cases pre with
    | nil =>
      rw [flat_cons] at heq
      simp only [Block.evs, List.cons_append, List.nil_append, List.cons.injEq, Ev.start.injEq] at heq
      obtain ⟨⟨h1, h2⟩, h3⟩ := heq
      refine Or.inl ⟨[], b, bs, rfl, h1, h2, rfl, ?_⟩
      rw [← h3]; simp
    | cons p pre =>
      have heq' : b.evs ++ (flat bs ++ R) = (p :: pre) ++ .start i d :: post := by
        rw [← heq, flat_cons, List.append_assoc]
      have key : ∃ as, p :: pre = b.evs ++ as ∧ flat bs ++ R = as ++ .start i d :: post := by
        rcases List.append_eq_append_iff.1 heq' with ⟨as, h1, h2⟩ | ⟨as, h1, h2⟩
        · exact ⟨as, h1, h2⟩
        · cases as with
          | nil => exact ⟨[], by simpa using h1.symm, by simpa using h2.symm⟩
          | cons a as =>
            exfalso
            simp only [List.cons_append, List.cons.injEq] at h2
            obtain ⟨rfl, h2⟩ := h2
            simp only [Block.evs, List.cons_append, List.cons.injEq] at h1
            have : Ev.start i d ∈ b.body ++ [.ret b.o b.d'] := by rw [h1.2]; simp
            simp only [List.mem_append, List.mem_singleton, reduceCtorEq, or_false] at this
            have := h b (by simp) _ this
            simp [Ev.inner] at this
      obtain ⟨as, h1, h2⟩ := key
      rcases ih h.tail h2 with ⟨bs1, b', bs2, e1, e2, e3, e4, e5⟩ | ⟨pre2, e1, e2⟩
      · exact Or.inl ⟨b :: bs1, b', bs2, by simp [e1], e2, e3, by rw [h1, e4, flat_cons], e5⟩
      · exact Or.inr ⟨pre2, by rw [h1, e1, flat_cons, List.append_assoc], e2⟩

/-- Goroutine events are no handler calls. -/
theorem go_split_start {W R pre post : List Ev} (h : ∀ e ∈ W, e.isGo = true) {i : HId} {d : Bool}
    (heq : W ++ R = pre ++ .start i d :: post) : ∃ pre2, pre = W ++ pre2 ∧ R = pre2 ++ .start i d :: post := by
  induction W generalizing pre with
  | nil => exact ⟨pre, by simp, by simpa using heq⟩
  | cons w W ih =>
    cases pre with
    | nil =>
      simp only [List.cons_append, List.nil_append, List.cons.injEq] at heq
      have := h w (by simp)
      rw [heq.1] at this; simp [Ev.isGo] at this
    | cons p pre =>
      simp only [List.cons_append, List.cons.injEq] at heq
      obtain ⟨rfl, heq⟩ := heq
      obtain ⟨pre2, h1, h2⟩ := ih (fun e he => h e (by simp [he])) heq
      exact ⟨pre2, by simp [h1], h2⟩

/-- The ids of the chain. -/
theorem runs_chain_ids {set : HSetV υ} {sk st : Bool} {bs : List Block} {f : Flow}
    (h : Runs (chainSteps set) sk st bs f) : ∀ b ∈ bs, b.id ≠ .sess ∧ ∀ e, b.id ≠ .last e := by
  intro b hb
  obtain ⟨s, hs, he⟩ := runs_ids h b hb
  obtain ⟨t, hl, ht⟩ := chainSteps_init set
  rw [hl] at hs
  rw [← he]
  rcases List.mem_cons.1 hs with rfl | hs
  · simp
  · have := (ht s hs).2.2
    constructor
    · intro h; rw [h] at this; simp [inChain] at this
    · intro e h; rw [h] at this; simp [inChain] at this

/-- The error of a chain run, read off its trace. -/
theorem runs_chainErr {l : List (Step υ)} {sk st : Bool} {bs : List Block} {err : Option GoErr}
    (h : Runs l sk st bs (.returned err)) (hi : Inner bs) :
    chainErr (flat bs) = err ∧ (err = none → ∀ b ∈ bs, b.o = .ok) ∧ (∀ b ∈ bs, b.o ≠ .panic) := by
  have hf : ∀ l : List Block, (∀ b ∈ l, b.o = .ok) →
      (l.map (·.o)).findSome? errOf = none := by
    intro l hl
    rw [List.findSome?_eq_none_iff]
    intro o ho
    obtain ⟨b, hb, rfl⟩ := List.mem_map.1 ho
    rw [hl b hb]; rfl
  rw [chainErr, rets_flat hi]
  rcases h.outcome with ⟨h1, h2⟩ | ⟨bs', b', e', h1, h2, h3, h4⟩ | ⟨h1, _⟩
  · simp only [Flow.returned.injEq] at h1
    rw [h1]
    exact ⟨hf bs h2, fun _ => h2, fun b hb => by simp [h2 b hb]⟩
  · simp only [Flow.returned.injEq] at h4
    subst h4
    refine ⟨?_, by simp, ?_⟩
    · rw [h1, List.map_append, List.findSome?_append, hf bs' h2]
      simp [h3, errOf]
    · intro b hb
      rw [h1] at hb
      rcases List.mem_append.1 hb with hb | hb
      · simp [h2 b hb]
      · simp only [List.mem_singleton] at hb; simp [hb, h3]
  · simp at h1

/-- The successful session initialiser as handler calls. -/
theorem SessOk.blocks {init : Option (RCtx υ → Prog υ)} {S : List Ev} (h : SessOk init S) :
    ∃ sb : List Block, S = flat sb ∧ Inner sb ∧ (∀ b ∈ sb, b.id = .sess ∧ b.o = .ok ∧ b.d = false) ∧
      sb.length = (if init.isSome then 1 else 0) := by
  rcases h with ⟨rfl, rfl⟩ | ⟨h, b, rfl, h1, h2, h3, h4⟩
  · exact ⟨[], by simp [flat], by simp [Inner], by simp, by simp⟩
  · refine ⟨[b], by simp [flat], ?_, by simp [h1, h2, h3], by simp [h]⟩
    intro x hx; simp only [List.mem_singleton] at hx; subst hx; exact h4

end Verif
