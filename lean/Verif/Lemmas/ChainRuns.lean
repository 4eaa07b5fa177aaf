import Verif.Lemmas.Chain
/-
Facts about the trace language of chains.
-/
namespace Verif
set_option linter.unusedSectionVars false
set_option linter.unusedSimpArgs false
open Spec
variable {υ : Type}

theorem flat_nil : flat [] = [] := rfl
theorem flat_cons (b : Block) (bs : List Block) : flat (b :: bs) = b.evs ++ flat bs := by simp [flat]
theorem flat_append (a b : List Block) : flat (a ++ b) = flat a ++ flat b := by simp [flat]

theorem starts_inner {es : List Ev} (h : ∀ e ∈ es, e.inner = true) : starts es = [] := by
  simp only [starts, List.filterMap_eq_nil_iff]
  intro e he
  have := h e he
  cases e <;> simp_all [Ev.inner]

theorem rets_inner {es : List Ev} (h : ∀ e ∈ es, e.inner = true) : rets es = [] := by
  simp only [rets, List.filterMap_eq_nil_iff]
  intro e he
  have := h e he
  cases e <;> simp_all [Ev.inner]

/-- All bodies are made of inner events. -/
def Inner (bs : List Block) : Prop := ∀ b ∈ bs, ∀ e ∈ b.body, e.inner = true

theorem Inner.tail {b : Block} {bs : List Block} (h : Inner (b :: bs)) : Inner bs :=
  fun x hx => h x (List.mem_cons_of_mem _ hx)

theorem starts_evs {b : Block} (h : ∀ e ∈ b.body, e.inner = true) : starts b.evs = [b.id] := by
  have : b.evs = [.start b.id b.d] ++ b.body ++ [.ret b.o b.d'] := rfl
  rw [this, starts_append, starts_append, starts_inner h]
  simp [starts]

theorem rets_evs {b : Block} (h : ∀ e ∈ b.body, e.inner = true) : rets b.evs = [b.o] := by
  have : b.evs = [.start b.id b.d] ++ b.body ++ [.ret b.o b.d'] := rfl
  rw [this, rets_append, rets_append, rets_inner h]
  simp [rets]

theorem starts_flat {bs : List Block} (h : Inner bs) : starts (flat bs) = bs.map (·.id) := by
  induction bs with
  | nil => rfl
  | cons b bs ih =>
    rw [flat_cons, starts_append, starts_evs (h b (by simp)), ih h.tail]; rfl

theorem rets_flat {bs : List Block} (h : Inner bs) : rets (flat bs) = bs.map (·.o) := by
  induction bs with
  | nil => rfl
  | cons b bs ih =>
    rw [flat_cons, rets_append, rets_evs (h b (by simp)), ih h.tail]; rfl

theorem hasCtl_flat (k : Ctl) (bs : List Block) : hasCtl k (flat bs) = bs.any fun b => hasCtl k b.body := by
  induction bs with
  | nil => rfl
  | cons b bs ih => rw [flat_cons, hasCtl_append, hasCtl_evs, ih]; rfl

theorem stops_append (a b : List Ev) : stops (a ++ b) = (stops a || stops b) := by
  simp only [stops, hasCtl_append]
  cases hasCtl .stop a <;> cases hasCtl .stop b <;> cases hasCtl .abort a <;> cases hasCtl .abort b <;> rfl

theorem stops_evs (b : Block) : stops b.evs = stops b.body := by simp [stops, hasCtl_evs]

/-- Where an inner event of a trace sits. -/
theorem flat_split {bs : List Block} (h : Inner bs) {pre post : List Ev} {e : Ev} (he : e.inner = true)
    (heq : flat bs = pre ++ e :: post) :
    ∃ bs1 b bs2 x y, bs = bs1 ++ b :: bs2 ∧ b.body = x ++ e :: y ∧
      pre = flat bs1 ++ .start b.id b.d :: x ∧ post = y ++ .ret b.o b.d' :: flat bs2 := by
  induction bs generalizing pre with
  | nil => simp [flat] at heq
  | cons b bs ih =>
    rw [flat_cons] at heq
    rcases List.append_eq_append_iff.1 heq with ⟨as, h1, h2⟩ | ⟨as, h1, h2⟩
    · -- the event is in the rest
      obtain ⟨bs1, b', bs2, x, y, hb, hx, hp, hq⟩ := ih h.tail h2
      refine ⟨b :: bs1, b', bs2, x, y, by simp [hb], hx, ?_, hq⟩
      rw [h1, hp, flat_cons, List.append_assoc]
    · -- the event is in this block, or the first of the rest
      cases as with
      | nil =>
        simp only [List.nil_append] at h2
        obtain ⟨bs1, b', bs2, x, y, hb, hx, hp, hq⟩ := ih (pre := []) h.tail (by simpa using h2.symm)
        exfalso
        have := congrArg List.length hp
        simp at this
      | cons a as =>
        simp only [List.cons_append, List.cons.injEq] at h2
        obtain ⟨rfl, rfl⟩ := h2
        -- b.evs = pre ++ e :: as
        have hev : Ev.start b.id b.d :: (b.body ++ [.ret b.o b.d']) = pre ++ e :: as := by
          simpa [Block.evs] using h1
        cases pre with
        | nil =>
          simp only [List.nil_append, List.cons.injEq] at hev
          rw [← hev.1] at he; simp [Ev.inner] at he
        | cons p pre =>
          simp only [List.cons_append, List.cons.injEq] at hev
          obtain ⟨rfl, hev⟩ := hev
          rcases List.append_eq_append_iff.1 hev with ⟨bs', g1, g2⟩ | ⟨bs', g1, g2⟩
          · cases bs' with
            | nil => simp at g2; rw [← g2.1] at he; simp [Ev.inner] at he
            | cons z zs => simp at g2
          · cases bs' with
            | nil => simp at g2; rw [g2.1] at he; simp [Ev.inner] at he
            | cons z zs =>
              simp only [List.cons_append, List.cons.injEq] at g2
              obtain ⟨rfl, rfl⟩ := g2
              exact ⟨[], b, bs, pre, zs, rfl, g1, by simp [flat], by simp⟩

/-- Where a `ret` event of a trace sits. -/
theorem flat_split_ret {bs : List Block} (h : Inner bs) {pre post : List Ev} {o : HOut} {d : Bool}
    (heq : flat bs = pre ++ .ret o d :: post) :
    ∃ bs1 b bs2, bs = bs1 ++ b :: bs2 ∧ b.o = o ∧ post = flat bs2 ∧ pre = flat bs1 ++ .start b.id b.d :: b.body := by
  induction bs generalizing pre with
  | nil => simp [flat] at heq
  | cons b bs ih =>
    rw [flat_cons] at heq
    rcases List.append_eq_append_iff.1 heq with ⟨as, h1, h2⟩ | ⟨as, h1, h2⟩
    · obtain ⟨bs1, b', bs2, hb, ho, hq, hp⟩ := ih h.tail h2
      refine ⟨b :: bs1, b', bs2, by simp [hb], ho, hq, ?_⟩
      rw [h1, hp, flat_cons, List.append_assoc]
    · cases as with
      | nil =>
        simp only [List.nil_append] at h2
        obtain ⟨bs1, b', bs2, hb, ho, hq, hp⟩ := ih (pre := []) h.tail (by simpa using h2.symm)
        exfalso
        have := congrArg List.length hp
        simp at this
      | cons a as =>
        simp only [List.cons_append, List.cons.injEq] at h2
        obtain ⟨rfl, rfl⟩ := h2
        have hev : Ev.start b.id b.d :: (b.body ++ [.ret b.o b.d']) = pre ++ .ret o d :: as := by
          simpa [Block.evs] using h1
        cases pre with
        | nil => simp at hev
        | cons p pre =>
          simp only [List.cons_append, List.cons.injEq] at hev
          obtain ⟨rfl, hev⟩ := hev
          have hno : ∀ o d, Ev.ret o d ∉ b.body := by
            intro o d hm; have := h b (by simp) _ hm; simp [Ev.inner] at this
          rcases List.append_eq_append_iff.1 hev with ⟨bs', g1, g2⟩ | ⟨bs', g1, g2⟩
          · cases bs' with
            | nil =>
              simp at g2 g1
              refine ⟨[], b, bs, rfl, g2.1.1, by simp [← g2.2], by simp [flat, g1]⟩
            | cons z zs => simp at g2
          · cases bs' with
            | nil =>
              simp at g2 g1
              refine ⟨[], b, bs, rfl, g2.1.1.symm, by simp [g2.2], by simp [flat, g1]⟩
            | cons z zs =>
              simp only [List.cons_append, List.cons.injEq] at g2
              exfalso
              obtain ⟨rfl, _⟩ := g2
              exact hno o d (by rw [g1]; simp)

/-- How the outcome of a chain relates to the outcomes of its handler calls. -/
theorem Runs.outcome {l : List (Step υ)} {sk st : Bool} {bs : List Block} {f : Flow} (h : Runs l sk st bs f) :
    (f = .returned none ∧ ∀ b ∈ bs, b.o = .ok) ∨
    (∃ bs' b e, bs = bs' ++ [b] ∧ (∀ x ∈ bs', x.o = .ok) ∧ b.o = .err e ∧ f = .returned (some e)) ∨
    (f = .panicked ∧ ((∀ b ∈ bs, b.o = .ok) ∧ (∃ s ∈ l, s.h = none) ∨
      ∃ bs' b, bs = bs' ++ [b] ∧ (∀ x ∈ bs', x.o = .ok) ∧ b.o = .panic)) := by
  induction h with
  | done => exact Or.inl ⟨rfl, by simp⟩
  | skip _ _ _ ih =>
    rcases ih with h | h | ⟨h1, ⟨h2, s, hs, hn⟩ | h2⟩
    · exact Or.inl h
    · exact Or.inr (Or.inl h)
    · exact Or.inr (Or.inr ⟨h1, Or.inl ⟨h2, s, by simp [hs], hn⟩⟩)
    · exact Or.inr (Or.inr ⟨h1, Or.inr h2⟩)
  | nil _ hn => exact Or.inr (Or.inr ⟨rfl, Or.inl ⟨by simp, _, List.mem_cons_self .., hn⟩⟩)
  | @panic _ _ _ _ b _ _ _ ho => exact Or.inr (Or.inr ⟨rfl, Or.inr ⟨[], b, rfl, by simp, ho⟩⟩)
  | @err _ _ _ _ b e _ _ _ ho => exact Or.inr (Or.inl ⟨[], b, e, rfl, by simp, ho, rfl⟩)
  | stop _ _ _ ho _ _ => exact Or.inl ⟨rfl, by simpa using ho⟩
  | @next _ _ _ _ b bs f _ _ _ ho _ _ ih =>
    rcases ih with ⟨h1, h2⟩ | ⟨bs', b', e, h1, h2, h3, h4⟩ | ⟨h1, ⟨h2, s, hs, hn⟩ | ⟨bs', b', h2, h3, h4⟩⟩
    · refine Or.inl ⟨h1, ?_⟩
      intro x hx
      rcases List.mem_cons.1 hx with rfl | hx
      · exact ho
      · exact h2 x hx
    · refine Or.inr (Or.inl ⟨b :: bs', b', e, by simp [h1], ?_, h3, h4⟩)
      intro x hx
      rcases List.mem_cons.1 hx with rfl | hx
      · exact ho
      · exact h2 x hx
    · refine Or.inr (Or.inr ⟨h1, Or.inl ⟨?_, s, by simp [hs], hn⟩⟩)
      intro x hx
      rcases List.mem_cons.1 hx with rfl | hx
      · exact ho
      · exact h2 x hx
    · refine Or.inr (Or.inr ⟨h1, Or.inr ⟨b :: bs', b', by simp [h2], ?_, h4⟩⟩)
      intro x hx
      rcases List.mem_cons.1 hx with rfl | hx
      · exact ho
      · exact h3 x hx

/-- Splitting a chain at a point: either it ends before, or everything before ran. -/
theorem Runs.split {l1 l2 : List (Step υ)} (hns : ∀ s ∈ l1, s.skippable = false) :
    ∀ {sk st : Bool} {bs : List Block} {f : Flow}, Runs (l1 ++ l2) sk st bs f →
    (bs.map (·.id) <+: l1.map (·.id) ∧ (f = .returned none → (∀ s ∈ l1, s.h.isSome = true) →
        st = true ∨ bs.any (fun b => stops b.body) = true)) ∨
    (∃ b1 b2, bs = b1 ++ b2 ∧ b1.map (·.id) = l1.map (·.id) ∧
      Runs l2 (sk || hasCtl .skipMain (flat b1)) (st || stops (flat b1)) b2 f) := by
  induction l1 with
  | nil =>
    intro sk st bs f h
    right
    exact ⟨[], bs, rfl, rfl, by simpa [flat, hasCtl, stops] using h⟩
  | cons s l1 ih =>
    intro sk st bs f h
    have hs := hns s (by simp)
    cases h with
    | skip h1 _ _ => rw [hs] at h1; simp at h1
    | nil h1 h2 => left; exact ⟨by simp, by simp⟩
    | panic h1 h2 h3 h4 => left; exact ⟨by simp [h3], by simp⟩
    | err h1 h2 h3 h4 => left; exact ⟨by simp [h3], by simp⟩
    | stop h1 h2 h3 h4 h5 h6 => left; refine ⟨by simp [h3], fun _ _ => ?_⟩; simpa using h6
    | @next _ _ _ _ b bs f h1 h2 h3 h4 h5 h6 =>
      rcases ih (fun s hs => hns s (by simp [hs])) h6 with ⟨g1, g2⟩ | ⟨b1, b2, rfl, g2, g3⟩
      · left
        refine ⟨by simp [h3, g1], fun hf hh => ?_⟩
        have := g2 hf (fun s hs => hh s (by simp [hs]))
        simp only [List.any_cons, Bool.or_eq_true] at this ⊢
        rcases this with (h | h) | h
        · exact Or.inl h
        · exact Or.inr (Or.inl h)
        · exact Or.inr (Or.inr h)
      · right
        refine ⟨b :: b1, b2, rfl, by simp [h3, g2], ?_⟩
        rw [flat_cons, hasCtl_append, stops_append, hasCtl_evs, stops_evs, ← Bool.or_assoc, ← Bool.or_assoc]
        exact g3

/-- Once Stop was called in (or before) a handler after which it is honoured, nothing more runs. -/
theorem Runs.stopped {l : List (Step υ)} {sk st : Bool} {bs : List Block} {f : Flow} (h : Runs l sk st bs f) :
    ∀ (bs1 bs2 : List Block) (b : Block), bs = bs1 ++ b :: bs2 → (∀ s ∈ l, s.id = b.id → s.chk = true) →
      stops b.body = true → bs2 = [] := by
  induction h with
  | done => intro bs1 bs2 b h; simp at h
  | skip _ _ _ ih => intro bs1 bs2 b h hc; exact ih bs1 bs2 b h fun s hs => hc s (by simp [hs])
  | nil => intro bs1 bs2 b h; simp at h
  | panic | err | stop =>
    intro bs1 bs2 b h _ _
    cases bs1 with
    | nil => simp at h; exact h.2
    | cons _ _ => simp at h
  | @next s t sk st b0 bs f h1 h2 h3 h4 h5 h6 ih =>
    intro bs1 bs2 b h hc hst
    cases bs1 with
    | nil =>
      simp only [List.nil_append, List.cons.injEq] at h
      obtain ⟨rfl, rfl⟩ := h
      rw [hc s (by simp) h3.symm, hst] at h5
      simp at h5
    | cons a bs1 =>
      simp only [List.cons_append, List.cons.injEq] at h
      exact ih bs1 bs2 b h.2 (fun s hs => hc s (by simp [hs])) hst

/-- A chain that starts stopped, and honours it everywhere, makes at most one call. -/
theorem Runs.stoppedFrom {l : List (Step υ)} {sk : Bool} {bs : List Block} {f : Flow} (h : Runs l sk true bs f)
    (hc : ∀ s ∈ l, s.chk = true) : bs.length ≤ 1 := by
  generalize hst : true = st at h
  induction h with
  | done => simp
  | skip _ _ _ ih => exact ih (fun s hs => hc s (by simp [hs])) hst
  | nil => simp
  | panic => simp
  | err => simp
  | stop => simp
  | next h1 h2 h3 h4 h5 h6 ih =>
    rw [hc _ (by simp), ← hst] at h5
    simp at h5

theorem listSteps_id (id : Nat → HId) (l : List (Option (Hdl υ))) : ∀ i,
    (listSteps id i l).map (·.id) = (List.range' i l.length).map id := by
  induction l with
  | nil => intro i; rfl
  | cons h l ih => intro i; simp [listSteps, ih, List.range'_succ]

theorem listSteps_mem (id : Nat → HId) (l : List (Option (Hdl υ))) : ∀ i s, s ∈ listSteps id i l →
    s.skippable = false ∧ s.chk = true ∧ (∃ j, s.id = id j) ∧ s.h ∈ l := by
  induction l with
  | nil => intro i s h; simp [listSteps] at h
  | cons h l ih =>
    intro i s hs
    simp only [listSteps, List.mem_cons] at hs
    rcases hs with rfl | hs
    · exact ⟨rfl, rfl, ⟨i, rfl⟩, by simp⟩
    · have := ih (i + 1) s hs
      exact ⟨this.1, this.2.1, this.2.2.1, by simp [this.2.2.2]⟩

end Verif
