import Verif.Lemmas.ChainRuns
/-
Properties C17–C20: the handler chain of a route.

Every theorem is about `runSet env set c`, one call of HandlerSet.Run, for every handler set, every
behaviour of its handlers and goroutines, every schedule `env` and every context `c` it may be called
with.  What happened is the part `new` appended to the trace.
-/
namespace Verif
set_option linter.unusedSectionVars false
set_option linter.unusedSimpArgs false
open Spec
variable {υ : Type}

theorem called_eq (k : Ctl) (t : List Ev) : called k t = hasCtl k t := rfl

def stepsA (set : HSetV υ) : List (Step υ) :=
  ⟨.init, set.main.map fun m => ⟨m.name, m.init⟩, false, false⟩ :: listSteps .before 0 set.before

def stepM (set : HSetV υ) : Step υ := ⟨.main, set.main.map fun m => ⟨m.name, m.run⟩, true, true⟩

theorem chainSteps_eq (set : HSetV υ) :
    chainSteps set = stepsA set ++ stepM set :: listSteps .after 0 set.after := by
  simp [chainSteps, stepsA, stepM]

theorem stepsA_ns (set : HSetV υ) : ∀ s ∈ stepsA set, s.skippable = false := by
  intro s hs
  simp only [stepsA, List.mem_cons] at hs
  rcases hs with rfl | hs
  · rfl
  · exact (listSteps_mem _ _ _ _ hs).1

theorem stepsA_id (set : HSetV υ) :
    (stepsA set).map (·.id) = [.init] ++ (List.range set.before.length).map .before := by
  simp [stepsA, listSteps_id, List.range_eq_range']

theorem stepsA_notMain (set : HSetV υ) : ∀ x ∈ (stepsA set).map (·.id), fromMain x = false := by
  rw [stepsA_id]
  intro x hx
  simp only [List.singleton_append, List.mem_cons, List.mem_map] at hx
  rcases hx with rfl | ⟨_, _, rfl⟩ <;> rfl

theorem takeWhile_all {α : Type} {p : α → Bool} {l : List α} (h : ∀ x ∈ l, p x = true) (r : List α) :
    (l ++ r).takeWhile p = l ++ r.takeWhile p := by
  induction l with
  | nil => rfl
  | cons a l ih =>
    simp only [List.cons_append, List.takeWhile_cons, h a (by simp), if_true]
    rw [ih fun x hx => h x (by simp [hx])]

theorem untilMain_flat {b1 b2 : List Block} (hi : Inner b1) (h1 : ∀ b ∈ b1, fromMain b.id = false)
    (h2 : ∀ b, b2.head? = some b → fromMain b.id = true) : untilMain (flat (b1 ++ b2)) = flat b1 := by
  rw [flat_append, untilMain, takeWhile_all]
  · cases b2 with
    | nil => simp [flat]
    | cons b bs =>
      have hb := h2 b rfl
      rw [flat_cons]
      show flat b1 ++ List.takeWhile _ (.start b.id b.d :: _) = _
      rw [List.takeWhile_cons]
      simp [hb]
  · intro e he
    simp only [flat, List.mem_flatMap] at he
    obtain ⟨b, hb, he⟩ := he
    simp only [Block.evs, List.cons_append, List.mem_cons, List.mem_append, List.not_mem_nil, or_false] at he
    rcases he with rfl | he | rfl
    · simp [h1 b hb]
    · have := hi b hb e he
      cases e <;> simp_all [Ev.inner]
    · rfl

/-- The structure of a run of the chain. -/
theorem runSet_shape (env : Env υ) (set : HSetV υ) (c : RCtx υ) :
    ∃ bs, Runs (chainSteps set) c.skipped c.isStopped bs (runSet env set c).2 ∧ Inner bs ∧
      ChainExt env c (runSet env set c).1 (flat bs) ∧ DoneOk env c bs := by
  rw [runSet_steps]
  exact runSteps_runs env (chainSteps set) c

/-- Runs of the part of a chain from the main handler on. -/
theorem runs_main {set : HSetV υ} {sk st : Bool} {bs : List Block} {f : Flow}
    (h : Runs (stepM set :: listSteps .after 0 set.after) sk st bs f) :
    bs.map (·.id) <+: (if sk then [] else [HId.main]) ++ (List.range set.after.length).map .after ∧
    (∀ b, bs.head? = some b → fromMain b.id = true) ∧
    (f = .returned none → st = false → (set.main.isSome = true) → (∀ x ∈ set.after, x.isSome = true) →
      bs.any (fun b => stops b.body) = false →
      bs.map (·.id) = (if sk then [] else [HId.main]) ++ (List.range set.after.length).map .after) := by
  have aft : ∀ {sk st : Bool} {bs : List Block} {f : Flow}, Runs (listSteps .after 0 set.after) sk st bs f →
      bs.map (·.id) <+: (List.range set.after.length).map HId.after ∧
      (f = .returned none → st = false → (∀ x ∈ set.after, x.isSome = true) →
        bs.any (fun b => stops b.body) = false → bs.map (·.id) = (List.range set.after.length).map HId.after) := by
    intro sk st bs f h
    have hid : (listSteps .after 0 set.after).map (·.id) = (List.range set.after.length).map HId.after := by
      simp [listSteps_id, List.range_eq_range']
    have hsp := Runs.split (l1 := listSteps .after 0 set.after) (l2 := []) (fun s hs => (listSteps_mem _ _ _ _ hs).1)
      (by simpa using h)
    rcases hsp with ⟨h1, h2⟩ | ⟨b1, b2, rfl, h1, h2⟩
    · rw [hid] at h1
      refine ⟨h1, fun hf hst hh hns => ?_⟩
      have := h2 hf (fun s hs => hh _ (listSteps_mem _ _ _ _ hs).2.2.2)
      rw [hst, hns] at this
      simp at this
    · cases h2
      simp only [List.append_nil]
      rw [h1, hid]
      exact ⟨List.prefix_refl _, fun _ _ _ _ => rfl⟩
  have hfm : ∀ {bs : List Block}, bs.map (·.id) <+: (List.range set.after.length).map HId.after →
      ∀ b, bs.head? = some b → fromMain b.id = true := by
    intro bs h b hb
    have hm : b.id ∈ bs.map (·.id) := List.mem_map.2 ⟨b, List.mem_of_mem_head? hb, rfl⟩
    have := h.subset hm
    simp only [List.mem_map] at this
    obtain ⟨_, _, h⟩ := this
    rw [← h]; rfl
  cases h with
  | skip h1 h2 h3 =>
    have := aft h3
    simp only [h2, if_true, List.nil_append]
    exact ⟨this.1, hfm this.1, fun hf hst _ hh hns => this.2 hf hst hh hns⟩
  | nil h1 h2 => exact ⟨by simp, by simp, by simp⟩
  | @panic _ _ _ _ b h1 h2 h3 h4 =>
    have hsk : sk = false := by simpa [stepM] using h1
    have hid : b.id = .main := h3
    exact ⟨by simp [hsk, hid], by simp [hid, fromMain], by simp⟩
  | @err _ _ _ _ b e h1 h2 h3 h4 =>
    have hsk : sk = false := by simpa [stepM] using h1
    have hid : b.id = .main := h3
    exact ⟨by simp [hsk, hid], by simp [hid, fromMain], by simp⟩
  | @stop _ _ _ _ b h1 h2 h3 h4 h5 h6 =>
    have hsk : sk = false := by simpa [stepM] using h1
    have hid : b.id = .main := h3
    refine ⟨by simp [hsk, hid], by simp [hid, fromMain], fun _ hst _ _ hns => ?_⟩
    rw [hst] at h6
    simp at h6 hns
    rw [hns] at h6; simp at h6
  | @next _ _ _ _ b bs _ h1 h2 h3 h4 h5 h6 =>
    have hsk : sk = false := by simpa [stepM] using h1
    have hid : b.id = .main := h3
    have := aft h6
    refine ⟨by simp [hsk, hid, this.1], by simp [hid, fromMain], fun hf hst _ hh hns => ?_⟩
    simp only [List.any_cons, Bool.or_eq_false_iff] at hns
    have := this.2 hf (by simp [hst, hns.1]) hh hns.2
    simp [hsk, hid, this]

/-! ### C17 -/

/-- C17 and half of C20.  The handlers executed are, each once, a prefix of Init, the before handlers in
order, the main handler — left out exactly if SkipMain was called earlier (in Init, a before handler or
the session initialiser) — and the after handlers in order. -/
theorem C17_order (env : Env υ) (set : HSetV υ) (c : RCtx υ) :
    ∃ new, (runSet env set c).1.trace = c.trace ++ new ∧
      starts new <+: chainOrder set.before.length set.after.length (c.skipped || called .skipMain (untilMain new)) ∧
      (starts new).Nodup := by
  obtain ⟨bs, hr, hi, hx, _⟩ := runSet_shape env set c
  refine ⟨flat bs, hx.tr, ?_⟩
  rw [starts_flat hi]
  have hpre : bs.map (·.id) <+: chainOrder set.before.length set.after.length
      (c.skipped || called .skipMain (untilMain (flat bs))) := by
    rw [chainSteps_eq] at hr
    rcases hr.split (stepsA_ns set) with ⟨h1, _⟩ | ⟨b1, b2, rfl, h1, h2⟩
    · rw [stepsA_id] at h1
      refine h1.trans ?_
      unfold chainOrder
      rw [List.append_assoc _ _ ((List.range set.after.length).map HId.after)]
      exact List.prefix_append _ _
    · obtain ⟨h3, h4, _⟩ := runs_main h2
      have hb1 : ∀ b ∈ b1, fromMain b.id = false :=
        fun b hb => stepsA_notMain set _ (by rw [← h1]; exact List.mem_map.2 ⟨b, hb, rfl⟩)
      rw [untilMain_flat (fun b hb => hi b (by simp [hb])) hb1 h4]
      rw [List.map_append, h1, stepsA_id]
      unfold chainOrder
      rw [List.append_assoc _ _ ((List.range set.after.length).map HId.after)]
      exact (List.prefix_append_right_inj _).2 h3
  refine ⟨hpre, ?_⟩
  refine hpre.sublist.nodup ?_
  unfold chainOrder
  have nb : ((List.range set.before.length).map HId.before).Nodup :=
    List.Pairwise.map _ (fun a b h e => h (by simpa using e)) List.nodup_range
  have na : ((List.range set.after.length).map HId.after).Nodup :=
    List.Pairwise.map _ (fun a b h e => h (by simpa using e)) List.nodup_range
  rw [List.nodup_append, List.nodup_append, List.nodup_append]
  refine ⟨⟨⟨by simp, nb, ?_⟩, ?_, ?_⟩, na, ?_⟩
  · simp
  · split <;> simp
  · intro a ha b hb
    split at hb
    · simp at hb
    · simp only [List.mem_singleton] at hb; subst hb
      rintro rfl; simp at ha
  · intro a ha b hb
    simp only [List.mem_map] at hb
    obtain ⟨j, _, rfl⟩ := hb
    rintro rfl
    split at ha <;> simp at ha

/-! ### C18 -/

/-- C18.  All handler calls but the last succeeded; if a handler returned an error, nothing happens in
the chain after it and the chain's result is that error; conversely an error result is the last
handler's; and the result is nil only if every handler call succeeded. -/
theorem C18_error (env : Env υ) (set : HSetV υ) (c : RCtx υ) :
    ∃ new, (runSet env set c).1.trace = c.trace ++ new ∧
      (∀ pre e d post, new = pre ++ .ret (.err e) d :: post →
        post = [] ∧ (runSet env set c).2 = .returned (some e)) ∧
      (∀ e, (runSet env set c).2 = .returned (some e) → ∃ pre d, new = pre ++ [.ret (.err e) d]) ∧
      ((runSet env set c).2 = .returned none → ∀ o ∈ rets new, o = .ok) ∧
      (∀ o ∈ (rets new).dropLast, o = .ok) := by
  obtain ⟨bs, hr, hi, hx, _⟩ := runSet_shape env set c
  refine ⟨flat bs, hx.tr, ?_, ?_, ?_, ?_⟩
  · intro pre e d post h
    obtain ⟨bs1, b, bs2, rfl, ho, hp, _⟩ := flat_split_ret hi h
    rcases hr.outcome with ⟨_, h2⟩ | ⟨bs', b', e', h1, h2, h3, h4⟩ | ⟨h1, ⟨h2, _⟩ | ⟨bs', b', h2, h3, h4⟩⟩
    · have := h2 b (by simp); rw [ho] at this; simp at this
    · by_cases hb2 : bs2 = []
      · subst hb2
        have := List.append_inj' h1 rfl
        simp only [List.cons.injEq, and_true] at this
        rw [← this.2, ho] at h3
        simp only [HOut.err.injEq] at h3
        subst h3
        exact ⟨hp, h4⟩
      · have : b ∈ bs' := by
          have := congrArg List.dropLast h1
          rw [List.dropLast_concat, List.dropLast_append_of_ne_nil (by simp)] at this
          rw [← this]
          simp [List.dropLast_cons_of_ne_nil hb2]
        have := h2 b this; rw [ho] at this; simp at this
    · have := h2 b (by simp); rw [ho] at this; simp at this
    · by_cases hb2 : bs2 = []
      · subst hb2
        have := List.append_inj' h2 rfl
        simp only [List.cons.injEq, and_true] at this
        rw [← this.2, ho] at h4
        simp at h4
      · have : b ∈ bs' := by
          have := congrArg List.dropLast h2
          rw [List.dropLast_concat, List.dropLast_append_of_ne_nil (by simp)] at this
          rw [← this]
          simp [List.dropLast_cons_of_ne_nil hb2]
        have := h3 b this; rw [ho] at this; simp at this
  · intro e hf
    rcases hr.outcome with ⟨h1, _⟩ | ⟨bs', b', e', h1, h2, h3, h4⟩ | ⟨h1, _⟩
    · rw [h1] at hf; simp at hf
    · rw [h4] at hf
      simp only [Flow.returned.injEq, Option.some.injEq] at hf
      subst hf
      refine ⟨flat bs' ++ .start b'.id b'.d :: b'.body, b'.d', ?_⟩
      rw [h1, flat_append, flat_cons, flat_nil, Block.evs, h3]
      simp
    · rw [h1] at hf; simp at hf
  · intro hf o ho
    rw [rets_flat hi, List.mem_map] at ho
    obtain ⟨b, hb, rfl⟩ := ho
    rcases hr.outcome with ⟨_, h2⟩ | ⟨_, _, e', _, _, _, h4⟩ | ⟨h1, _⟩
    · exact h2 b hb
    · rw [h4] at hf; simp at hf
    · rw [h1] at hf; simp at hf
  · intro o ho
    rw [rets_flat hi] at ho
    rcases hr.outcome with ⟨_, h2⟩ | ⟨bs', b', e', h1, h2, h3, h4⟩ | ⟨h1, ⟨h2, _⟩ | ⟨bs', b', h2, h3, h4⟩⟩
    · obtain ⟨b, hb, rfl⟩ := List.mem_map.1 ((List.dropLast_sublist _).subset ho); exact h2 b hb
    · rw [h1, List.map_append, List.map_singleton, List.dropLast_concat] at ho
      obtain ⟨b, hb, rfl⟩ := List.mem_map.1 ho; exact h2 b hb
    · obtain ⟨b, hb, rfl⟩ := List.mem_map.1 ((List.dropLast_sublist _).subset ho); exact h2 b hb
    · rw [h2, List.map_append, List.map_singleton, List.dropLast_concat] at ho
      obtain ⟨b, hb, rfl⟩ := List.mem_map.1 ho; exact h3 b hb

/-! ### C19 -/

theorem chainSteps_init (set : HSetV υ) : ∃ t, chainSteps set = ⟨.init, set.main.map fun m => ⟨m.name, m.init⟩, false, false⟩ :: t ∧
    (∀ s ∈ t, s.chk = true ∧ s.id ≠ .init ∧ inChain s.id = true) := by
  refine ⟨_, rfl, ?_⟩
  intro s hs
  simp only [List.mem_append, List.mem_cons] at hs
  rcases hs with hs | rfl | hs
  · obtain ⟨_, h1, ⟨j, h2⟩, _⟩ := listSteps_mem _ _ _ _ hs
    rw [h2]; exact ⟨h1, by simp, rfl⟩
  · exact ⟨rfl, by simp, rfl⟩
  · obtain ⟨_, h1, ⟨j, h2⟩, _⟩ := listSteps_mem _ _ _ _ hs
    rw [h2]; exact ⟨h1, by simp, rfl⟩

theorem runs_ids {l : List (Step υ)} {sk st : Bool} {bs : List Block} {f : Flow} (h : Runs l sk st bs f) :
    ∀ b ∈ bs, ∃ s ∈ l, s.id = b.id := by
  induction h with
  | done => simp
  | skip _ _ _ ih => intro b hb; obtain ⟨s, hs, h⟩ := ih b hb; exact ⟨s, by simp [hs], h⟩
  | nil => simp
  | panic _ _ h | err _ _ h | stop _ _ h => intro b hb; simp at hb; subst hb; exact ⟨_, List.mem_cons_self .., h.symm⟩
  | next _ _ h _ _ _ ih =>
    intro b hb
    rcases List.mem_cons.1 hb with rfl | hb
    · exact ⟨_, List.mem_cons_self .., h.symm⟩
    · obtain ⟨s, hs, h⟩ := ih b hb; exact ⟨s, by simp [hs], h⟩

/-- C19.  Once a before, main or after handler has called Stop or Abort, no other handler of the chain
runs. -/
theorem C19_stop (env : Env υ) (set : HSetV υ) (c : RCtx υ) :
    ∃ new, (runSet env set c).1.trace = c.trace ++ new ∧
      ∀ pre k post, (k = .stop ∨ k = .abort) → new = pre ++ .ctl k :: post →
        (∃ h ∈ starts pre, inChain h = true) → starts post = [] := by
  obtain ⟨bs, hr, hi, hcx, _⟩ := runSet_shape env set c
  refine ⟨flat bs, hcx.tr, ?_⟩
  intro pre k post hk heq hch
  obtain ⟨bs1, b, bs2, x, y, hbs, hbody, hpre, hpost⟩ := flat_split hi (by rfl) heq
  obtain ⟨t, hl, ht⟩ := chainSteps_init set
  have hst : stops b.body = true := by
    rw [hbody]
    rcases hk with rfl | rfl <;> simp [stops, hasCtl]
  have hb : Inner bs1 := fun z hz => hi z (by simp [hbs, hz])
  have hy : ∀ e ∈ y, e.inner = true := fun e he => hi b (by simp [hbs]) e (by simp [hbody, he])
  have hx : ∀ e ∈ x, e.inner = true := fun e he => hi b (by simp [hbs]) e (by simp [hbody, he])
  -- the block is not the Init block
  have hnot : b.id ≠ .init := by
    rw [hl] at hr
    have haux : ∀ {bs : List Block} {sk st f}, Runs t sk st bs f → ∀ b ∈ bs, b.id ≠ .init := by
      intro bs sk st f h b hb
      obtain ⟨s, hs, e⟩ := runs_ids h b hb
      rw [← e]; exact (ht s hs).2.1
    have first : ∀ z : Block, bs = [z] → z.id = .init → b.id ≠ .init := by
      intro z hz hzi
      rw [hbs] at hz
      cases bs1 with
      | nil =>
        simp only [List.nil_append, List.cons.injEq] at hz
        obtain ⟨rfl, rfl⟩ := hz
        exfalso
        obtain ⟨h, hh, hc⟩ := hch
        rw [hpre] at hh
        simp only [flat_nil, List.nil_append] at hh
        rw [show (Ev.start b.id b.d :: x) = [.start b.id b.d] ++ x from rfl, starts_append, starts_inner hx] at hh
        simp [starts] at hh
        rw [hh, hzi] at hc; simp [inChain] at hc
      | cons _ _ => simp at hz
    generalize (runSet env set c).2 = f at hr
    cases hr with
    | skip h1 => simp at h1
    | nil => simp at hbs
    | panic _ _ h3 => exact first _ rfl h3
    | err _ _ h3 => exact first _ rfl h3
    | stop _ _ h3 => exact first _ rfl h3
    | @next _ _ _ _ b0 bs0 _ _ _ h3 _ _ h6 =>
      cases bs1 with
      | nil =>
        simp only [List.nil_append, List.cons.injEq] at hbs
        obtain ⟨rfl, rfl⟩ := hbs
        exfalso
        obtain ⟨h, hh, hc⟩ := hch
        rw [hpre] at hh
        simp only [flat_nil, List.nil_append] at hh
        rw [show (Ev.start b0.id b0.d :: x) = [.start b0.id b0.d] ++ x from rfl, starts_append, starts_inner hx] at hh
        simp [starts] at hh
        rw [hh, h3] at hc; simp [inChain] at hc
      | cons z bs1 =>
        simp only [List.cons_append, List.cons.injEq] at hbs
        exact haux h6 b (by rw [hbs.2]; simp)
  have hbs2 : bs2 = [] := by
    refine hr.stopped bs1 bs2 b hbs ?_ hst
    intro s hs he
    rw [hl] at hs
    rcases List.mem_cons.1 hs with rfl | hs
    · exact absurd he.symm hnot
    · exact (ht s hs).1
  rw [hpost, hbs2, starts_append, starts_inner hy]
  simp [starts, flat]

/-- C19, the exception.  If Stop or Abort was called before the chain (in the session initialiser) or in
Init, at most one more handler after Init runs. -/
theorem C19_init (env : Env υ) (set : HSetV υ) (c : RCtx υ) :
    ∃ new, (runSet env set c).1.trace = c.trace ++ new ∧
      (c.isStopped = true → (starts new).length ≤ 2) ∧
      ∀ pre k post, (k = .stop ∨ k = .abort) → new = pre ++ .ctl k :: post → starts pre = [.init] →
        (starts post).length ≤ 1 := by
  obtain ⟨bs, hr, hi, hx, _⟩ := runSet_shape env set c
  obtain ⟨t, hl, ht⟩ := chainSteps_init set
  refine ⟨flat bs, hx.tr, ?_, ?_⟩
  · intro hst
    rw [starts_flat hi, List.length_map]
    rw [hl, hst] at hr
    generalize (runSet env set c).2 = f at hr
    cases hr with
    | skip h1 => simp at h1
    | nil => simp
    | panic => simp
    | err => simp
    | stop => simp
    | next _ _ _ _ _ h6 =>
      have := Runs.stoppedFrom (by simpa using h6) fun s hs => (ht s hs).1
      simp; omega
  · intro pre k post hk heq hpre1
    obtain ⟨bs1, b, bs2, x, y, hbs, hbody, hpre, hpost⟩ := flat_split hi (by rfl) heq
    have hb : Inner bs1 := fun z hz => hi z (by simp [hbs, hz])
    have hb2 : Inner bs2 := fun z hz => hi z (by simp [hbs, hz])
    have hy : ∀ e ∈ y, e.inner = true := fun e he => hi b (by simp [hbs]) e (by simp [hbody, he])
    have hst : stops b.body = true := by
      rw [hbody]
      rcases hk with rfl | rfl <;> simp [stops, hasCtl]
    have hbs1 : bs1 = [] := by
      rw [hpre, starts_append, starts_flat hb] at hpre1
      have hx0 : starts (Ev.start b.id b.d :: x) = b.id :: starts x := by simp [starts]
      rw [hx0] at hpre1
      have := congrArg List.length hpre1
      simp at this
      have h0 : bs1.length = 0 := by omega
      exact List.length_eq_zero_iff.1 h0
    have hlen : (starts post).length = bs2.length := by
      rw [hpost, starts_append, starts_inner hy, show (Ev.ret b.o b.d' :: flat bs2) = [.ret b.o b.d'] ++ flat bs2 from rfl,
        starts_append, starts_flat hb2]
      simp [starts]
    rw [hlen]
    subst hbs1
    simp only [List.nil_append] at hbs
    subst hbs
    rw [hl] at hr
    generalize (runSet env set c).2 = f at hr
    cases hr with
    | skip h1 => simp at h1
    | panic => simp
    | err => simp
    | stop => simp
    | next _ _ _ _ _ h6 =>
      rw [hst, Bool.or_true] at h6
      exact Runs.stoppedFrom h6 fun s hs => (ht s hs).1

/-! ### C20 -/

/-- C20.  The main handler does not run if SkipMain was called in Init, in a before handler or earlier;
and if the chain is neither stopped nor failing, exactly the handlers of the documented order run: the
main handler unless it was skipped, and all after handlers. -/
theorem C20_skipMain (env : Env υ) (set : HSetV υ) (c : RCtx υ) :
    ∃ new, (runSet env set c).1.trace = c.trace ++ new ∧
      ((c.skipped || called .skipMain (untilMain new)) = true → HId.main ∉ starts new) ∧
      ((runSet env set c).2 = .returned none → set.main.isSome = true →
        (∀ h ∈ set.before ++ set.after, h.isSome = true) → c.isStopped = false →
        Ev.ctl .stop ∉ new → Ev.ctl .abort ∉ new →
        starts new = chainOrder set.before.length set.after.length (c.skipped || called .skipMain (untilMain new))) := by
  obtain ⟨bs, hr, hi, hx, _⟩ := runSet_shape env set c
  refine ⟨flat bs, hx.tr, ?_⟩
  rw [starts_flat hi]
  rw [chainSteps_eq] at hr
  have hnm : HId.main ∉ (stepsA set).map (·.id) := by
    intro h; have := stepsA_notMain set _ h; simp [fromMain] at this
  rcases hr.split (stepsA_ns set) with ⟨h1, h2⟩ | ⟨b1, b2, rfl, h1, h2⟩
  · refine ⟨fun _ h => hnm (h1.subset h), ?_⟩
    intro hf hm hh hst hns hna
    exfalso
    have hsome : ∀ s ∈ stepsA set, s.h.isSome = true := by
      intro s hs
      simp only [stepsA, List.mem_cons] at hs
      rcases hs with rfl | hs
      · simpa using hm
      · exact hh _ (List.mem_append_left _ (listSteps_mem _ _ _ _ hs).2.2.2)
    rcases h2 hf hsome with h | h
    · rw [hst] at h; simp at h
    · simp only [List.any_eq_true] at h
      obtain ⟨b, hb, h⟩ := h
      simp only [stops, Bool.or_eq_true, hasCtl_iff] at h
      have hin : ∀ e ∈ b.body, e ∈ flat bs := by
        intro e he
        simp only [flat, List.mem_flatMap]
        exact ⟨b, hb, by simp [Block.evs, he]⟩
      rcases h with h | h
      · exact hns (hin _ h)
      · exact hna (hin _ h)
  · obtain ⟨h3, h4, h5⟩ := runs_main h2
    have hb1 : ∀ b ∈ b1, fromMain b.id = false :=
      fun b hb => stepsA_notMain set _ (by rw [← h1]; exact List.mem_map.2 ⟨b, hb, rfl⟩)
    rw [untilMain_flat (fun b hb => hi b (by simp [hb])) hb1 h4]
    rw [List.map_append, h1]
    constructor
    · intro hsk h
      rcases List.mem_append.1 h with h | h
      · exact hnm h
      · have := h3.subset h
        rw [called_eq] at hsk
        rw [hsk] at this
        simp at this
    · intro hf hm hh hst hns hna
      have hno : ∀ b ∈ b1 ++ b2, stops b.body = false := by
        intro b hb
        cases hs : stops b.body with
        | false => rfl
        | true =>
          exfalso
          simp only [stops, Bool.or_eq_true, hasCtl_iff] at hs
          have hin : ∀ e ∈ b.body, e ∈ flat (b1 ++ b2) := by
            intro e he
            simp only [flat, List.mem_flatMap]
            exact ⟨b, hb, by simp [Block.evs, he]⟩
          rcases hs with h | h
          · exact hns (hin _ h)
          · exact hna (hin _ h)
      have hst1 : stops (flat b1) = false := by
        simp only [stops, hasCtl_flat, Bool.or_eq_false_iff, List.any_eq_false]
        constructor <;> intro b hb <;> have := hno b (by simp [hb]) <;> simp [stops] at this <;> simp [this]
      have := h5 hf (by simp [hst, hst1]) hm (fun x hx => hh x (by simp [hx]))
        (by simp only [List.any_eq_false]; intro b hb; simp [hno b (by simp [hb])])
      rw [this, stepsA_id]
      simp [chainOrder, called_eq]

/-! ### Concrete runs (the hypotheses above are met by ordinary handlers) -/

namespace ChainEx

/-- A context as at the start of a request. -/
def c0 : RCtx Nat := newContext ⟨200, [], []⟩ 0 0

/-- Goroutine 1 fails with "g1", all others succeed; the scheduler runs a goroutine at every point. -/
def env : Env Nat := ⟨fun g c => (if g = 1 then some (.leaf 1 b!"g1") else none, c.store + 1), fun _ => [0], fun _ => false⟩

/-- A handler that makes some calls and then ends with `o`. -/
def does (name : Str) (ops : List (COp Nat)) (o : HOut) : Hdl Nat :=
  ⟨name, fun _ => ops.foldr (fun op p => .call op fun _ => p) (.ret o)⟩

def mainH (i r : List (COp Nat)) (o : HOut) : MainH Nat := ⟨b!"m", (does [] i .ok).run, (does [] r o).run⟩

/-- A handler that looks at the state and fails if the store is still 0. -/
def looks : Hdl Nat := ⟨b!"l", fun c => if c.store = 0 then .ret (.err (.leaf 7 b!"zero")) else .ret .ok⟩

def run (s : HSetV Nat) : List HId × Flow :=
  let r := runSet env s c0
  (starts r.1.trace, r.2)

-- everything runs; the goroutine started by b0 has changed the store when b1 looks at it
example : run ⟨[some (does b!"b0" [.go (.ret 0)] .ok), some looks], [some (does b!"a0" [] .ok)], none, some (mainH [] [] .ok)⟩
    = ([.init, .before 0, .before 1, .main, .after 0], .returned none) := by decide +kernel
-- C18: an error in the middle
example : run ⟨[some looks, some (does b!"b1" [] .ok)], [], none, some (mainH [] [] .ok)⟩
    = ([.init, .before 0], .returned (some (.leaf 7 b!"zero"))) := by decide +kernel
-- C19: Stop in a before handler; Stop in Init takes effect one handler later
example : run ⟨[some (does b!"b0" [.stop, .upd (· + 5)] .ok), some looks], [], none, some (mainH [] [] .ok)⟩
    = ([.init, .before 0], .returned none) := by decide +kernel
example : run ⟨[some (does b!"b0" [] .ok), some looks], [], none, some (mainH [.stop] [] .ok)⟩
    = ([.init, .before 0], .returned none) := by decide +kernel
-- C20: SkipMain in a before handler, and (too late) in the main handler
example : run ⟨[some (does b!"b0" [.skipMain] .ok)], [some (does b!"a0" [] .ok)], none, some (mainH [] [] .ok)⟩
    = ([.init, .before 0, .after 0], .returned none) := by decide +kernel
example : run ⟨[], [some (does b!"a0" [] .ok)], none, some (mainH [] [.skipMain] .ok)⟩
    = ([.init, .main, .after 0], .returned none) := by decide +kernel

end ChainEx

/-- C19's exception is real: with Stop called in Init, a before handler still runs. -/
theorem C19_init_witness : ∃ (env : Env Nat) (set : HSetV Nat) (c : RCtx Nat),
    starts (runSet env set c).1.trace = [.init, .before 0] ∧
    (runSet env set c).1.trace.filterMap (fun | .ctl k => some k | _ => none) = [.stop] ∧
    (runSet env { set with before := [] } c).1.trace.filterMap (fun | .ctl k => some k | _ => none) = [.stop] ∧
    starts (runSet env { set with before := [] } c).1.trace = [.init, .main] :=
  ⟨ChainEx.env, ⟨[some (ChainEx.does b!"b0" [] .ok)], [], none, some (ChainEx.mainH [.stop] [] .ok)⟩, ChainEx.c0,
    by decide +kernel⟩

end Verif
