import Verif.Spec.SetLocks
/-
C73, C74: requests and builder calls on the same handler set.
-/
namespace Verif
open Spec
variable {η : Type}

/-- The set after the first builder calls. -/
def setAfter (v : SetVal η) (calls : List (SetCall η)) : SetVal η := calls.foldl SetVal.apply v

/-- What a goroutine's position says. -/
def SPcOk (v : SetVal η) (s : SetLockSt η) : SetTask η → SPc η → Prop
  | .request, .idle => True
  | .request, .running n ran => n = s.hist.length ∧ ran <+: (setAfter v s.hist).chain
  | .request, .calling n ran _ => n = s.hist.length ∧ ran <+: (setAfter v s.hist).chain
  | .request, .waiting n ran _ => n = s.hist.length ∧ ran <+: (setAfter v s.hist).chain
  | .request, .between n ran full => n ≤ s.hist.length ∧ ran <+: (setAfter v (s.hist.take n)).chain ∧
      (full = true → ran = (setAfter v (s.hist.take n)).chain)
  | .request, .lasting n ran full m => n ≤ m ∧ m = s.hist.length ∧ ran <+: (setAfter v (s.hist.take n)).chain ∧
      (full = true → ran = (setAfter v (s.hist.take n)).chain)
  | .request, .lastCalling n ran full m _ => n ≤ m ∧ m = s.hist.length ∧ ran <+: (setAfter v (s.hist.take n)).chain ∧
      (full = true → ran = (setAfter v (s.hist.take n)).chain)
  | .request, .lastWaiting n ran full m _ => n ≤ m ∧ m = s.hist.length ∧ ran <+: (setAfter v (s.hist.take n)).chain ∧
      (full = true → ran = (setAfter v (s.hist.take n)).chain)
  | .request, .finished n ran full m last => n ≤ m ∧ m ≤ s.hist.length ∧
      ran <+: (setAfter v (s.hist.take n)).chain ∧
      (full = true → ran = (setAfter v (s.hist.take n)).chain) ∧ last = (setAfter v (s.hist.take m)).last
  | .build _, .idle => True
  | .build _, .announced => True
  | .build _, .written => True
  | .build _, .built => True
  | _, _ => False

structure SetLockInv (v : SetVal η) (tasks : List (SetTask η)) (s : SetLockSt η) : Prop where
  len : s.pcs.length = tasks.length
  set : s.set = setAfter v s.hist
  pcs : ∀ (i : Nat) (t : SetTask η) (p : SPc η), tasks[i]? = some t → s.pcs[i]? = some p → SPcOk v s t p

/-- A goroutine's position stays consistent when only other goroutines moved. -/
theorem SPcOk.grow {v : SetVal η} {s s' : SetLockSt η} {t : SetTask η} {p : SPc η} (h : SPcOk v s t p)
    (hr : p.holdsRead = false) (c : SetCall η) (hh : s'.hist = s.hist ++ [c]) : SPcOk v s' t p := by
  cases t with
  | build _ => cases p <;> first | exact h | exact h.elim
  | request =>
    cases p with
    | idle => trivial
    | between n ran full =>
      obtain ⟨h1, h2, h3⟩ := h
      simp only [SPcOk]
      rw [hh, List.take_append_of_le_length h1]
      exact ⟨by simp; omega, h2, h3⟩
    | finished n ran full m last =>
      obtain ⟨h1, h2, h3, h4, h5⟩ := h
      simp only [SPcOk]
      rw [hh, List.take_append_of_le_length (by omega), List.take_append_of_le_length (by omega)]
      exact ⟨h1, by simp; omega, h3, h4, h5⟩
    | running => simp [SPc.holdsRead] at hr
    | calling => simp [SPc.holdsRead] at hr
    | waiting => simp [SPc.holdsRead] at hr
    | lasting => simp [SPc.holdsRead] at hr
    | lastCalling => simp [SPc.holdsRead] at hr
    | lastWaiting => simp [SPc.holdsRead] at hr
    | announced => exact h.elim
    | written => exact h.elim
    | built => exact h.elim

theorem SPcOk.same {v : SetVal η} {s s' : SetLockSt η} {t : SetTask η} {p : SPc η} (h : SPcOk v s t p)
    (hh : s'.hist = s.hist) : SPcOk v s' t p := by
  cases t <;> cases p <;> simp only [SPcOk, hh] at h ⊢ <;> exact h

theorem setLock_goto_inv {v : SetVal η} {tasks : List (SetTask η)} {s : SetLockSt η} {i : Nat} {t : SetTask η} {p : SPc η}
    (h : SetLockInv v tasks s) (ht : tasks[i]? = some t) (hp : SPcOk v s t p) : SetLockInv v tasks (s.goto i p) := by
  refine ⟨by simpa [SetLockSt.goto] using h.len, h.set, ?_⟩
  intro j t' p' ht' hp'
  simp only [SetLockSt.goto, List.getElem?_set] at hp'
  split at hp'
  · next hij =>
    subst hij
    rw [ht] at ht'
    simp only [Option.some.injEq] at ht'
    subst ht'
    split at hp'
    · simp only [Option.some.injEq] at hp'
      subst hp'
      exact hp.same rfl
    · simp at hp'
  · exact (h.pcs j t' p' ht' hp').same rfl

theorem setLock_change_inv {v : SetVal η} {tasks : List (SetTask η)} {s : SetLockSt η} (c : SetCall η)
    (h : SetLockInv v tasks s) (hn : s.noReader = true) : SetLockInv v tasks (s.change c) := by
  refine ⟨h.len, by simp [SetLockSt.change, h.set, setAfter], ?_⟩
  intro j t p ht hp
  refine (h.pcs j t p ht hp).grow ?_ c rfl
  have := List.all_eq_true.1 hn p (List.mem_of_getElem? hp)
  simpa using this

theorem prefix_next {l c : List α} (h : l <+: c) {x : α} (hx : c[l.length]? = some x) : l ++ [x] <+: c := by
  obtain ⟨t, rfl⟩ := h
  rw [List.getElem?_append_right (Nat.le_refl _)] at hx
  cases t with
  | nil => simp at hx
  | cons y t => simp at hx; subst hx; exact ⟨t, by simp⟩

theorem prefix_full {l c : List α} (h : l <+: c) (hx : c[l.length]? = none) : l = c := by
  obtain ⟨t, rfl⟩ := h
  rw [List.getElem?_append_right (Nat.le_refl _)] at hx
  cases t with
  | nil => simp
  | cons y t => simp at hx

theorem not_noReader {s : SetLockSt η} {i : Nat} {p : SPc η} (hp : s.pcs[i]? = some p) (hr : p.holdsRead = true) :
    s.noReader = false := by
  cases hn : s.noReader with
  | false => rfl
  | true =>
    have := List.all_eq_true.1 hn p (List.mem_of_getElem? hp)
    simp [hr] at this

theorem not_noWriter {s : SetLockSt η} {i : Nat} {p : SPc η} (hp : s.pcs[i]? = some p) (hr : p.isWriter = true) :
    s.noWriter = false := by
  cases hn : s.noWriter with
  | false => rfl
  | true =>
    have := List.all_eq_true.1 hn p (List.mem_of_getElem? hp)
    simp [hr] at this

theorem setLockStep_inv (own : η → Option (SetCall η)) (v : SetVal η) (tasks : List (SetTask η)) (s s' : SetLockSt η)
    (i : Nat) (stop : Bool) (h : SetLockInv v tasks s) (hs : setLockStep own tasks s i stop = some s') :
    SetLockInv v tasks s' := by
  unfold setLockStep at hs
  cases ht : tasks[i]? with
  | none => rw [ht] at hs; simp at hs
  | some t =>
    cases hp : s.pcs[i]? with
    | none => rw [ht, hp] at hs; cases t <;> simp at hs
    | some p =>
      have hok := h.pcs i t p ht hp
      rw [ht, hp] at hs
      cases t with
      | request =>
        cases p with
        | idle =>
          simp only at hs
          split at hs
          · simp only [Option.some.injEq] at hs; subst hs
            exact setLock_goto_inv h ht ⟨rfl, List.nil_prefix⟩
          · simp at hs
        | running n ran =>
          obtain ⟨h1, h2⟩ := hok
          simp only at hs
          rw [h.set] at hs
          have hn : s.hist.take n = s.hist := by rw [h1]; exact List.take_length
          split at hs
          · next hx =>
            simp only [Option.some.injEq] at hs; subst hs
            refine setLock_goto_inv h ht ⟨by omega, ?_, fun _ => ?_⟩
            · rw [hn]; exact h2
            · rw [hn]; exact prefix_full h2 hx
          · next hc hx =>
            split at hs
            · simp only [Option.some.injEq] at hs; subst hs
              exact setLock_goto_inv h ht ⟨h1, prefix_next h2 hx⟩
            · split at hs
              · simp only [Option.some.injEq] at hs; subst hs
                refine setLock_goto_inv h ht ⟨by omega, ?_, fun hf => by simp at hf⟩
                rw [hn]; exact prefix_next h2 hx
              · simp only [Option.some.injEq] at hs; subst hs
                exact setLock_goto_inv h ht ⟨h1, prefix_next h2 hx⟩
        | calling n ran c =>
          simp only at hs
          split at hs
          · simp only [Option.some.injEq] at hs; subst hs
            exact setLock_goto_inv h ht hok
          · simp at hs
        | waiting n ran c =>
          simp only [not_noReader hp rfl] at hs
          simp at hs
        | between n ran full =>
          obtain ⟨h1, h2, h3⟩ := hok
          simp only at hs
          split at hs
          · simp only [Option.some.injEq] at hs; subst hs
            exact setLock_goto_inv h ht ⟨h1, rfl, h2, h3⟩
          · simp at hs
        | lasting n ran full m =>
          obtain ⟨h1, h2, h3, h4⟩ := hok
          simp only at hs
          split at hs
          · simp only [Option.some.injEq] at hs; subst hs
            exact setLock_goto_inv h ht ⟨h1, h2, h3, h4⟩
          · simp only [Option.some.injEq] at hs; subst hs
            refine setLock_goto_inv h ht ⟨h1, by omega, h3, h4, ?_⟩
            rw [h.set, h2, List.take_length]
        | lastCalling n ran full m c =>
          simp only at hs
          split at hs
          · simp only [Option.some.injEq] at hs; subst hs
            exact setLock_goto_inv h ht hok
          · simp at hs
        | lastWaiting n ran full m c =>
          simp only [not_noReader hp rfl] at hs
          simp at hs
        | finished n ran full m last => simp at hs
        | announced => exact hok.elim
        | written => exact hok.elim
        | built => exact hok.elim
      | build c =>
        cases p with
        | idle =>
          simp only at hs
          split at hs
          · simp only [Option.some.injEq] at hs; subst hs
            exact setLock_goto_inv h ht trivial
          · simp at hs
        | announced =>
          simp only at hs
          split at hs
          · next hn =>
            simp only [Option.some.injEq] at hs; subst hs
            exact setLock_goto_inv (setLock_change_inv c h hn) ht trivial
          · simp at hs
        | written =>
          simp only [Option.some.injEq] at hs; subst hs
          exact setLock_goto_inv h ht trivial
        | built => simp at hs
        | running n ran => exact hok.elim
        | calling n ran c => exact hok.elim
        | waiting n ran c => exact hok.elim
        | between n ran full => exact hok.elim
        | lasting n ran full m => exact hok.elim
        | lastCalling n ran full m c => exact hok.elim
        | lastWaiting n ran full m c => exact hok.elim
        | finished n ran full m last => exact hok.elim

theorem setLockInit_inv (v : SetVal η) (tasks : List (SetTask η)) : SetLockInv v tasks (setLockInit v tasks) := by
  refine ⟨by simp [setLockInit], rfl, ?_⟩
  intro i t p ht hp
  simp only [setLockInit, List.getElem?_map, ht, Option.map_some, Option.some.injEq] at hp
  subst hp
  cases t <;> trivial

theorem setLockFrom_inv (own : η → Option (SetCall η)) (v : SetVal η) (tasks : List (SetTask η))
    (sched : List (Nat × Bool)) : ∀ s, SetLockInv v tasks s → SetLockInv v tasks (setLockFrom own tasks s sched) := by
  induction sched with
  | nil => intro s h; exact h
  | cons x t ih =>
    intro s h
    refine ih _ ?_
    show SetLockInv v tasks ((setLockStep own tasks s x.1 x.2).getD s)
    cases hs : setLockStep own tasks s x.1 x.2 with
    | none => exact h
    | some s' => exact setLockStep_inv own v tasks s s' x.1 x.2 h hs

theorem setLockRun_inv (own : η → Option (SetCall η)) (v : SetVal η) (tasks : List (SetTask η))
    (sched : List (Nat × Bool)) : SetLockInv v tasks (setLockRun own v tasks sched) :=
  setLockFrom_inv own v tasks sched _ (setLockInit_inv v tasks)

theorem foldl_apply (v : SetVal η) (calls : List (SetCall η)) :
    setAfter v calls = ⟨v.before ++ givenBefore calls, v.after ++ givenAfter calls, lastOf v calls, mainOf v calls⟩ := by
  induction calls generalizing v with
  | nil => simp [setAfter, givenBefore, givenAfter, lastOf, mainOf]
  | cons c t ih =>
    show setAfter (v.apply c) t = _
    rw [ih]
    have hget : ∀ {β : Type} (x d : β) (l : List β), ((x :: l).getLast?).getD d = (l.getLast?).getD x := by
      intro β x d l
      rw [List.getLast?_cons]; rfl
    cases c <;> simp [SetVal.apply, givenBefore, givenAfter, lastOf, mainOf, hget]

theorem setAfter_chain (v : SetVal η) (calls : List (SetCall η)) : (setAfter v calls).chain = chainOf v calls := by
  rw [foldl_apply]; simp [SetVal.chain, chainOf]

theorem setAfter_last (v : SetVal η) (calls : List (SetCall η)) : (setAfter v calls).last = lastOf v calls := by
  rw [foldl_apply]

/-- **C73** A request sees one state of its handler set.  Whatever builder calls run at the same time and however the
goroutines are interleaved, when a request is over there is a moment (after the first `n` builder calls) such that the
handlers it ran are the first ones of the chain of the set as it was at that moment, all of them unless a handler ended
the chain; and the last handler is the one of the set as it was at some later moment. -/
theorem C73_snapshot (own : η → Option (SetCall η)) (v : SetVal η) (tasks : List (SetTask η)) (sched : List (Nat × Bool))
    (i n m : Nat) (ran : List (ChainCall η)) (full : Bool) (last : Option η)
    (h : (setLockRun own v tasks sched).pcs[i]? = some (.finished n ran full m last)) :
    let calls := (setLockRun own v tasks sched).hist
    n ≤ m ∧ m ≤ calls.length ∧
    ran <+: chainOf v (calls.take n) ∧ (full = true → ran = chainOf v (calls.take n)) ∧
    last = lastOf v (calls.take m) := by
  have hi := setLockRun_inv own v tasks sched
  have hl : i < tasks.length := by rw [← hi.len]; exact (List.getElem?_eq_some_iff.1 h).1
  have hok := hi.pcs i tasks[i] _ (List.getElem?_eq_getElem hl) h
  simp only [← setAfter_chain, ← setAfter_last]
  cases ht : tasks[i] with
  | request => rw [ht] at hok; exact hok
  | build c => rw [ht] at hok; exact hok.elim

/-- A builder call that has been made. -/
def SPc.past : SPc η → Bool
  | .written | .built => true
  | _ => false

theorem completed_set_same (tasks : List (SetTask η)) (pcs : List (SPc η)) (i : Nat) (p q : SPc η) (hp : pcs[i]? = some p)
    (hq : p.past = q.past) : completed tasks (pcs.set i q) = completed tasks pcs := by
  induction tasks generalizing pcs i with
  | nil => cases pcs <;> cases i <;> rfl
  | cons t ts ih =>
    cases pcs with
    | nil => simp at hp
    | cons r rs =>
      cases i with
      | zero =>
        simp only [List.getElem?_cons_zero, Option.some.injEq] at hp
        subst hp
        simp only [List.set_cons_zero]
        cases t <;> cases r <;> cases q <;> simp_all [completed, SPc.past]
      | succ i =>
        simp only [List.getElem?_cons_succ] at hp
        simp only [List.set_cons_succ]
        cases t <;> cases r <;> simp [completed, ih rs i hp]

theorem completed_set_new (tasks : List (SetTask η)) (pcs : List (SPc η)) (i : Nat) (p : SPc η) (c : SetCall η)
    (ht : tasks[i]? = some (.build c)) (hp : pcs[i]? = some p) (hq : p.past = false) :
    (completed tasks (pcs.set i .written)).Perm (completed tasks pcs ++ [c]) := by
  induction tasks generalizing pcs i with
  | nil => simp at ht
  | cons t ts ih =>
    cases pcs with
    | nil => simp at hp
    | cons r rs =>
      cases i with
      | zero =>
        simp only [List.getElem?_cons_zero, Option.some.injEq] at hp ht
        subst hp; subst ht
        simp only [List.set_cons_zero]
        have hr : completed (.build c :: ts) (r :: rs) = completed ts rs := by
          cases r <;> simp_all [completed, SPc.past]
        rw [hr]
        exact (List.perm_append_singleton c _).symm
      | succ i =>
        simp only [List.getElem?_cons_succ] at hp ht
        simp only [List.set_cons_succ]
        have := ih rs i ht hp
        cases t <;> cases r <;> first | exact this | exact this.cons _

theorem completed_init (tasks : List (SetTask η)) : completed tasks (tasks.map fun _ => SPc.idle) = [] := by
  induction tasks with
  | nil => rfl
  | cons t ts ih => cases t <;> simpa [completed] using ih

theorem setLockStep_hist (own : η → Option (SetCall η)) (v : SetVal η) (tasks : List (SetTask η)) (s s' : SetLockSt η)
    (i : Nat) (stop : Bool) (h : SetLockInv v tasks s) (hh : s.hist.Perm (completed tasks s.pcs))
    (hs : setLockStep own tasks s i stop = some s') : s'.hist.Perm (completed tasks s'.pcs) := by
  have same : ∀ p q : SPc η, s.pcs[i]? = some p → p.past = q.past →
      (s.goto i q).hist.Perm (completed tasks (s.goto i q).pcs) := by
    intro p q hp hq
    show s.hist.Perm (completed tasks (s.pcs.set i q))
    rw [completed_set_same tasks s.pcs i p q hp hq]
    exact hh
  unfold setLockStep at hs
  cases ht : tasks[i]? with
  | none => rw [ht] at hs; simp at hs
  | some t =>
    cases hp : s.pcs[i]? with
    | none => rw [ht, hp] at hs; cases t <;> simp at hs
    | some p =>
      have hok := h.pcs i t p ht hp
      rw [ht, hp] at hs
      cases t with
      | request =>
        cases p with
        | waiting n ran c => simp only [not_noReader hp rfl] at hs; simp at hs
        | lastWaiting n ran full m c => simp only [not_noReader hp rfl] at hs; simp at hs
        | announced | written | built => exact hok.elim
        | _ =>
          simp only at hs
          repeat' split at hs
          all_goals first
            | (simp only [Option.some.injEq] at hs; subst hs; exact same _ _ hp rfl)
            | simp at hs
      | build c =>
        cases p with
        | announced =>
          simp only at hs
          split at hs
          · simp only [Option.some.injEq] at hs; subst hs
            show (s.hist ++ [c]).Perm (completed tasks (s.pcs.set i .written))
            exact (hh.append_right [c]).trans (completed_set_new tasks s.pcs i _ c ht hp rfl).symm
          · simp at hs
        | idle =>
          simp only at hs
          split at hs
          · simp only [Option.some.injEq] at hs; subst hs; exact same _ _ hp rfl
          · simp at hs
        | written => simp only [Option.some.injEq] at hs; subst hs; exact same _ _ hp rfl
        | built => simp at hs
        | _ => exact hok.elim

/-- **C73** Builder calls take effect one after the other, each exactly once: at every moment the calls that have taken
effect are, in some order, those of the goroutines past their change, and the contents of the set are what these calls
make of it in that order. -/
theorem C73_calls (own : η → Option (SetCall η)) (v : SetVal η) (tasks : List (SetTask η)) (sched : List (Nat × Bool)) :
    let s := setLockRun own v tasks sched
    s.hist.Perm (completed tasks s.pcs) ∧
    s.set = ⟨v.before ++ givenBefore s.hist, v.after ++ givenAfter s.hist, lastOf v s.hist, mainOf v s.hist⟩ := by
  have key : ∀ (sch : List (Nat × Bool)) (s : SetLockSt η), SetLockInv v tasks s → s.hist.Perm (completed tasks s.pcs) →
      (setLockFrom own tasks s sch).hist.Perm (completed tasks (setLockFrom own tasks s sch).pcs) := by
    intro sch
    induction sch with
    | nil => intro s _ h; exact h
    | cons x t ih =>
      intro s hi h
      cases hs : setLockStep own tasks s x.1 x.2 with
      | none =>
        have hfold : setLockFrom own tasks s (x :: t) = setLockFrom own tasks s t := by simp [setLockFrom, hs]
        rw [hfold]; exact ih s hi h
      | some s' =>
        have hfold : setLockFrom own tasks s (x :: t) = setLockFrom own tasks s' t := by simp [setLockFrom, hs]
        rw [hfold]
        exact ih s' (setLockStep_inv own v tasks s s' x.1 x.2 hi hs) (setLockStep_hist own v tasks s s' x.1 x.2 hi h hs)
  refine ⟨key sched _ (setLockInit_inv v tasks) ?_, ?_⟩
  · show ([] : List (SetCall η)).Perm (completed tasks (tasks.map fun _ => SPc.idle))
    rw [completed_init]
  · exact (setLockRun_inv own v tasks sched).set.trans (foldl_apply v _)

/-- A goroutine is over. -/
def SPc.over {η : Type} : SPc η → Prop
  | .finished .. => True
  | .built => True
  | _ => False

theorem noWriter_of_forall {s : SetLockSt η} (h : ∀ p ∈ s.pcs, p.isWriter = false) : s.noWriter = true := by
  unfold SetLockSt.noWriter
  rw [List.all_eq_true]
  intro p hp; simp [h p hp]

theorem noReader_of_forall {s : SetLockSt η} (h : ∀ p ∈ s.pcs, p.holdsRead = false) : s.noReader = true := by
  unfold SetLockSt.noReader
  rw [List.all_eq_true]
  intro p hp; simp [h p hp]

/-- No position is inside a builder call made by a handler. -/
def SPc.outside {η : Type} : SPc η → Prop
  | .calling .. => False
  | .waiting .. => False
  | .lastCalling .. => False
  | .lastWaiting .. => False
  | _ => True

theorem setLockStep_outside (own : η → Option (SetCall η)) (hown : ∀ h, own h = none) (tasks : List (SetTask η))
    (s s' : SetLockSt η) (i : Nat) (stop : Bool) (h : ∀ p ∈ s.pcs, p.outside)
    (hs : setLockStep own tasks s i stop = some s') : ∀ p ∈ s'.pcs, p.outside := by
  have key : ∀ (s0 : SetLockSt η) (q : SPc η), (∀ p ∈ s0.pcs, p.outside) → q.outside → ∀ p ∈ (s0.goto i q).pcs, p.outside := by
    intro s0 q h0 hq p hp
    rcases List.mem_or_eq_of_mem_set hp with hp | rfl
    · exact h0 p hp
    · exact hq
  have hlast : s.set.last.bind own = none := by cases s.set.last <;> simp [hown]
  unfold setLockStep at hs
  simp only [hown, hlast] at hs
  repeat' split at hs
  all_goals first
    | (simp at hs; done)
    | (simp only [Option.some.injEq] at hs; subst hs; exact key _ _ h trivial)
    | skip
  all_goals
    rename_i hq _
    exact absurd (h _ (List.mem_of_getElem? hq)) id

/-- **C74 (progress)** If no handler calls a builder method of the set it runs in, requests and builder calls never
block each other for ever: as long as a goroutine is not over, some goroutine can move. -/
theorem C74_progress_partial (own : η → Option (SetCall η)) (hown : ∀ h, own h = none) (v : SetVal η)
    (tasks : List (SetTask η)) (sched : List (Nat × Bool)) (i : Nat) (p : SPc η)
    (hp : (setLockRun own v tasks sched).pcs[i]? = some p) (hover : ¬ p.over) :
    ∃ j, (setLockStep own tasks (setLockRun own v tasks sched) j false).isSome := by
  have hout : ∀ (sch : List (Nat × Bool)) (s : SetLockSt η), (∀ p ∈ s.pcs, p.outside) →
      ∀ p ∈ (setLockFrom own tasks s sch).pcs, p.outside := by
    intro sch
    induction sch with
    | nil => intro s h; exact h
    | cons x t ih =>
      intro s h
      refine ih _ ?_
      show ∀ p ∈ ((setLockStep own tasks s x.1 x.2).getD s).pcs, p.outside
      cases hs : setLockStep own tasks s x.1 x.2 with
      | none => exact h
      | some s' => exact setLockStep_outside own hown tasks s s' x.1 x.2 h hs
  have ho : ∀ p ∈ (setLockRun own v tasks sched).pcs, p.outside := by
    refine hout sched _ ?_
    intro p hp
    simp only [setLockInit, List.mem_map] at hp
    obtain ⟨t, _, rfl⟩ := hp
    trivial
  have hi := setLockRun_inv own v tasks sched
  generalize setLockRun own v tasks sched = s at *
  have htask : ∀ (j : Nat) (q : SPc η), s.pcs[j]? = some q → ∃ t, tasks[j]? = some t ∧ SPcOk v s t q := by
    intro j q hq
    have hl : j < tasks.length := by rw [← hi.len]; exact (List.getElem?_eq_some_iff.1 hq).1
    exact ⟨tasks[j], List.getElem?_eq_getElem hl, hi.pcs j _ q (List.getElem?_eq_getElem hl) hq⟩
  -- a reader can always go on
  by_cases hr : ∃ q ∈ s.pcs, q.holdsRead = true
  · obtain ⟨q, hq, hqr⟩ := hr
    obtain ⟨j, hj⟩ := List.getElem?_of_mem hq
    obtain ⟨t, ht, hok⟩ := htask j q hj
    refine ⟨j, ?_⟩
    cases t with
    | build c => cases q <;> simp_all [SPcOk, SPc.holdsRead]
    | request =>
      cases q <;> simp_all [SPcOk, SPc.holdsRead]
      · simp only [setLockStep, ht, hj, hown]
        split <;> simp
      · exact (ho _ hq).elim
      · exact (ho _ hq).elim
      · have hlast : s.set.last.bind own = none := by cases s.set.last <;> simp [hown]
        simp [setLockStep, ht, hj, hlast]
      · exact (ho _ hq).elim
      · exact (ho _ hq).elim
  · have hnr : s.noReader = true := noReader_of_forall (fun q hq => by
      cases h : q.holdsRead with
      | false => rfl
      | true => exact absurd ⟨q, hq, h⟩ hr)
    by_cases hw : ∃ q ∈ s.pcs, q.isWriter = true
    · obtain ⟨q, hq, hqr⟩ := hw
      obtain ⟨j, hj⟩ := List.getElem?_of_mem hq
      obtain ⟨t, ht, hok⟩ := htask j q hj
      refine ⟨j, ?_⟩
      cases t with
      | request =>
        cases q <;> simp_all [SPcOk, SPc.isWriter]
        · exact (ho _ hq).elim
        · exact (ho _ hq).elim
      | build c =>
        cases q <;> simp_all [SPcOk, SPc.isWriter]
        · simp [setLockStep, ht, hj, hnr]
        · simp [setLockStep, ht, hj]
    · have hnw : s.noWriter = true := noWriter_of_forall (fun q hq => by
        cases h : q.isWriter with
        | false => rfl
        | true => exact absurd ⟨q, hq, h⟩ hw)
      obtain ⟨t, ht, hok⟩ := htask i p hp
      refine ⟨i, ?_⟩
      have hpr : p.holdsRead = false := by
        cases h : p.holdsRead with
        | false => rfl
        | true => exact absurd ⟨p, List.mem_of_getElem? hp, h⟩ hr
      have hpw : p.isWriter = false := by
        cases h : p.isWriter with
        | false => rfl
        | true => exact absurd ⟨p, List.mem_of_getElem? hp, h⟩ hw
      clear hr hw hout ho htask hi hown
      cases t with
      | request =>
        cases p with
        | idle => simp [setLockStep, ht, hp, hnw]
        | between n ran full => simp [setLockStep, ht, hp, hnw]
        | finished => exact absurd trivial hover
        | announced | written | built => exact hok.elim
        | _ => simp [SPc.holdsRead] at hpr
      | build c =>
        cases p with
        | idle => simp [setLockStep, ht, hp, hnw]
        | announced | written => simp [SPc.isWriter] at hpw
        | built => exact absurd trivial hover
        | _ => exact hok.elim

/-- Inside a builder call made by a handler of the chain. -/
def SPc.inCall {η : Type} : SPc η → Prop
  | .calling .. => True
  | .waiting .. => True
  | .lastCalling .. => True
  | .lastWaiting .. => True
  | _ => False

theorem setLockStep_stuck (own : η → Option (SetCall η)) (tasks : List (SetTask η)) (s s' : SetLockSt η) (i j : Nat)
    (stop : Bool) (p : SPc η) (hp : s.pcs[i]? = some p) (hc : p.inCall)
    (hs : setLockStep own tasks s j stop = some s') :
    s'.hist = s.hist ∧ s'.set = s.set ∧ (∃ p', s'.pcs[i]? = some p' ∧ p'.inCall) ∧
    (p.isWriter = true → s'.pcs[i]? = some p ∧ ∀ k : Nat, s.pcs[k]? = some .idle → s'.pcs[k]? = some .idle) := by
  have hr : p.holdsRead = true := by cases p <;> simp_all [SPc.inCall, SPc.holdsRead]
  have hnr := not_noReader hp hr
  have hi : i < s.pcs.length := (List.getElem?_eq_some_iff.1 hp).1
  have goto_ne : ∀ q : SPc η, j ≠ i → (s.goto j q).pcs[i]? = some p := by
    intro q hji
    simp [SetLockSt.goto, List.getElem?_set, hji, hp]
  have idle_ne : ∀ q : SPc η, s.pcs[j]? ≠ some .idle → ∀ k : Nat, s.pcs[k]? = some .idle → (s.goto j q).pcs[k]? = some .idle := by
    intro q hj k hk
    have : j ≠ k := by rintro rfl; exact hj hk
    simp [SetLockSt.goto, List.getElem?_set, this, hk]
  unfold setLockStep at hs
  by_cases hji : j = i
  · subst hji
    rw [hp] at hs
    cases ht : tasks[j]? with
    | none => rw [ht] at hs; simp at hs
    | some t =>
      rw [ht] at hs
      cases t with
      | build c => cases p <;> simp_all [SPc.inCall]
      | request =>
        cases p with
        | calling n ran c =>
          simp only at hs
          split at hs
          · simp only [Option.some.injEq] at hs; subst hs
            refine ⟨rfl, rfl, ⟨.waiting n ran c, by simp [SetLockSt.goto, List.getElem?_set, hi], trivial⟩, ?_⟩
            intro hw; simp [SPc.isWriter] at hw
          · simp at hs
        | waiting n ran c => simp [hnr] at hs
        | lastCalling n ran full m c =>
          simp only at hs
          split at hs
          · simp only [Option.some.injEq] at hs; subst hs
            refine ⟨rfl, rfl, ⟨.lastWaiting n ran full m c, by simp [SetLockSt.goto, List.getElem?_set, hi], trivial⟩, ?_⟩
            intro hw; simp [SPc.isWriter] at hw
          · simp at hs
        | lastWaiting n ran full m c => simp [hnr] at hs
        | _ => exact hc.elim
  · cases ht : tasks[j]? with
    | none => rw [ht] at hs; simp at hs
    | some t =>
      cases hq : s.pcs[j]? with
      | none => rw [ht, hq] at hs; cases t <;> simp at hs
      | some q =>
        rw [ht, hq] at hs
        have fin : ∀ q' : SPc η, (p.isWriter = true → q ≠ .idle) → s' = s.goto j q' →
            s'.hist = s.hist ∧ s'.set = s.set ∧ (∃ p', s'.pcs[i]? = some p' ∧ p'.inCall) ∧
            (p.isWriter = true → s'.pcs[i]? = some p ∧ ∀ k : Nat, s.pcs[k]? = some .idle → s'.pcs[k]? = some .idle) := by
          rintro q' hidle rfl
          exact ⟨rfl, rfl, ⟨p, goto_ne q' hji, hc⟩, fun hw => ⟨goto_ne q' hji, idle_ne q' (by
            rw [hq]; intro hx; exact hidle hw (Option.some.inj hx))⟩⟩
        have nw : s.noWriter = true → p.isWriter = true → q ≠ SPc.idle := by
          intro h1 h2; rw [not_noWriter hp h2] at h1; simp at h1
        cases t with
        | request =>
          cases q with
          | running n ran =>
            simp only at hs
            repeat' split at hs
            all_goals
              simp only [Option.some.injEq] at hs
              exact fin _ (by simp) hs.symm
          | idle =>
            simp only at hs
            split at hs
            · next h => simp only [Option.some.injEq] at hs; exact fin _ (nw h) hs.symm
            · simp at hs
          | calling n ran c =>
            simp only at hs
            split at hs
            · next h => simp only [Option.some.injEq] at hs; exact fin _ (nw h) hs.symm
            · simp at hs
          | waiting n ran c => simp [hnr] at hs
          | between n ran full =>
            simp only at hs
            split at hs
            · next h => simp only [Option.some.injEq] at hs; exact fin _ (nw h) hs.symm
            · simp at hs
          | lasting n ran full m =>
            simp only at hs
            split at hs <;> (simp only [Option.some.injEq] at hs; exact fin _ (by simp) hs.symm)
          | lastCalling n ran full m c =>
            simp only at hs
            split at hs
            · next h => simp only [Option.some.injEq] at hs; exact fin _ (nw h) hs.symm
            · simp at hs
          | lastWaiting n ran full m c => simp [hnr] at hs
          | finished n ran full m last => simp at hs
          | announced => simp at hs
          | written => simp at hs
          | built => simp at hs
        | build c =>
          cases q with
          | idle =>
            simp only at hs
            split at hs
            · next h => simp only [Option.some.injEq] at hs; exact fin _ (nw h) hs.symm
            · simp at hs
          | announced => simp [hnr] at hs
          | written => simp only [Option.some.injEq] at hs; exact fin _ (by simp) hs.symm
          | _ => simp at hs

/-- **C74 (violated)** If a handler calls a builder method (or Clone) of the set it is running in, that call never
returns: whatever happens afterwards, the request stays inside the handler and no builder call on the set, by
anybody, ever completes; and once the call has been announced no further request on the set begins. -/
theorem C74_self_deadlock (own : η → Option (SetCall η)) (tasks : List (SetTask η)) (i : Nat) (sched : List (Nat × Bool)) :
    ∀ (s : SetLockSt η) (p : SPc η), s.pcs[i]? = some p → p.inCall →
    (setLockFrom own tasks s sched).hist = s.hist ∧
    (∃ p', (setLockFrom own tasks s sched).pcs[i]? = some p' ∧ p'.inCall) ∧
    (p.isWriter = true → ∀ k : Nat, s.pcs[k]? = some .idle → (setLockFrom own tasks s sched).pcs[k]? = some .idle) := by
  induction sched with
  | nil => intro s p hp hc; exact ⟨rfl, ⟨p, hp, hc⟩, fun _ k hk => hk⟩
  | cons x t ih =>
    intro s p hp hc
    cases hs : setLockStep own tasks s x.1 x.2 with
    | none =>
      have hfold : setLockFrom own tasks s (x :: t) = setLockFrom own tasks s t := by simp [setLockFrom, hs]
      rw [hfold]
      exact ih s p hp hc
    | some s' =>
      have hfold : setLockFrom own tasks s (x :: t) = setLockFrom own tasks s' t := by simp [setLockFrom, hs]
      rw [hfold]
      obtain ⟨h1, -, ⟨p', hp', hc'⟩, h4⟩ := setLockStep_stuck own tasks s s' i x.1 x.2 p hp hc hs
      obtain ⟨k1, k2, -⟩ := ih s' p' hp' hc'
      refine ⟨k1.trans h1, k2, ?_⟩
      intro hw k hk
      obtain ⟨h5, h6⟩ := h4 hw
      exact (ih s' p h5 hc).2.2 hw k (h6 k hk)

/-! ### Concrete cases -/

def exSet : SetVal Nat := ⟨[1, 2], [3], some 9, 0⟩

/-- Two requests and two builder calls; the second request begins after `Before(5)` is complete. -/
example : (setLockRun (fun _ => none) exSet [.request, .build (.before [5]), .request, .build (.last (some 7))]
    ([(0, false), (0, false), (1, false)] ++ List.replicate 8 (0, false) ++
      [(1, false), (1, false), (2, false), (3, false)] ++ List.replicate 8 (2, false) ++
      [(3, false), (3, false), (2, false), (2, false), (0, false), (0, false)])).pcs =
    [.finished 0 [.init 0, .run 1, .run 2, .run 0, .run 3] true 2 (some 7), .built,
     .finished 1 [.init 0, .run 1, .run 2, .run 5, .run 0, .run 3] true 2 (some 7), .built] := by decide +kernel

/-- Handler 2 calls `Before` on its own set. -/
def exOwn : Nat → Option (SetCall Nat) := fun h => if h = 2 then some (.before [4]) else none

/-- The self-deadlock is reachable, and the second request cannot begin. -/
theorem C74_violated : (setLockRun exOwn exSet [.request, .request] (List.replicate 5 (0, false))).pcs =
      [.waiting 0 [.init 0, .run 1, .run 2] (.before [4]), .idle] ∧
    ∀ sched, ∃ p, (setLockFrom exOwn [.request, .request]
        (setLockRun exOwn exSet [.request, .request] (List.replicate 5 (0, false))) sched).pcs[0]? = some p ∧ p.inCall ∧
      (setLockFrom exOwn [.request, .request]
        (setLockRun exOwn exSet [.request, .request] (List.replicate 5 (0, false))) sched).pcs[1]? = some .idle := by
  have h : (setLockRun exOwn exSet [.request, .request] (List.replicate 5 (0, false))).pcs =
      [.waiting 0 [.init 0, .run 1, .run 2] (.before [4]), .idle] := by decide +kernel
  refine ⟨h, fun sched => ?_⟩
  obtain ⟨-, ⟨p, h2, h3⟩, h4⟩ := C74_self_deadlock exOwn [.request, .request] 0 sched
    (setLockRun exOwn exSet [.request, .request] (List.replicate 5 (0, false)))
    (.waiting 0 [.init 0, .run 1, .run 2] (.before [4])) (by rw [h]; rfl) trivial
  exact ⟨p, h2, h3, h4 rfl 1 (by rw [h]; rfl)⟩

end Verif
