import Verif.Model.Locks
/-
C46: lookups and registrations running at the same time.
-/
namespace Verif

section
variable {σ : Type}

/-- What a goroutine's position says about the lock. -/
def PcOk (s : LockSt σ) (i : Nat) : Task σ → LPc σ → Prop
  | .add _, .idle => s.writer ≠ some i ∧ i ∉ s.readers
  | .add _, .writing => s.writer = some i ∧ i ∉ s.readers
  | .add _, .written => s.writer = some i ∧ i ∉ s.readers
  | .add _, .done _ none => s.writer ≠ some i ∧ i ∉ s.readers
  | .add _, _ => False
  | .findRoot _, .idle => s.writer ≠ some i ∧ i ∉ s.readers
  | .findRoot _, .reading n => s.writer ≠ some i ∧ i ∈ s.readers ∧ n = s.hist.length
  | .findRoot m, .hasRead n r => s.writer ≠ some i ∧ i ∈ s.readers ∧ n = s.hist.length ∧
      r = treeFind (treeOf (s.hist.take n)) m b!"/" []
  | .findRoot m, .done n (some r) => s.writer ≠ some i ∧ i ∉ s.readers ∧ n ≤ s.hist.length ∧
      r = treeFind (treeOf (s.hist.take n)) m b!"/" []
  | .findRoot _, _ => False
  | .findDeep _ _, .idle => s.writer ≠ some i ∧ i ∉ s.readers
  | .findDeep _ _, .reading _ => s.writer ≠ some i ∧ i ∉ s.readers
  | .findDeep _ _, .done _ (some _) => s.writer ≠ some i ∧ i ∉ s.readers
  | .findDeep _ _, _ => False

/-- The invariant of every interleaving. -/
structure LockInv (tasks : List (Task σ)) (s : LockSt σ) : Prop where
  len : s.pcs.length = tasks.length
  tree : s.tree = treeOf s.hist
  nodup : s.readers.Nodup
  excl : s.writer ≠ none → s.readers = []
  mem : ∀ i ∈ s.readers, i < tasks.length
  own : ∀ i, s.writer = some i → i < tasks.length
  pcs : ∀ (i : Nat) (t : Task σ) (p : LPc σ), tasks[i]? = some t → s.pcs[i]? = some p → PcOk s i t p

theorem treeOf_snoc (hist : List (Reg σ)) (r : Reg σ) :
    treeOf (hist ++ [r]) = treeAdd (treeOf hist) r.method r.route (some r.set) := by
  simp [treeOf]

/-- A goroutine other than the one that moved stays consistent if the lock facts about it and the history it may
have seen are unchanged. -/
theorem PcOk.keep {s s' : LockSt σ} {i : Nat} {t : Task σ} {p : LPc σ} (h : PcOk s i t p)
    (hw : s'.writer = some i ↔ s.writer = some i) (hr : i ∈ s'.readers ↔ i ∈ s.readers)
    (hh : s'.hist = s.hist ∨ (i ∉ s.readers ∧ ∃ r, s'.hist = s.hist ++ [r])) : PcOk s' i t p := by
  have hw' : s'.writer ≠ some i ↔ s.writer ≠ some i := not_congr hw
  have hr' : i ∉ s'.readers ↔ i ∉ s.readers := not_congr hr
  cases t with
  | add r =>
    cases p with
    | idle => exact ⟨hw'.2 h.1, hr'.2 h.2⟩
    | writing => exact ⟨hw.2 h.1, hr'.2 h.2⟩
    | written => exact ⟨hw.2 h.1, hr'.2 h.2⟩
    | reading n => exact h.elim
    | hasRead n r => exact h.elim
    | done n res => cases res with
      | none => exact ⟨hw'.2 h.1, hr'.2 h.2⟩
      | some r => exact h.elim
  | findRoot m =>
    cases p with
    | idle => exact ⟨hw'.2 h.1, hr'.2 h.2⟩
    | writing => exact h.elim
    | written => exact h.elim
    | reading n =>
      obtain ⟨h1, h2, h3⟩ := h
      rcases hh with hh | ⟨hn, -⟩
      · exact ⟨hw'.2 h1, hr.2 h2, by rw [hh]; exact h3⟩
      · exact absurd h2 hn
    | hasRead n r =>
      obtain ⟨h1, h2, h3, h4⟩ := h
      rcases hh with hh | ⟨hn, -⟩
      · exact ⟨hw'.2 h1, hr.2 h2, by rw [hh]; exact h3, by rw [hh]; exact h4⟩
      · exact absurd h2 hn
    | done n res => cases res with
      | none => exact h.elim
      | some r =>
        obtain ⟨h1, h2, h3, h4⟩ := h
        refine ⟨hw'.2 h1, hr'.2 h2, ?_⟩
        rcases hh with hh | ⟨-, x, hh⟩
        · rw [hh]; exact ⟨h3, h4⟩
        · rw [hh, List.take_append_of_le_length h3]
          exact ⟨by simp; omega, h4⟩
  | findDeep m path =>
    cases p with
    | idle => exact ⟨hw'.2 h.1, hr'.2 h.2⟩
    | writing => exact h.elim
    | written => exact h.elim
    | reading n => exact ⟨hw'.2 h.1, hr'.2 h.2⟩
    | hasRead n r => exact h.elim
    | done n res => cases res with
      | none => exact h.elim
      | some r => exact ⟨hw'.2 h.1, hr'.2 h.2⟩

theorem pcs_set (tasks : List (Task σ)) (s s' : LockSt σ) (i : Nat) (t : Task σ) (p q : LPc σ)
    (ht : tasks[i]? = some t) (hp : s.pcs[i]? = some p) (hq : s'.pcs = s.pcs.set i q) (hiq : PcOk s' i t q)
    (ho : ∀ j, j ≠ i → ∀ t' p', tasks[j]? = some t' → s.pcs[j]? = some p' → PcOk s' j t' p') :
    ∀ (j : Nat) (t' : Task σ) (p' : LPc σ), tasks[j]? = some t' → s'.pcs[j]? = some p' → PcOk s' j t' p' := by
  intro j t' p' ht' hp'
  by_cases hji : j = i
  · subst hji
    rw [ht] at ht'
    simp only [Option.some.injEq] at ht'
    subst ht'
    rw [hq, List.getElem?_set] at hp'
    simp only [if_true, (List.getElem?_eq_some_iff.1 hp).1, Option.some.injEq] at hp'
    subst hp'
    exact hiq
  · rw [hq, List.getElem?_set, if_neg (Ne.symm hji)] at hp'
    exact ho j hji t' p' ht' hp'

theorem lockStep_inv (tasks : List (Task σ)) (s s' : LockSt σ) (i : Nat) (h : LockInv tasks s)
    (hs : lockStep tasks s i = some s') : LockInv tasks s' := by
  unfold lockStep at hs
  cases ht : tasks[i]? with
  | none => rw [ht] at hs; simp at hs
  | some t =>
    have hit : i < tasks.length := (List.getElem?_eq_some_iff.1 ht).1
    cases hp : s.pcs[i]? with
    | none => rw [ht, hp] at hs; simp at hs
    | some p =>
      have hok := h.pcs i t p ht hp
      rw [ht, hp] at hs
      cases t with
      | add r =>
        cases p with
        | idle =>
          simp only at hs
          split at hs
          · next hc =>
            simp only [Option.some.injEq] at hs
            subst hs
            refine ⟨by simpa using h.len, h.tree, h.nodup, fun _ => hc.2, h.mem, ?_, ?_⟩
            · intro j hj; simp only [Option.some.injEq] at hj; exact hj ▸ hit
            · refine pcs_set tasks s _ i _ _ .writing ht hp rfl ⟨rfl, hok.2⟩ ?_
              intro j hji t' p' ht' hp'
              refine (h.pcs j t' p' ht' hp').keep ?_ Iff.rfl (Or.inl rfl)
              simp [hc.1, Ne.symm hji]
          · simp at hs
        | writing =>
          simp only [Option.some.injEq] at hs
          subst hs
          refine ⟨by simpa using h.len, ?_, h.nodup, h.excl, h.mem, h.own, ?_⟩
          · rw [treeOf_snoc]; exact congrArg (treeAdd · _ _ _) h.tree
          · refine pcs_set tasks s _ i _ _ .written ht hp rfl ⟨hok.1, hok.2⟩ ?_
            intro j hji t' p' ht' hp'
            refine (h.pcs j t' p' ht' hp').keep Iff.rfl Iff.rfl (Or.inr ⟨?_, r, rfl⟩)
            rw [h.excl (by rw [hok.1]; simp)]; simp
        | written =>
          simp only [Option.some.injEq] at hs
          subst hs
          refine ⟨by simpa using h.len, h.tree, h.nodup, fun hn => absurd rfl hn, h.mem, by simp, ?_⟩
          refine pcs_set tasks s _ i _ _ (.done s.hist.length none) ht hp rfl ⟨by simp, hok.2⟩ ?_
          intro j hji t' p' ht' hp'
          refine (h.pcs j t' p' ht' hp').keep ?_ Iff.rfl (Or.inl rfl)
          rw [hok.1]; simp [Ne.symm hji]
        | reading n => exact hok.elim
        | hasRead n r => exact hok.elim
        | done n r => simp at hs
      | findRoot m =>
        cases p with
        | idle =>
          simp only at hs
          split at hs
          · next hc =>
            simp only [Option.some.injEq] at hs
            subst hs
            refine ⟨by simpa using h.len, h.tree, List.nodup_cons.2 ⟨hok.2, h.nodup⟩, fun hn => absurd hc hn, ?_, h.own, ?_⟩
            · intro j hj
              rcases List.mem_cons.1 hj with rfl | hj
              · exact hit
              · exact h.mem j hj
            · refine pcs_set tasks s _ i _ _ (.reading s.hist.length) ht hp rfl ⟨hok.1, by simp, rfl⟩ ?_
              intro j hji t' p' ht' hp'
              refine (h.pcs j t' p' ht' hp').keep Iff.rfl ?_ (Or.inl rfl)
              simp [hji]
          · simp at hs
        | writing => exact hok.elim
        | written => exact hok.elim
        | reading n =>
          simp only [Option.some.injEq] at hs
          subst hs
          obtain ⟨h1, h2, h3⟩ := hok
          refine ⟨by simpa using h.len, h.tree, h.nodup, h.excl, h.mem, h.own, ?_⟩
          refine pcs_set tasks s _ i _ _ _ ht hp rfl ⟨h1, h2, h3, ?_⟩ ?_
          · simp only; rw [h3, List.take_length, h.tree]
          · intro j hji t' p' ht' hp'
            exact (h.pcs j t' p' ht' hp').keep Iff.rfl Iff.rfl (Or.inl rfl)
        | hasRead n r =>
          simp only [Option.some.injEq] at hs
          subst hs
          obtain ⟨h1, h2, h3, h4⟩ := hok
          refine ⟨by simpa using h.len, h.tree, h.nodup.erase i, ?_, ?_, h.own, ?_⟩
          · intro hw; have := h.excl hw; simp [this]
          · intro j hj; exact h.mem j (List.mem_of_mem_erase hj)
          · refine pcs_set tasks s _ i _ _ _ ht hp rfl ⟨h1, ?_, by simp only; omega, h4⟩ ?_
            · simp only; rw [h.nodup.mem_erase_iff]; simp
            · intro j hji t' p' ht' hp'
              refine (h.pcs j t' p' ht' hp').keep Iff.rfl ?_ (Or.inl rfl)
              simp only; rw [h.nodup.mem_erase_iff]; simp [hji]
        | done n r => simp at hs
      | findDeep m path =>
        cases p with
        | idle =>
          simp only [Option.some.injEq] at hs
          subst hs
          refine ⟨by simpa using h.len, h.tree, h.nodup, h.excl, h.mem, h.own, ?_⟩
          refine pcs_set tasks s _ i _ _ _ ht hp rfl ⟨hok.1, hok.2⟩ ?_
          intro j hji t' p' ht' hp'
          exact (h.pcs j t' p' ht' hp').keep Iff.rfl Iff.rfl (Or.inl rfl)
        | writing => exact hok.elim
        | written => exact hok.elim
        | reading n =>
          simp only [Option.some.injEq] at hs
          subst hs
          refine ⟨by simpa using h.len, h.tree, h.nodup, h.excl, h.mem, h.own, ?_⟩
          refine pcs_set tasks s _ i _ _ _ ht hp rfl ⟨hok.1, hok.2⟩ ?_
          intro j hji t' p' ht' hp'
          exact (h.pcs j t' p' ht' hp').keep Iff.rfl Iff.rfl (Or.inl rfl)
        | hasRead n r => exact hok.elim
        | done n r => simp at hs

theorem lockRun_inv (tasks : List (Task σ)) (sched : List Nat) : LockInv tasks (lockRun tasks sched) := by
  have key : ∀ (sched : List Nat) (s : LockSt σ), LockInv tasks s →
      LockInv tasks (sched.foldl (fun s i => (lockStep tasks s i).getD s) s) := by
    intro sched
    induction sched with
    | nil => exact fun s h => h
    | cons i t ih =>
      intro s h
      apply ih
      cases hs : lockStep tasks s i with
      | none => simpa only [hs, Option.getD_none] using h
      | some s' => simpa only [hs, Option.getD_some] using lockStep_inv tasks s s' i h hs
  apply key
  refine ⟨by simp [lockInit], rfl, by simp [lockInit], by simp [lockInit], by simp [lockInit], by simp [lockInit], ?_⟩
  intro i t p ht hp
  simp only [lockInit, List.getElem?_map, ht, Option.map_some, Option.some.injEq] at hp
  subst hp
  cases t <;> exact ⟨by simp [lockInit], by simp [lockInit]⟩

/-- C46.  In every interleaving of any number of lookups and registrations: a goroutine that is reading the root route
never overlaps one that is changing the tree, and at most one goroutine is changing it. -/
theorem C46_exclusion (tasks : List (Task σ)) (sched : List Nat) (i j : Nat) (r : Reg σ)
    (hj : tasks[j]? = some (.add r)) (hw : (lockRun tasks sched).pcs[j]? = some .writing) :
    (∀ m n, tasks[i]? = some (.findRoot m) → (lockRun tasks sched).pcs[i]? ≠ some (.reading n)) ∧
    (∀ r', i ≠ j → tasks[i]? = some (.add r') → (lockRun tasks sched).pcs[i]? ≠ some .writing) := by
  have h := lockRun_inv tasks sched
  have h1 := h.pcs j _ _ hj hw
  constructor
  · intro m n hi hr
    have h2 := h.pcs i _ _ hi hr
    have h3 := h.excl (by rw [h1.1]; simp)
    have h4 := h2.2.1
    rw [h3] at h4
    exact absurd h4 (by simp)
  · intro r' hij hi hr
    have h2 := h.pcs i _ _ hi hr
    have h3 := h1.1
    rw [h2.1] at h3
    exact hij (by simpa using h3)

/-- C46, what that gives: a finished lookup of the root path returned exactly what a lookup returns in the router made
by some initial part of the registrations, namely those complete when it took the lock. -/
theorem C46_root_atomic (tasks : List (Task σ)) (sched : List Nat) (i : Nat) (m : Method) (n : Nat)
    (res : Option (Outcome (FindResult σ))) (hi : tasks[i]? = some (.findRoot m))
    (hd : (lockRun tasks sched).pcs[i]? = some (.done n res)) :
    n ≤ (lockRun tasks sched).hist.length ∧
      res = some (treeFind (treeOf ((lockRun tasks sched).hist.take n)) m b!"/" []) := by
  have h := lockRun_inv tasks sched
  have h1 := h.pcs i _ _ hi hd
  cases res with
  | none => exact h1.elim
  | some r => exact ⟨h1.2.2.1, congrArg some h1.2.2.2⟩

/-- The registrations whose goroutine is past its change of the tree or over. -/
def completedAdds : List (Task σ) → List (LPc σ) → List (Reg σ)
  | .add r :: ts, .written :: ps => r :: completedAdds ts ps
  | .add r :: ts, .done _ _ :: ps => r :: completedAdds ts ps
  | _ :: ts, _ :: ps => completedAdds ts ps
  | _, _ => []

/-- The position of a registration that has been made. -/
def LPc.past : LPc σ → Bool
  | .written | .done _ _ => true
  | _ => false

/-- Is this a registration? -/
def Task.isAdd : Task σ → Bool
  | .add _ => true
  | _ => false

theorem completedAdds_same (tasks : List (Task σ)) (pcs : List (LPc σ)) (i : Nat) (t : Task σ) (p q : LPc σ)
    (ht : tasks[i]? = some t) (hp : pcs[i]? = some p) (hq : t.isAdd = true → p.past = q.past) :
    completedAdds tasks (pcs.set i q) = completedAdds tasks pcs := by
  induction tasks generalizing pcs i with
  | nil => simp at ht
  | cons t' ts ih =>
    cases pcs with
    | nil => simp at hp
    | cons r rs =>
      cases i with
      | zero =>
        simp only [List.getElem?_cons_zero, Option.some.injEq] at hp ht
        subst hp; subst ht
        simp only [List.set_cons_zero]
        cases t' <;> cases r <;> cases q <;> simp_all [completedAdds, LPc.past, Task.isAdd]
      | succ i =>
        simp only [List.getElem?_cons_succ] at hp ht
        simp only [List.set_cons_succ]
        cases t' <;> cases r <;> simp [completedAdds, ih rs i ht hp]

theorem completedAdds_new (tasks : List (Task σ)) (pcs : List (LPc σ)) (i : Nat) (p : LPc σ) (c : Reg σ)
    (ht : tasks[i]? = some (.add c)) (hp : pcs[i]? = some p) (hq : p.past = false) :
    (completedAdds tasks (pcs.set i .written)).Perm (completedAdds tasks pcs ++ [c]) := by
  induction tasks generalizing pcs i with
  | nil => simp at ht
  | cons t ts ih =>
    cases pcs with
    | nil => simp at hp
    | cons r rs =>
      cases i with
      | zero =>
        simp only [List.getElem?_cons_zero, Option.some.injEq] at hp ht
        subst hp; subst ht
        simp only [List.set_cons_zero]
        have hr : completedAdds (.add c :: ts) (r :: rs) = completedAdds ts rs := by
          cases r <;> simp_all [completedAdds, LPc.past]
        rw [hr]
        exact (List.perm_append_singleton c _).symm
      | succ i =>
        simp only [List.getElem?_cons_succ] at hp ht
        simp only [List.set_cons_succ]
        have := ih rs i ht hp
        cases t <;> cases r <;> first | exact this | exact this.cons _

theorem completedAdds_init (tasks : List (Task σ)) : completedAdds tasks (tasks.map fun _ => LPc.idle) = [] := by
  induction tasks with
  | nil => rfl
  | cons t ts ih => cases t <;> simpa [completedAdds] using ih

theorem lockStep_hist (tasks : List (Task σ)) (s s' : LockSt σ) (i : Nat)
    (hh : s.hist.Perm (completedAdds tasks s.pcs)) (hs : lockStep tasks s i = some s') :
    s'.hist.Perm (completedAdds tasks s'.pcs) := by
  unfold lockStep at hs
  cases ht : tasks[i]? with
  | none => rw [ht] at hs; simp at hs
  | some t =>
    cases hp : s.pcs[i]? with
    | none => rw [ht, hp] at hs; cases t <;> simp at hs
    | some p =>
      rw [ht, hp] at hs
      have same : ∀ q : LPc σ, (t.isAdd = true → p.past = q.past) → s.hist.Perm (completedAdds tasks (s.pcs.set i q)) := by
        intro q hq
        rw [completedAdds_same tasks s.pcs i t p q ht hp hq]
        exact hh
      cases t <;> cases p <;> simp only at hs <;> (try split at hs) <;>
        first
        | (cases hs; done)
        | (simp only [Option.some.injEq] at hs; subst hs
           exact (hh.append_right _).trans (completedAdds_new tasks s.pcs i _ _ ht hp rfl).symm)
        | (simp only [Option.some.injEq] at hs; subst hs
           exact same _ (by simp [Task.isAdd, LPc.past]))

/-- **C46** Registrations running at the same time take effect one after the other, each exactly once: at every moment the
tree is that of the registrations whose goroutines are past their change, in some order. -/
theorem C46_registrations (tasks : List (Task σ)) (sched : List Nat) :
    ∃ regs : List (Reg σ), regs.Perm (completedAdds tasks (lockRun tasks sched).pcs) ∧
      (lockRun tasks sched).tree = treeOf regs := by
  refine ⟨(lockRun tasks sched).hist, ?_, (lockRun_inv tasks sched).tree⟩
  have key : ∀ (sch : List Nat) (s : LockSt σ), s.hist.Perm (completedAdds tasks s.pcs) →
      (sch.foldl (fun s i => (lockStep tasks s i).getD s) s).hist.Perm
        (completedAdds tasks (sch.foldl (fun s i => (lockStep tasks s i).getD s) s).pcs) := by
    intro sch
    induction sch with
    | nil => intro s h; exact h
    | cons x t ih =>
      intro s h
      refine ih _ ?_
      cases hs : lockStep tasks s x with
      | none => simpa only [hs, Option.getD_none] using h
      | some s' => simpa only [hs, Option.getD_some] using lockStep_hist tasks s s' x h hs
  refine key sched (lockInit tasks) ?_
  show ([] : List (Reg σ)).Perm (completedAdds tasks (tasks.map fun _ => LPc.idle))
  rw [completedAdds_init]

/-- C46, no deadlock: as long as some goroutine is not finished, some goroutine can move. -/
theorem C46_progress (tasks : List (Task σ)) (sched : List Nat)
    (h : ∃ (i : Nat) (p : LPc σ), (lockRun tasks sched).pcs[i]? = some p ∧ ∀ n res, p ≠ .done n res) :
    ∃ i, (lockStep tasks (lockRun tasks sched) i).isSome = true := by
  have hinv := lockRun_inv tasks sched
  generalize lockRun tasks sched = s at *
  have hget : ∀ i, i < tasks.length → ∃ t p, tasks[i]? = some t ∧ s.pcs[i]? = some p := by
    intro i hi
    exact ⟨tasks[i], s.pcs[i]'(by rw [hinv.len]; exact hi), List.getElem?_eq_getElem hi, List.getElem?_eq_getElem _⟩
  cases hw : s.writer with
  | some j =>
    obtain ⟨t, p, ht, hp⟩ := hget j (hinv.own j hw)
    have hok := hinv.pcs j t p ht hp
    refine ⟨j, ?_⟩
    unfold lockStep
    rw [ht, hp]
    cases t with
    | add r =>
      cases p with
      | idle => exact absurd hw hok.1
      | writing => rfl
      | written => rfl
      | reading n => exact hok.elim
      | hasRead n r => exact hok.elim
      | done n res => cases res with
        | none => exact absurd hw hok.1
        | some r => exact hok.elim
    | findRoot m =>
      cases p with
      | idle => exact absurd hw hok.1
      | writing => exact hok.elim
      | written => exact hok.elim
      | reading n => exact absurd hw hok.1
      | hasRead n r => exact absurd hw hok.1
      | done n res => cases res with
        | none => exact hok.elim
        | some r => exact absurd hw hok.1
    | findDeep m path =>
      cases p with
      | idle => exact absurd hw hok.1
      | writing => exact hok.elim
      | written => exact hok.elim
      | reading n => exact absurd hw hok.1
      | hasRead n r => exact hok.elim
      | done n res => cases res with
        | none => exact hok.elim
        | some r => exact absurd hw hok.1
  | none =>
    cases hr : s.readers with
    | cons j rest =>
      have hjm : j ∈ s.readers := by rw [hr]; simp
      obtain ⟨t, p, ht, hp⟩ := hget j (hinv.mem j hjm)
      have hok := hinv.pcs j t p ht hp
      refine ⟨j, ?_⟩
      unfold lockStep
      rw [ht, hp]
      cases t with
      | add r =>
        cases p with
        | idle => exact absurd hjm hok.2
        | writing => rfl
        | written => rfl
        | reading n => exact hok.elim
        | hasRead n r => exact hok.elim
        | done n res => cases res with
          | none => exact absurd hjm hok.2
          | some r => exact hok.elim
      | findRoot m =>
        cases p with
        | idle => exact absurd hjm hok.2
        | writing => exact hok.elim
        | written => exact hok.elim
        | reading n => rfl
        | hasRead n r => rfl
        | done n res => cases res with
          | none => exact hok.elim
          | some r => exact absurd hjm hok.2.1
      | findDeep m path =>
        cases p with
        | idle => exact absurd hjm hok.2
        | writing => exact hok.elim
        | written => exact hok.elim
        | reading n => exact absurd hjm hok.2
        | hasRead n r => exact hok.elim
        | done n res => cases res with
          | none => exact hok.elim
          | some r => exact absurd hjm hok.2
    | nil =>
      obtain ⟨i, p, hp, hnd⟩ := h
      have hi : i < tasks.length := by rw [← hinv.len]; exact (List.getElem?_eq_some_iff.1 hp).1
      have ht := List.getElem?_eq_getElem hi
      have hok := hinv.pcs i _ p ht hp
      refine ⟨i, ?_⟩
      unfold lockStep
      rw [ht, hp]
      generalize tasks[i] = t at hok ⊢
      cases t with
      | add r =>
        cases p with
        | idle => simp [hw, hr]
        | writing => rfl
        | written => rfl
        | reading n => exact hok.elim
        | hasRead n r => exact hok.elim
        | done n res => exact absurd rfl (hnd n res)
      | findRoot m =>
        cases p with
        | idle => simp [hw]
        | writing => exact hok.elim
        | written => exact hok.elim
        | reading n => rfl
        | hasRead n r => rfl
        | done n res => exact absurd rfl (hnd n res)
      | findDeep m path =>
        cases p with
        | idle => rfl
        | writing => exact hok.elim
        | written => exact hok.elim
        | reading n => rfl
        | hasRead n r => exact hok.elim
        | done n res => exact absurd rfl (hnd n res)

end

/-- The tasks of the examples: two registrations, a root lookup, another lookup. -/
def lockEx : List (Task Nat) :=
  [.add ⟨b!"GET", b!"/", 1⟩, .add ⟨b!"GET", b!"/a", 2⟩, .findRoot b!"GET", .findDeep b!"GET" b!"/a"]

/-- What a finished goroutine returned. -/
def lockRes (s : LockSt Nat) (i : Nat) : Option (FindResult Nat) :=
  match s.pcs[i]? with
  | some (.done _ (some (.ret r))) => some r
  | _ => none

/-- The lookup that has to wait for the first registration sees it. -/
example : lockRes (lockRun lockEx [0, 2, 0, 0, 2, 1, 2, 2]) 2 = some ⟨some 1, true, []⟩ ∧
    lockRes (lockRun lockEx [2, 0, 2, 2, 0, 0, 0]) 2 = some ⟨none, false, []⟩ := by decide +kernel

/-- Is goroutine `i` changing / reading the tree right now? -/
def isWriting (s : LockSt Nat) (i : Nat) : Bool := match s.pcs[i]? with | some .writing => true | _ => false
def isReading (s : LockSt Nat) (i : Nat) : Bool := match s.pcs[i]? with | some (.reading _) => true | _ => false

/-- C46 does not extend to the other routes: a lookup of "/a" reads the tree while a registration changes it. -/
theorem C46_violated : isWriting (lockRun lockEx [3, 1]) 1 = true ∧ isReading (lockRun lockEx [3, 1]) 3 = true := by
  decide +kernel

end Verif
