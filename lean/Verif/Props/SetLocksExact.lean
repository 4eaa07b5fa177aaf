import Verif.Props.SetLocks
/-
C74, the exact condition: requests and builder calls on one set can block each other for ever exactly if there is a
request and a handler, in the set or given to it later, that makes a builder call on the set it runs in.  And how
long they can take otherwise.
-/
namespace Verif
open Spec
variable {η : Type}

theorem completed_mem (tasks : List (SetTask η)) (pcs : List (SPc η)) (c : SetCall η) (h : c ∈ completed tasks pcs) :
    SetTask.build c ∈ tasks := by
  induction tasks generalizing pcs with
  | nil => cases pcs <;> simp [completed] at h
  | cons t ts ih =>
    cases pcs with
    | nil => cases t <;> simp [completed] at h
    | cons p ps =>
      cases t with
      | request => simp only [completed] at h; exact .tail _ (ih ps h)
      | build d =>
        cases p <;> simp only [completed, List.mem_cons] at h
        case written | built =>
          rcases h with rfl | h
          · exact .head _
          · exact .tail _ (ih ps h)
        all_goals exact .tail _ (ih ps h)

theorem inSet_apply (v : SetVal η) (c : SetCall η) (h : η) (hh : h ∈ inSet (v.apply c)) :
    h ∈ inSet v ∨ h ∈ handlersIn c := by
  cases c <;> simp [inSet, SetVal.apply, handlersIn] at hh ⊢ <;> grind

theorem inSet_after (v : SetVal η) (calls : List (SetCall η)) (h : η) (hh : h ∈ inSet (setAfter v calls)) :
    h ∈ inSet v ∨ ∃ c ∈ calls, h ∈ handlersIn c := by
  induction calls generalizing v with
  | nil => exact .inl hh
  | cons c t ih =>
    rcases ih (v.apply c) hh with h1 | ⟨d, hd, h1⟩
    · rcases inSet_apply v c h h1 with h2 | h2
      · exact .inl h2
      · exact .inr ⟨c, .head _, h2⟩
    · exact .inr ⟨d, .tail _ hd, h1⟩

/-- The handlers in the set at any moment. -/
theorem inSet_run (own : η → Option (SetCall η)) (v : SetVal η) (tasks : List (SetTask η)) (sched : List (Nat × Bool))
    (h : η) (hh : h ∈ inSet (setLockRun own v tasks sched).set) : h ∈ everyHandler v tasks := by
  rw [(setLockRun_inv own v tasks sched).set] at hh
  rcases inSet_after v _ h hh with h1 | ⟨c, hc, h1⟩
  · exact List.mem_append_left _ h1
  · have := completed_mem tasks _ c ((C73_calls own v tasks sched).1.mem_iff.1 hc)
    exact List.mem_append_right _ (List.mem_flatMap.2 ⟨_, this, h1⟩)

theorem chain_inSet (v : SetVal η) (x : ChainCall η) (hx : x ∈ v.chain) : x.handler ∈ inSet v := by
  simp only [SetVal.chain, List.mem_append, List.mem_singleton, List.mem_map] at hx
  simp only [inSet, List.mem_cons, List.mem_append]
  rcases hx with ((rfl | ⟨y, hy, rfl⟩) | rfl) | ⟨y, hy, rfl⟩ <;> simp_all [ChainCall.handler]

theorem inSet_chain (v : SetVal η) (h : η) (hh : h ∈ inSet v) :
    v.last = some h ∨ ∃ k : Nat, ∃ x, v.chain[k]? = some x ∧ x.handler = h := by
  simp only [inSet, List.mem_cons, List.mem_append, Option.mem_toList] at hh
  have key : ∀ x : ChainCall η, x ∈ v.chain → x.handler = h →
      v.last = some h ∨ ∃ k : Nat, ∃ x, v.chain[k]? = some x ∧ x.handler = h := by
    intro x hx hxh
    obtain ⟨k, hk⟩ := List.getElem?_of_mem hx
    exact .inr ⟨k, x, hk, hxh⟩
  rcases hh with rfl | (hh | hh) | hh
  · exact key (.init v.main) (by simp [SetVal.chain]) rfl
  · exact key (.run h) (by simp [SetVal.chain, hh]) rfl
  · exact key (.run h) (by simp [SetVal.chain, hh]) rfl
  · exact .inl hh

/-- Without a request, or without a handler that makes a builder call, `own` does not matter. -/
theorem setLockStep_same (own : η → Option (SetCall η)) (tasks : List (SetTask η)) (s : SetLockSt η) (i : Nat) (stop : Bool)
    (h : SetTask.request ∈ tasks → ∀ x ∈ inSet s.set, own x = none) :
    setLockStep own tasks s i stop = setLockStep (fun _ => none) tasks s i stop := by
  unfold setLockStep
  cases ht : tasks[i]? with
  | none => rfl
  | some t =>
    cases hp : s.pcs[i]? with
    | none => cases t <;> rfl
    | some p =>
      cases t with
      | build c => cases p <;> rfl
      | request =>
        have h' := h (List.mem_of_getElem? ht)
        cases p with
        | running n ran =>
          simp only
          cases hc : s.set.chain[ran.length]? with
          | none => rfl
          | some x => simp only [h' _ (chain_inSet _ _ (List.mem_of_getElem? hc))]
        | lasting n ran full m =>
          have : s.set.last.bind own = none := by
            cases hl : s.set.last with
            | none => rfl
            | some x => exact h' x (by simp [inSet, hl])
          have h2 : s.set.last.bind (fun _ : η => (none : Option (SetCall η))) = none := by cases s.set.last <;> rfl
          simp only [this, h2]
        | _ => rfl

theorem setLockRun_snoc (own : η → Option (SetCall η)) (v : SetVal η) (tasks : List (SetTask η)) (sched : List (Nat × Bool))
    (x : Nat × Bool) : setLockRun own v tasks (sched ++ [x]) =
      (setLockStep own tasks (setLockRun own v tasks sched) x.1 x.2).getD (setLockRun own v tasks sched) := by
  simp [setLockRun, setLockFrom]

theorem setLockRun_same (own : η → Option (SetCall η)) (v : SetVal η) (tasks : List (SetTask η))
    (h : SetTask.request ∈ tasks → ∀ x ∈ everyHandler v tasks, own x = none) (sched : List (Nat × Bool)) :
    setLockRun own v tasks sched = setLockRun (fun _ => none) v tasks sched := by
  induction hn : sched.length generalizing sched with
  | zero => rw [List.length_eq_zero_iff.1 hn]; rfl
  | succ n ih =>
    have hne : sched ≠ [] := by intro h; simp [h] at hn
    rw [← List.dropLast_concat_getLast hne, setLockRun_snoc, setLockRun_snoc]
    rw [ih _ (by simp [hn])]
    rw [setLockStep_same own tasks _ _ _ (fun hr x hx => h hr x (inSet_run _ v tasks _ x hx))]

/-- Everybody but `i` has not begun or has finished a builder call. -/
def SetLockSt.quiet (s : SetLockSt η) (i : Nat) : Prop :=
  ∀ k q, k ≠ i → s.pcs[k]? = some q → q = .idle ∨ q = .built

theorem quiet_goto {s : SetLockSt η} {i : Nat} (h : s.quiet i) (p : SPc η) : (s.goto i p).quiet i := by
  intro k q hk hq
  simp only [SetLockSt.goto, List.getElem?_set] at hq
  rw [if_neg (fun h => hk h.symm)] at hq
  exact h k q hk hq

theorem goto_self {s : SetLockSt η} {i : Nat} {p : SPc η} (hp : s.pcs[i]? = some p) (q : SPc η) :
    (s.goto i q).pcs[i]? = some q := by
  have hi : i < s.pcs.length := (List.getElem?_eq_some_iff.1 hp).1
  simp [SetLockSt.goto, hi]

theorem quiet_noWriter {s : SetLockSt η} {i : Nat} {p : SPc η} (h : s.quiet i) (hp : s.pcs[i]? = some p)
    (hw : p.isWriter = false) : s.noWriter = true := by
  refine noWriter_of_forall fun q hq => ?_
  obtain ⟨k, hk⟩ := List.getElem?_of_mem hq
  by_cases hki : k = i
  · subst hki; rw [hp] at hk; cases hk; exact hw
  · rcases h k q hki hk with rfl | rfl <;> rfl

theorem quiet_noReader {s : SetLockSt η} {i : Nat} {p : SPc η} (h : s.quiet i) (hp : s.pcs[i]? = some p)
    (hw : p.holdsRead = false) : s.noReader = true := by
  refine noReader_of_forall fun q hq => ?_
  obtain ⟨k, hk⟩ := List.getElem?_of_mem hq
  by_cases hki : k = i
  · subst hki; rw [hp] at hk; cases hk; exact hw
  · rcases h k q hki hk with rfl | rfl <;> rfl

/-- A request that waits in a builder call while nobody else is under way: nobody can move. -/
def SetLockSt.jammed (s : SetLockSt η) (tasks : List (SetTask η)) (i : Nat) : Prop :=
  tasks[i]? = some .request ∧ s.quiet i ∧ ∃ p, s.pcs[i]? = some p ∧ p.inCall ∧ p.isWriter = true

theorem jammed_none (own : η → Option (SetCall η)) {s : SetLockSt η} {tasks : List (SetTask η)} {i : Nat}
    (h : s.jammed tasks i) (j : Nat) (stop : Bool) : setLockStep own tasks s j stop = none := by
  obtain ⟨ht, hq, p, hp, hc, hw⟩ := h
  have hr : p.holdsRead = true := by cases p <;> first | rfl | exact hc.elim
  have hnr := not_noReader hp hr
  have hnw := not_noWriter hp hw
  unfold setLockStep
  by_cases hji : j = i
  · subst hji
    rw [ht, hp]
    cases p <;> simp [SPc.isWriter, SPc.inCall] at hw hc <;> simp [hnr]
  · cases ht' : tasks[j]? with
    | none => rfl
    | some t =>
      cases hq' : s.pcs[j]? with
      | none => cases t <;> rfl
      | some q =>
        rcases hq j q hji hq' with rfl | rfl <;> cases t <;> simp [hnw]

theorem setLockFrom_cons_some (own : η → Option (SetCall η)) {tasks : List (SetTask η)} {s s' : SetLockSt η}
    {x : Nat × Bool} (h : setLockStep own tasks s x.1 x.2 = some s') (t : List (Nat × Bool)) :
    setLockFrom own tasks s (x :: t) = setLockFrom own tasks s' t := by simp [setLockFrom, h]

/-- A request that has begun, alone, runs into the builder call. -/
theorem jam_from (own : η → Option (SetCall η)) (tasks : List (SetTask η)) (i : Nat) (ht : tasks[i]? = some .request)
    (h : η) (hh : own h ≠ none) : ∀ (m : Nat) (s : SetLockSt η) (n : Nat) (ran : List (ChainCall η)),
    s.pcs[i]? = some (.running n ran) → s.quiet i → s.set.chain.length - ran.length = m →
    (s.set.last = some h ∨ ∃ k : Nat, ran.length ≤ k ∧ ∃ x, s.set.chain[k]? = some x ∧ x.handler = h) →
    ∃ sched, (setLockFrom own tasks s sched).jammed tasks i := by
  intro m
  induction m with
  | zero =>
    intro s n ran hp hq hm hl
    have hnone : s.set.chain[ran.length]? = none := List.getElem?_eq_none (by omega)
    have hlast : s.set.last = some h := by
      rcases hl with hl | ⟨k, hk, x, hx, -⟩
      · exact hl
      · have := (List.getElem?_eq_some_iff.1 hx).1; omega
    obtain ⟨c, hc⟩ := Option.ne_none_iff_exists'.1 hh
    let s1 := s.goto i (.between n ran true)
    have h1 : setLockStep own tasks s i false = some s1 := by simp [setLockStep, ht, hp, hnone, s1]
    have p1 : s1.pcs[i]? = some (.between n ran true) := goto_self hp _
    have q1 : s1.quiet i := quiet_goto hq _
    let s2 := s1.goto i (.lasting n ran true s1.hist.length)
    have h2 : setLockStep own tasks s1 i false = some s2 := by
      simp [setLockStep, ht, p1, quiet_noWriter q1 p1 rfl, s2]
    have p2 : s2.pcs[i]? = some (.lasting n ran true s1.hist.length) := goto_self p1 _
    have q2 : s2.quiet i := quiet_goto q1 _
    have hl2 : s2.set.last.bind own = some c := by
      show s.set.last.bind own = some c
      rw [hlast]; exact hc
    let s3 := s2.goto i (.lastCalling n ran true s1.hist.length c)
    have h3 : setLockStep own tasks s2 i false = some s3 := by
      simp [setLockStep, ht, p2, hl2, s3]
    have p3 : s3.pcs[i]? = some (.lastCalling n ran true s1.hist.length c) := goto_self p2 _
    have q3 : s3.quiet i := quiet_goto q2 _
    let s4 := s3.goto i (.lastWaiting n ran true s1.hist.length c)
    have h4 : setLockStep own tasks s3 i false = some s4 := by
      simp [setLockStep, ht, p3, quiet_noWriter q3 p3 rfl, s4]
    refine ⟨[(i, false), (i, false), (i, false), (i, false)], ?_⟩
    rw [setLockFrom_cons_some own h1, setLockFrom_cons_some own h2, setLockFrom_cons_some own h3,
      setLockFrom_cons_some own h4]
    exact ⟨ht, quiet_goto q3 _, _, goto_self p3 _, trivial, rfl⟩
  | succ m ih =>
    intro s n ran hp hq hm hl
    have hlt : ran.length < s.set.chain.length := by omega
    obtain ⟨x, hx⟩ : ∃ x, s.set.chain[ran.length]? = some x := ⟨_, List.getElem?_eq_getElem hlt⟩
    cases hc : own x.handler with
    | some c =>
      let s1 := s.goto i (.calling n (ran ++ [x]) c)
      have h1 : setLockStep own tasks s i false = some s1 := by simp [setLockStep, ht, hp, hx, hc, s1]
      have p1 : s1.pcs[i]? = some (.calling n (ran ++ [x]) c) := goto_self hp _
      have q1 : s1.quiet i := quiet_goto hq _
      let s2 := s1.goto i (.waiting n (ran ++ [x]) c)
      have h2 : setLockStep own tasks s1 i false = some s2 := by
        simp [setLockStep, ht, p1, quiet_noWriter q1 p1 rfl, s2]
      refine ⟨[(i, false), (i, false)], ?_⟩
      rw [setLockFrom_cons_some own h1, setLockFrom_cons_some own h2]
      exact ⟨ht, quiet_goto q1 _, _, goto_self p1 _, trivial, rfl⟩
    | none =>
      let s1 := s.goto i (.running n (ran ++ [x]))
      have h1 : setLockStep own tasks s i false = some s1 := by simp [setLockStep, ht, hp, hx, hc, s1]
      obtain ⟨sched, hs⟩ := ih s1 n (ran ++ [x]) (goto_self hp _) (quiet_goto hq _)
        (by show s.set.chain.length - _ = m; simp; omega) (by
          rcases hl with hl | ⟨k, hk, y, hy, hyh⟩
          · exact .inl hl
          · refine .inr ⟨k, ?_, y, hy, hyh⟩
            have : k ≠ ran.length := by
              rintro rfl
              rw [hx] at hy; cases hy
              rw [hyh] at hc; exact hh hc
            simp; omega)
      exact ⟨(i, false) :: sched, by rw [setLockFrom_cons_some own h1]; exact hs⟩

/-- The same from the moment before the request begins. -/
theorem jam_begin (own : η → Option (SetCall η)) (tasks : List (SetTask η)) (i : Nat) (ht : tasks[i]? = some .request)
    (h : η) (hh : own h ≠ none) (s : SetLockSt η) (hp : s.pcs[i]? = some .idle) (hq : s.quiet i) (hin : h ∈ inSet s.set) :
    ∃ sched, (setLockFrom own tasks s sched).jammed tasks i := by
  have h1 : setLockStep own tasks s i false = some (s.goto i (.running s.hist.length [])) := by
    simp [setLockStep, ht, hp, quiet_noWriter hq hp rfl]
  obtain ⟨sched, hs⟩ := jam_from own tasks i ht h hh _ (s.goto i (.running s.hist.length [])) s.hist.length []
    (goto_self hp _) (quiet_goto hq _) rfl (by
      rcases inSet_chain s.set h hin with hl | ⟨k, x, hx, hxh⟩
      · exact .inl hl
      · exact .inr ⟨k, Nat.zero_le _, x, hx, hxh⟩)
  exact ⟨(i, false) :: sched, by rw [setLockFrom_cons_some own h1]; exact hs⟩

theorem init_idle (v : SetVal η) (tasks : List (SetTask η)) (k : Nat) (q : SPc η)
    (h : (setLockInit v tasks).pcs[k]? = some q) : q = .idle := by
  simp only [setLockInit, List.getElem?_map] at h
  cases ht : tasks[k]? with
  | none => simp [ht] at h
  | some t => simp [ht] at h; exact h.symm

theorem init_at (v : SetVal η) (tasks : List (SetTask η)) (k : Nat) (t : SetTask η) (h : tasks[k]? = some t) :
    (setLockInit v tasks).pcs[k]? = some .idle := by
  simp [setLockInit, List.getElem?_map, h]

theorem handlersIn_apply (v : SetVal η) (c : SetCall η) (h : η) (hh : h ∈ handlersIn c) : h ∈ inSet (v.apply c) := by
  cases c <;> simp [inSet, SetVal.apply, handlersIn] at hh ⊢ <;> grind

theorem jam_exists (own : η → Option (SetCall η)) (v : SetVal η) (tasks : List (SetTask η))
    (hr : SetTask.request ∈ tasks) (h : η) (hin : h ∈ everyHandler v tasks) (hh : own h ≠ none) :
    ∃ sched i, (setLockRun own v tasks sched).jammed tasks i := by
  obtain ⟨i, ht⟩ := List.getElem?_of_mem hr
  have hp0 := init_at v tasks i _ ht
  rcases List.mem_append.1 hin with hin | hin
  · obtain ⟨sched, hs⟩ := jam_begin own tasks i ht h hh (setLockInit v tasks) hp0
      (fun k q _ hq => .inl (init_idle v tasks k q hq)) hin
    exact ⟨sched, i, hs⟩
  · obtain ⟨t, htm, hht⟩ := List.mem_flatMap.1 hin
    cases t with
    | request => simp at hht
    | build c =>
      obtain ⟨j, hj⟩ := List.getElem?_of_mem htm
      have hij : i ≠ j := by rintro rfl; rw [ht] at hj; cases hj
      have pj := init_at v tasks j _ hj
      have q0 : (setLockInit v tasks).quiet j := fun k q _ hq => .inl (init_idle v tasks k q hq)
      let s1 := (setLockInit v tasks).goto j .announced
      have h1 : setLockStep own tasks (setLockInit v tasks) j false = some s1 := by
        simp [setLockStep, hj, pj, quiet_noWriter q0 pj rfl, s1]
      have p1 : s1.pcs[j]? = some .announced := goto_self pj _
      have q1 : s1.quiet j := quiet_goto q0 _
      let s2 := (s1.change c).goto j .written
      have h2 : setLockStep own tasks s1 j false = some s2 := by
        simp [setLockStep, hj, p1, quiet_noReader q1 p1 rfl, s2]
      have p2 : s2.pcs[j]? = some .written := goto_self (s := s1.change c) p1 _
      have q2 : s2.quiet j := quiet_goto (s := s1.change c) q1 _
      let s3 := s2.goto j .built
      have h3 : setLockStep own tasks s2 j false = some s3 := by
        simp [setLockStep, hj, p2, s3]
      have p3 : s3.pcs[j]? = some .built := goto_self p2 _
      have q3 : s3.quiet j := quiet_goto q2 _
      have pi3 : s3.pcs[i]? = some .idle := by
        simp [s3, s2, s1, SetLockSt.goto, SetLockSt.change, hij.symm, hp0]
      have qi3 : s3.quiet i := by
        intro k q hk hq
        by_cases hkj : k = j
        · subst hkj; rw [p3] at hq; cases hq; exact .inr rfl
        · exact q3 k q hkj hq
      obtain ⟨sched, hs⟩ := jam_begin own tasks i ht h hh s3 pi3 qi3 (handlersIn_apply v c h hht)
      refine ⟨(j, false) :: (j, false) :: (j, false) :: sched, i, ?_⟩
      show (setLockFrom own tasks (setLockInit v tasks) _).jammed tasks i
      rw [setLockFrom_cons_some own h1, setLockFrom_cons_some own h2, setLockFrom_cons_some own h3]
      exact hs

/-- **C74 (exact)** Requests and builder calls on one set can never all be blocked, whatever the interleaving, exactly
if there is no request or no handler, in the set at the beginning or given to it by one of the builder calls, makes a
builder call (or Clone) on the set it runs in. -/
theorem C74_exact (own : η → Option (SetCall η)) (v : SetVal η) (tasks : List (SetTask η)) :
    (∀ (sched : List (Nat × Bool)) (i : Nat) (p : SPc η), (setLockRun own v tasks sched).pcs[i]? = some p → ¬ p.over →
      ∃ j, (setLockStep own tasks (setLockRun own v tasks sched) j false).isSome) ↔
    ¬ (SetTask.request ∈ tasks ∧ ∃ h ∈ everyHandler v tasks, own h ≠ none) := by
  constructor
  · rintro hall ⟨hr, h, hin, hh⟩
    obtain ⟨sched, i, hj⟩ := jam_exists own v tasks hr h hin hh
    obtain ⟨-, -, p, hp, hc, -⟩ := id hj
    obtain ⟨j, hs⟩ := hall sched i p hp (by cases p <;> first | exact hc.elim | exact id)
    rw [jammed_none own hj] at hs
    cases hs
  · intro hno sched i p hp hover
    have hfree : SetTask.request ∈ tasks → ∀ x ∈ everyHandler v tasks, own x = none := by
      intro hr x hx
      cases ho : own x with
      | none => rfl
      | some c => exact absurd ⟨hr, x, hx, by simp [ho]⟩ hno
    rw [setLockRun_same own v tasks hfree] at hp ⊢
    obtain ⟨j, hs⟩ := C74_progress_partial (fun _ => none) (fun _ => rfl) v tasks sched i p hp hover
    refine ⟨j, ?_⟩
    rw [setLockStep_same own tasks _ _ _ (fun hr x hx => hfree hr x (inSet_run _ v tasks _ x hx))]
    exact hs

/-! ### How long it takes -/

/-- An upper bound for the moves a goroutine still has; `L` bounds the length of the chain. -/
def SPc.left (L : Nat) : SetTask η → SPc η → Nat
  | .request, .idle => L + 6
  | .build _, .idle => 3
  | _, .running _ ran => L + 5 - ran.length
  | _, .calling .. => 4
  | _, .waiting .. => 3
  | _, .between .. => 4
  | _, .lasting .. => 3
  | _, .lastCalling .. => 2
  | _, .lastWaiting .. => 1
  | _, .finished .. => 0
  | _, .announced => 2
  | _, .written => 1
  | _, .built => 0

/-- Their sum. -/
def movesLeft (L : Nat) : List (SetTask η) → List (SPc η) → Nat
  | t :: ts, p :: ps => p.left L t + movesLeft L ts ps
  | _, _ => 0

theorem movesLeft_set (L : Nat) (tasks : List (SetTask η)) (pcs : List (SPc η)) (i : Nat) (t : SetTask η) (p q : SPc η)
    (ht : tasks[i]? = some t) (hp : pcs[i]? = some p) :
    movesLeft L tasks (pcs.set i q) + p.left L t = movesLeft L tasks pcs + q.left L t := by
  induction tasks generalizing pcs i with
  | nil => simp at ht
  | cons t' ts ih =>
    cases pcs with
    | nil => simp at hp
    | cons p' ps =>
      cases i with
      | zero =>
        simp only [List.getElem?_cons_zero, Option.some.injEq] at ht hp
        subst ht; subst hp
        simp only [List.set_cons_zero, movesLeft]; omega
      | succ i =>
        simp only [List.getElem?_cons_succ] at ht hp
        have := ih ps i ht hp
        simp only [List.set_cons_succ, movesLeft]; omega

/-- Every move counts. -/
theorem movesLeft_step (own : η → Option (SetCall η)) (v : SetVal η) (tasks : List (SetTask η)) (L : Nat)
    (s s' : SetLockSt η) (i : Nat) (stop : Bool) (h : SetLockInv v tasks s) (hL : s.set.chain.length ≤ L)
    (hs : setLockStep own tasks s i stop = some s') : movesLeft L tasks s'.pcs < movesLeft L tasks s.pcs := by
  unfold setLockStep at hs
  cases ht : tasks[i]? with
  | none => rw [ht] at hs; simp at hs
  | some t =>
    cases hp : s.pcs[i]? with
    | none => rw [ht, hp] at hs; cases t <;> simp at hs
    | some p =>
      have hok := h.pcs i t p ht hp
      have key : ∀ (q : SPc η), q.left L t < p.left L t → movesLeft L tasks (s.pcs.set i q) < movesLeft L tasks s.pcs := by
        intro q hq
        have := movesLeft_set L tasks s.pcs i t p q ht hp
        omega
      rw [ht, hp] at hs
      cases t with
      | request =>
        cases p with
        | waiting n ran c => simp only [not_noReader hp rfl] at hs; simp at hs
        | lastWaiting n ran full m c => simp only [not_noReader hp rfl] at hs; simp at hs
        | announced | written | built => exact hok.elim
        | running n ran =>
          have hlen : ran.length ≤ s.set.chain.length := by rw [h.set]; exact hok.2.length_le
          simp only at hs
          split at hs
          · simp only [Option.some.injEq] at hs; subst hs
            exact key _ (by simp only [SPc.left]; omega)
          · next x hx =>
            have hlt : ran.length < s.set.chain.length := (List.getElem?_eq_some_iff.1 hx).1
            repeat' split at hs
            all_goals
              simp only [Option.some.injEq] at hs; subst hs
              exact key _ (by simp only [SPc.left, List.length_append, List.length_singleton]; omega)
        | _ =>
          simp only at hs
          repeat' split at hs
          all_goals first
            | (simp only [Option.some.injEq] at hs; subst hs; exact key _ (by simp [SPc.left]))
            | simp at hs
      | build c =>
        cases p with
        | idle | announced | written =>
          simp only at hs
          repeat' split at hs
          all_goals first
            | (simp only [Option.some.injEq] at hs; subst hs; exact key _ (by simp [SPc.left]))
            | simp at hs
        | built => simp at hs
        | _ => exact hok.elim

theorem chain_length (v : SetVal η) : v.chain.length = v.before.length + v.after.length + 2 := by
  simp [SetVal.chain]; omega

/-- The builder calls among the tasks. -/
def buildCalls (tasks : List (SetTask η)) : List (SetCall η) := tasks.filterMap fun | .build c => some c | .request => none

theorem completed_sublist (tasks : List (SetTask η)) (pcs : List (SPc η)) :
    (completed tasks pcs).Sublist (buildCalls tasks) := by
  induction tasks generalizing pcs with
  | nil => cases pcs <;> simp [completed]
  | cons t ts ih =>
    cases pcs with
    | nil => cases t <;> simp [completed]
    | cons p ps =>
      cases t with
      | request => exact ih ps
      | build c => cases p <;> first | exact (ih ps).cons_cons _ | exact (ih ps).cons _

def callSize (calls : List (SetCall η)) : Nat := (calls.map fun c => (handlersIn c).length).sum

theorem chain_after (v : SetVal η) (calls : List (SetCall η)) :
    (setAfter v calls).chain.length ≤ v.chain.length + callSize calls := by
  induction calls generalizing v with
  | nil => simp [setAfter]
  | cons c t ih =>
    refine Nat.le_trans (ih (v.apply c)) ?_
    have : (v.apply c).chain.length ≤ v.chain.length + (handlersIn c).length := by
      rw [chain_length, chain_length]
      cases c <;> simp [SetVal.apply, handlersIn] <;> omega
    simp only [callSize, List.map_cons, List.sum_cons] at *
    omega

theorem callSize_sublist {a b : List (SetCall η)} (h : a.Sublist b) : callSize a ≤ callSize b := by
  induction h with
  | slnil => simp
  | cons x _ ih => simp only [callSize, List.map_cons, List.sum_cons] at *; omega
  | cons_cons x _ ih => simp only [callSize, List.map_cons, List.sum_cons] at *; omega

theorem chain_bound (own : η → Option (SetCall η)) (v : SetVal η) (tasks : List (SetTask η)) (sched : List (Nat × Bool)) :
    (setLockRun own v tasks sched).set.chain.length ≤ v.chain.length + callSize (buildCalls tasks) := by
  rw [(setLockRun_inv own v tasks sched).set]
  refine Nat.le_trans (chain_after v _) (Nat.add_le_add_left ?_ _)
  have hperm := (C73_calls own v tasks sched).1
  have h1 : callSize (setLockRun own v tasks sched).hist = callSize (completed tasks (setLockRun own v tasks sched).pcs) :=
    (hperm.map _).sum_nat
  rw [h1]
  exact callSize_sublist (completed_sublist tasks _)

theorem isSome_stop (own : η → Option (SetCall η)) (tasks : List (SetTask η)) (s : SetLockSt η) (i : Nat) (b b' : Bool)
    (h : (setLockStep own tasks s i b).isSome) : (setLockStep own tasks s i b').isSome := by
  unfold setLockStep at h ⊢
  repeat' split
  all_goals first
    | rfl
    | simp_all

theorem setLockRun_append (own : η → Option (SetCall η)) (v : SetVal η) (tasks : List (SetTask η))
    (a b : List (Nat × Bool)) :
    setLockRun own v tasks (a ++ b) = setLockFrom own tasks (setLockRun own v tasks a) b := by
  simp [setLockRun, setLockFrom]

theorem over_stays (own : η → Option (SetCall η)) (tasks : List (SetTask η)) (s : SetLockSt η) (h : ∀ p ∈ s.pcs, p.over)
    (sched : List (Nat × Bool)) : setLockFrom own tasks s sched = s := by
  have hstep : ∀ i b, setLockStep own tasks s i b = none := by
    intro i b
    unfold setLockStep
    cases ht : tasks[i]? with
    | none => rfl
    | some t =>
      cases hp : s.pcs[i]? with
      | none => cases t <;> rfl
      | some p =>
        have := h p (List.mem_of_getElem? hp)
        cases p <;> first | exact this.elim | (cases t <;> rfl)
  induction sched with
  | nil => rfl
  | cons x t ih => simpa [setLockFrom, hstep] using ih

section Fair
variable (own : η → Option (SetCall η)) (v : SetVal η) (tasks : List (SetTask η))

/-- The moves left after an interleaving. -/
def leftAfter (pre : List (Nat × Bool)) : Nat :=
  movesLeft (v.chain.length + callSize (buildCalls tasks)) tasks (setLockRun own v tasks pre).pcs

theorem leftAfter_step (pre : List (Nat × Bool)) (x : Nat × Bool) :
    leftAfter own v tasks (pre ++ [x]) ≤ leftAfter own v tasks pre ∧
    ((setLockStep own tasks (setLockRun own v tasks pre) x.1 false).isSome →
      leftAfter own v tasks (pre ++ [x]) < leftAfter own v tasks pre) := by
  unfold leftAfter
  rw [setLockRun_snoc]
  cases hs : setLockStep own tasks (setLockRun own v tasks pre) x.1 x.2 with
  | none =>
    refine ⟨Nat.le_refl _, fun h => ?_⟩
    have := isSome_stop own tasks _ x.1 false x.2 h
    simp [hs] at this
  | some s' =>
    have := movesLeft_step own v tasks _ _ s' x.1 x.2 (setLockRun_inv own v tasks pre) (chain_bound own v tasks pre) hs
    exact ⟨Nat.le_of_lt this, fun _ => this⟩

theorem leftAfter_mono (r : List (Nat × Bool)) : ∀ pre, leftAfter own v tasks (pre ++ r) ≤ leftAfter own v tasks pre := by
  induction r with
  | nil => intro pre; simp
  | cons x t ih =>
    intro pre
    have := ih (pre ++ [x])
    rw [List.append_assoc, List.singleton_append] at this
    exact Nat.le_trans this (leftAfter_step own v tasks pre x).1

theorem leftAfter_round (r : List (Nat × Bool)) : ∀ pre,
    (∃ x ∈ r, (setLockStep own tasks (setLockRun own v tasks pre) x.1 false).isSome) →
    leftAfter own v tasks (pre ++ r) < leftAfter own v tasks pre := by
  induction r with
  | nil => rintro pre ⟨x, hx, -⟩; cases hx
  | cons y t ih =>
    rintro pre ⟨x, hx, hs⟩
    have hm := leftAfter_mono own v tasks t (pre ++ [y])
    rw [List.append_assoc, List.singleton_append] at hm
    cases hy : setLockStep own tasks (setLockRun own v tasks pre) y.1 y.2 with
    | some s' =>
      have := (leftAfter_step own v tasks pre y).2 (isSome_stop own tasks _ y.1 y.2 false (by simp [hy]))
      omega
    | none =>
      have hrun : setLockRun own v tasks (pre ++ [y]) = setLockRun own v tasks pre := by
        rw [setLockRun_snoc, hy]; rfl
      have hxt : x ∈ t := by
        rcases List.mem_cons.1 hx with rfl | h
        · have := isSome_stop own tasks _ x.1 false x.2 hs
          simp [hy] at this
        · exact h
      have := ih (pre ++ [y]) ⟨x, hxt, by rw [hrun]; exact hs⟩
      rw [List.append_assoc, List.singleton_append] at this
      have h1 := (leftAfter_step own v tasks pre y).1
      omega

end Fair

/-- **C74 (it ends)** Unless there is a request and a handler that makes a builder call on the set it runs in, there is
a number of rounds after which everything is over, whatever happens in a round (in which order, how often and with
what results goroutines move), if only every goroutine has its turn in every round. -/
theorem C74_ends_partial (own : η → Option (SetCall η)) (v : SetVal η) (tasks : List (SetTask η))
    (hno : ¬ (SetTask.request ∈ tasks ∧ ∃ h ∈ everyHandler v tasks, own h ≠ none)) :
    ∃ N, ∀ rounds : List (List (Nat × Bool)), N ≤ rounds.length →
      (∀ r ∈ rounds, ∀ i, i < tasks.length → ∃ b, (i, b) ∈ r) →
      ∀ p ∈ (setLockRun own v tasks rounds.flatten).pcs, p.over := by
  have key : ∀ (rounds : List (List (Nat × Bool))) (pre : List (Nat × Bool)),
      leftAfter own v tasks pre < rounds.length → (∀ r ∈ rounds, ∀ i, i < tasks.length → ∃ b, (i, b) ∈ r) →
      ∀ p ∈ (setLockRun own v tasks (pre ++ rounds.flatten)).pcs, p.over := by
    intro rounds
    induction rounds with
    | nil => intro pre h; simp at h
    | cons r rs ih =>
      intro pre hlt hfair
      by_cases hover : ∀ p ∈ (setLockRun own v tasks pre).pcs, p.over
      · rw [setLockRun_append, over_stays own tasks _ hover]; exact hover
      · obtain ⟨p, hp⟩ := Classical.not_forall.1 hover
        obtain ⟨hpm, hpo⟩ := Classical.not_imp.1 hp
        obtain ⟨i, hi⟩ := List.getElem?_of_mem hpm
        obtain ⟨j, hj⟩ := (C74_exact own v tasks).2 hno pre i p hi hpo
        have hjl : j < tasks.length := by
          rcases Nat.lt_or_ge j tasks.length with h | h
          · exact h
          · simp [setLockStep, List.getElem?_eq_none h] at hj
        obtain ⟨b, hb⟩ := hfair r (.head _) j hjl
        have hdec := leftAfter_round own v tasks r pre ⟨(j, b), hb, hj⟩
        have := ih (pre ++ r) (by simp only [List.length_cons] at hlt; omega) (fun r' hr' => hfair r' (.tail _ hr'))
        rwa [List.append_assoc] at this
  exact ⟨leftAfter own v tasks [] + 1, fun rounds hN hfair => key rounds [] hN hfair⟩

/-! ### Concrete cases -/

/-- Handler 2 is in `exSet`, so two requests can be blocked; two builder calls alone cannot. -/
def exTwo : List (SetTask Nat) := [.request, .request]
def exBuilds : List (SetTask Nat) := [.build (.last (some 2)), .build .clone]

example : (SetTask.request ∈ exTwo ∧ ∃ h ∈ everyHandler exSet exTwo, exOwn h ≠ none) ∧
    ¬ (SetTask.request ∈ exBuilds ∧ ∃ h ∈ everyHandler exSet exBuilds, exOwn h ≠ none) := by decide

/-- The handler that makes the call may be given to the set by another goroutine, and may be the last handler. -/
example : (setLockRun exOwn ⟨[], [], none, 0⟩ [.request, .build (.last (some 2))]
    ([(1, false), (1, false), (1, false)] ++ List.replicate 7 (0, false))).pcs =
    [.lastWaiting 1 [.init 0, .run 0] true 1 (.before [4]), .built] := by decide +kernel

/-- Two requests and a builder call are over after some rounds. -/
example : ∃ N, ∀ rounds : List (List (Nat × Bool)), N ≤ rounds.length →
    (∀ r ∈ rounds, ∀ i, i < 3 → ∃ b, (i, b) ∈ r) →
    ∀ p ∈ (setLockRun exOwn ⟨[1], [], none, 0⟩ [.request, .build (.before [5]), .request] rounds.flatten).pcs, p.over :=
  C74_ends_partial exOwn ⟨[1], [], none, 0⟩ [.request, .build (.before [5]), .request] (by decide)

end Verif
