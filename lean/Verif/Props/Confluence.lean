import Verif.Spec.Confluence
import Verif.Lemmas.Pipeline
import Verif.Props.Request
/-
C113: the answer to a request does not depend on the schedule of its goroutines.
-/
namespace Verif
open Spec
variable {υ π : Type}

/-! ### What is left to do -/

/-- The functions that a goroutine will have run when it and its children have ended. -/
def Go.leaves : Go → List Nat
  | .ret g => [g]
  | .spawn a b => a.leaves ++ b.leaves

def pending (l : List Go) : List Nat := l.flatMap Go.leaves

theorem pending_erase : ∀ (l : List Go) (i g : Nat), l[i]? = some (.ret g) → (g :: pending (l.eraseIdx i)).Perm (pending l)
  | [], i, g, h => by simp at h
  | x :: t, 0, g, h => by
    simp only [List.getElem?_cons_zero, Option.some.injEq] at h
    subst h
    exact List.Perm.refl _
  | x :: t, i + 1, g, h => by
    rw [List.getElem?_cons_succ] at h
    have := pending_erase t i g h
    simp only [pending, List.eraseIdx_cons_succ, List.flatMap_cons] at this ⊢
    exact (List.perm_middle.symm).trans (this.append_left x.leaves)

theorem pending_spawn : ∀ (l : List Go) (i : Nat) (a b : Go), l[i]? = some (.spawn a b) →
    (pending (l.set i b ++ [a])).Perm (pending l)
  | [], i, a, b, h => by simp at h
  | x :: t, 0, a, b, h => by
    simp only [List.getElem?_cons_zero, Option.some.injEq] at h
    subst h
    simp only [pending, List.set_cons_zero, List.flatMap_append, List.flatMap_cons, List.flatMap_nil, Go.leaves, List.append_nil]
    exact List.perm_append_comm.trans (by rw [List.append_assoc])
  | x :: t, i + 1, a, b, h => by
    rw [List.getElem?_cons_succ] at h
    have := pending_spawn t i a b h
    simp only [pending, List.set_cons_succ, List.cons_append, List.flatMap_cons] at this ⊢
    exact this.append_left _

/-- The shared state when all goroutines have ended. -/
def finalOf (w : Work υ) (c : RCtx υ) : υ := (pending c.gos).foldl (fun s g => w.act g s) c.store

theorem foldl_comm {w : Work υ} (hc : ∀ g h s, w.act g (w.act h s) = w.act h (w.act g s)) {l l' : List Nat} (h : l.Perm l') :
    ∀ s, l.foldl (fun s g => w.act g s) s = l'.foldl (fun s g => w.act g s) s := by
  induction h with
  | nil => intro s; rfl
  | cons x _ ih => intro s; exact ih _
  | swap x y l => intro s; simp only [List.foldl_cons, hc]
  | trans _ _ h1 h2 => intro s; exact (h1 s).trans (h2 s)

/-- Some goroutine has failed or will fail. -/
def failsOf (w : Work υ) (e : GoErr) (c : RCtx υ) : Prop := c.egErr = some e ∨ ∃ g ∈ pending c.gos, w.res g = some e

/-- Two states of a request that differ only in how far the goroutines are. -/
structure Alike (w : Work υ) (pub : υ → π) (e : GoErr) (c c' : RCtx υ) : Prop where
  seen : seen pub c = seen pub c'
  final : finalOf w c = finalOf w c'
  fails : failsOf w e c ↔ failsOf w e c'
  told : told c.trace = told c'.trace
  err : c.egErr = none ∨ c.egErr = some e
  err' : c'.egErr = none ∨ c'.egErr = some e

section
variable {w : Work υ} {pub : υ → π} {e : GoErr} {env env' : Env υ}

theorem Alike.refl (c : RCtx υ) (h : c.egErr = none ∨ c.egErr = some e) : Alike w pub e c c :=
  ⟨rfl, rfl, Iff.rfl, rfl, h, h⟩

theorem Alike.symm {c c' : RCtx υ} (h : Alike w pub e c c') : Alike w pub e c' c :=
  ⟨h.seen.symm, h.final.symm, h.fails.symm, h.told.symm, h.err', h.err⟩

theorem Alike.trans {c c' c'' : RCtx υ} (h : Alike w pub e c c') (g : Alike w pub e c' c'') : Alike w pub e c c'' :=
  ⟨h.seen.trans g.seen, h.final.trans g.final, h.fails.trans g.fails, h.told.trans g.told, h.err, g.err'⟩

theorem told_append (l l' : List Ev) : told (l ++ l') = told l ++ told l' := by simp [Spec.told]

theorem goStep_alike (ho : Orderless w pub e) (hd : Does env w) (c : RCtx υ) (i : Nat) (hc : c.egErr = none ∨ c.egErr = some e) :
    Alike w pub e (goStep env c i) c := by
  unfold goStep
  cases hi : c.gos[i]? with
  | none => exact Alike.refl c hc
  | some g =>
    cases g with
    | spawn a b =>
      have hp := pending_spawn c.gos i a b hi
      refine ⟨rfl, foldl_comm ho.comm hp _, ?_, ?_, hc, hc⟩
      · unfold failsOf
        refine or_congr Iff.rfl ⟨fun ⟨g, h1, h2⟩ => ⟨g, hp.mem_iff.1 h1, h2⟩, fun ⟨g, h1, h2⟩ => ⟨g, hp.mem_iff.2 h1, h2⟩⟩
      · show told (c.trace ++ [.spawn]) = _
        rw [told_append]; simp [Spec.told, tell]
    | ret g =>
      have hp := pending_erase c.gos i g hi
      dsimp only
      rw [hd g c]
      have hfin : (pending (c.gos.eraseIdx i)).foldl (fun s g => w.act g s) (w.act g c.store) = finalOf w c :=
        foldl_comm ho.comm hp c.store
      have ht : told (c.trace ++ [.goEnd (w.res g)]) = told c.trace := by
        rw [told_append]; simp [Spec.told, tell]
      have hs : ∀ gos egc ege tr, seen pub { c with gos := gos, store := w.act g c.store, egErr := ege, egCancelled := egc, trace := tr } =
          seen pub c := by
        intro _ _ _ _
        simp only [Spec.seen, ho.hidden]
      have hmem : ∀ x, x ∈ pending c.gos ↔ x = g ∨ x ∈ pending (c.gos.eraseIdx i) := fun x => by
        rw [← hp.mem_iff, List.mem_cons]
      rcases ho.fails g with hr | hr
      · simp only [hr]
        rw [hr] at ht
        refine ⟨hs _ _ _ _, hfin, ?_, ht, hc, hc⟩
        unfold failsOf
        refine or_congr Iff.rfl ⟨fun ⟨x, h1, h2⟩ => ⟨x, (hmem x).2 (Or.inr h1), h2⟩, fun ⟨x, h1, h2⟩ => ?_⟩
        rcases (hmem x).1 h1 with rfl | h1
        · rw [hr] at h2; cases h2
        · exact ⟨x, h1, h2⟩
      · rw [hr] at ht
        have hf : failsOf w e c := Or.inr ⟨g, (hmem g).2 (Or.inl rfl), hr⟩
        rcases hc with hc | hc
        · simp only [hr, hc]
          exact ⟨hs _ _ _ _, hfin, iff_of_true (Or.inl rfl) hf, ht, Or.inr rfl, Or.inl hc⟩
        · simp only [hr, hc]
          exact ⟨hs _ _ _ _, hfin, iff_of_true (Or.inl rfl) hf, ht, Or.inr rfl, Or.inr hc⟩

theorem tick_alike (ho : Orderless w pub e) (hd : Does env w) (c : RCtx υ) (hc : c.egErr = none ∨ c.egErr = some e) :
    Alike w pub e (tick env c) c := by
  unfold tick
  have key : ∀ (l : List Nat) (c : RCtx υ), (c.egErr = none ∨ c.egErr = some e) → Alike w pub e (l.foldl (goStep env) c) c := by
    intro l
    induction l with
    | nil => intro c hc; exact Alike.refl c hc
    | cons i t ih =>
      intro c hc
      have h1 := goStep_alike ho hd c i hc
      exact (ih _ h1.err).trans h1
  have h := key (env.sched c.clock) c hc
  exact ⟨h.seen, h.final, h.fails, h.told, h.err, h.err'⟩

theorem waitAll_alike (ho : Orderless w pub e) (hd : Does env w) (n : Nat) : ∀ c : RCtx υ, (c.egErr = none ∨ c.egErr = some e) →
    Alike w pub e (waitAll env n c) c := by
  induction n with
  | zero => intro c hc; exact Alike.refl c hc
  | succ n ih =>
    intro c hc
    unfold waitAll
    split
    · exact Alike.refl c hc
    · have h1 := goStep_alike ho hd { c with clock := c.clock + 1 } ((env.sched c.clock).headD 0 % c.gos.length) hc
      have h2 := (ih _ h1.err).trans h1
      exact ⟨h2.seen, h2.final, h2.fails, h2.told, h2.err, h2.err'⟩

theorem egWait_alike (ho : Orderless w pub e) (hd : Does env w) (c : RCtx υ) (hc : c.egErr = none ∨ c.egErr = some e) :
    Alike w pub e (egWait env c).1 c := by
  have h := waitAll_alike ho hd (goFuel c.gos) c hc
  exact ⟨h.seen, h.final, h.fails, h.told, h.err, h.err'⟩

/-- Nothing runs in either. -/
def BothCalm (c c' : RCtx υ) : Prop := c.gos = [] ∧ c'.gos = []

theorem Alike.store {c c' : RCtx υ} (h : Alike w pub e c c') (hg : BothCalm c c') : c.store = c'.store := by
  have := h.final
  unfold finalOf at this
  rw [hg.1, hg.2] at this
  exact this

theorem Alike.egErr {c c' : RCtx υ} (h : Alike w pub e c c') (hg : BothCalm c c') : c.egErr = c'.egErr := by
  have hf := h.fails
  unfold failsOf at hf
  rw [hg.1, hg.2] at hf
  simp only [pending, List.flatMap_nil, List.not_mem_nil, false_and, exists_false, or_false] at hf
  rcases h.err with h1 | h1 <;> rcases h.err' with h2 | h2 <;> simp_all

theorem Alike.same {c c' : RCtx υ} (h : Alike w pub e c c') (calm : Bool) (hg : calm = true → BothCalm c c') : Same pub calm c c' :=
  ⟨h.seen, fun hc => h.store (hg hc)⟩

theorem tick_calm (env : Env υ) (c : RCtx υ) (h : c.gos = []) : (tick env c).gos = [] := by
  unfold tick
  have key : ∀ (l : List Nat) (c : RCtx υ), c.gos = [] → (l.foldl (goStep env) c).gos = [] := by
    intro l
    induction l with
    | nil => intro c hc; exact hc
    | cons i t ih =>
      intro c hc
      refine ih _ ?_
      simp [goStep, hc]
  exact key _ c h

/-! ### One call, one handler -/

/-- A change that both undergo. -/
theorem Alike.event {c c' : RCtx υ} (h : Alike w pub e c c') (ev ev' : Ev) (he : tell ev = tell ev') :
    Alike w pub e (c.event ev) (c'.event ev') := by
  refine ⟨h.seen, h.final, h.fails, ?_, h.err, h.err'⟩
  show Spec.told (c.trace ++ [ev]) = Spec.told (c'.trace ++ [ev'])
  rw [told_append, told_append, h.told]
  simp only [Spec.told, List.filterMap_cons, he]

theorem applyOp_alike (ho : Orderless w pub e) (hd : Does env w) (hd' : Does env' w) (op : COp υ) (calm : Bool)
    (hop : Harmless w pub calm op) {c c' : RCtx υ} (h : Alike w pub e c c') (hg : calm = true → BothCalm c c') :
    Alike w pub e (applyOp env c op) (applyOp env' c' op) ∧
      (calmAfter calm op = true → BothCalm (applyOp env c op) (applyOp env' c' op)) := by
  have ht : Alike w pub e (tick env c) (tick env' c') :=
    (tick_alike ho hd c h.err).trans (h.trans (tick_alike ho hd' c' h.err').symm)
  have htg : calm = true → BothCalm (tick env c) (tick env' c') := fun hc => ⟨tick_calm env c (hg hc).1, tick_calm env' c' (hg hc).2⟩
  generalize hx : tick env c = x at ht htg
  generalize hx' : tick env' c' = x' at ht htg
  have hs := ht.seen
  simp only [Spec.seen, Seen.mk.injEq] at hs
  obtain ⟨s1, s2, s3, s4, s5, s6, s7, s8⟩ := hs
  unfold applyOp
  rw [hx, hx']
  cases op with
  | stop =>
    refine ⟨Alike.event (c := { x with stopped := true }) (c' := { x' with stopped := true })
      ⟨?_, ht.final, ht.fails, ht.told, ht.err, ht.err'⟩ _ _ rfl, htg⟩
    simp only [Spec.seen, Seen.mk.injEq]; exact ⟨trivial, s2, s3, s4, s5, s6, s7, s8⟩
  | abort =>
    refine ⟨Alike.event (c := { x with aborted := true, cancelled := true }) (c' := { x' with aborted := true, cancelled := true })
      ⟨?_, ht.final, ht.fails, ht.told, ht.err, ht.err'⟩ _ _ rfl, htg⟩
    simp only [Spec.seen, Seen.mk.injEq]; exact ⟨s1, trivial, s3, s4, s5, trivial, s7, s8⟩
  | skipMain =>
    refine ⟨Alike.event (c := { x with skipped := true }) (c' := { x' with skipped := true })
      ⟨?_, ht.final, ht.fails, ht.told, ht.err, ht.err'⟩ _ _ rfl, htg⟩
    simp only [Spec.seen, Seen.mk.injEq]; exact ⟨s1, s2, trivial, s4, s5, s6, s7, s8⟩
  | setLevel l =>
    refine ⟨⟨?_, ht.final, ht.fails, ht.told, ht.err, ht.err'⟩, htg⟩
    simp only [Spec.seen, Seen.mk.injEq]; exact ⟨s1, s2, s3, trivial, s5, s6, s7, s8⟩
  | addName n =>
    dsimp only
    unfold addDebugName
    rw [s4]
    split
    · refine ⟨⟨?_, ht.final, ht.fails, ht.told, ht.err, ht.err'⟩, htg⟩
      simp only [Spec.seen, Seen.mk.injEq]; rw [s5]; simp [*]
    · exact ⟨ht, htg⟩
  | go g =>
    refine ⟨Alike.event (c := { x with gos := x.gos ++ [g] }) (c' := { x' with gos := x'.gos ++ [g] })
      ⟨ht.seen, ?_, ?_, ht.told, ht.err, ht.err'⟩ _ _ rfl, fun hc => by simp [calmAfter] at hc⟩
    · have := ht.final
      unfold finalOf pending at this ⊢
      simp only [List.flatMap_append, List.foldl_append, this]
    · have := ht.fails
      unfold failsOf pending at this ⊢
      have hm : ∀ y : RCtx υ, (y.egErr = some e ∨ ∃ h ∈ (y.gos ++ [g]).flatMap Go.leaves, w.res h = some e) ↔
          ((y.egErr = some e ∨ ∃ h ∈ y.gos.flatMap Go.leaves, w.res h = some e) ∨ ∃ h ∈ g.leaves, w.res h = some e) := by
        intro y
        simp only [List.flatMap_append, List.mem_append, List.flatMap_cons, List.flatMap_nil, List.append_nil]
        constructor
        · rintro (h | ⟨h, h1 | h1, h2⟩)
          · exact Or.inl (Or.inl h)
          · exact Or.inl (Or.inr ⟨h, h1, h2⟩)
          · exact Or.inr ⟨h, h1, h2⟩
        · rintro ((h | ⟨h, h1, h2⟩) | ⟨h, h1, h2⟩)
          · exact Or.inl h
          · exact Or.inr ⟨h, Or.inl h1, h2⟩
          · exact Or.inr ⟨h, Or.inr h1, h2⟩
      dsimp only
      rw [hm, hm, this]
  | wait =>
    have he : Alike w pub e (x.event (.ctl .egWait)) (x'.event (.ctl .egWait)) := ht.event _ _ rfl
    exact ⟨(egWait_alike ho hd _ he.err).trans (he.trans (egWait_alike ho hd' _ he.err').symm),
      fun _ => ⟨egWait_gos env _, egWait_gos env' _⟩⟩
  | upd f =>
    cases calm with
    | true =>
      have hst := ht.store (htg rfl)
      refine ⟨⟨?_, ?_, ht.fails, ht.told, ht.err, ht.err'⟩, htg⟩
      · simp only [Spec.seen, Seen.mk.injEq]; exact ⟨s1, s2, s3, s4, s5, s6, s7, by rw [hst]⟩
      · unfold finalOf
        dsimp only
        rw [(htg rfl).1, (htg rfl).2, hst]
    | false =>
      obtain ⟨h1, h2⟩ := hop rfl
      refine ⟨⟨?_, ?_, ht.fails, ht.told, ht.err, ht.err'⟩, htg⟩
      · simp only [Spec.seen, Seen.mk.injEq]; exact ⟨s1, s2, s3, s4, s5, s6, s7, h2 _ _ s8⟩
      · have hc : ∀ (l : List Nat) (s : υ), l.foldl (fun s g => w.act g s) (f s) = f (l.foldl (fun s g => w.act g s) s) := by
          intro l
          induction l with
          | nil => intro s; rfl
          | cons g t ih => intro s; simp only [List.foldl_cons, ← h1, ih]
        have := ht.final
        unfold finalOf at this ⊢
        dsimp only
        rw [hc, hc, this]
  | resp f =>
    refine ⟨Alike.event (c := { x with resp := f x.resp }) (c' := { x' with resp := f x'.resp })
      ⟨?_, ht.final, ht.fails, ht.told, ht.err, ht.err'⟩ _ _ (by rw [s7]), htg⟩
    simp only [Spec.seen, Seen.mk.injEq]; exact ⟨s1, s2, s3, s4, s5, s6, by rw [s7], s8⟩

theorem runProg_alike (ho : Orderless w pub e) (hd : Does env w) (hd' : Does env' w) (calm : Bool) (p : Prog υ) (hp : Tame w pub calm p) :
    ∀ c c' : RCtx υ, Alike w pub e c c' → (calm = true → BothCalm c c') →
      Alike w pub e (runProg env p c).1 (runProg env' p c').1 ∧ (runProg env p c).2 = (runProg env' p c').2 := by
  induction hp with
  | ret calm o =>
    intro c c' h hg
    exact ⟨(tick_alike ho hd c h.err).trans (h.trans (tick_alike ho hd' c' h.err').symm), rfl⟩
  | call calm op k hop hk _ ih =>
    intro c c' h hg
    obtain ⟨h1, h2⟩ := applyOp_alike ho hd hd' op calm hop h hg
    simp only [runProg]
    rw [hk _ _ (h1.same _ h2)]
    exact ih _ _ _ h1 h2

theorem callProg_alike (ho : Orderless w pub e) (hd : Does env w) (hd' : Does env' w) (calm : Bool) (h : HId) (f : RCtx υ → Prog υ)
    (hf : TameH w pub calm f) {c c' : RCtx υ} (ha : Alike w pub e c c') (hg : calm = true → BothCalm c c') :
    Alike w pub e (callProg env h f c).1 (callProg env' h f c').1 ∧ (callProg env h f c).2 = (callProg env' h f c').2 := by
  unfold callProg
  have h0 : Alike w pub e (c.event (.start h c.done)) (c'.event (.start h c'.done)) := ha.event _ _ rfl
  dsimp only
  rw [hf.1 _ _ (h0.same calm hg)]
  obtain ⟨h1, h2⟩ := runProg_alike ho hd hd' calm _ (hf.2 (c'.event (.start h c'.done))) _ _ h0 hg
  exact ⟨h1.event _ _ (by simp only [tell, h2]), h2⟩

/-- Alike, and going on in the same way. -/
def AlikeR (w : Work υ) (pub : υ → π) (e : GoErr) (r r' : RCtx υ × Flow) : Prop := Alike w pub e r.1 r'.1 ∧ r.2 = r'.2

theorem Alike.stopped {c c' : RCtx υ} (h : Alike w pub e c c') : c.isStopped = c'.isStopped := by
  have hs := h.seen
  simp only [Spec.seen, Seen.mk.injEq] at hs
  unfold RCtx.isStopped
  rw [hs.1, hs.2.1]

theorem Alike.addName {c c' : RCtx υ} (h : Alike w pub e c c') (n : Str) : Alike w pub e (addDebugName c n) (addDebugName c' n) := by
  have hs := h.seen
  simp only [Spec.seen, Seen.mk.injEq] at hs
  obtain ⟨s1, s2, s3, s4, s5, s6, s7, s8⟩ := hs
  unfold addDebugName
  rw [s4]
  split
  · refine ⟨?_, h.final, h.fails, h.told, h.err, h.err'⟩
    simp only [Spec.seen, Seen.mk.injEq]; rw [s5]; simp [*]
  · exact h

theorem callStop_alike (ho : Orderless w pub e) (hd : Does env w) (hd' : Does env' w) (h : HId) (f : RCtx υ → Prog υ)
    (hf : TameH w pub false f) {c c' : RCtx υ} (ha : Alike w pub e c c') :
    AlikeR w pub e (callStop env h f c) (callStop env' h f c') := by
  obtain ⟨h1, h2⟩ := callProg_alike ho hd hd' false h f hf ha (fun h => by cases h)
  unfold callStop
  rcases hr : callProg env h f c with ⟨x, o⟩
  rcases hr' : callProg env' h f c' with ⟨x', o'⟩
  rw [hr, hr'] at h1 h2
  dsimp only at h1 h2
  subst h2
  cases o with
  | panic => exact ⟨h1, rfl⟩
  | err er => exact ⟨h1, rfl⟩
  | ok =>
    dsimp only
    rw [h1.stopped]
    split
    · exact ⟨h1, rfl⟩
    · exact ⟨h1, rfl⟩

theorem runList_alike (ho : Orderless w pub e) (hd : Does env w) (hd' : Does env' w) (id : Nat → HId) (l : List (Option (Hdl υ)))
    (hl : ∀ h, some h ∈ l → TameH w pub false h.run) : ∀ (i : Nat) {c c' : RCtx υ}, Alike w pub e c c' →
    AlikeR w pub e (runList env id i l c) (runList env' id i l c') := by
  induction l with
  | nil => intro i c c' h; exact ⟨h, rfl⟩
  | cons x t ih =>
    intro i c c' h
    cases x with
    | none => exact ⟨h, rfl⟩
    | some x =>
      obtain ⟨h1, h2⟩ := callStop_alike ho hd hd' (id i) x.run (hl x (by simp)) (h.addName x.name)
      unfold runList
      rcases hr : callStop env (id i) x.run (addDebugName c x.name) with ⟨y, o⟩
      rcases hr' : callStop env' (id i) x.run (addDebugName c' x.name) with ⟨y', o'⟩
      rw [hr, hr'] at h1 h2
      dsimp only at h1 h2
      subst h2
      cases o with
      | next => exact ih (fun h hh => hl h (by simp [hh])) (i + 1) h1
      | returned r => exact ⟨h1, rfl⟩
      | panicked => exact ⟨h1, rfl⟩

theorem runSet_alike (ho : Orderless w pub e) (hd : Does env w) (hd' : Does env' w) (set : HSetV υ) (hs : TameSet w pub set)
    {c c' : RCtx υ} (h : Alike w pub e c c') : AlikeR w pub e (runSet env set c) (runSet env' set c') := by
  unfold runSet
  cases hm : set.main with
  | none => exact ⟨h, rfl⟩
  | some m =>
    obtain ⟨hi, hr⟩ := hs.main m hm
    dsimp only
    obtain ⟨h1, h2⟩ := callProg_alike ho hd hd' false .init m.init hi (h.addName m.name) (fun h => by cases h)
    rcases e1 : callProg env .init m.init (addDebugName c m.name) with ⟨y, o⟩
    rcases e1' : callProg env' .init m.init (addDebugName c' m.name) with ⟨y', o'⟩
    rw [e1, e1'] at h1 h2
    dsimp only at h1 h2
    subst h2
    cases o with
    | panic => exact ⟨h1, rfl⟩
    | err er => exact ⟨h1, rfl⟩
    | ok =>
      dsimp only
      obtain ⟨h1, h2⟩ := runList_alike ho hd hd' .before set.before hs.before 0 h1
      rcases e2 : runList env .before 0 set.before y with ⟨z, f⟩
      rcases e2' : runList env' .before 0 set.before y' with ⟨z', f'⟩
      rw [e2, e2'] at h1 h2
      dsimp only at h1 h2
      subst h2
      cases f with
      | returned r => exact ⟨h1, rfl⟩
      | panicked => exact ⟨h1, rfl⟩
      | next =>
        dsimp only
        have hsk : z.skipped = z'.skipped := by
          have := h1.seen
          simp only [Spec.seen, Seen.mk.injEq] at this
          exact this.2.2.1
        have hmain : AlikeR w pub e (if z.skipped then (z, Flow.next) else callStop env .main m.run (addDebugName z m.name))
            (if z'.skipped then (z', Flow.next) else callStop env' .main m.run (addDebugName z' m.name)) := by
          rw [hsk]
          split
          · exact ⟨h1, rfl⟩
          · exact callStop_alike ho hd hd' .main m.run hr (h1.addName m.name)
        obtain ⟨h1, h2⟩ := hmain
        rcases e3 : (if z.skipped then (z, Flow.next) else callStop env .main m.run (addDebugName z m.name)) with ⟨u, f⟩
        rcases e3' : (if z'.skipped then (z', Flow.next) else callStop env' .main m.run (addDebugName z' m.name)) with ⟨u', f'⟩
        rw [e3, e3'] at h1 h2
        dsimp only at h1 h2
        subst h2
        cases f with
        | returned r => exact ⟨h1, rfl⟩
        | panicked => exact ⟨h1, rfl⟩
        | next =>
          dsimp only
          obtain ⟨h1, h2⟩ := runList_alike ho hd hd' .after set.after hs.after 0 h1
          rcases e4 : runList env .after 0 set.after u with ⟨v, f⟩
          rcases e4' : runList env' .after 0 set.after u' with ⟨v', f'⟩
          rw [e4, e4'] at h1 h2
          dsimp only at h1 h2
          subst h2
          cases f with
          | next => exact ⟨h1, rfl⟩
          | returned r => exact ⟨h1, rfl⟩
          | panicked => exact ⟨h1, rfl⟩

theorem runRouted_alike (ho : Orderless w pub e) (hd : Does env w) (hd' : Does env' w) (set : HSetV υ) (hs : TameSet w pub set)
    {c c' : RCtx υ} (h : Alike w pub e c c') : AlikeR w pub e (runRouted env set c) (runRouted env' set c') := by
  obtain ⟨h1, h2⟩ := runSet_alike ho hd hd' set hs h
  unfold runRouted
  rcases e1 : runSet env set c with ⟨y, f⟩
  rcases e1' : runSet env' set c' with ⟨y', f'⟩
  rw [e1, e1'] at h1 h2
  dsimp only at h1 h2
  subst h2
  cases f with
  | next => exact ⟨h1, rfl⟩
  | panicked => exact ⟨h1, rfl⟩
  | returned err =>
    dsimp only
    have hab : y.aborted = y'.aborted := by
      have := h1.seen
      simp only [Spec.seen, Seen.mk.injEq] at this
      exact this.2.1
    rw [hab]
    split
    · exact ⟨h1, rfl⟩
    · have hw : Alike w pub e (egWait env y).1 (egWait env' y').1 :=
        (egWait_alike ho hd _ h1.err).trans (h1.trans (egWait_alike ho hd' _ h1.err').symm)
      have hc : BothCalm (egWait env y).1 (egWait env' y').1 := ⟨egWait_gos env _, egWait_gos env' _⟩
      have hee : (egWait env y).2 = (egWait env' y').2 := hw.egErr hc
      rw [hee]
      unfold runLast
      cases hl : set.last with
      | none => exact ⟨hw, rfl⟩
      | some l =>
        dsimp only
        obtain ⟨h3, h4⟩ := callProg_alike ho hd hd' true (.last (mergeErr err (egWait env' y').2)) (l.run (mergeErr err (egWait env' y').2))
          (hs.last l hl _) hw (fun _ => hc)
        rcases e2 : callProg env (.last (mergeErr err (egWait env' y').2)) (l.run (mergeErr err (egWait env' y').2)) (egWait env y).1 with ⟨u, o⟩
        rcases e2' : callProg env' (.last (mergeErr err (egWait env' y').2)) (l.run (mergeErr err (egWait env' y').2)) (egWait env' y').1 with ⟨u', o'⟩
        rw [e2, e2'] at h3 h4
        dsimp only at h3 h4
        subst h4
        cases o with
        | panic => exact ⟨h3, rfl⟩
        | err er => exact ⟨h3, rfl⟩
        | ok => exact ⟨h3, rfl⟩

end

/-! ### Requests -/

/-- The session initialiser (server_run.go:143-147). -/
def sessPart (env : Env υ) (ini : Option (RCtx υ → Prog υ)) (c : RCtx υ) : RCtx υ × HOut :=
  match ini with
  | none => (c, HOut.ok)
  | some f => callProg env .sess f c

/-- The rest (server_run.go:143-166). -/
def restPart (env : Env υ) (path : Str) (set : Option (HSetV υ)) (level : Int) (r : RCtx υ × HOut) : RCtx υ × Flow :=
  match r with
  | (c, .panic) => (c, .panicked)
  | (c, .err e) => (c, .returned (some (.leaf 0 (b!"path '" ++ path ++ b!"': " ++ e.error))))
  | (c, .ok) =>
    match set with
    | none => (c, .panicked)
    | some s => runRouted env s { c with level := level }

theorem runHTTP_parts {σ ρ : Type} [DecidableEq ρ] (env : Env υ) (rxMatch : ρ → Str → Bool)
    (visit : GoMap ρ (Option σ) → List (ρ × Option σ)) (srv : Srv υ σ ρ) (meth : Method) (path : Str) (resp : Resp) (store : Args → υ)
    (buf : Args) (clock : Nat) (res : FindResult σ) (hf : serverFind rxMatch visit srv.tree srv.regs meth path buf = .ret res)
    (hfd : res.found = true) :
    runHTTP env rxMatch visit srv meth path resp store buf clock =
      (let out := restPart env path (res.set.map srv.sets) srv.logLevel (sessPart env srv.initCtx (newContext resp (store res.args) clock))
       .ret ⟨some ({ out.1 with cancelled := true }.event .released), out.2, out.1.resp⟩) := by
  unfold runHTTP
  rw [hf]
  simp only [Outcome.bind_ret]
  rw [if_neg (not_not_intro hfd)]
  unfold restPart sessPart
  cases res.set <;> rfl

theorem sessPart_alike {w : Work υ} {pub : υ → π} {e : GoErr} {env env' : Env υ} (ho : Orderless w pub e) (hd : Does env w)
    (hd' : Does env' w) (ini : Option (RCtx υ → Prog υ)) (hini : ∀ f, ini = some f → TameH w pub false f) {c c' : RCtx υ}
    (h : Alike w pub e c c') : Alike w pub e (sessPart env ini c).1 (sessPart env' ini c').1 ∧
      (sessPart env ini c).2 = (sessPart env' ini c').2 := by
  cases ini with
  | none => exact ⟨h, rfl⟩
  | some f => exact callProg_alike ho hd hd' false .sess f (hini f rfl) h (fun h => by cases h)

theorem restPart_alike {w : Work υ} {pub : υ → π} {e : GoErr} {env env' : Env υ} (ho : Orderless w pub e) (hd : Does env w)
    (hd' : Does env' w) (path : Str) (set : Option (HSetV υ)) (hs : ∀ s, set = some s → TameSet w pub s) (level : Int)
    {r r' : RCtx υ × HOut} (h : Alike w pub e r.1 r'.1 ∧ r.2 = r'.2) :
    AlikeR w pub e (restPart env path set level r) (restPart env' path set level r') := by
  obtain ⟨y, o⟩ := r
  obtain ⟨y', o'⟩ := r'
  obtain ⟨h1, h2⟩ := h
  dsimp only at h1 h2
  subst h2
  cases o with
  | panic => exact ⟨h1, rfl⟩
  | err er => exact ⟨h1, rfl⟩
  | ok =>
    cases hset : set with
    | none => exact ⟨h1, rfl⟩
    | some s =>
      have hl : Alike w pub e { y with level := level } { y' with level := level } := by
        have hs := h1.seen
        simp only [Spec.seen, Seen.mk.injEq] at hs
        obtain ⟨s1, s2, s3, s4, s5, s6, s7, s8⟩ := hs
        refine ⟨?_, h1.final, h1.fails, h1.told, h1.err, h1.err'⟩
        simp only [Spec.seen, Seen.mk.injEq]; exact ⟨s1, s2, s3, trivial, s5, s6, s7, s8⟩
      exact runRouted_alike ho hd hd' s (hs s hset) hl

/-- **C113**.  Let the goroutines of a request fail, if they do, with one error, change the shared state in ways that commute
and that the handlers do not look at before waiting; and let the handlers not look at the goroutines otherwise.  Then, however
the goroutines are scheduled (and whenever the connection ends), the same handlers are called, in the same order and with the
same results and errors; the same calls are made and the same is written; the request ends in the same way and with the same
response; and when all goroutines have ended, the shared state is the same. -/
theorem C113_schedule {σ ρ : Type} [DecidableEq ρ] (w : Work υ) (pub : υ → π) (e : GoErr) (ho : Orderless w pub e)
    (env env' : Env υ) (hd : Does env w) (hd' : Does env' w) (rxMatch : ρ → Str → Bool)
    (visit : GoMap ρ (Option σ) → List (ρ × Option σ)) (srv : Srv υ σ ρ) (hsets : ∀ s, TameSet w pub (srv.sets s))
    (hini : ∀ f, srv.initCtx = some f → TameH w pub false f) (meth : Method) (path : Str) (resp : Resp) (store : Args → υ) (buf : Args)
    (clock clock' : Nat) (d : Done υ) (hrun : runHTTP env rxMatch visit srv meth path resp store buf clock = .ret d) :
    ∃ d', runHTTP env' rxMatch visit srv meth path resp store buf clock' = .ret d' ∧
      d'.flow = d.flow ∧ d'.resp = d.resp ∧ told d'.trace = told d.trace ∧ d'.ctx.isSome = d.ctx.isSome ∧
      ∀ c c', d.ctx = some c → d'.ctx = some c' → seen pub c' = seen pub c ∧ (c.gos = [] → c'.gos = [] → c'.store = c.store) := by
  cases hf : serverFind rxMatch visit srv.tree srv.regs meth path buf with
  | panic => unfold runHTTP at hrun; rw [hf] at hrun; cases hrun
  | outOfFuel => unfold runHTTP at hrun; rw [hf] at hrun; cases hrun
  | ret res =>
    by_cases hfd : res.found
    · rw [runHTTP_parts env rxMatch visit srv meth path resp store buf clock res hf hfd] at hrun
      rw [runHTTP_parts env' rxMatch visit srv meth path resp store buf clock' res hf hfd]
      have h0 : Alike w pub e (newContext resp (store res.args) clock) (newContext resp (store res.args) clock') :=
        ⟨rfl, rfl, Iff.rfl, rfl, Or.inl rfl, Or.inl rfl⟩
      obtain ⟨h2, h3⟩ := restPart_alike ho hd hd' path (res.set.map srv.sets) (fun s hs => by
        obtain ⟨x, -, rfl⟩ := Option.map_eq_some_iff.1 hs
        exact hsets x) srv.logLevel (sessPart_alike ho hd hd' srv.initCtx hini h0)
      generalize restPart env path (res.set.map srv.sets) srv.logLevel (sessPart env srv.initCtx (newContext resp (store res.args) clock)) = r
        at h2 h3 hrun
      generalize restPart env' path (res.set.map srv.sets) srv.logLevel (sessPart env' srv.initCtx (newContext resp (store res.args) clock')) = r'
        at h2 h3
      cases hrun
      have hs := h2.seen
      simp only [Spec.seen, Seen.mk.injEq] at hs
      obtain ⟨s1, s2, s3, s4, s5, s6, s7, s8⟩ := hs
      refine ⟨_, rfl, h3.symm, s7.symm, ?_, rfl, ?_⟩
      · exact (h2.symm.event .released .released rfl).told
      · intro c c' hc hc'
        dsimp only at hc hc'
        cases hc
        cases hc'
        refine ⟨?_, fun g g' => (h2.store ⟨g, g'⟩).symm⟩
        simp only [Spec.seen, RCtx.event, Seen.mk.injEq]
        exact ⟨s1.symm, s2.symm, s3.symm, s4.symm, s5.symm, trivial, s7.symm, s8.symm⟩
    · unfold runHTTP at hrun ⊢
      rw [hf] at hrun ⊢
      simp only [Outcome.bind_ret] at hrun ⊢
      rw [if_pos hfd] at hrun ⊢
      cases hrun
      exact ⟨_, rfl, rfl, rfl, rfl, rfl, fun c c' hc => by cases hc⟩


/-! ### Examples, and why each condition is needed -/

namespace SchedEx
open ReqEx

/-- The work, with a schedule. -/
def envOf (w : Work Nat) (sched : Nat → List Nat) : Env Nat := ⟨fun g c => (w.res g, w.act g c.store), sched, fun _ => false⟩

theorem envOf_does (w : Work Nat) (sched : Nat → List Nat) : Does (envOf w sched) w := fun _ _ => rfl

/-- The status becomes the shared state. -/
def show_ : Prog Nat := .call .skipMain fun c => .call (.resp fun r => { r with status := c.store }) fun _ => .ret .ok

/-- Wait, then show. -/
def waitShow : Prog Nat := .call .wait fun c => .call (.resp fun r => { r with status := c.store }) fun _ => .ret .ok

/-- Two goroutines, then `p`. -/
def two (p : Prog Nat) : Prog Nat := .call (.go (.ret 0)) fun _ => .call (.go (.ret 1)) fun _ => p

def setOf (p : Prog Nat) (last : Option (LastH Nat)) : HSetV Nat := ⟨[], [], last, some ⟨b!"m", fun _ => .ret .ok, fun _ => two p⟩⟩

/-- A request for /a/7 with this set: how it ends, and the status. -/
def result (env : Env Nat) (set : HSetV Nat) : Flow × Nat := (run env (server 5 none set empty) b!"/a/7").2

/-- The result depends on the schedule. -/
def Depends (w : Work Nat) (set : HSetV Nat) : Prop :=
  ∃ env env', Does env w ∧ Does env' w ∧ result env set ≠ result env' set

/-- The goroutines fail with two errors. -/
def twoErrs : Work Nat := ⟨fun g => some (.leaf g b!"no"), fun _ s => s⟩
/-- They overwrite each other's results. -/
def overwrite : Work Nat := ⟨fun _ => none, fun g _ => g⟩
/-- They add up. -/
def adds : Work Nat := ⟨fun g => if g = 1 then some (.leaf 1 b!"no") else none, fun g s => s + (g + 1)⟩

theorem tame_show (w : Work Nat) : Tame w (fun s : Nat => s) false show_ :=
  .call _ _ _ trivial (fun c c' h => by
    have := h.1
    simp only [Spec.seen, Seen.mk.injEq] at this
    rw [this.2.2.2.2.2.2.2]) fun _ => .call _ _ _ trivial (fun _ _ _ => rfl) fun _ => .ret _ _

theorem tame_waitShow {π : Type} (pub : Nat → π) (w : Work Nat) : Tame w pub false waitShow :=
  .call _ _ _ trivial (fun c c' h => by rw [h.2 rfl]) fun _ => .call _ _ _ trivial (fun _ _ _ => rfl) fun _ => .ret _ _

theorem tame_two {π : Type} {pub : Nat → π} {w : Work Nat} {p : Prog Nat} (h : Tame w pub false p) : Tame w pub false (two p) :=
  .call _ _ _ trivial (fun _ _ _ => rfl) fun _ => .call _ _ _ trivial (fun _ _ _ => rfl) fun _ => h

theorem tame_set {π : Type} {pub : Nat → π} {w : Work Nat} {p : Prog Nat} (h : Tame w pub false p) : TameSet w pub (setOf p none) where
  before := by simp [setOf]
  after := by simp [setOf]
  main := by
    intro m hm
    simp only [setOf, Option.some.injEq] at hm
    subst hm
    exact ⟨⟨fun _ _ _ => rfl, fun _ => .ret _ _⟩, fun _ _ _ => rfl, fun _ => tame_two h⟩
  last := by simp [setOf]

theorem orderless_adds : Orderless adds (fun _ : Nat => ()) (.leaf 1 b!"no") where
  fails := by
    intro g
    simp only [adds]
    by_cases h : g = 1
    · exact Or.inr (if_pos h)
    · exact Or.inl (if_neg h)
  comm := by intro g h s; simp only [adds]; omega
  hidden := fun _ _ => rfl

/-- One schedule in which goroutine 1 always goes first, and one in which nothing runs until it is waited for. -/
def sched1 : Nat → List Nat := fun _ => [1]
def sched0 : Nat → List Nat := fun _ => []

-- C113: the conditions can be met; the goroutines add 1 and 2, the second one fails
example : ∃ d, runHTTP (envOf adds sched0) (fun (_ : Nat) _ => false) id (server 5 none (setOf waitShow none) (setOf waitShow none)) mGet b!"/a/7"
      ⟨200, [], []⟩ (fun a => a.length) [] 0 = .ret d ∧ d.resp.status = 4 ∧ d.flow = .returned (some (.leaf 1 b!"no")) ∧
    ∀ sched, ∃ d', runHTTP (envOf adds sched) (fun (_ : Nat) _ => false) id (server 5 none (setOf waitShow none) (setOf waitShow none)) mGet
      b!"/a/7" ⟨200, [], []⟩ (fun a => a.length) [] 0 = .ret d' ∧ d'.flow = d.flow ∧ d'.resp = d.resp := by
  refine ⟨_, rfl, by decide +kernel, by decide +kernel, fun sched => ?_⟩
  obtain ⟨d', h1, h2, h3, -⟩ := C113_schedule adds (fun _ : Nat => ()) (.leaf 1 b!"no") orderless_adds (envOf adds sched0) (envOf adds sched)
    (envOf_does _ _) (envOf_does _ _) (fun (_ : Nat) _ => false) id (server 5 none (setOf waitShow none) (setOf waitShow none))
    (fun s => by
      show TameSet _ _ (if s = 1 then _ else _)
      split <;> exact tame_set (tame_waitShow _ _))
    (by intro f hf; cases hf) mGet b!"/a/7" ⟨200, [], []⟩ (fun a => a.length) [] 0 0 _ rfl
  exact ⟨d', h1, h2, h3⟩

end SchedEx
open SchedEx

/-- **C113** (each condition is needed).  The result may depend on the schedule if the goroutines fail with two errors, if what
they do does not commute, if handlers look at what goroutines change without waiting (whether one counts this as visible
work or as a handler that is not tame). -/
theorem C113_needed :
    (∃ w : Work Nat, (∀ g h s, w.act g (w.act h s) = w.act h (w.act g s)) ∧ (∀ g s, w.act g s = s) ∧
      ∃ set, TameSet w (fun s : Nat => s) set ∧ Depends w set) ∧
    (∃ w : Work Nat, (∀ g, w.res g = none) ∧ ∃ set, TameSet w (fun _ : Nat => ()) set ∧ Depends w set) ∧
    (∃ w : Work Nat, (∀ g, w.res g = none ∨ w.res g = some (.leaf 1 b!"no")) ∧ (∀ g h s, w.act g (w.act h s) = w.act h (w.act g s)) ∧
      ∃ set, TameSet w (fun s : Nat => s) set ∧ Depends w set) ∧
    (∃ w : Work Nat, Orderless w (fun _ : Nat => ()) (.leaf 1 b!"no") ∧ ∃ set, Depends w set) := by
  refine ⟨⟨twoErrs, fun _ _ _ => rfl, fun _ _ => rfl, setOf waitShow none, tame_set (tame_waitShow _ _),
      envOf twoErrs sched0, envOf twoErrs sched1, envOf_does _ _, envOf_does _ _, by decide +kernel⟩,
    ⟨overwrite, fun _ => rfl, setOf waitShow none, tame_set (tame_waitShow _ _),
      envOf overwrite sched0, envOf overwrite sched1, envOf_does _ _, envOf_does _ _, by decide +kernel⟩,
    ⟨adds, orderless_adds.fails, orderless_adds.comm, setOf show_ none, tame_set (tame_show _),
      envOf adds sched0, envOf adds sched1, envOf_does _ _, envOf_does _ _, by decide +kernel⟩,
    ⟨adds, orderless_adds, setOf show_ none, envOf adds sched0, envOf adds sched1, envOf_does _ _, envOf_does _ _, by decide +kernel⟩⟩

end Verif
