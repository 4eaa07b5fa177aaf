import Verif.Spec.Contexts
/-
C111: cancellation and values of the contexts of a request.
-/
namespace Verif
open Spec

theorem cxRun_append (b a : List CxOp) : cxRun (b ++ a) = a.foldl CxWorld.step (cxRun b) := by
  unfold cxRun; rw [List.foldl_append]

/-! ### The tables grow, and their entries change only by the calls that concern them -/

theorem step_users_len (w : CxWorld) (o : CxOp) : (w.step o).users.length = w.users.length + (if makesCx o then 1 else 0) := by
  cases o <;> simp [CxWorld.step, makesCx, CxWorld.req] <;> split <;> simp

theorem step_runs_len (w : CxWorld) (o : CxOp) : (w.step o).runs.length = w.runs.length + (if makesRun o then 1 else 0) := by
  cases o <;> simp [CxWorld.step, makesRun, CxWorld.req] <;> split <;> simp

theorem step_reqs_len (w : CxWorld) (o : CxOp) : (w.step o).reqs.length = w.reqs.length + (if makesReq o then 1 else 0) := by
  cases o <;> simp [CxWorld.step, makesReq, CxWorld.req] <;> split <;> simp

theorem table_len {α : Type} (f : CxWorld → List α) (makes : CxOp → Bool) (hi : f .init = [])
    (hs : ∀ w o, (f (w.step o)).length = (f w).length + (if makes o then 1 else 0)) (h : List CxOp) :
    (f (cxRun h)).length = h.countP makes := by
  have key : ∀ (h : List CxOp) (w : CxWorld), (f (h.foldl CxWorld.step w)).length = (f w).length + h.countP makes := by
    intro h
    induction h with
    | nil => intro w; simp
    | cons o h ih =>
      intro w
      rw [List.foldl_cons, ih, hs, List.countP_cons]
      omega
  have := key h .init
  rw [hi] at this
  unfold cxRun
  simpa using this

theorem users_len (h : List CxOp) : (cxRun h).users.length = h.countP makesCx :=
  table_len (·.users) makesCx rfl step_users_len h
theorem runs_len (h : List CxOp) : (cxRun h).runs.length = h.countP makesRun :=
  table_len (·.runs) makesRun rfl step_runs_len h
theorem reqs_len (h : List CxOp) : (cxRun h).reqs.length = h.countP makesReq :=
  table_len (·.reqs) makesReq rfl step_reqs_len h

theorem cx_getElem?_push {α : Type} (l : List α) (x : α) (i : Nat) (c : α) (h : l[i]? = some c) : (l ++ [x])[i]? = some c := by
  rw [List.getElem?_append_left]
  · exact h
  · exact (List.getElem?_eq_some_iff.1 h).1

theorem step_user (w : CxWorld) (o : CxOp) (i : Nat) (c : UserCx) (h : w.users[i]? = some c) :
    (w.step o).users[i]? = some { c with cancelled := c.cancelled || decide (o = .cancel i) } := by
  cases o <;> try (simp [CxWorld.step, CxWorld.req, h]; done)
  case background => simp [CxWorld.step, cx_getElem?_push _ _ _ _ h]
  case child => simp [CxWorld.step, cx_getElem?_push _ _ _ _ h]
  case value => simp [CxWorld.step, cx_getElem?_push _ _ _ _ h]
  case cancel p =>
    simp only [CxWorld.step, List.getElem?_modify, h]
    by_cases e : p = i <;> simp [e]
  all_goals
    simp only [CxWorld.step]
    split <;> simp [h]

theorem step_run (w : CxWorld) (o : CxOp) (i : Nat) (c : RunCx) (h : w.runs[i]? = some c) :
    (w.step o).runs[i]? = some { c with cancelled := c.cancelled || decide (o = .runOver i) } := by
  cases o <;> try (simp [CxWorld.step, CxWorld.req, h]; done)
  case run => simp [CxWorld.step, cx_getElem?_push _ _ _ _ h]
  case runOver p =>
    simp only [CxWorld.step, List.getElem?_modify, h]
    by_cases e : p = i <;> simp [e]
  all_goals
    simp only [CxWorld.step]
    split <;> simp [h]

/-- What a call does to the contexts of request `r`. -/
def reqEffect (r : Nat) (c : ReqCx) : CxOp → ReqCx
  | .setUser r' k v => if r' = r then { c with vals := c.vals.set k v } else c
  | .set r' k v => if r' = r then { c with data := c.data.set k v } else c
  | .abort r' => if r' = r then { c with own := true } else c
  | .groupErr r' => if r' = r then { c with group := true } else c
  | .wait r' => if r' = r then { c with group := true } else c
  | .finish r' => if r' = r then { c with own := true } else c
  | _ => c

theorem step_req (w : CxWorld) (o : CxOp) (r : Nat) (c : ReqCx) (h : w.reqs[r]? = some c) :
    (w.step o).reqs[r]? = some (reqEffect r c o) := by
  cases o
  case request => simp [CxWorld.step, reqEffect, cx_getElem?_push _ _ _ _ h]
  case setUser p _ _ | set p _ _ | abort p | groupErr p | wait p | finish p =>
    simp only [CxWorld.step, CxWorld.req, List.getElem?_modify, h, reqEffect]
    by_cases e : p = r <;> simp [e]
  case serve | shut | shutEnd =>
    simp only [CxWorld.step, reqEffect]
    split <;> simp [h]
  all_goals simp [CxWorld.step, h, reqEffect]

theorem fold_user (a : List CxOp) : ∀ (w : CxWorld) (i : Nat) (c : UserCx), w.users[i]? = some c →
    (a.foldl CxWorld.step w).users[i]? = some { c with cancelled := c.cancelled || decide (.cancel i ∈ a) } := by
  induction a with
  | nil => intro w i c h; simp [h]
  | cons o a ih =>
    intro w i c h
    rw [List.foldl_cons, ih _ _ _ (step_user w o i c h)]
    by_cases e : o = .cancel i
    · subst e; simp
    · simp [e, Ne.symm e]

theorem fold_run (a : List CxOp) : ∀ (w : CxWorld) (i : Nat) (c : RunCx), w.runs[i]? = some c →
    (a.foldl CxWorld.step w).runs[i]? = some { c with cancelled := c.cancelled || decide (.runOver i ∈ a) } := by
  induction a with
  | nil => intro w i c h; simp [h]
  | cons o a ih =>
    intro w i c h
    rw [List.foldl_cons, ih _ _ _ (step_run w o i c h)]
    by_cases e : o = .runOver i
    · subst e; simp
    · simp [e, Ne.symm e]

theorem fold_req (a : List CxOp) : ∀ (w : CxWorld) (r : Nat) (c : ReqCx), w.reqs[r]? = some c →
    (a.foldl CxWorld.step w).reqs[r]? = some (a.foldl (reqEffect r) c) := by
  induction a with
  | nil => intro w i c h; exact h
  | cons o a ih => intro w r c h; exact ih _ _ _ (step_req w o r c h)

/-- The entry of the context made by `o`. -/
def userEntry : CxOp → UserCx
  | .child p => ⟨some p, none, false⟩
  | .value p k v => ⟨some p, some (k, v), false⟩
  | _ => ⟨none, none, false⟩

theorem made_user {h : List CxOp} {i : Nat} {o : CxOp} {b a : List CxOp} (hm : Made makesCx h i o b a) :
    (cxRun h).users[i]? = some { userEntry o with cancelled := decide (.cancel i ∈ a) } := by
  obtain ⟨rfl, h2, rfl⟩ := hm
  rw [cxRun_append, List.foldl_cons]
  have hl := users_len b
  have : ((cxRun b).step o).users[b.countP makesCx]? = some (userEntry o) := by
    rw [← hl]
    cases o <;> first | (cases h2; done) | simp [CxWorld.step, userEntry]
  rw [fold_user a _ _ _ this]
  cases o <;> first | (cases h2; done) | simp [userEntry]

theorem made_run {h : List CxOp} {i c : Nat} {b a : List CxOp} (hm : Made makesRun h i (.run c) b a) :
    (cxRun h).runs[i]? = some ⟨c, decide (.runOver i ∈ a)⟩ := by
  obtain ⟨rfl, h2, rfl⟩ := hm
  rw [cxRun_append, List.foldl_cons]
  have hl := runs_len b
  have : ((cxRun b).step (.run c)).runs[b.countP makesRun]? = some ⟨c, false⟩ := by
    rw [← hl]; simp [CxWorld.step]
  rw [fold_run a _ _ _ this]
  simp

theorem made_req {h : List CxOp} {r : Nat} {vals : GoMap Str Str} {b a : List CxOp} (hm : Made makesReq h r (.request vals) b a) :
    (cxRun h).reqs[r]? = some (a.foldl (reqEffect r) ⟨(cxRun b).srvCtx, (cxRun b).srvDone, vals, [], false, false⟩) := by
  obtain ⟨rfl, h2, rfl⟩ := hm
  rw [cxRun_append, List.foldl_cons]
  refine fold_req a _ _ _ ?_
  rw [← reqs_len b]
  simp [CxWorld.step]

/-- Every entry was made. -/
theorem made_of_lt (makes : CxOp → Bool) (h : List CxOp) (i : Nat) (hi : i < h.countP makes) :
    ∃ o b a, Made makes h i o b a := by
  induction h generalizing i with
  | nil => simp at hi
  | cons o h ih =>
    by_cases ho : makes o = true
    · cases i with
      | zero => exact ⟨o, [], h, rfl, ho, rfl⟩
      | succ i =>
        obtain ⟨o', b, a, h1, h2, h3⟩ := ih i (by rw [List.countP_cons, if_pos ho] at hi; omega)
        exact ⟨o', o :: b, a, by rw [h1]; rfl, h2, by rw [List.countP_cons, if_pos ho, h3]⟩
    · obtain ⟨o', b, a, h1, h2, h3⟩ := ih i (by rw [List.countP_cons, if_neg ho] at hi; omega)
      exact ⟨o', o :: b, a, by rw [h1]; rfl, h2, by rw [List.countP_cons, if_neg ho, h3]; rfl⟩

theorem made_cx_shape {h : List CxOp} {i : Nat} {o : CxOp} {b a : List CxOp} (hm : Made makesCx h i o b a) :
    o = .background ∨ (∃ p, o = .child p) ∨ ∃ p k v, o = .value p k v := by
  have := hm.2.1
  cases o <;> first | (cases this; done) | simp

theorem made_lt {makes : CxOp → Bool} {h : List CxOp} {i : Nat} {o : CxOp} {b a : List CxOp} (hm : Made makes h i o b a) :
    i < h.countP makes := by
  obtain ⟨rfl, h2, rfl⟩ := hm
  simp [List.countP_append, h2]

/-! ### Contexts of the program -/

theorem userDone_iff (h : List CxOp) (hs : Sound h) : ∀ (n i : Nat), i < n →
    ((cxRun h).userDone n i = true ↔ CxCancelled h i) := by
  intro n
  induction n with
  | zero => intro i hi; omega
  | succ n ih =>
    intro i hi
    constructor
    · intro hd
      unfold CxWorld.userDone at hd
      split at hd
      · cases hd
      · rename_i c hc
        have hlt : i < h.countP makesCx := by
          rw [← users_len]
          exact (List.getElem?_eq_some_iff.1 hc).1
        obtain ⟨o, b, a, hm⟩ := made_of_lt makesCx h i hlt
        rw [made_user hm] at hc
        cases hc
        simp only [Bool.or_eq_true, decide_eq_true_eq] at hd
        rcases hd with hd | hd
        · exact .own hm hd
        · rcases made_cx_shape hm with rfl | ⟨p, rfl⟩ | ⟨p, k, v, rfl⟩
          · simp [userEntry] at hd
          · have hp := hs b a _ p hm.1 (.inl rfl)
            rw [hm.2.2] at hp
            exact .child hm ((ih p (by omega)).1 hd)
          · have hp := hs b a _ p hm.1 (.inr (.inl ⟨k, v, rfl⟩))
            rw [hm.2.2] at hp
            exact .value hm ((ih p (by omega)).1 hd)
    · intro hc
      unfold CxWorld.userDone
      cases hc with
      | own hm hd => rw [made_user hm]; simp [hd]
      | child hm hd =>
        rename_i p b a
        have hp := hs _ _ _ p hm.1 (.inl rfl)
        rw [hm.2.2] at hp
        rw [made_user hm]
        simp [userEntry, (ih p (by omega)).2 hd]
      | value hm hd =>
        rename_i p k v b a
        have hp := hs _ _ _ p hm.1 (.inr (.inl ⟨k, v, rfl⟩))
        rw [hm.2.2] at hp
        rw [made_user hm]
        simp [userEntry, (ih p (by omega)).2 hd]

theorem userValue_iff (h : List CxOp) (hs : Sound h) (k v : Str) : ∀ (n i : Nat), i < n →
    ((cxRun h).userValue k n i = some v ↔ CxHas h k i v) := by
  intro n
  induction n with
  | zero => intro i hi; omega
  | succ n ih =>
    intro i hi
    constructor
    · intro hd
      unfold CxWorld.userValue at hd
      split at hd
      · cases hd
      · rename_i c hc
        have hlt : i < h.countP makesCx := by
          rw [← users_len]
          exact (List.getElem?_eq_some_iff.1 hc).1
        obtain ⟨o, b, a, hm⟩ := made_of_lt makesCx h i hlt
        rw [made_user hm] at hc
        cases hc
        rcases made_cx_shape hm with rfl | ⟨p, rfl⟩ | ⟨p, k', v', rfl⟩
        · simp [userEntry] at hd
        · have hp := hs b a _ p hm.1 (.inl rfl)
          rw [hm.2.2] at hp
          exact .child hm ((ih p (by omega)).1 hd)
        · have hp := hs b a _ p hm.1 (.inr (.inl ⟨k', v', rfl⟩))
          rw [hm.2.2] at hp
          simp only [userEntry] at hd
          by_cases hk : k' = k
          · rw [if_pos hk] at hd
            cases hd
            subst hk
            exact .own hm
          · rw [if_neg hk] at hd
            exact .other hm hk ((ih p (by omega)).1 hd)
    · intro hc
      unfold CxWorld.userValue
      cases hc with
      | own hm => rw [made_user hm]; simp [userEntry]
      | child hm hd =>
        rename_i p b a
        have hp := hs _ _ _ p hm.1 (.inl rfl)
        rw [hm.2.2] at hp
        rw [made_user hm]
        simp [userEntry, (ih p (by omega)).2 hd]
      | other hm hk hd =>
        rename_i p k' v' b a
        have hp := hs _ _ _ p hm.1 (.inr (.inl ⟨k', v', rfl⟩))
        rw [hm.2.2] at hp
        rw [made_user hm]
        simp [userEntry, hk, (ih p (by omega)).2 hd]

/-! ### Runs -/

theorem made_unique {makes : CxOp → Bool} {h : List CxOp} {i : Nat} {o o' : CxOp} {b a b' a' : List CxOp}
    (hm : Made makes h i o b a) (hm' : Made makes h i o' b' a') : o = o' ∧ b = b' ∧ a = a' := by
  obtain ⟨h1, h2, h3⟩ := hm
  obtain ⟨h1', h2', h3'⟩ := hm'
  rw [h1] at h1'
  clear h1
  induction b generalizing b' i with
  | nil =>
    cases b' with
    | nil => simp only [List.nil_append, List.cons.injEq] at h1'; exact ⟨h1'.1, rfl, h1'.2⟩
    | cons x b' =>
      simp only [List.nil_append, List.cons_append, List.cons.injEq] at h1'
      simp only [List.countP_nil] at h3
      rw [List.countP_cons, ← h1'.1, if_pos h2] at h3'
      omega
  | cons x b ih =>
    cases b' with
    | nil =>
      simp only [List.nil_append, List.cons_append, List.cons.injEq] at h1'
      simp only [List.countP_nil] at h3'
      rw [List.countP_cons, h1'.1, if_pos h2'] at h3
      omega
    | cons y b' =>
      simp only [List.cons_append, List.cons.injEq] at h1'
      obtain ⟨rfl, h1'⟩ := h1'
      rw [List.countP_cons] at h3 h3'
      obtain ⟨e1, e2, e3⟩ := ih (i := b.countP makes) rfl (b' := b') h1' (by omega)
      exact ⟨e1, by rw [e2], e3⟩

theorem runDone_iff (h : List CxOp) (hs : Sound h) (i : Nat) : (cxRun h).runDone i = true ↔ RunCancelled h i := by
  unfold RunCancelled
  constructor
  · intro hd
    unfold CxWorld.runDone at hd
    split at hd
    · cases hd
    · rename_i c hc
      have hlt : i < h.countP makesRun := by
        rw [← runs_len]
        exact (List.getElem?_eq_some_iff.1 hc).1
      obtain ⟨o, b, a, hm⟩ := made_of_lt makesRun h i hlt
      have hmk := hm.2.1
      cases o <;> try (cases hmk; done)
      rename_i p
      rw [made_run hm] at hc
      cases hc
      simp only [Bool.or_eq_true, decide_eq_true_eq] at hd
      exact ⟨p, b, a, hm, hd.imp_right (userDone_iff h hs _ _ (by omega)).1⟩
  · rintro ⟨c, b, a, hm, hd⟩
    unfold CxWorld.runDone
    rw [made_run hm]
    simp only [Bool.or_eq_true, decide_eq_true_eq]
    exact hd.imp_right (userDone_iff h hs _ _ (by omega)).2

/-- `server.ctx` is the context of the latest run. -/
theorem srvCtx_eq (h : List CxOp) : (cxRun h).srvCtx = (if h.countP makesRun = 0 then none else some (h.countP makesRun - 1)) := by
  have key : ∀ n, ∀ h : List CxOp, h.length = n →
      (cxRun h).srvCtx = (if h.countP makesRun = 0 then none else some (h.countP makesRun - 1)) := by
    intro n
    induction n with
    | zero => intro h hl; rw [List.length_eq_zero_iff.1 hl]; rfl
    | succ n ih =>
      intro h hl
      rcases List.eq_nil_or_concat h with rfl | ⟨b, o, rfl⟩
      · simp at hl
      · simp only [List.concat_eq_append, List.length_append, List.length_singleton] at hl ⊢
        have hb := ih b (by omega)
        rw [cxRun_append, List.countP_append]
        show ((cxRun b).step o).srvCtx = _
        cases o
        case run c => simp [CxWorld.step, makesRun, runs_len]
        case serve | shut | shutEnd =>
          simp only [CxWorld.step, List.countP_singleton, makesRun]
          split <;> simp [hb]
        all_goals simp [CxWorld.step, CxWorld.req, makesRun, hb]
  exact key _ h rfl

/-! ### The channel of the server -/

/-- The channel and the phase. -/
def ChanOk (w : CxWorld) (p : Phase) : Prop :=
  match p with
  | .down => w.srvDone = none ∧ w.closing = false
  | .up => ∃ c, w.srvDone = some c ∧ w.chans[c]? = some false ∧ w.closing = false
  | .closing => ∃ c, w.srvDone = some c ∧ w.chans[c]? = some true ∧ w.closing = true

theorem step_chan (w : CxWorld) (p : Phase) (o : CxOp) (h : ChanOk w p) : ChanOk (w.step o) (p.next o) := by
  cases p with
  | down =>
    obtain ⟨h1, h2⟩ := h
    cases o <;> first
      | exact ⟨h1, h2⟩
      | (simp [CxWorld.step, h1, h2, Phase.next, ChanOk]; done)
  | up =>
    obtain ⟨c, h1, h2, h3⟩ := h
    have hlt := (List.getElem?_eq_some_iff.1 h2).1
    cases o <;> first
      | exact ⟨c, h1, h2, h3⟩
      | (simp only [CxWorld.step, h1, h3]; exact ⟨c, h1, h2, h3⟩)
      | (simp [CxWorld.step, h1, Phase.next, ChanOk, hlt]; done)
  | closing =>
    obtain ⟨c, h1, h2, h3⟩ := h
    have hlt := (List.getElem?_eq_some_iff.1 h2).1
    cases o <;> first
      | exact ⟨c, h1, h2, h3⟩
      | (simp only [CxWorld.step, h1, h3]; exact ⟨c, h1, h2, h3⟩)
      | (simp [CxWorld.step, h1, h3, Phase.next, ChanOk, hlt]; done)

theorem fold_chan (h : List CxOp) : ∀ (w : CxWorld) (p : Phase), ChanOk w p → ChanOk (h.foldl CxWorld.step w) (h.foldl Phase.next p) := by
  induction h with
  | nil => intro w p hc; exact hc
  | cons o h ih => intro w p hc; exact ih _ _ (step_chan w p o hc)

theorem chan_ok (h : List CxOp) : ChanOk (cxRun h) (phase h) := fold_chan h _ _ ⟨rfl, rfl⟩

/-- A closed channel stays closed. -/
theorem step_closed (w : CxWorld) (o : CxOp) (c : Nat) (h : w.chans[c]? = some true) : (w.step o).chans[c]? = some true := by
  have hlt := (List.getElem?_eq_some_iff.1 h).1
  cases o <;> try (exact h)
  case serve =>
    simp only [CxWorld.step]
    split
    · exact cx_getElem?_push _ _ _ _ h
    · exact h
  case shut =>
    simp only [CxWorld.step]
    split
    · exact h
    · simp only [List.getElem?_set]
      split <;> simp_all
  case shutEnd =>
    simp only [CxWorld.step]
    split <;> exact h

theorem fold_closed (a : List CxOp) : ∀ (w : CxWorld) (c : Nat), w.chans[c]? = some true → (a.foldl CxWorld.step w).chans[c]? = some true := by
  induction a with
  | nil => intro w c h; exact h
  | cons o a ih => intro w c h; exact ih _ _ (step_closed w o c h)

/-- An open channel of the server is closed by the next shutdown, and by nothing else. -/
theorem fold_open (a : List CxOp) : ∀ (w : CxWorld) (c : Nat), w.srvDone = some c → w.chans[c]? = some false → w.closing = false →
    (a.foldl CxWorld.step w).chans[c]? = some (decide (.shut ∈ a)) := by
  induction a with
  | nil => intro w c _ h _; simp [h]
  | cons o a ih =>
    intro w c h1 h2 h3
    have hlt := (List.getElem?_eq_some_iff.1 h2).1
    rw [List.foldl_cons]
    by_cases ho : o = .shut
    · subst ho
      rw [fold_closed a _ c (by simp [CxWorld.step, h1, hlt])]
      simp
    · have e : decide (CxOp.shut ∈ o :: a) = decide (CxOp.shut ∈ a) := by simp [Ne.symm ho]
      rw [e]
      refine ih _ c ?_ ?_ ?_ <;> cases o <;> simp_all [CxWorld.step, CxWorld.req]

/-! ### C111 -/

theorem fold_req_fixed (r : Nat) (a : List CxOp) : ∀ c : ReqCx,
    (a.foldl (reqEffect r) c).base = c.base ∧ (a.foldl (reqEffect r) c).chan = c.chan ∧
    ((a.foldl (reqEffect r) c).own || (a.foldl (reqEffect r) c).group) =
      (c.own || c.group || decide (∃ o ∈ a, o ∈ endsReq r)) := by
  induction a with
  | nil => intro c; simp
  | cons o a ih =>
    intro c
    obtain ⟨h1, h2, h3⟩ := ih (reqEffect r c o)
    rw [List.foldl_cons]
    refine ⟨h1.trans ?_, h2.trans ?_, h3.trans ?_⟩
    · cases o <;> simp only [reqEffect] <;> split <;> rfl
    · cases o <;> simp only [reqEffect] <;> split <;> rfl
    · have e : decide (∃ x ∈ o :: a, x ∈ endsReq r) = (decide (o ∈ endsReq r) || decide (∃ x ∈ a, x ∈ endsReq r)) := by
        simp
      rw [e, ← Bool.or_assoc]
      congr 1
      cases o <;> simp only [reqEffect, endsReq] <;> simp <;> split <;> simp_all

/-- **C111** (request context).  For every history of calls: `Ctx()` of a request is cancelled exactly if the request was aborted or
is over, or a goroutine of its group failed or the group was waited for, or the shutdown of the server began — before the
request came, if it was not over then, or afterwards. -/
theorem C111_request (h : List CxOp) (r : Nat) : (cxRun h).ctxDone r = true ↔ ReqCancelled h r := by
  by_cases hlt : r < h.countP makesReq
  · obtain ⟨o, b, a, hm⟩ := made_of_lt makesReq h r hlt
    have hmk := hm.2.1
    cases o <;> try (cases hmk; done)
    rename_i vals
    have hu : ReqCancelled h r ↔ ((∃ o ∈ a, o ∈ endsReq r) ∨ phase b = .closing ∨ (phase b = .up ∧ .shut ∈ a)) := by
      constructor
      · rintro ⟨vals', b', a', hm', hc⟩
        obtain ⟨-, rfl, rfl⟩ := made_unique hm hm'
        exact hc
      · intro hc; exact ⟨vals, b, a, hm, hc⟩
    rw [hu]
    unfold CxWorld.ctxDone
    rw [made_req hm]
    obtain ⟨e1, e2, e3⟩ := fold_req_fixed r a ⟨(cxRun b).srvCtx, (cxRun b).srvDone, vals, [], false, false⟩
    simp only [e2, e3, Bool.false_or, Bool.or_eq_true, decide_eq_true_eq]
    refine or_congr Iff.rfl ?_
    have hch := chan_ok b
    have hw : cxRun h = a.foldl CxWorld.step ((cxRun b).step (.request vals)) := by rw [hm.1, cxRun_append]; rfl
    cases hp : phase b with
    | down => rw [hp] at hch; simp [hch.1]
    | up =>
      rw [hp] at hch
      obtain ⟨c, c1, c2, c3⟩ := hch
      rw [c1]
      simp only
      rw [hw, fold_open a ((cxRun b).step (.request vals)) c c1 c2 c3]
      simp
    | closing =>
      rw [hp] at hch
      obtain ⟨c, c1, c2, c3⟩ := hch
      rw [c1]
      simp only
      rw [hw, fold_closed a ((cxRun b).step (.request vals)) c c2]
      simp
  · have hn : (cxRun h).reqs[r]? = none := by rw [List.getElem?_eq_none_iff, reqs_len]; omega
    unfold CxWorld.ctxDone
    rw [hn]
    simp only [Bool.false_eq_true, false_iff]
    rintro ⟨vals, b, a, hm, -⟩
    exact hlt (made_lt hm)

/-- **C111** (handlers at the end).  `runHTTP` waits for the request's group before the handlers of `RunLast` (server_run.go:157-163), so these
see a context that is already cancelled, whatever else happened. -/
theorem C111_last (h : List CxOp) (r : Nat) (vals : GoMap Str Str) (b a : List CxOp)
    (hm : Made makesReq h r (.request vals) b a) (hw : .wait r ∈ a) : (cxRun h).ctxDone r = true :=
  (C111_request h r).2 ⟨vals, b, a, hm, .inl ⟨_, hw, by simp [endsReq]⟩⟩

/-- **C111** (server context).  `GlobalContext()` and `RCtx()` of a request are the context of the latest `Run` before it (nil if
there was none): cancelled exactly if that run's context is, with the values of the context given to that run, whatever requests do. -/
theorem C111_global (h : List CxOp) (hs : Sound h) (r : Nat) (vals : GoMap Str Str) (b a : List CxOp)
    (hm : Made makesReq h r (.request vals) b a) :
    (cxRun h).rctx r = (cxRun h).globalContext r ∧
    (b.countP makesRun = 0 → (cxRun h).globalContext r = none) ∧
    ∀ i, b.countP makesRun = i + 1 → (cxRun h).globalContext r = some i ∧
      ((cxRun h).runDone i = true ↔ RunCancelled h i) ∧
      ∀ k v, (cxRun h).runValue i k = some v ↔ ∃ c b' a', Made makesRun h i (.run c) b' a' ∧ CxHas h k c v := by
  have hg : (cxRun h).globalContext r = (cxRun b).srvCtx := by
    unfold CxWorld.globalContext
    rw [made_req hm]
    exact (fold_req_fixed r a _).1
  refine ⟨rfl, fun h0 => ?_, fun i hi => ⟨?_, runDone_iff h hs i, fun k v => ?_⟩⟩
  · rw [hg, srvCtx_eq, if_pos h0]
  · rw [hg, srvCtx_eq, if_neg (by omega), hi]; rfl
  · have hlt : i < h.countP makesRun := by
      rw [hm.1, List.countP_append]; omega
    obtain ⟨o, b', a', hr⟩ := made_of_lt makesRun h i hlt
    have hmk := hr.2.1
    cases o <;> try (cases hmk; done)
    rename_i c
    unfold CxWorld.runValue
    rw [made_run hr]
    simp only [Option.bind_some]
    rw [userValue_iff h hs k v _ _ (by omega)]
    constructor
    · intro hv; exact ⟨c, b', a', hr, hv⟩
    · rintro ⟨c', b2, a2, hr', hv⟩
      obtain ⟨e, -, -⟩ := made_unique hr hr'
      cases e
      exact hv

theorem lastOf_cons {f : Str → CxOp} {o : CxOp} {a : List CxOp} {v : Str} :
    LastOf f (o :: a) v ↔ LastOf f a v ∨ (o = f v ∧ ∀ v', f v' ∉ a) := by
  unfold LastOf
  constructor
  · rintro ⟨b, c, h1, h2⟩
    cases b with
    | nil => simp only [List.nil_append, List.cons.injEq] at h1; exact .inr ⟨h1.1, by rw [h1.2]; exact h2⟩
    | cons x b =>
      simp only [List.cons_append, List.cons.injEq] at h1
      exact .inl ⟨b, c, h1.2, h2⟩
  · rintro (⟨b, c, rfl, h2⟩ | ⟨rfl, h2⟩)
    · exact ⟨o :: b, c, rfl, h2⟩
    · exact ⟨[], a, rfl, h2⟩

theorem fold_vals (r : Nat) (k v : Str) (a : List CxOp) : ∀ c : ReqCx,
    ((a.foldl (reqEffect r) c).vals.get? k = some v ↔ LastOf (fun v => .setUser r k v) a v ∨
      ((∀ v', .setUser r k v' ∉ a) ∧ c.vals.get? k = some v)) := by
  induction a with
  | nil => intro c; simp [LastOf]
  | cons o a ih =>
    intro c
    rw [List.foldl_cons, ih, lastOf_cons]
    by_cases ho : ∃ v', o = .setUser r k v'
    · obtain ⟨v', rfl⟩ := ho
      simp only [reqEffect, if_true, GoMap.get?_set_self, CxOp.setUser.injEq, true_and, Option.some.injEq, List.mem_cons]
      constructor
      · rintro (h | ⟨h1, rfl⟩)
        · exact .inl (.inl h)
        · exact .inl (.inr ⟨rfl, h1⟩)
      · rintro ((h | ⟨rfl, h⟩) | ⟨h, -⟩)
        · exact .inl h
        · exact .inr ⟨h, rfl⟩
        · exact absurd (.inl rfl) (h v')
    · have h1 : (reqEffect r c o).vals.get? k = c.vals.get? k := by
        cases o <;> simp only [reqEffect] <;> try (split <;> rfl)
        rename_i r' k' v'
        split
        · rename_i hr
          subst hr
          exact GoMap.get?_set_ne (k := k') (k' := k) _ _ (fun hk => ho ⟨v', by rw [hk]⟩)
        · rfl
      rw [h1]
      have h2 : ∀ v', o ≠ .setUser r k v' := fun v' hv => ho ⟨v', hv⟩
      simp only [h2, List.mem_cons, (fun v' => Ne.symm (h2 v') : ∀ v', CxOp.setUser r k v' ≠ o), false_or, false_and, or_false]

theorem fold_data (r : Nat) (k v : Str) (a : List CxOp) : ∀ c : ReqCx,
    ((a.foldl (reqEffect r) c).data.get? k = some v ↔ LastOf (fun v => .set r k v) a v ∨
      ((∀ v', .set r k v' ∉ a) ∧ c.data.get? k = some v)) := by
  induction a with
  | nil => intro c; simp [LastOf]
  | cons o a ih =>
    intro c
    rw [List.foldl_cons, ih, lastOf_cons]
    by_cases ho : ∃ v', o = .set r k v'
    · obtain ⟨v', rfl⟩ := ho
      simp only [reqEffect, if_true, GoMap.get?_set_self, CxOp.set.injEq, true_and, Option.some.injEq, List.mem_cons]
      constructor
      · rintro (h | ⟨h1, rfl⟩)
        · exact .inl (.inl h)
        · exact .inl (.inr ⟨rfl, h1⟩)
      · rintro ((h | ⟨rfl, h⟩) | ⟨h, -⟩)
        · exact .inl h
        · exact .inr ⟨h, rfl⟩
        · exact absurd (.inl rfl) (h v')
    · have h1 : (reqEffect r c o).data.get? k = c.data.get? k := by
        cases o <;> simp only [reqEffect] <;> try (split <;> rfl)
        rename_i r' k' v'
        split
        · rename_i hr
          subst hr
          exact GoMap.get?_set_ne (k := k') (k' := k) _ _ (fun hk => ho ⟨v', by rw [hk]⟩)
        · rfl
      rw [h1]
      have h2 : ∀ v', o ≠ .set r k v' := fun v' hv => ho ⟨v', hv⟩
      simp only [h2, List.mem_cons, (fun v' => Ne.symm (h2 v') : ∀ v', CxOp.set r k v' ≠ o), false_or, false_and, or_false]

/-- **C111** (values).  `Ctx().Value(k)` is the latest user value of the request under `k`, or else the one it came with; `Get(k)` is
the latest value of `Set`; the two do not meet, and neither shows what other requests or the server's context have. -/
theorem C111_values (h : List CxOp) (r : Nat) (vals : GoMap Str Str) (b a : List CxOp)
    (hm : Made makesReq h r (.request vals) b a) (k v : Str) :
    ((cxRun h).ctxValue r k = some v ↔ LastOf (fun v => .setUser r k v) a v ∨
      ((∀ v', .setUser r k v' ∉ a) ∧ vals.get? k = some v)) ∧
    ((cxRun h).get r k = some v ↔ LastOf (fun v => .set r k v) a v) := by
  unfold CxWorld.ctxValue CxWorld.get
  rw [made_req hm]
  simp only [Option.bind_some]
  refine ⟨fold_vals r k v a _, (fold_data r k v a _).trans ?_⟩
  simp [GoMap.get?]

/-! ### Isolation -/

/-- The worlds differ at most in the contexts of request `r'`. -/
def SameBut (r' : Nat) (w w' : CxWorld) : Prop :=
  w.users = w'.users ∧ w.runs = w'.runs ∧ w.chans = w'.chans ∧ w.srvDone = w'.srvDone ∧ w.closing = w'.closing ∧
  w.srvCtx = w'.srvCtx ∧ w.reqs.length = w'.reqs.length ∧ ∀ r, r ≠ r' → w.reqs[r]? = w'.reqs[r]?

theorem sameBut_step {r' : Nat} {w w' : CxWorld} (h : SameBut r' w w') (o : CxOp) : SameBut r' (w.step o) (w'.step o) := by
  obtain ⟨us, rs, qs, cs, sd, cl, sc⟩ := w
  obtain ⟨us', rs', qs', cs', sd', cl', sc'⟩ := w'
  obtain ⟨rfl, rfl, rfl, rfl, rfl, rfl, hl, hr⟩ := h
  simp only at hl hr
  cases o
  case request vals =>
    refine ⟨rfl, rfl, rfl, rfl, rfl, rfl, by simp [CxWorld.step, hl], fun r h => ?_⟩
    simp only [CxWorld.step, List.getElem?_append, hl, hr r h]
  case setUser p _ _ | set p _ _ | abort p | groupErr p | wait p | finish p =>
    refine ⟨rfl, rfl, rfl, rfl, rfl, rfl, by simp [CxWorld.step, CxWorld.req, hl], fun r h => ?_⟩
    simp only [CxWorld.step, CxWorld.req, List.getElem?_modify, hr r h]
  case serve | shut =>
    simp only [CxWorld.step]
    cases sd <;> exact ⟨rfl, rfl, rfl, rfl, rfl, rfl, hl, hr⟩
  case shutEnd =>
    simp only [CxWorld.step]
    cases cl <;> exact ⟨rfl, rfl, rfl, rfl, rfl, rfl, hl, hr⟩
  all_goals exact ⟨rfl, rfl, rfl, rfl, rfl, rfl, hl, hr⟩

theorem sameBut_fold {r' : Nat} (a : List CxOp) : ∀ {w w' : CxWorld}, SameBut r' w w' →
    SameBut r' (a.foldl CxWorld.step w) (a.foldl CxWorld.step w') := by
  induction a with
  | nil => intro w w' h; exact h
  | cons o a ih => intro w w' h; exact ih (sameBut_step h o)

theorem sameBut_concerns {r' : Nat} (w : CxWorld) (o : CxOp) (ho : Concerns r' o) : SameBut r' (w.step o) w := by
  have key : ∀ f, SameBut r' (w.req r' f) w := by
    intro f
    refine ⟨rfl, rfl, rfl, rfl, rfl, rfl, by simp [CxWorld.req], fun r h => ?_⟩
    simp only [CxWorld.req, List.getElem?_modify, if_neg (Ne.symm h)]
    cases w.reqs[r]? <;> rfl
  cases o <;> simp only [Concerns] at ho <;> first | (cases ho; done) | (subst ho; exact key _)

/-- **C111** (isolation).  Whatever a request does to its own contexts, at any point of the history, leaves the contexts of all the other
requests and the server's as they are. -/
theorem C111_isolated (x y : List CxOp) (o : CxOp) (r' : Nat) (ho : Concerns r' o) :
    (∀ i, (cxRun (x ++ o :: y)).runDone i = (cxRun (x ++ y)).runDone i) ∧
    ∀ r, r ≠ r' → (cxRun (x ++ o :: y)).ctxDone r = (cxRun (x ++ y)).ctxDone r ∧
      (cxRun (x ++ o :: y)).globalContext r = (cxRun (x ++ y)).globalContext r ∧
      ∀ k, (cxRun (x ++ o :: y)).ctxValue r k = (cxRun (x ++ y)).ctxValue r k ∧
        (cxRun (x ++ o :: y)).get r k = (cxRun (x ++ y)).get r k := by
  have hs : SameBut r' (cxRun (x ++ o :: y)) (cxRun (x ++ y)) := by
    rw [cxRun_append, cxRun_append]
    exact sameBut_fold y (sameBut_concerns _ o ho)
  generalize cxRun (x ++ o :: y) = w at hs
  generalize cxRun (x ++ y) = w' at hs
  obtain ⟨us, rs, qs, cs, sd, cl, sc⟩ := w
  obtain ⟨us', rs', qs', cs', sd', cl', sc'⟩ := w'
  obtain ⟨rfl, rfl, rfl, rfl, rfl, rfl, hl, hr⟩ := hs
  simp only at hl hr
  have hu : ∀ n i, CxWorld.userDone ⟨us, rs, qs, cs, sd, cl, sc⟩ n i = CxWorld.userDone ⟨us, rs, qs', cs, sd, cl, sc⟩ n i := by
    intro n
    induction n with
    | zero => intro i; rfl
    | succ n ih => intro i; unfold CxWorld.userDone; simp only [ih]
  refine ⟨fun i => by unfold CxWorld.runDone; simp only [hu], fun r h => ⟨?_, ?_, fun k => ⟨?_, ?_⟩⟩⟩
  · unfold CxWorld.ctxDone; simp only [hr r h]
  · unfold CxWorld.globalContext; simp only [hr r h]
  · unfold CxWorld.ctxValue; simp only [hr r h]
  · unfold CxWorld.get; simp only [hr r h]

/-! ### A check of `Sound` for examples -/

def soundFrom (n : Nat) : List CxOp → Bool
  | [] => true
  | o :: h => (match o with
    | .child p | .value p _ _ | .run p => decide (p < n)
    | _ => true) && soundFrom (if makesCx o then n + 1 else n) h

theorem sound_of_check (h : List CxOp) (hc : soundFrom 0 h = true) : Sound h := by
  have key : ∀ (h : List CxOp) (n : Nat), soundFrom n h = true → ∀ b a o p, h = b ++ o :: a →
      (o = .child p ∨ (∃ k v, o = .value p k v) ∨ o = .run p) → p < n + b.countP makesCx := by
    intro h
    induction h with
    | nil => intro n _ b a o p he; simp at he
    | cons x h ih =>
      intro n hc b a o p he ho
      simp only [soundFrom, Bool.and_eq_true] at hc
      cases b with
      | nil =>
        simp only [List.nil_append, List.cons.injEq] at he
        obtain ⟨rfl, -⟩ := he
        simp only [List.countP_nil, Nat.add_zero]
        rcases ho with rfl | ⟨k, v, rfl⟩ | rfl <;> simpa using hc.1
      | cons y b =>
        simp only [List.cons_append, List.cons.injEq] at he
        obtain ⟨rfl, he⟩ := he
        have := ih _ hc.2 b a o p he ho
        rw [List.countP_cons]
        split at this <;> simp_all <;> omega
  intro b a o p he ho
  have := key h 0 hc b a o p he ho
  omega

/-! ### The documentation of `RCtx`, and a history -/

/-- A program: a context with a value and one that can be cancelled, a run, two requests of which the first is over, and the end. -/
def exCx : List CxOp :=
  [.background, .value 0 [1] [2], .child 1, .run 2, .serve, .request [([7], [8])], .request [], .setUser 0 [1] [3], .set 1 [1] [4], .finish 0]

theorem exCx_sound : Sound exCx := by
  apply sound_of_check; decide

/-- **C111** (`RCtx`, exact).  `RCtx()` of a request of run `i` is cancelled while the request is not, or the other way round, unless
both have a reason; and it has the request's values only where the context given to that run has the same ones. -/
theorem C111_rctx_exact (h : List CxOp) (hs : Sound h) (r : Nat) (vals : GoMap Str Str) (b a : List CxOp)
    (hm : Made makesReq h r (.request vals) b a) (i : Nat) (hi : b.countP makesRun = i + 1) :
    (cxRun h).rctx r = some i ∧
    ((cxRun h).runDone i = (cxRun h).ctxDone r ↔ (RunCancelled h i ↔ ReqCancelled h r)) ∧
    ∀ k v, (cxRun h).runValue i k = some v ↔ ∃ c b' a', Made makesRun h i (.run c) b' a' ∧ CxHas h k c v := by
  obtain ⟨h1, -, h3⟩ := C111_global h hs r vals b a hm
  obtain ⟨h4, h5, h6⟩ := h3 i hi
  refine ⟨h1.trans h4, ?_, h6⟩
  rw [← h5, ← C111_request]
  cases (cxRun h).runDone i <;> cases (cxRun h).ctxDone r <;> simp

/-- **C111** (`RCtx` is not the request's).  `RCtx returns "local" context from request`; but a request that is over, whose context is
cancelled, has an `RCtx` that is not, and that lacks the values of the request. -/
theorem C111_violated : ∃ (h : List CxOp) (r i : Nat) (k v : Str), Sound h ∧ .finish r ∈ h ∧ (cxRun h).rctx r = some i ∧
    (cxRun h).ctxDone r = true ∧ (cxRun h).runDone i = false ∧
    (cxRun h).ctxValue r k = some v ∧ (cxRun h).runValue i k = none := by
  refine ⟨exCx, 0, 0, [7], [8], ?_, by decide, by decide, by decide, by decide, by decide, by decide⟩
  exact exCx_sound

/-- The history of `C111_violated`: the first request is over, the second is not; then the program cancels its context, and the
shutdown begins. -/
example : (cxRun exCx).ctxDone 0 = true ∧ (cxRun exCx).ctxDone 1 = false ∧ (cxRun exCx).ctxValue 0 [1] = some [3] ∧
    (cxRun exCx).ctxValue 1 [1] = none ∧ (cxRun exCx).get 1 [1] = some [4] ∧ (cxRun exCx).runValue 0 [1] = some [2] ∧
    (cxRun (exCx ++ [.cancel 2])).runDone 0 = true ∧ (cxRun (exCx ++ [.cancel 2])).ctxDone 1 = false ∧
    (cxRun (exCx ++ [.cancel 2, .shut])).ctxDone 1 = true := by decide

/-- A request that comes while the server shuts down is cancelled from the start; one after the next `Serve` is not. -/
example : (cxRun (exCx ++ [.shut, .request []])).ctxDone 2 = true ∧
    (cxRun (exCx ++ [.shut, .shutEnd, .serve, .request []])).ctxDone 2 = false := by decide

/-- The requests of the example as the theorems take them. -/
example : Made makesReq exCx 1 (.request []) (exCx.take 6) (exCx.drop 7) := ⟨by decide, rfl, by decide⟩
example : Concerns 1 (.abort 1) := rfl

end Verif
