import Verif.Spec.Answer
import Verif.Props.Auth
/-
C87: the response of a request is what its handlers make of it.
-/
namespace Verif
open Spec
variable {υ : Type}

/-- The changes of the response, without who made them. -/
def pairs (es : List Ev) : List (Resp × Resp) := es.filterMap fun | .resp a b => some (a, b) | _ => none

/-- Neither the beginning nor the end of a handler call. -/
def Ev.body : Ev → Bool
  | .start _ _ | .ret _ _ => false
  | _ => true

theorem changes_body (cur : Option HId) (es t : List Ev) (h : ∀ e ∈ es, e.body = true) :
    changes cur (es ++ t) = (pairs es).map (fun p => (cur, p.1, p.2)) ++ changes cur t := by
  induction es with
  | nil => rfl
  | cons e es ih =>
    have ih := ih fun x hx => h x (List.mem_cons_of_mem _ hx)
    have he := h e (List.mem_cons_self ..)
    cases e <;> simp_all [changes, pairs, Ev.body]

theorem Leads.trans {a b c : Resp} {l m : List (Resp × Resp)} (h : Leads a l b) (h' : Leads b m c) : Leads a (l ++ m) c := by
  induction h with
  | nil => exact h'
  | step _ ih => exact .step (ih h')

/-- From one context to another inside a handler call, or between handler calls. -/
def Flat (c c' : RCtx υ) : Prop :=
  ∃ es, c'.trace = c.trace ++ es ∧ (∀ e ∈ es, e.body = true) ∧ Leads c.resp (pairs es) c'.resp

/-- From one context to another, over complete handler calls. -/
def Whole (c c' : RCtx υ) : Prop :=
  ∃ es, c'.trace = c.trace ++ es ∧ (∀ t, changes none (es ++ t) = changes none es ++ changes none t) ∧
    (∀ x ∈ changes none es, x.1 ≠ none) ∧ Leads c.resp ((changes none es).map (·.2)) c'.resp

theorem Flat.refl (c : RCtx υ) : Flat c c := ⟨[], by simp, by simp, .nil _⟩

theorem Flat.trans {a b c : RCtx υ} (h : Flat a b) (h' : Flat b c) : Flat a c := by
  obtain ⟨e1, t1, b1, l1⟩ := h
  obtain ⟨e2, t2, b2, l2⟩ := h'
  refine ⟨e1 ++ e2, by rw [t2, t1, List.append_assoc], ?_, ?_⟩
  · intro e he
    rcases List.mem_append.1 he with h | h
    · exact b1 e h
    · exact b2 e h
  · have : pairs (e1 ++ e2) = pairs e1 ++ pairs e2 := List.filterMap_append ..
    rw [this]; exact Leads.trans l1 l2

theorem Whole.refl (c : RCtx υ) : Whole c c := ⟨[], by simp, by simp [changes], by simp [changes], .nil _⟩

theorem Whole.trans {a b c : RCtx υ} (h : Whole a b) (h' : Whole b c) : Whole a c := by
  obtain ⟨e1, t1, s1, o1, l1⟩ := h
  obtain ⟨e2, t2, s2, o2, l2⟩ := h'
  refine ⟨e1 ++ e2, by rw [t2, t1, List.append_assoc], ?_, ?_, ?_⟩
  · intro t
    rw [List.append_assoc, s1, s2, s1, List.append_assoc]
  · intro x hx
    rw [s1] at hx
    rcases List.mem_append.1 hx with h | h
    · exact o1 x h
    · exact o2 x h
  · rw [s1, List.map_append]; exact Leads.trans l1 l2

/-- Same response, no handler call and no change of the response recorded. -/
def Still (c c' : RCtx υ) : Prop :=
  c'.resp = c.resp ∧ ∃ es, c'.trace = c.trace ++ es ∧ (∀ e ∈ es, e.body = true) ∧ pairs es = []

theorem Still.refl (c : RCtx υ) : Still c c := ⟨rfl, [], by simp, by simp, rfl⟩

theorem Still.trans {a b c : RCtx υ} (h : Still a b) (h' : Still b c) : Still a c := by
  obtain ⟨r1, e1, t1, b1, l1⟩ := h
  obtain ⟨r2, e2, t2, b2, l2⟩ := h'
  refine ⟨r2.trans r1, e1 ++ e2, by rw [t2, t1, List.append_assoc], ?_, ?_⟩
  · intro e he
    rcases List.mem_append.1 he with h | h
    · exact b1 e h
    · exact b2 e h
  · have : pairs (e1 ++ e2) = pairs e1 ++ pairs e2 := List.filterMap_append ..
    rw [this, l1, l2]; rfl

theorem Still.flat {c c' : RCtx υ} (h : Still c c') : Flat c c' := by
  obtain ⟨r, es, t, b, l⟩ := h
  exact ⟨es, t, b, by rw [l, r]; exact .nil _⟩

theorem Still.whole {c c' : RCtx υ} (h : Still c c') : Whole c c' := by
  obtain ⟨r, es, t, b, l⟩ := h
  have hc : changes none es = [] := by
    have := changes_body none es [] b
    rw [List.append_nil, l] at this
    simpa [changes] using this
  refine ⟨es, t, fun t => ?_, by simp [hc], by rw [hc, r]; exact .nil _⟩
  rw [changes_body none es t b, l, hc]; rfl

/-- One recorded event that is no change of the response. -/
theorem still_event (c c' : RCtx υ) (e : Ev) (he : e.body = true) (hp : pairs [e] = []) (hr : c'.resp = c.resp)
    (ht : c'.trace = c.trace ++ [e]) : Still c c' :=
  ⟨hr, [e], ht, by simp [he], hp⟩

theorem still_same (c c' : RCtx υ) (hr : c'.resp = c.resp) (ht : c'.trace = c.trace) : Still c c' :=
  ⟨hr, [], by simp [ht], by simp, rfl⟩

theorem still_goStep (env : Env υ) (c : RCtx υ) (i : Nat) : Still c (goStep env c i) := by
  unfold goStep
  split
  · exact Still.refl c
  · exact still_event _ _ .spawn rfl rfl rfl rfl
  · rename_i g _
    refine still_event _ _ (.goEnd (env.fin g c).1) rfl rfl ?_ ?_
    · simp only [RCtx.event]; split <;> rfl
    · simp only [RCtx.event]; split <;> rfl

theorem still_tick (env : Env υ) (c : RCtx υ) : Still c (tick env c) := by
  have : ∀ (l : List Nat) (c : RCtx υ), Still c (l.foldl (goStep env) c) := by
    intro l
    induction l with
    | nil => exact Still.refl
    | cons i l ih => exact fun c => (still_goStep env c i).trans (ih _)
  exact (this _ c).trans (still_same _ _ rfl rfl)

theorem still_waitAll (env : Env υ) (n : Nat) : ∀ c : RCtx υ, Still c (waitAll env n c) := by
  induction n with
  | zero => exact Still.refl
  | succ n ih =>
    intro c
    unfold waitAll
    split
    · exact Still.refl c
    · exact ((still_same c { c with clock := c.clock + 1 } rfl rfl).trans (still_goStep env _ _)).trans (ih _)

theorem still_egWait (env : Env υ) (c : RCtx υ) : Still c (egWait env c).1 :=
  (still_waitAll env _ c).trans (still_same _ _ rfl rfl)

theorem still_addName (c : RCtx υ) (s : Str) : Still c (addDebugName c s) := by
  unfold addDebugName
  split
  · exact still_same _ _ rfl rfl
  · exact Still.refl c

theorem flat_applyOp (env : Env υ) (c : RCtx υ) (op : COp υ) : Flat c (applyOp env c op) := by
  refine (still_tick env c).flat.trans ?_
  unfold applyOp
  cases op with
  | stop => refine Still.flat (still_event _ _ (.ctl .stop) ?_ ?_ ?_ ?_) <;> rfl
  | abort => refine Still.flat (still_event _ _ (.ctl .abort) ?_ ?_ ?_ ?_) <;> rfl
  | skipMain => refine Still.flat (still_event _ _ (.ctl .skipMain) ?_ ?_ ?_ ?_) <;> rfl
  | setLevel l => exact (still_same _ _ rfl rfl).flat
  | addName s => exact (still_addName _ s).flat
  | go g => refine Still.flat (still_event _ _ .spawn ?_ ?_ ?_ ?_) <;> rfl
  | wait =>
    exact ((still_event (tick env c) ((tick env c).event (.ctl .egWait)) (.ctl .egWait) rfl rfl rfl rfl).trans
      (still_egWait env _)).flat
  | upd f => exact (still_same _ _ rfl rfl).flat
  | resp f => exact ⟨[.resp (tick env c).resp (f (tick env c).resp)], rfl, by simp [Ev.body], .step (.nil _)⟩

theorem flat_runProg (env : Env υ) (p : Prog υ) : ∀ c : RCtx υ, Flat c (runProg env p c).1 := by
  induction p with
  | ret o => exact fun c => (still_tick env c).flat
  | call op k ih => exact fun c => (flat_applyOp env c op).trans (ih _ _)

theorem whole_callProg (env : Env υ) (h : HId) (p : RCtx υ → Prog υ) (c : RCtx υ) : Whole c (callProg env h p c).1 := by
  unfold callProg
  obtain ⟨es, t, b, l⟩ := flat_runProg env (p (c.event (.start h c.done))) (c.event (.start h c.done))
  generalize hr : runProg env (p (c.event (.start h c.done))) (c.event (.start h c.done)) = r at t l
  obtain ⟨c1, o⟩ := r
  simp only [RCtx.event] at t l hr
  simp only [RCtx.event, hr]
  have hch : ∀ t, changes none ((.start h c.done :: es ++ [.ret o c1.done]) ++ t) =
      (pairs es).map (fun p => (some h, p.1, p.2)) ++ changes none t := by
    intro t
    show changes (some h) ((es ++ [.ret o c1.done]) ++ t) = _
    rw [List.append_assoc, changes_body (some h) es _ b]
    rfl
  have h0 : changes none (.start h c.done :: es ++ [.ret o c1.done]) = (pairs es).map (fun p => (some h, p.1, p.2)) := by
    have := hch []
    rw [List.append_nil] at this
    rw [this]; simp [changes]
  refine ⟨.start h c.done :: es ++ [.ret o c1.done], ?_, ?_, ?_, ?_⟩
  · rw [t]; simp
  · intro t; rw [hch, h0]
  · intro x hx
    rw [h0] at hx
    obtain ⟨p, -, rfl⟩ := List.mem_map.1 hx
    simp
  · rw [h0, List.map_map]
    have : ((fun x : Option HId × Resp × Resp => x.2) ∘ fun p : Resp × Resp => (some h, p.1, p.2)) = id := by
      funext p; rfl
    rw [this, List.map_id]; exact l

theorem whole_callStop (env : Env υ) (h : HId) (p : RCtx υ → Prog υ) (c : RCtx υ) : Whole c (callStop env h p c).1 := by
  have := whole_callProg env h p c
  unfold callStop
  generalize callProg env h p c = r at this
  obtain ⟨c1, o⟩ := r
  cases o with
  | ok => simp only; split <;> exact this
  | err e => exact this
  | panic => exact this

theorem whole_runList (env : Env υ) (id : Nat → HId) (l : List (Option (Hdl υ))) : ∀ (i : Nat) (c : RCtx υ),
    Whole c (runList env id i l c).1 := by
  induction l with
  | nil => exact fun i c => Whole.refl c
  | cons h l ih =>
    intro i c
    cases h with
    | none => exact Whole.refl c
    | some h =>
      have h1 := (still_addName c h.name).whole.trans (whole_callStop env (id i) h.run (addDebugName c h.name))
      simp only [runList]
      generalize callStop env (id i) h.run (addDebugName c h.name) = r at h1
      obtain ⟨c1, f⟩ := r
      cases f with
      | next => exact h1.trans (ih (i + 1) c1)
      | returned e => exact h1
      | panicked => exact h1

theorem whole_runSet (env : Env υ) (set : HSetV υ) (c : RCtx υ) : Whole c (runSet env set c).1 := by
  unfold runSet
  cases set.main with
  | none => exact Whole.refl c
  | some m =>
    simp only
    have h1 := (still_addName c m.name).whole.trans (whole_callProg env .init m.init (addDebugName c m.name))
    generalize callProg env .init m.init (addDebugName c m.name) = r1 at h1
    obtain ⟨c1, o⟩ := r1
    cases o with
    | panic => exact h1
    | err e => exact h1
    | ok =>
      simp only
      have h2 := h1.trans (whole_runList env .before set.before 0 c1)
      generalize runList env .before 0 set.before c1 = r2 at h2
      obtain ⟨c2, f⟩ := r2
      cases f with
      | returned e => exact h2
      | panicked => exact h2
      | next =>
        simp only at h2 ⊢
        have h3 : Whole c (if c2.skipped then (c2, Flow.next) else callStop env .main m.run (addDebugName c2 m.name)).1 := by
          split
          · exact h2
          · exact h2.trans ((still_addName c2 m.name).whole.trans (whole_callStop env .main m.run _))
        generalize (if c2.skipped then (c2, Flow.next) else callStop env .main m.run (addDebugName c2 m.name)) = r3 at h3
        obtain ⟨c3, f⟩ := r3
        cases f with
        | returned e => exact h3
        | panicked => exact h3
        | next =>
          simp only at h3 ⊢
          have h4 := h3.trans (whole_runList env .after set.after 0 c3)
          generalize runList env .after 0 set.after c3 = r4 at h4
          obtain ⟨c4, f⟩ := r4
          cases f <;> exact h4

theorem whole_runLast (env : Env υ) (set : HSetV υ) (err : Option GoErr) (c : RCtx υ) : Whole c (runLast env set err c).1 := by
  unfold runLast
  cases set.last with
  | none => exact Whole.refl c
  | some l =>
    have h := whole_callProg env (.last err) (l.run err) c
    simp only
    generalize callProg env (.last err) (l.run err) c = r at h
    obtain ⟨c1, o⟩ := r
    cases o <;> exact h

theorem whole_runRouted (env : Env υ) (set : HSetV υ) (c : RCtx υ) : Whole c (runRouted env set c).1 := by
  unfold runRouted
  have h1 := whole_runSet env set c
  generalize runSet env set c = r at h1
  obtain ⟨c1, f⟩ := r
  cases f with
  | next => exact h1
  | panicked => exact h1
  | returned e =>
    simp only
    split
    · exact h1
    · exact (h1.trans (still_egWait env c1).whole).trans (whole_runLast env set _ _)

/-- The whole of runHTTP, for a request that is found. -/
theorem whole_runHTTP {σ ρ : Type} [DecidableEq ρ] (env : Env υ) (rxMatch : ρ → Str → Bool)
    (visit : GoMap ρ (Option σ) → List (ρ × Option σ)) (srv : Srv υ σ ρ)
    (meth : Method) (path : Str) (resp : Resp) (store : Args → υ) (buf : Args) (clock : Nat) (d : Done υ) (c : RCtx υ)
    (h : runHTTP env rxMatch visit srv meth path resp store buf clock = .ret d) (hc : d.ctx = some c) :
    (∀ x ∈ changes none d.trace, x.1 ≠ none) ∧ Leads resp ((changes none d.trace).map (·.2)) d.resp := by
  unfold runHTTP at h
  cases hf : serverFind rxMatch visit srv.tree srv.regs meth path buf with
  | panic => rw [hf] at h; cases h
  | outOfFuel => rw [hf] at h; cases h
  | ret res =>
    rw [hf] at h
    simp only [Outcome.bind] at h
    by_cases hfound : res.found = true
    · rw [if_neg (by simp [hfound])] at h
      have key : ∀ out : RCtx υ × Flow, Whole (newContext resp (store res.args) clock) out.1 →
          d = ⟨some (({ out.1 with cancelled := true } : RCtx υ).event .released), out.2, out.1.resp⟩ →
          (∀ x ∈ changes none d.trace, x.1 ≠ none) ∧ Leads resp ((changes none d.trace).map (·.2)) d.resp := by
        rintro out ⟨es, t, s, o, l⟩ rfl
        have ht : changes none (out.1.trace ++ [Ev.released]) = changes none es := by
          rw [t]
          show changes none (es ++ [Ev.released]) = _
          rw [s]; simp [changes]
        simp only [Done.trace, RCtx.event, ht]
        exact ⟨o, l⟩
      simp only [Outcome.ret.injEq] at h
      refine key _ ?_ h.symm
      have fin : ∀ c1, Whole (newContext resp (store res.args) clock) c1 → Whole (newContext resp (store res.args) clock)
          (match res.set with
            | none => (c1, Flow.panicked)
            | some s => runRouted env (srv.sets s) { c1 with level := srv.logLevel }).1 := by
        intro c1 h1
        cases res.set with
        | none => exact h1
        | some s =>
          exact (h1.trans (still_same c1 { c1 with level := srv.logLevel } rfl rfl).whole).trans (whole_runRouted env _ _)
      cases srv.initCtx with
      | none => exact fin _ (Whole.refl _)
      | some f =>
        have h1 := whole_callProg env .sess f (newContext resp (store res.args) clock)
        simp only
        generalize callProg env .sess f (newContext resp (store res.args) clock) = r at h1
        obtain ⟨c1, o⟩ := r
        cases o with
        | panic => exact h1
        | err e => exact h1
        | ok => exact fin c1 h1
    · rw [if_pos hfound] at h
      simp only [Outcome.ret.injEq] at h
      rw [← h] at hc
      cases hc

/-! ### C87 -/

section
variable {σ ρ : Type} [DecidableEq ρ] {u : Str → Str} {env : Env υ} {rxMatch : ρ → Str → Bool}
  {visit : GoMap ρ (Option σ) → List (ρ × Option σ)} {srv : Srv υ σ ρ} {ba : BaseAuth} {req : Req} {resp : Resp}
  {store : Args → υ} {buf : Args} {clock : Nat} {sv : Served υ} {d : Done υ} {c : RCtx υ}

/-- **C87.** The response of a routed request is the result of the changes its handlers made, in the order in which
they made them, and of nothing else: every change was made while a handler was running, the first one started from the
response the connection brought, each one from what the one before left, and the last one left the final response. -/
theorem C87_response (h : serveHTTP u env rxMatch visit srv ba req resp store buf clock = .ret sv) (hd : sv.ran = some d)
    (hc : d.ctx = some c) :
    (∀ x ∈ changes none d.trace, ∃ id, x.1 = some id) ∧ Leads resp ((changes none d.trace).map (·.2)) sv.resp := by
  have main : ∀ r, runHTTP env rxMatch visit srv req.method req.path r store buf clock = .ret d → r = resp → sv.resp = d.resp →
      (∀ x ∈ changes none d.trace, ∃ id, x.1 = some id) ∧ Leads resp ((changes none d.trace).map (·.2)) sv.resp := by
    rintro r hr rfl hs
    obtain ⟨h1, h2⟩ := whole_runHTTP env rxMatch visit srv req.method req.path r store buf clock d c hr hc
    refine ⟨fun x hx => ?_, by rw [hs]; exact h2⟩
    cases hx1 : x.1 with
    | none => exact absurd hx1 (h1 x hx)
    | some id => exact ⟨id, rfl⟩
  rcases serve_shape h with ⟨h1, h2, k, h3, h4, h5⟩ | ⟨h1, h2, d', h3, h4, h5⟩
  · rcases h5 with ⟨k1, k2, k3⟩ | ⟨k1, d', k2, k3, k4⟩
    · rw [hd] at k2; cases k2
    · rw [hd] at k3
      simp only [Option.some.injEq] at k3
      subst k3
      have := (check_eq u _ _ _ _ h3 h1).2.2
      rw [if_pos k1] at this
      exact main _ k2 this k4
  · rw [hd] at h4
    simp only [Option.some.injEq] at h4
    subst h4
    exact main _ h3 rfl h5

/-- **C87.** If the handlers only write (`Write`, `WriteString`), the body is what they wrote, in order, and status and
headers are untouched. -/
theorem C87_body (h : serveHTTP u env rxMatch visit srv ba req resp store buf clock = .ret sv) (hd : sv.ran = some d)
    (hc : d.ctx = some c) (ps : List Str) (hw : Written ((changes none d.trace).map (·.2)) ps) :
    sv.resp = { resp with body := resp.body ++ ps.flatten } := by
  have hl := (C87_response h hd hc).2
  generalize (changes none d.trace).map (·.2) = l at hl hw
  generalize sv.resp = r' at hl
  clear h hd hc
  induction hl generalizing ps with
  | nil r => cases hw; simp
  | @step r r1 r2 l hl ih =>
    cases hw with
    | @cons _ _ _ p ps ha hw =>
      rw [ih ps hw]
      unfold appends at ha
      subst ha
      simp

/-- **C87.** A request whose handlers do not touch the response leaves it as it was, whatever errors they return: the
router never reports a handler's error to the client. -/
theorem C87_silent (h : serveHTTP u env rxMatch visit srv ba req resp store buf clock = .ret sv) (hd : sv.ran = some d)
    (hc : d.ctx = some c) (hn : changes none d.trace = []) : sv.resp = resp := by
  have := C87_body h hd hc [] (by rw [hn]; exact .nil)
  simpa using this

/-- **C87.** A request that no route answers gets the router's own response, whatever the connection brought: 404, "not
found", plain text. -/
theorem C87_unrouted (h : serveHTTP u env rxMatch visit srv ba req resp store buf clock = .ret sv) (hd : sv.ran = some d)
    (hc : d.ctx = none) :
    sv.resp = ⟨404, b!"not found", [(b!"Content-Type", b!"text/plain; charset=utf-8")]⟩ ∧ d.trace = [] := by
  have main : ∀ r, runHTTP env rxMatch visit srv req.method req.path r store buf clock = .ret d →
      d.resp = ⟨404, b!"not found", [(b!"Content-Type", b!"text/plain; charset=utf-8")]⟩ ∧ d.trace = [] := by
    intro r hr
    obtain ⟨⟨rt, g1, g2⟩, g3⟩ := C25_only_unrouted hr hc
    obtain ⟨rt', h1, -, h3, -⟩ := C14_tree_first rxMatch visit srv.tree srv.regs req.method req.path buf
    rw [g1] at h1
    cases h1
    unfold runHTTP at hr
    rw [h3 g2] at hr
    simp only [Outcome.bind_ret, g3, Bool.false_eq_true, not_false_eq_true, if_true, Outcome.ret.injEq] at hr
    subst hr
    exact ⟨rfl, rfl⟩
  rcases serve_shape h with ⟨-, -, k, -, -, h5⟩ | ⟨-, -, d', h3, h4, h5⟩
  · rcases h5 with ⟨-, k2, -⟩ | ⟨-, d', k2, k3, k4⟩
    · rw [hd] at k2; cases k2
    · rw [hd] at k3
      cases k3
      rw [k4]; exact main _ k2
  · rw [hd] at h4
    cases h4
    rw [h5]; exact main _ h3

end

namespace AnswerEx
open ChainEx ReqEx

/-- A handler that writes. -/
def says (s : Str) : COp Nat := .resp fun r => { r with body := r.body ++ s }

def set2 : HSetV Nat := ⟨[some (does b!"b" [says b!"<p>", .go (.ret 1)] .ok)], [some (does b!"a" [says b!"never"] .ok)],
  some (lastH [says b!"!"] .ok), some (mainH [] [says b!"one ", says b!"two"] (.err (.leaf 5 b!"bad")))⟩

def serve (s : Srv Nat Nat Nat) (p : Str) : List (Option HId × Resp × Resp) × Resp :=
  match serveHTTP (fun s => s) lazy (fun _ _ => false) id s newBaseAuth ⟨mGet, p, []⟩ ⟨200, [], []⟩ (fun a => a.length) [] 0 with
  | .ret ⟨_, some d, r⟩ => (changes none d.trace, r)
  | _ => ([], ⟨0, [], []⟩)

-- the main handler fails: what was written before stays, the after handler does not run, the last handler does
example : ((serve (server 5 none set2 empty) b!"/a/7").1.map (·.1)) =
    [some (.before 0), some .main, some .main, some (.last (some (.wrap (.leaf 5 b!"bad") b!"g1")))] ∧
    (serve (server 5 none set2 empty) b!"/a/7").2 = ⟨200, b!"<p>one two!", []⟩ := by decide +kernel
-- a failing session initialiser: status 200 and an empty body
example : serve (server 5 (some (does [] [] (.err (.leaf 3 b!"no db"))).run) set2 empty) b!"/b" = ([], ⟨200, [], []⟩) := by
  decide +kernel

end AnswerEx

end Verif
