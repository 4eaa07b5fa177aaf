import Verif.Spec.ErrorPage
import Verif.Props.Answer
/-
C134: one last handler answers every failed request.
-/
namespace Verif
open Spec
set_option linter.unusedSectionVars false
variable {υ : Type}

theorem changes_start (cur : Option HId) (a t : List Ev) (h : HId) (dn : Bool) :
    changes cur (a ++ .start h dn :: t) = changes cur a ++ changes (some h) t := by
  induction a generalizing cur with
  | nil => rfl
  | cons e a ih => cases e <;> simp [changes, ih]

theorem runLast_ctx (env : Env υ) {set : HSetV υ} {l : LastH υ} (hl : set.last = some l) (e : Option GoErr) (c : RCtx υ) :
    (runLast env set e c).1 = (callProg env (.last e) (l.run e) c).1 := by
  unfold runLast
  rw [hl]
  simp only
  generalize callProg env (.last e) (l.run e) c = q
  obtain ⟨q, o⟩ := q
  cases o <;> rfl

/-- The end of a routed request whose last handler answers errors. -/
theorem pages_routed (env : Env υ) (set : HSetV υ) (c : RCtx υ) {page : GoErr → Resp} {l : LastH υ} (hl : set.last = some l)
    (hp : AnswersErrors page l) :
    (∃ pre e dn post r, (runRouted env set c).1.trace = pre ++ .start (.last e) dn :: post ∧
      (e = none → changes (some (.last e)) post = []) ∧
      (∀ x, e = some x → (runRouted env set c).1.resp = page x ∧ changes (some (.last e)) post = [(some (.last e), r, page x)])) ∨
    runRouted env set c = runSet env set c := by
  unfold runRouted
  generalize runSet env set c = r
  obtain ⟨c1, f⟩ := r
  cases f with
  | next => exact .inr rfl
  | panicked => exact .inr rfl
  | returned err =>
    by_cases hab : c1.aborted = true
    · right; simp only; rw [if_pos hab]
    left
    simp only
    rw [if_neg hab]
    generalize mergeErr err (egWait env c1).2 = e
    generalize (egWait env c1).1 = c2
    rw [runLast_ctx env hl]
    unfold callProg
    generalize hs : c2.event (.start (.last e) c2.done) = c3
    have ht3 : c3.trace = c2.trace ++ [.start (.last e) c2.done] := by rw [← hs]; rfl
    cases e with
    | none =>
      obtain ⟨o, ho⟩ := (hp c3).1
      simp only [ho]
      obtain ⟨r1, es, t1, b1, p1⟩ := still_tick env c3
      refine ⟨c2.trace, none, c2.done, es ++ [.ret o (tick env c3).done], c2.resp, ?_, fun _ => ?_, fun x hx => (by cases hx)⟩
      · simp only [runProg, RCtx.event]
        rw [t1, ht3]; simp
      · rw [changes_body _ _ _ b1, p1]; rfl
    | some x =>
      obtain ⟨o, ho⟩ := (hp c3).2 x
      simp only [ho]
      obtain ⟨r1, es, t1, b1, p1⟩ := still_tick env c3
      generalize hc4 : applyOp env c3 (.resp fun _ => page x) = c4
      have t4 : c4.trace = (tick env c3).trace ++ [.resp (tick env c3).resp (page x)] := by rw [← hc4]; rfl
      have r4 : c4.resp = page x := by rw [← hc4]; rfl
      obtain ⟨r5, es5, t5, b5, p5⟩ := still_tick env c4
      refine ⟨c2.trace, some x, c2.done, es ++ (.resp (tick env c3).resp (page x) :: (es5 ++ [.ret o (tick env c4).done])),
        (tick env c3).resp, ?_, fun h => (by cases h), fun y hy => ?_⟩
      · simp only [runProg, RCtx.event, hc4]
        rw [t5, t4, t1, ht3]; simp
      · cases hy
        refine ⟨?_, ?_⟩
        · simp only [runProg, RCtx.event, hc4]; rw [r5, r4]
        · rw [changes_body _ _ _ b1, p1]
          simp only [List.map_nil, List.nil_append, changes]
          rw [changes_body _ _ _ b5, p5]; rfl

section
variable {σ ρ : Type} [DecidableEq ρ] {u : Str → Str} {env : Env υ} {rxMatch : ρ → Str → Bool}
  {visit : GoMap ρ (Option σ) → List (ρ × Option σ)} {srv : Srv υ σ ρ} {ba : BaseAuth} {req : Req} {resp : Resp}
  {store : Args → υ} {buf : Args} {clock : Nat} {sv : Served υ} {d : Done υ} {c : RCtx υ}

/-- A request that gets past the authentication is the request without it. -/
theorem served_run (h : serveHTTP u env rxMatch visit srv ba req resp store buf clock = .ret sv) (hd : sv.ran = some d) :
    runHTTP env rxMatch visit srv req.method req.path resp store buf clock = .ret d ∧ sv.resp = d.resp := by
  rcases serve_shape h with ⟨h1, h2, k, h3, h4, h5⟩ | ⟨h1, h2, d', h3, h4, h5⟩
  · rcases h5 with ⟨k1, k2, k3⟩ | ⟨k1, d', k2, k3, k4⟩
    · rw [hd] at k2; cases k2
    · rw [hd] at k3
      cases k3
      have := (check_eq u _ _ _ _ h3 h1).2.2
      rw [if_pos k1] at this
      rw [this] at k2
      exact ⟨k2, k4⟩
  · rw [hd] at h4
    cases h4
    exact ⟨h3, h5⟩

theorem run_resp {meth : Method} {path : Str} (hrun : runHTTP env rxMatch visit srv meth path resp store buf clock = .ret d)
    (hc : d.ctx = some c) : d.resp = c.resp := by
  unfold runHTTP at hrun
  cases hf : serverFind rxMatch visit srv.tree srv.regs meth path buf with
  | panic => rw [hf] at hrun; cases hrun
  | outOfFuel => rw [hf] at hrun; cases hrun
  | ret res =>
    rw [hf] at hrun
    simp only [Outcome.bind] at hrun
    split at hrun
    · cases hrun; cases hc
    · simp only [Outcome.ret.injEq] at hrun
      rw [← hrun] at hc ⊢
      simp only [Option.some.injEq] at hc
      rw [← hc]; rfl

/-- **C134.** Let every registered handler set have a last handler that answers errors.  For every request that is let
in, finds a route, whose session initialiser (if any) succeeds, whose handlers do not panic and do not abort: the last
handler runs, when all other handlers and all goroutines are done (`pre` is what happened before); if something failed
the answer is the page of an error whose cause is that of the handler that failed, or else that of the goroutine that
failed first; if nothing failed the answer is what the other handlers made of it. -/
theorem C134_page (h : serveHTTP u env rxMatch visit srv ba req resp store buf clock = .ret sv) (hd : sv.ran = some d)
    (hc : d.ctx = some c) (page : GoErr → Resp) (hall : ∀ s, ∃ l, (srv.sets s).last = some l ∧ AnswersErrors page l)
    (hnp : d.flow ≠ .panicked) (hna : Ev.ctl .abort ∉ d.trace)
    (hs : srv.initCtx.isSome = true → ∀ e, (rets d.trace).head? ≠ some (.err e)) :
    ∃ pre e dn post, d.trace = pre ++ .start (.last e) dn :: post ∧ starts post = [] ∧ spawned pre = ended pre ∧
      (∀ e', HId.last e' ∉ starts pre) ∧
      (Failed pre → ∃ x, e = some x ∧ sv.resp = page x ∧
        (∀ ce, chainErr pre = some ce → x.cause = ce.cause) ∧
        (chainErr pre = none → (goErrs pre).head? = some x)) ∧
      (¬ Failed pre → Leads resp ((changes none pre).map (·.2)) sv.resp) := by
  obtain ⟨hrun, hresp⟩ := served_run h hd
  obtain ⟨res, hres, hsh⟩ := request_shape hrun
  have hC := C21_last hrun
  have hE := C22_errors hrun
  have hW := (whole_runHTTP env rxMatch visit srv _ _ _ store buf clock d c hrun hc).2
  have hR := run_resp hrun hc
  suffices H : ∃ pre e dn post r, d.trace = pre ++ .start (.last e) dn :: post ∧
      (e = none → changes (some (.last e)) post = []) ∧
      (∀ x, e = some x → d.resp = page x ∧ changes (some (.last e)) post = [(some (.last e), r, page x)]) by
    obtain ⟨pre, e, dn, post, r, ht, h1, h2⟩ := H
    obtain ⟨g1, g2, g3, -, gp, -, g4⟩ := hC.1 pre e dn post ht
    have hf : Failed pre ↔ e ≠ none := by
      rw [Ne, g4]
      constructor
      · rintro (⟨x, hx⟩ | ⟨x, hx⟩) ⟨k1, k2⟩
        · cases k1 _ hx
        · rw [k2] at hx; cases hx
      · intro hn
        by_cases hg : goErrs pre = []
        · left
          have : ¬ ∀ o ∈ rets pre, o = .ok := fun k => hn ⟨k, hg⟩
          rw [Classical.not_forall] at this
          obtain ⟨o, ho⟩ := this
          rw [Classical.not_imp] at ho
          cases o with
          | ok => exact absurd rfl ho.2
          | panic => exact absurd ho.1 gp
          | err x => exact ⟨x, ho.1⟩
        · obtain ⟨x, t, ht⟩ := List.exists_cons_of_ne_nil hg
          exact .inr ⟨x, by rw [ht]; simp⟩
    refine ⟨pre, e, dn, post, ht, g1, g3, g2, fun hF => ?_, fun hF => ?_⟩
    · cases he : e with
      | none => exact absurd he (hf.1 hF)
      | some x =>
        subst he
        obtain ⟨e1, e2, -⟩ := hE (some x) pre (.inl ⟨dn, post, ht⟩)
        refine ⟨x, rfl, by rw [hresp]; exact (h2 x rfl).1, fun ce hce => ?_, fun hn => (e2 hn).symm⟩
        obtain ⟨e', k1, k2, -⟩ := e1 ce hce
        cases k1; exact k2
    · have he : e = none := Classical.byContradiction fun k => hF (hf.2 k)
      rw [ht, changes_start, h1 he, List.append_nil] at hW
      rw [hresp]; exact hW
  cases hsh with
  | notFound hf hc' hfl => rw [hc] at hc'; cases hc'
  | @sessFail cf b hc' hcan hin ht hi hid hdn ho =>
    rcases ho with ⟨-, hfl⟩ | ⟨e, ho, -⟩
    · exact absurd hfl hnp
    · exfalso
      refine hs hin e ?_
      simp only [Done.trace, hc', ht]
      rw [rets_append, rets_flat hi]
      simp [ho]
  | nilSet _ _ _ _ _ _ _ hfl => exact absurd hfl hnp
  | @routed cf c' sb bs s f W L hc' hcan hset hi hsb hlen hx hlv hqn hr ht hcf =>
    obtain ⟨l, hl, hp⟩ := hall s
    have hfound : res.found = true := by
      cases hf : res.found with
      | true => rfl
      | false =>
        exfalso
        unfold runHTTP at hrun
        rw [hres] at hrun
        simp only [Outcome.bind_ret, hf, Bool.false_eq_true, not_false_eq_true, if_true, Outcome.ret.injEq] at hrun
        rw [← hrun] at hc; cases hc
    have hdt : d.trace = (runRouted env (srv.sets s) c').1.trace ++ [.released] := by
      simp only [Done.trace, hc', hcf]; rfl
    rcases pages_routed env (srv.sets s) c' hl hp with ⟨pre, e, dn, post, r, k1, k2, k3⟩ | heq
    · have hrel : ∀ cur, changes cur (post ++ [.released]) = changes cur post := by
        intro cur
        clear k1 k2 k3
        induction post generalizing cur with
        | nil => rfl
        | cons a t ih => cases a <;> simp [changes, ih]
      refine ⟨pre, e, dn, post ++ [.released], r, by rw [hdt, k1]; simp, fun he => (by rw [hrel]; exact k2 he), fun x hx => ?_⟩
      rw [hrel, hR]
      rw [hc] at hc'
      cases hc'
      rw [hcf]
      exact k3 x hx
    · exfalso
      obtain ⟨e, he⟩ := hC.2 res s l hres hfound hset hl hnp hna hs
      obtain ⟨bs', hr', hi', hx', -⟩ := runSet_shape env (srv.sets s) c'
      have htr : c'.trace = flat sb := by simpa [newContext] using hx.tr
      rw [hdt, heq, hx'.tr, htr, starts_append, starts_append, starts_flat hi, starts_flat hi'] at he
      simp only [starts, List.filterMap_cons, List.filterMap_nil, List.append_nil, List.mem_append, List.mem_map] at he
      rcases he with ⟨b, hb, hid⟩ | ⟨b, hb, hid⟩
      · rw [(hsb b hb).1] at hid; cases hid
      · exact (runs_chain_ids hr' b hb).2 e hid

theorem changes_who (cur : Option HId) (t : List Ev) : ∀ x ∈ changes cur t, ∀ h, x.1 = some h → cur = some h ∨ h ∈ starts t := by
  induction t generalizing cur with
  | nil => intro x hx; cases hx
  | cons e t ih =>
    intro x hx h he
    cases e with
    | start h' dn =>
      rcases ih _ x hx h he with h1 | h1
      · cases h1; exact .inr (by simp [starts])
      · exact .inr (List.mem_cons_of_mem _ h1)
    | ret o dn =>
      rcases ih none x hx h he with h1 | h1
      · cases h1
      · exact .inr (by simpa [starts] using h1)
    | resp a b =>
      rcases List.mem_cons.1 hx with rfl | hx
      · exact .inl he
      · exact (ih _ x hx h he).imp id fun h1 => by simpa [starts] using h1
    | ctl k => exact (ih _ x hx h he).imp id fun h1 => by simpa [starts] using h1
    | spawn => exact (ih _ x hx h he).imp id fun h1 => by simpa [starts] using h1
    | goEnd k => exact (ih _ x hx h he).imp id fun h1 => by simpa [starts] using h1
    | released => exact (ih _ x hx h he).imp id fun h1 => by simpa [starts] using h1

theorem Leads.keeps {P : Resp → Prop} {a b : Resp} {l : List (Resp × Resp)} (h : Leads a l b) (ha : P a)
    (hl : ∀ x ∈ l, P x.2) : P b := by
  induction h with
  | nil => exact ha
  | step _ ih => exact ih (hl _ (List.mem_cons_self ..)) fun x hx => hl x (by simp [hx])

/-- **C134.** So a client can tell failed requests from others: if the error pages have statuses that the other handlers
(and the response the connection brings) do not use, then the answer has such a status exactly if something failed. -/
theorem C134_status (h : serveHTTP u env rxMatch visit srv ba req resp store buf clock = .ret sv) (hd : sv.ran = some d)
    (hc : d.ctx = some c) (page : GoErr → Resp) (hall : ∀ s, ∃ l, (srv.sets s).last = some l ∧ AnswersErrors page l)
    (hnp : d.flow ≠ .panicked) (hna : Ev.ctl .abort ∉ d.trace)
    (hs : srv.initCtx.isSome = true → ∀ e, (rets d.trace).head? ≠ some (.err e))
    (bad : Nat → Prop) (hb : ∀ x, bad (page x).status) (h0 : ¬ bad resp.status)
    (hb' : ∀ x ∈ changes none d.trace, (∀ e, x.1 ≠ some (.last e)) → ¬ bad x.2.2.status) :
    ∃ pre e dn post, d.trace = pre ++ .start (.last e) dn :: post ∧ starts post = [] ∧ spawned pre = ended pre ∧
      (bad sv.resp.status ↔ Failed pre) := by
  obtain ⟨pre, e, dn, post, ht, k1, k2, k3, k4, k5⟩ := C134_page h hd hc page hall hnp hna hs
  refine ⟨pre, e, dn, post, ht, k1, k2, ?_⟩
  constructor
  · intro hbad
    refine Classical.byContradiction fun hF => ?_
    refine Leads.keeps (P := fun r => ¬ bad r.status) (k5 hF) h0 ?_ hbad
    intro y hy
    obtain ⟨x, hx, rfl⟩ := List.mem_map.1 hy
    refine hb' x (by rw [ht, changes_start]; exact List.mem_append_left _ hx) fun e' he' => ?_
    rcases changes_who none pre x hx _ he' with h1 | h1
    · cases h1
    · exact k3 e' h1
  · intro hF
    obtain ⟨x, -, hx, -⟩ := k4 hF
    rw [hx]; exact hb x

end

/-! ### Requests -/

namespace PageEx
open ChainEx ReqEx

/-- The page for an error: 500 and the error's text. -/
def page (e : GoErr) : Resp := respError e.error 500

def pager : LastH Nat := ⟨b!"page", fun e _ => match e with
  | none => .ret .ok
  | some x => .call (.resp fun _ => page x) fun _ => .ret (.err x)⟩

theorem pager_ok : AnswersErrors page pager := fun _ => ⟨⟨.ok, rfl⟩, fun x => ⟨.err x, rfl⟩⟩

/-- A route whose before handler starts two goroutines, one of which fails. -/
def fails : HSetV Nat := ⟨[some (does b!"auth" [.go (.ret 0), .go (.ret 1)] .ok)], [], some pager,
  some (mainH [] [.resp fun r => { r with body := r.body ++ b!"half" }] (.err (.leaf 5 b!"bad")))⟩

def good : HSetV Nat := ⟨[], [], some pager, some (mainH [] [.resp fun r => { r with body := r.body ++ b!"all" }] .ok)⟩

def aborts : HSetV Nat := ⟨[], [], some pager, some (mainH [] [.abort] (.err (.leaf 5 b!"bad")))⟩

def panics : HSetV Nat := ⟨[], [], some pager, some (mainH [] [] .panic)⟩

def noDB : RCtx Nat → Prog Nat := fun _ => .ret (.err (.leaf 3 b!"no db"))

def ask (srv : Srv Nat Nat Nat) (p : Str) : Outcome (Served Nat) :=
  serveHTTP id lazy (fun _ _ => false) id srv newBaseAuth ⟨mGet, p, []⟩ ⟨200, [], []⟩ (fun a => a.length) [] 0

def status (srv : Srv Nat Nat Nat) (p : Str) : Option (Nat × Str × Bool) :=
  match ask srv p with
  | .ret sv => some (sv.resp.status, sv.resp.body, sv.ran.any fun d => (rets d.trace).any fun o => decide (o ≠ .ok))
  | _ => none

/-- The routes /a/:id and /b, the first of which fails. -/
def server1 : Srv Nat Nat Nat := server 5 none fails good

theorem server1_pages : ∀ s, ∃ l, (server1.sets s).last = some l ∧ AnswersErrors page l := by
  intro s
  refine ⟨pager, ?_, pager_ok⟩
  show (if s = 1 then fails else good).last = _
  split <;> rfl

-- the half-written answer is gone, and both errors are on the page
example : status server1 b!"/a/7" = some (500, b!"g1: bad", true) ∧ status server1 b!"/b" = some (200, b!"all", false) := by
  decide +kernel

end PageEx

open PageEx ReqEx in
/-- **C134.** The conditions are needed.  A request whose session initialiser fails, one that is aborted by a handler that
returns an error, and one whose handler panics leave the error unanswered although every set has the error page: the
response stays as the connection brought it, 200 and empty. -/
theorem C134_provisos :
    (∀ s, ∃ l, ((server 5 (some noDB) fails good).sets s).last = some l ∧ AnswersErrors PageEx.page l) ∧
    (∀ s, ∃ l, ((server 5 none aborts panics).sets s).last = some l ∧ AnswersErrors PageEx.page l) ∧
    status (server 5 (some noDB) fails good) b!"/b" = some (200, [], true) ∧
    status (server 5 none aborts panics) b!"/a/7" = some (200, [], true) ∧
    status (server 5 none aborts panics) b!"/b" = some (200, [], true) := by
  refine ⟨fun s => ⟨pager, ?_, pager_ok⟩, fun s => ⟨pager, ?_, pager_ok⟩, by decide +kernel, by decide +kernel, by decide +kernel⟩
  · show (if s = 1 then fails else good).last = _
    split <;> rfl
  · show (if s = 1 then aborts else panics).last = _
    split <;> rfl

open PageEx in
-- C134 applied to the failing request
example : ∃ sv, ask server1 b!"/a/7" = .ret sv ∧ sv.resp.status = 500 := by
  have hd : (match ask server1 b!"/a/7" with
      | .ret sv => (match sv.ran with
        | some d => d.ctx.isSome && decide (d.flow ≠ .panicked) && decide (Ev.ctl .abort ∉ d.trace) &&
            decide (HOut.err (.leaf 5 b!"bad") ∈ rets (d.trace.takeWhile fun | .start (.last _) _ => false | _ => true))
        | none => false)
      | _ => false) = true := by decide +kernel
  cases h1 : ask server1 b!"/a/7" with
  | panic => rw [h1] at hd; cases hd
  | outOfFuel => rw [h1] at hd; cases hd
  | ret sv =>
    rw [h1] at hd
    cases h2 : sv.ran with
    | none => simp [h2] at hd
    | some d =>
      simp only [h2, Bool.and_eq_true, decide_eq_true_eq] at hd
      obtain ⟨⟨⟨q1, q2⟩, q3⟩, q4⟩ := hd
      obtain ⟨c, hc⟩ := Option.isSome_iff_exists.1 q1
      obtain ⟨pre, e, dn, post, ht, -, -, k3, k4, -⟩ := C134_page h1 h2 hc page server1_pages q2 q3 (by intro h; cases h)
      have hF : Failed pre := by
        refine .inl ⟨.leaf 5 b!"bad", ?_⟩
        rw [ht, List.takeWhile_append_of_pos, List.takeWhile_cons] at q4
        · simpa using q4
        · intro a ha
          cases a with
          | start h dn =>
            cases h with
            | last e' => exact absurd (show HId.last e' ∈ starts pre from List.mem_filterMap.2 ⟨_, ha, rfl⟩) (k3 e')
            | _ => rfl
          | _ => rfl
      obtain ⟨x, -, hx, -⟩ := k4 hF
      exact ⟨sv, rfl, by rw [hx]; rfl⟩

end Verif
