import Verif.Spec.Plain
import Verif.Props.Examples
import Verif.Props.SetCookie
import Verif.Props.Confluence
/-
C117: what chains of handlers that only write answer, and the answers of the example programs.
-/
namespace Verif
open Spec
set_option linter.unusedSectionVars false
variable {η ρ υ : Type}

/-! ### Chains -/

/-- Nothing is running and nothing was stopped. -/
structure CalmC (c : RCtx υ) : Prop where
  gos : c.gos = []
  stopped : c.stopped = false
  aborted : c.aborted = false
  skipped : c.skipped = false
  egErr : c.egErr = none

theorem sched_calm (env : Env υ) (is : List Nat) : ∀ c : RCtx υ, c.gos = [] → is.foldl (goStep env) c = c := by
  induction is with
  | nil => intro c _; rfl
  | cons i is ih =>
    intro c h
    rw [List.foldl_cons]
    have : goStep env c i = c := by unfold goStep; rw [h]; rfl
    rw [this]; exact ih c h

/-- The same for handlers. -/
structure Same (c c' : RCtx υ) (x : Resp × υ) : Prop where
  calm : CalmC c'
  resp : (c'.resp, c'.store) = x

theorem tick_same (env : Env υ) {c : RCtx υ} (h : CalmC c) : Same c (tick env c) (c.resp, c.store) := by
  unfold tick
  rw [sched_calm env _ c h.gos]
  exact ⟨⟨h.gos, h.stopped, h.aborted, h.skipped, h.egErr⟩, rfl⟩

theorem event_calm {c : RCtx υ} (h : CalmC c) (e : Ev) : CalmC (c.event e) := ⟨h.gos, h.stopped, h.aborted, h.skipped, h.egErr⟩

theorem addName_calm {c : RCtx υ} (h : CalmC c) (s : Str) : CalmC (addDebugName c s) := by
  unfold addDebugName; split
  · exact ⟨h.gos, h.stopped, h.aborted, h.skipped, h.egErr⟩
  · exact h

theorem addName_same (c : RCtx υ) (s : Str) : (addDebugName c s).resp = c.resp ∧ (addDebugName c s).store = c.store := by
  unfold addDebugName; split <;> exact ⟨rfl, rfl⟩

theorem runProg_plain (env : Env υ) {p : Prog υ} {x y : Resp × υ} (hp : PlainProg p x y) : ∀ c : RCtx υ, CalmC c → (c.resp, c.store) = x →
    (runProg env p c).2 = .ok ∧ Same c (runProg env p c).1 y := by
  induction hp with
  | ret x => rintro c h rfl; exact ⟨rfl, tick_same env h⟩
  | resp f k x y _ ih =>
    rintro c h rfl
    have ht := tick_same env h
    obtain ⟨e1, e2⟩ := Prod.mk.inj ht.resp
    have hc : CalmC (applyOp env c (.resp f)) :=
      ⟨ht.calm.gos, ht.calm.stopped, ht.calm.aborted, ht.calm.skipped, ht.calm.egErr⟩
    have r1 : (applyOp env c (.resp f)).resp = f c.resp := by show f (tick env c).resp = _; rw [e1]
    have r2 : (applyOp env c (.resp f)).store = c.store := e2
    obtain ⟨h1, h2⟩ := ih (applyOp env c (.resp f)) r1 r2 (applyOp env c (.resp f)) hc (by rw [r1, r2])
    exact ⟨h1, h2.calm, h2.resp⟩
  | upd f k x y _ ih =>
    rintro c h rfl
    have ht := tick_same env h
    obtain ⟨e1, e2⟩ := Prod.mk.inj ht.resp
    have hc : CalmC (applyOp env c (.upd f)) :=
      ⟨ht.calm.gos, ht.calm.stopped, ht.calm.aborted, ht.calm.skipped, ht.calm.egErr⟩
    have r1 : (applyOp env c (.upd f)).resp = c.resp := e1
    have r2 : (applyOp env c (.upd f)).store = f c.store := by show f (tick env c).store = _; rw [e2]
    obtain ⟨h1, h2⟩ := ih (applyOp env c (.upd f)) r1 r2 (applyOp env c (.upd f)) hc (by rw [r1, r2])
    exact ⟨h1, h2.calm, h2.resp⟩

theorem callProg_plain (env : Env υ) (h : HId) {p : RCtx υ → Prog υ} {g} (hp : PlainH p g) (c : RCtx υ) (hc : CalmC c) :
    (callProg env h p c).2 = .ok ∧ Same c (callProg env h p c).1 (g (c.resp, c.store)) := by
  unfold callProg
  obtain ⟨h1, h2⟩ := runProg_plain env (hp (c.event (.start h c.done))) (c.event (.start h c.done)) (event_calm hc _) rfl
  exact ⟨h1, event_calm h2.calm _, h2.resp⟩

theorem callStop_plain (env : Env υ) (h : HId) {p : RCtx υ → Prog υ} {g} (hp : PlainH p g) (c : RCtx υ) (hc : CalmC c) :
    ∃ c', callStop env h p c = (c', .next) ∧ Same c c' (g (c.resp, c.store)) := by
  obtain ⟨h1, h2⟩ := callProg_plain env h hp c hc
  unfold callStop
  rcases e : callProg env h p c with ⟨c', o⟩
  rw [e] at h1 h2
  dsimp only at h1 h2
  subst h1
  refine ⟨c', ?_, h2⟩
  have : c'.isStopped = false := by unfold RCtx.isStopped; rw [h2.calm.aborted, h2.calm.stopped]; rfl
  simp [this]

theorem runList_plain (env : Env υ) (id : Nat → HId) {l : List (Option (Hdl υ))} {gs} (hl : PlainList l gs) : ∀ (i : Nat) (c : RCtx υ), CalmC c →
    ∃ c', runList env id i l c = (c', .next) ∧ Same c c' (inTurn gs (c.resp, c.store)) := by
  induction hl with
  | nil => intro i c hc; exact ⟨c, rfl, hc, rfl⟩
  | @cons h g t gs hh _ ih =>
    intro i c hc
    obtain ⟨c1, e1, h1⟩ := callStop_plain env (id i) hh (addDebugName c h.name) (addName_calm hc _)
    obtain ⟨c2, e2, h2⟩ := ih (i + 1) c1 h1.calm
    refine ⟨c2, ?_, h2.calm, ?_⟩
    · unfold runList; rw [e1]; exact e2
    · rw [h2.resp, h1.resp, (addName_same c h.name).1, (addName_same c h.name).2]; rfl

theorem egWait_calm (env : Env υ) {c : RCtx υ} (hc : CalmC c) : egWait env c = ({ c with egCancelled := true }, none) := by
  have h : ∀ n, waitAll env n c = c := by
    intro n; cases n with
    | zero => rfl
    | succ n => unfold waitAll; rw [if_pos hc.gos]
  unfold egWait
  rw [h]
  dsimp only
  rw [hc.egErr]

/-- A whole chain of handlers that only write, after a quiet start. -/
theorem runRouted_plain (env : Env υ) (set : HSetV υ) (m : MainH υ) (hm : set.main = some m) (hl : set.last = none) {gi gm gb ga}
    (h0 : PlainH m.init gi) (h1 : PlainH m.run gm) (h2 : PlainList set.before gb) (h3 : PlainList set.after ga) (c : RCtx υ) (hc : CalmC c) :
    ∃ c', runRouted env set c = (c', .returned none) ∧
      (c'.resp, c'.store) = inTurn (gi :: gb ++ gm :: ga) (c.resp, c.store) := by
  obtain ⟨i1, i2⟩ := callProg_plain env .init h0 (addDebugName c m.name) (addName_calm hc _)
  rw [(addName_same c m.name).1, (addName_same c m.name).2] at i2
  rcases e0 : callProg env .init m.init (addDebugName c m.name) with ⟨c0, o⟩
  rw [e0] at i1 i2
  dsimp only at i1 i2
  subst i1
  obtain ⟨c1, e1, s1⟩ := runList_plain env .before h2 0 c0 i2.calm
  obtain ⟨c2, e2, s2⟩ := callStop_plain env .main h1 (addDebugName c1 m.name) (addName_calm s1.calm _)
  rw [(addName_same c1 m.name).1, (addName_same c1 m.name).2] at s2
  obtain ⟨c3, e3, s3⟩ := runList_plain env .after h3 0 c2 s2.calm
  have hs : runSet env set c = (c3, .returned none) := by
    unfold runSet
    rw [hm]
    simp only [e0, e1, s1.calm.skipped, Bool.false_eq_true, if_false, e2, e3]
  refine ⟨{ c3 with egCancelled := true }, ?_, ?_⟩
  · unfold runRouted
    rw [hs]
    simp only [s3.calm.aborted, Bool.false_eq_true, if_false, egWait_calm env s3.calm]
    unfold runLast
    rw [hl]
    rfl
  · show (c3.resp, c3.store) = _
    rw [s3.resp, s2.resp, s1.resp, i2.resp]
    simp [inTurn]

section
variable [Inhabited η] [DecidableEq ρ]
variable (I : Handlers3 η υ) (level : Int) (u : Str → Str) (env : Env υ) (rxMatch : ρ → Str → Bool)
  (visit : GoMap ρ (Option Nat) → List (ρ × Option Nat)) (ba : BaseAuth) (req : Req) (resp : Resp) (store : Args → υ) (buf : Args) (clock : Nat)

/-- The row alone. -/
theorem sole_plain (hu : ba.use = false) (m : Method) (route : Str) (v : HView η) (hclean : Clean (⟨m, route, 0⟩ : Reg Nat))
    (ha : answers (m, route, v) req) (mh : MainH υ) (hm : v.main.bind I.main = some mh) (hl : v.last.bind I.last = none) {gi gm gb ga}
    (h0 : PlainH mh.init gi) (h1 : PlainH mh.run gm) (h2 : PlainList (v.before.map I.hdl) gb) (h3 : PlainList (v.after.map I.hdl) ga) :
    ∃ b sv d c, matchRoute ((segs route).map segPat) (segs req.path) = some b ∧
      serveHTTP u env rxMatch visit (soleServer I m route v none level) ba req resp store buf clock = .ret sv ∧
      sv.ran = some d ∧ d.flow = .returned none ∧ d.ctx = some c ∧
      (sv.resp, c.store) = inTurn (gi :: gb ++ gm :: ga) (resp, store b) := by
  obtain ⟨b, hb⟩ := Option.isSome_iff_exists.1 ha.2
  have hf := found_in_tree rxMatch visit _ newRegTree _ _ _ _ _ (sole_find m req.method route req.path buf b hclean ha.1 hb)
  obtain ⟨c', e1, e2⟩ := runRouted_plain env ⟨v.before.map I.hdl, v.after.map I.hdl, v.last.bind I.last, v.main.bind I.main⟩ mh hm hl h0 h1 h2 h3
    { newContext resp (store b) clock with level := level } ⟨rfl, rfl, rfl, rfl, rfl⟩
  have hrun := runHTTP_parts env rxMatch visit (soleServer I m route v none level) req.method req.path resp store buf clock _ hf rfl
  have hout : restPart env req.path ((some 0 : Option Nat).map (soleServer (ρ := ρ) I m route v none level).sets) level
      (sessPart env none (newContext resp (store b) clock)) = (c', .returned none) := e1
  refine ⟨b, ⟨[], some ⟨some ({ c' with cancelled := true }.event .released), .returned none, c'.resp⟩, c'.resp⟩, _, _, hb, ?_, rfl, rfl, rfl, e2⟩
  unfold serveHTTP
  simp only [hu, Bool.false_eq_true, if_false]
  have hd : runHTTP env rxMatch visit (soleServer I m route v none level) req.method req.path resp store buf clock =
      .ret ⟨some ({ c' with cancelled := true }.event .released), .returned none, c'.resp⟩ := by
    rw [hrun]
    have key : ∀ out : RCtx υ × Flow, out = (c', .returned none) →
        (.ret ⟨some ({ out.1 with cancelled := true }.event .released), out.2, out.1.resp⟩ : Outcome (Done υ)) =
        .ret ⟨some ({ c' with cancelled := true }.event .released), .returned none, c'.resp⟩ := by rintro _ rfl; rfl
    exact key _ hout
  rw [hd]
  rfl

variable (hv : AnyOrder visit)

include hv in
/-- **C117** (chains of handlers that write).  A program whose table is orderly, without rows that answer the same request, and
without session initialiser and authentication: a request that a row answers, all of whose handlers only change the response
and the state and return nil, is answered with the changes made by Init, the before handlers, the main handler and the after
handlers, in this order and no others, however the scheduler and the connection behave. -/
theorem C117_chain [DecidableEq η] (hu : ba.use = false) (grow : Nat → Nat → Nat) (ops : List (Op η ρ)) (hp : ByValue ops) (hops : cleanOps ops)
    (hclean : cleanRows (vrun rxMethods ops).routes = true)
    (ho : orderlyCheck ((vrun rxMethods ops).routes.map fun x => (segs x.2.1).map segPat) = true)
    (hcol : noCollision (vrun rxMethods ops).routes = true) (x : Method × Str × HView η)
    (hx : x ∈ (vrun rxMethods ops).routes) (ha : answers x req)
    (mh : MainH υ) (hm : x.2.2.main.bind I.main = some mh) (hl : x.2.2.last.bind I.last = none) {gi gm gb ga}
    (h0 : PlainH mh.init gi) (h1 : PlainH mh.run gm) (h2 : PlainList (x.2.2.before.map I.hdl) gb) (h3 : PlainList (x.2.2.after.map I.hdl) ga) :
    ∃ b sv d c, matchRoute ((segs x.2.1).map segPat) (segs req.path) = some b ∧
      serveHTTP u env rxMatch visit (serverOf I (progState grow ops) none level) ba req resp store buf clock = .ret sv ∧
      sv.ran = some d ∧ d.flow = .returned none ∧ d.ctx = some c ∧
      (sv.resp, c.store) = inTurn (gi :: gb ++ gm :: ga) (resp, store b) := by
  have e := C97_server I none level u env rxMatch visit hv ba req resp store buf clock grow ops hp hops hclean ho hcol x hx ha
  have hcl : Clean (⟨x.1, x.2.1, 0⟩ : Reg Nat) := by
    simp only [cleanRows, List.all_eq_true, decide_eq_true_eq] at hclean
    exact hclean x hx
  rw [e]
  exact sole_plain I level u env rxMatch visit ba req resp store buf clock hu x.1 x.2.1 x.2.2 hcl ha mh hm hl h0 h1 h2 h3

end

/-! ### The example programs -/

/-- A handler that appends a text. -/
def appending (t : Str) (x : Resp × υ) : Resp × υ := ({ x.1 with body := x.1.body ++ t }, x.2)

theorem inTurn_appending (ts : List Str) : ∀ x : Resp × υ, inTurn (ts.map appending) x = ({ x.1 with body := x.1.body ++ ts.flatten }, x.2) := by
  induction ts with
  | nil => rintro ⟨⟨a, b, c⟩, y⟩; simp [inTurn]
  | cons t ts ih =>
    intro x
    have : inTurn ((t :: ts).map appending) x = inTurn (ts.map appending) (appending t x) := rfl
    rw [this, ih]
    simp [appending]

theorem plain_idle (l : Str) : PlainH (runIdle (υ := υ) l) id := fun _ => .ret _

theorem plain_ex1 (l : Str) : PlainH (runEx1 (υ := υ) l) (appending (line1 l)) := by
  intro c
  refine .resp _ _ _ _ fun c' _ _ => ?_
  have : ((fun r : Resp => ({ r with body := r.body ++ (b!"dddd-" ++ l ++ b!"- urlIds: " ++ b!"{}" ++ b!"- params: " ++ b!"{}" ++ b!" - cookie: " ++ b!"{}" ++ b!"//// \n\n") } : Resp)) c.resp,
      c.store) = appending (line1 l) (c.resp, c.store) := by
    simp [appending, line1]
  rw [← this]
  exact .ret _

theorem plain_page (l : Str) (x : Resp × ExStore) : PlainProg (writePage l) x (appending (line2 l) x) := by
  refine .resp _ _ _ _ fun c' _ _ => ?_
  have : ((fun r : Resp => ({ r with body := r.body ++ (b!"dddd-" ++ l ++ b!"- u: " ++ b!"{}" ++ b!"//// \n\n") } : Resp)) x.1, x.2) =
      appending (line2 l) x := by
    simp [appending, line2]
  rw [← this]
  exact .ret _

/-- example_2, example_3: the cookie, then the page. -/
def visitEx2 (l : Str) (x : Resp × ExStore) : Resp × ExStore :=
  appending (line2 l) (x.1, if testValue x.2 = [] then setTest x.2 else x.2)

theorem plain_ex2 (l : Str) : PlainH (runEx2 l) (visitEx2 l) := by
  intro c
  unfold runEx2 visitEx2
  by_cases h : testValue c.store = []
  · rw [if_pos h, if_pos h]
    exact .upd _ _ _ _ fun c' _ _ => plain_page l _
  · rw [if_neg h, if_neg h]
    exact plain_page l _

theorem plain_video (l : Str) : PlainH (runVideo l) (appending (line2 l)) := fun _ => plain_page l _

theorem plainList_ihs (run : Str → RCtx υ → Prog υ) (other : ExH → Option (MainH υ)) (g : Str → Resp × υ → Resp × υ)
    (h : ∀ l, PlainH (run l) (g l)) (ls : List Str) : PlainList ((ihs ls).map (exampleHandlers run other).hdl) (ls.map g) := by
  induction ls with
  | nil => exact .nil
  | cons l ls ih => exact .cons (h l) ih

/-- The label of a handler. -/
def labelOf : ExH → Str
  | .ih l => l
  | _ => []

/-- All handlers of the row are made by `newIH`. -/
def ownRow (x : Method × Str × HView ExH) : Bool :=
  decide (x.2.2 = ⟨ihs (x.2.2.before.map labelOf), ihs (x.2.2.after.map labelOf), none, some (.ih ((x.2.2.main.map labelOf).getD []))⟩)

section
variable [DecidableEq ρ] (level : Int) (u : Str → Str) (env : Env υ) (rxMatch : ρ → Str → Bool)
  (visit : GoMap ρ (Option Nat) → List (ρ × Option Nat)) (ba : BaseAuth) (req : Req) (resp : Resp) (store : Args → υ) (buf : Args) (clock : Nat)

theorem row_answer (hu : ba.use = false) (run : Str → RCtx υ → Prog υ) (other : ExH → Option (MainH υ)) (g : Str → Resp × υ → Resp × υ)
    (h : ∀ l, PlainH (run l) (g l)) (x : Method × Str × HView ExH) (hx : ownRow x = true) (hclean : cleanRows [x] = true) (ha : answers x req) :
    ∃ b sv d c, serveHTTP u env rxMatch visit (soleServer (exampleHandlers run other) x.1 x.2.1 x.2.2 none level) ba req resp store buf clock = .ret sv ∧
      sv.ran = some d ∧ d.flow = .returned none ∧ d.ctx = some c ∧ (sv.resp, c.store) = inTurn ((labels x.2.2).map g) (resp, store b) := by
  obtain ⟨m, route, v⟩ := x
  have hv := of_decide_eq_true hx
  dsimp only at hv
  have hcl : Clean (⟨m, route, 0⟩ : Reg Nat) := by
    simp only [cleanRows, List.all_eq_true, decide_eq_true_eq] at hclean
    exact hclean (m, route, v) (List.mem_singleton.2 rfl)
  generalize v.before.map labelOf = bs at hv
  generalize v.after.map labelOf = as at hv
  generalize (v.main.map labelOf).getD [] = l at hv
  subst hv
  obtain ⟨b, sv, d, c, -, e1, e2, e3, e4, e5⟩ := sole_plain (exampleHandlers run other) level u env rxMatch visit ba req resp store buf clock hu m route
    ⟨ihs bs, ihs as, none, some (.ih l)⟩ hcl ha ⟨b!"run-handler", fun _ => .ret .ok, run l⟩ rfl rfl (gi := id) (fun _ => .ret _) (h l)
    (plainList_ihs run other g h bs) (plainList_ihs run other g h as)
  refine ⟨b, sv, d, c, e1, e2, e3, e4, e5.trans ?_⟩
  have hl : labels ⟨ihs bs, ihs as, none, some (.ih l)⟩ = bs ++ l :: as := by
    have : ∀ ls : List Str, (ihs ls).map labelOf = ls := fun ls => by
      induction ls with
      | nil => rfl
      | cons a t ih => exact congrArg (a :: ·) ih
    show (ihs bs ++ [ExH.ih l] ++ ihs as).map labelOf = _
    rw [List.map_append, List.map_append, this, this]
    simp [labelOf]
  rw [hl]
  simp [inTurn]

end

section
variable (level : Int) (u : Str → Str) (env : Env υ) (ba : BaseAuth) (req : Req) (resp : Resp) (store : Args → υ) (buf : Args) (clock : Nat)
  (other : ExH → Option (MainH υ))

/-- What the client gets: the response, if the request was processed without an error. -/
def Answered (o : Outcome (Served υ)) (r : Resp) : Prop :=
  ∃ sv d, o = .ret sv ∧ sv.ran = some d ∧ d.flow = .returned none ∧ sv.resp = r

/-- The answer of a server to a request that no route answers. -/
def notFoundAnswer : Resp := ⟨404, b!"not found", [(b!"Content-Type", b!"text/plain; charset=utf-8")]⟩

/-- What the client gets if nothing answers. -/
def Missed (o : Outcome (Served υ)) : Prop := ∃ sv, o = .ret sv ∧ sv.resp = notFoundAnswer

/-- **C117** examples/server.go: every request that a row answers gets the response as the connection brought it (status 200 and no
body); any other request gets 404. -/
theorem C117_server (hu : ba.use = false) (rxMatch : RxPtr → Str → Bool) (visit : GoMap RxPtr (Option Nat) → List (RxPtr × Option Nat))
    (hv : AnyOrder visit) (grow : Nat → Nat → Nat) :
    (∀ x ∈ serverRows, answers x req → Answered
      (serveHTTP u env rxMatch visit (serverOf (exampleHandlers runIdle other) (progState grow exampleServer) none level) ba req resp store buf clock)
      resp) ∧
    ((∀ x ∈ serverRows, ¬ answers x req) → Missed
      (serveHTTP u env rxMatch visit (serverOf (exampleHandlers runIdle other) (progState grow exampleServer) none level) ba req resp store buf clock)) := by
  obtain ⟨h1, h2⟩ := C98_server (exampleHandlers runIdle other) none level u env ba req resp store buf clock rxMatch visit hv grow
  constructor
  · intro x hx ha
    rw [h1 x hx ha]
    have hok : ∀ x ∈ serverRows, ownRow x = true ∧ cleanRows [x] = true := by decide +kernel
    obtain ⟨b, sv, d, c, e1, e2, e3, -, e5⟩ := row_answer level u env rxMatch visit ba req resp store buf clock hu runIdle other (fun _ => id)
      plain_idle x (hok x hx).1 (hok x hx).2 ha
    refine ⟨sv, d, e1, e2, e3, ?_⟩
    have : ∀ (ls : List Str) (y : Resp × υ), inTurn (ls.map fun _ => id) y = y := by
      intro ls; induction ls with
      | nil => intro y; rfl
      | cons a t ih => intro y; exact ih y
    rw [this] at e5
    exact (Prod.mk.inj e5).1
  · intro hn
    rw [h2 hn, C96_empty none level u env rxMatch visit hv ba req resp store buf clock hu]
    exact ⟨_, rfl, rfl⟩

/-- **C117** examples/example_1: the lines of the handlers of the row, in order; any other request gets 404. -/
theorem C117_example_1 (hu : ba.use = false) (rxMatch : RxPtr → Str → Bool) (visit : GoMap RxPtr (Option Nat) → List (RxPtr × Option Nat))
    (hv : AnyOrder visit) (grow : Nat → Nat → Nat) :
    (∀ x ∈ example1Rows, answers x req → Answered
      (serveHTTP u env rxMatch visit (serverOf (exampleHandlers runEx1 other) (progState grow example1) none level) ba req resp store buf clock)
      { resp with body := resp.body ++ ((labels x.2.2).map line1).flatten }) ∧
    ((∀ x ∈ example1Rows, ¬ answers x req) → Missed
      (serveHTTP u env rxMatch visit (serverOf (exampleHandlers runEx1 other) (progState grow example1) none level) ba req resp store buf clock)) := by
  obtain ⟨h1, h2⟩ := C98_example_1 (exampleHandlers runEx1 other) none level u env ba req resp store buf clock rxMatch visit hv grow
  constructor
  · intro x hx ha
    rw [h1 x hx ha]
    have hok : ∀ x ∈ example1Rows, ownRow x = true ∧ cleanRows [x] = true := by decide +kernel
    obtain ⟨b, sv, d, c, e1, e2, e3, -, e5⟩ := row_answer level u env rxMatch visit ba req resp store buf clock hu runEx1 other
      (fun l => appending (line1 l)) plain_ex1 x (hok x hx).1 (hok x hx).2 ha
    refine ⟨sv, d, e1, e2, e3, ?_⟩
    have : (labels x.2.2).map (fun l => appending (υ := υ) (line1 l)) = ((labels x.2.2).map line1).map appending := by
      rw [List.map_map]; rfl
    rw [this, inTurn_appending] at e5
    exact (Prod.mk.inj e5).1
  · intro hn
    rw [h2 hn, C96_empty none level u env rxMatch visit hv ba req resp store buf clock hu]
    exact ⟨_, rfl, rfl⟩

end

/-! ### The cookie of example_2 and example_3 -/

theorem row_visit (level : Int) (u : Str → Str) (env : Env ExStore) (ba : BaseAuth) (req : Req) (resp : Resp) (st : ExStore) (buf : Args) (clock : Nat)
    (other : ExH → Option (MainH ExStore)) (hu : ba.use = false) (visit : GoMap RxPtr (Option Nat) → List (RxPtr × Option Nat))
    (x : Method × Str × HView ExH) (hx : x ∈ cookieRows) (ha : answers x req) :
    ∃ sv d c, serveHTTP u env RxPtr.matches visit (soleServer (exampleHandlers runEx2 other) x.1 x.2.1 x.2.2 none level) ba req resp (fun _ => st) buf clock = .ret sv ∧
      sv.ran = some d ∧ d.flow = .returned none ∧ d.ctx = some c ∧
      sv.resp = { resp with body := resp.body ++ ((labels x.2.2).map line2).flatten } ∧
      c.store = if testValue st = [] then setTest st else st := by
  have hok : ∀ x ∈ cookieRows, (ownRow x = true ∧ cleanRows [x] = true) ∧ ∃ l, labels x.2.2 = [l] := by
    intro x hx
    simp only [cookieRows, List.mem_cons, List.not_mem_nil, or_false] at hx
    rcases hx with rfl | rfl
    · exact ⟨by decide +kernel, _, rfl⟩
    · exact ⟨by decide +kernel, _, rfl⟩
  obtain ⟨⟨k1, k2⟩, l, hl⟩ := hok x hx
  obtain ⟨b, sv, d, c, e1, e2, e3, e4, e5⟩ := row_answer level u env RxPtr.matches visit ba req resp (fun _ => st) buf clock hu runEx2 other
    visitEx2 plain_ex2 x k1 k2 ha
  rw [hl] at e5
  obtain ⟨f1, f2⟩ := Prod.mk.inj e5
  refine ⟨sv, d, c, e1, e2, e3, e4, f1.trans ?_, f2⟩
  rw [hl]
  simp

theorem setTest_eq {hostHeader host : Str} (hh : HostOf hostHeader host) (cookies : List Str) :
    setTest ⟨hostHeader, cookies, []⟩ = ⟨hostHeader, cookies, [(b!"test_cookie", (cookieOf host testCookie).line)]⟩ := by
  have key : setCookieCall hostHeader [] testCookie = .ret [(b!"test_cookie", (cookieOf host testCookie).line)] := by
    unfold setCookieCall
    rw [setCookie_of hh testCookie]
    rfl
  unfold setTest
  rw [show setCookieCall (ExStore.host ⟨hostHeader, cookies, []⟩) (ExStore.set ⟨hostHeader, cookies, []⟩) testCookie = _ from key]

theorem test_line {host : Str} (hne : host ≠ []) :
    (cookieOf host testCookie).line = b!"test_cookie=test; max-age=3600; domain=" ++ host ++ b!"; path=/; HttpOnly" := by
  have e1 : formatNat 3600 = b!"3600" := by decide +kernel
  have e2 : queryEscape b!"test" = b!"test" := by decide +kernel
  simp [Cookie.line, cookieOf, testCookie, askedDomain, askedPath, cookiePart, hne, e1, e2, sameSiteNone]

/-- **C117** (the cookie is set once).  A client that has no cookie "test_cookie" visits a page of example_2 or example_3: the
answer is the page, and sets the cookie test_cookie=test for one hour, for the client's host and all paths.  With any later
visit to that host, in whatever order the client sends its cookies, the answer is the page and sets no cookie. -/
theorem C117_cookie (level : Int) (u : Str → Str) (env env' : Env ExStore) (ba : BaseAuth) (hu : ba.use = false) (resp : Resp) (buf buf' : Args) (clock clock' : Nat)
    (other : ExH → Option (MainH ExStore)) (visit : GoMap RxPtr (Option Nat) → List (RxPtr × Option Nat)) (hv : AnyOrder visit)
    (grow : Nat → Nat → Nat) (addr : Nat) (hostHeader host p p' : Str) (hh : HostOf hostHeader host) (hgood : GoodText host) (hne : host ≠ [])
    (hlow : host.map lowerByte = host) (hdot : host.head? ≠ some 46) (hp' : p'.head? = some 47)
    (jar : List Stored) (hjar : ∀ c ∈ jar, c.name ≠ b!"test_cookie" ∧ SentCookie.Valid ⟨c.name, c.value, false⟩)
    (sent : List SentCookie) (hsent : SentWith jar host p sent)
    (req req' : Req) (x x' : Method × Str × HView ExH) (hx : x ∈ cookieRows) (ha : answers x req) (hx' : x' ∈ cookieRows) (ha' : answers x' req') :
    ∀ ops, (example2 addr = some ops ∨ example3 addr = some ops) →
    ∃ sv d c, serveHTTP u env RxPtr.matches visit (serverOf (exampleHandlers runEx2 other) (progState grow ops) none level) ba req resp
        (fun _ => ⟨hostHeader, [cookieHeader sent], []⟩) buf clock = .ret sv ∧
      sv.ran = some d ∧ d.flow = .returned none ∧ d.ctx = some c ∧
      sv.resp = { resp with body := resp.body ++ ((labels x.2.2).map line2).flatten } ∧
      setCookieLines c.store.set = [b!"test_cookie=test; max-age=3600; domain=" ++ host ++ b!"; path=/; HttpOnly"] ∧
      ∀ sent', SentWith (receiveAll host p jar (setCookieLines c.store.set)) host p' sent' →
        ∃ sv' d' c', serveHTTP u env' RxPtr.matches visit (serverOf (exampleHandlers runEx2 other) (progState grow ops) none level) ba req' resp
            (fun _ => ⟨hostHeader, [cookieHeader sent'], []⟩) buf' clock' = .ret sv' ∧
          sv'.ran = some d' ∧ d'.flow = .returned none ∧ d'.ctx = some c' ∧
          sv'.resp = { resp with body := resp.body ++ ((labels x'.2.2).map line2).flatten } ∧
          setCookieLines c'.store.set = [] := by
  intro ops hops
  -- the program serves its rows
  have serves : ∀ (env : Env ExStore) (req : Req) (st : ExStore) (buf : Args) (clock : Nat), ∀ x ∈ cookieRows, answers x req →
      serveHTTP u env RxPtr.matches visit (serverOf (exampleHandlers runEx2 other) (progState grow ops) none level) ba req resp (fun _ => st) buf clock =
      serveHTTP u env RxPtr.matches visit (soleServer (exampleHandlers runEx2 other) x.1 x.2.1 x.2.2 none level) ba req resp (fun _ => st) buf clock := by
    intro env req st buf clock x hx ha
    rcases hops with h | h
    · obtain ⟨ops', rx, e, -, h1, -⟩ := C98_example_2 (exampleHandlers runEx2 other) none level u env ba req resp (fun _ => st) buf clock visit hv addr grow
      rw [h] at e; cases e
      exact h1 x (List.mem_append_left _ hx) ha
    · obtain ⟨ops', rx, e, -, h1, -⟩ := C98_example_3 (exampleHandlers runEx2 other) none level u env ba req resp (fun _ => st) buf clock visit hv addr grow
      rw [h] at e; cases e
      exact h1 x hx ha
  -- the first visit
  have hperm : sent.Perm ((jar.filter fun c => c.applies host p).map fun c => ⟨c.name, c.value, false⟩) := hsent
  have hmem : ∀ c ∈ sent, c.name ≠ b!"test_cookie" ∧ c.Valid := by
    intro c hc
    obtain ⟨s, hs, rfl⟩ := List.mem_map.1 (hperm.mem_iff.1 hc)
    exact hjar s (List.mem_filter.1 hs).1
  have hfirst : firstValue b!"test_cookie" [sent].flatten = none := by
    have : ∀ l : List SentCookie, (∀ c ∈ l, c.name ≠ b!"test_cookie") → firstValue b!"test_cookie" l = none := by
      intro l; induction l with
      | nil => intro _; rfl
      | cons c t ih =>
        intro h
        unfold firstValue
        rw [if_neg (h c (by simp))]
        exact ih fun c hc => h c (by simp [hc])
    exact this _ fun c hc => (hmem c (by simpa using hc)).1
  have hnone : testValue ⟨hostHeader, [cookieHeader sent], []⟩ = [] := by
    unfold testValue
    have := (C83_exact [sent] (fun c hc => (hmem c (by simpa using hc)).2) b!"test_cookie").1 hfirst
    rw [show cookieCall (ExStore.cookies ⟨hostHeader, [cookieHeader sent], []⟩) b!"test_cookie" = none from this]
  obtain ⟨sv, d, c, e1, e2, e3, e4, e5, e6⟩ := row_visit level u env ba req resp ⟨hostHeader, [cookieHeader sent], []⟩ buf clock other hu visit x hx ha
  rw [if_pos hnone, setTest_eq hh] at e6
  refine ⟨sv, d, c, (serves env req _ buf clock x hx ha).trans e1, e2, e3, e4, e5, ?_, ?_⟩
  · rw [e6]
    show [(cookieOf host testCookie).line] = _
    rw [test_line hne]
  intro sent' hs'
  have hdom : askedDomain host testCookie = host := rfl
  have hst : storedDomain host testCookie = host := by
    unfold storedDomain
    rw [hdom]
    have : trimPrefix host b!"." = host := by
      cases host with
      | nil => rfl
      | cons a t =>
        have ha : a ≠ 46 := fun h => hdot (by rw [h]; rfl)
        have : (46 == a) = false := by simpa using fun h => ha h.symm
        simp [trimPrefix, hasPrefix, List.isPrefixOf, this]
    rw [this, hlow]
  have hm : domainMatch host host = true := by simp [domainMatch]
  obtain ⟨cs, k1, k2⟩ := C99_comes_back_partial hostHeader host p hh [testCookie] [] [] testCookie rfl (by simp)
    (by
      intro b hb
      rw [List.mem_singleton.1 hb]
      refine ⟨⟨⟨by decide, by decide, by decide, ?_⟩, hgood, ⟨by decide, ?_⟩⟩, by decide⟩
      · rintro x (h | h) <;> (cases h; decide)
      · rintro x (h | h) <;> (cases h; decide))
    (by decide) hne (by rw [hst]; exact hm) jar hjar
  rw [calls_fold hh] at k1
  cases k1
  rw [e6] at hs'
  obtain ⟨k, v, g1, g2⟩ := k2 host p' (by rw [hst]; exact hm) (by
      cases p' with
      | nil => cases hp'
      | cons a t =>
        have : a = 47 := by simpa using hp'
        subst this
        show pathMatch _ b!"/" = true
        simp [pathMatch, hasPrefix, hasSuffix]) sent' hs'
  have hsome : testValue ⟨hostHeader, [cookieHeader sent'], []⟩ ≠ [] := by
    unfold testValue
    rw [show cookieCall (ExStore.cookies ⟨hostHeader, [cookieHeader sent'], []⟩) b!"test_cookie" = _ from g1]
    rintro rfl
    revert g2
    decide
  obtain ⟨sv', d', c', f1, f2, f3, f4, f5, f6⟩ := row_visit level u env' ba req' resp ⟨hostHeader, [cookieHeader sent'], []⟩ buf' clock' other hu visit x' hx' ha'
  rw [if_neg hsome] at f6
  exact ⟨sv', d', c', (serves env' req' _ buf' clock' x' hx' ha').trans f1, f2, f3, f4, f5, by rw [f6]; rfl⟩

/-- **C117** examples/static_video: the page "/" is the line of its handler. -/
theorem C117_video (level : Int) (u : Str → Str) (env : Env ExStore) (ba : BaseAuth) (hu : ba.use = false) (req : Req) (resp : Resp)
    (store : Args → ExStore) (buf : Args) (clock : Nat) (other : ExH → Option (MainH ExStore))
    (visit : GoMap RxPtr (Option Nat) → List (RxPtr × Option Nat)) (hv : AnyOrder visit) (grow : Nat → Nat → Nat) (addr : Nat)
    (ha : answers (b!"GETPOST", b!"/", (⟨[], [], none, some (.ih b!"for MethodGetPost '/'")⟩ : HView ExH)) req) :
    ∃ ops, exampleVideo addr = some ops ∧ Answered
      (serveHTTP u env RxPtr.matches visit (serverOf (exampleHandlers runVideo other) (progState grow ops) none level) ba req resp store buf clock)
      { resp with body := resp.body ++ b!"dddd-for MethodGetPost '/'- u: {}//// \n\n" } := by
  obtain ⟨ops, rx, e, -, h1, -⟩ := C98_video (exampleHandlers runVideo other) none level u env ba req resp store buf clock visit hv addr grow
  refine ⟨ops, e, ?_⟩
  rw [h1 (b!"GETPOST", b!"/", ⟨[], [], none, some (.ih b!"for MethodGetPost '/'")⟩) (by simp [videoRows]) ha]
  obtain ⟨b, sv, d, c, e1, e2, e3, -, e5⟩ := row_answer level u env RxPtr.matches visit ba req resp store buf clock hu runVideo other
    (fun l => appending (line2 l)) plain_video _ (by decide +kernel) (by decide +kernel) ha
  exact ⟨sv, d, e1, e2, e3, (Prod.mk.inj e5).1⟩

/-! ### Cases -/

/-- The answer of example_1 to GET /b. -/
example : ∃ x ∈ example1Rows, answers x ⟨b!"GET", b!"/b", []⟩ ∧
    labels x.2.2 = [b!"B1", b!"B2", b!"B3", b!"for MethodGet '/b'", b!"B9", b!"B10"] :=
  ⟨example1Rows[4], by decide +kernel, ⟨by decide +kernel, by decide +kernel⟩, by decide +kernel⟩

/-- A page of example_2, a client with another cookie, and its host. -/
example : (∃ x ∈ cookieRows, answers x ⟨b!"GET", b!"/cookie", []⟩ ∧ ((labels x.2.2).map line2).flatten = b!"dddd-for MethodGetPost 'cookie'- u: {}//// \n\n") ∧
    SentCookie.Valid ⟨b!"lang", b!"en", false⟩ ∧ HostOf b!"example.com:8081" b!"example.com" ∧ GoodText b!"example.com" ∧
    SentWith [⟨b!"lang", b!"en", b!"example.com", true, b!"/"⟩] b!"example.com" b!"/cookie" [⟨b!"lang", b!"en", false⟩] := by
  refine ⟨⟨cookieRows[1], by decide +kernel, ⟨by decide +kernel, by decide +kernel⟩, by decide +kernel⟩, ⟨by decide, by decide, by decide⟩, ?_, ⟨by decide, ?_⟩, .refl _⟩
  · exact ⟨b!"example.com", Or.inl ⟨b!"8081", rfl, by decide⟩, Or.inr ⟨rfl, fun x h => by cases h⟩⟩
  · rintro x (h | h) <;> (cases h; decide)

/-- The programs of examples 2 and 3 start (StaticFileFS and StaticFile succeed). -/
example : (example2 0).isSome = true ∧ (example3 0).isSome = true := by decide +kernel

end Verif
