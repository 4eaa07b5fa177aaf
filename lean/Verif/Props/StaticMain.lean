import Verif.Model.StaticMain
import Verif.Props.StaticServe
import Verif.Props.StaticReg
import Verif.Props.Auth
/-
C90: requests for static files from the socket to the file and back: registration (C76), lookup (C13, C14), the pipeline
and the file server (C62, C70, C72, C77) composed.
-/
namespace Verif
open Spec

section
variable {υ : Type}

/-- A context nothing has happened to yet, apart from ghost events. -/
structure Untouched (resp : Resp) (st : υ) (c : RCtx υ) : Prop where
  gos : c.gos = []
  resp : c.resp = resp
  store : c.store = st
  stopped : c.stopped = false
  aborted : c.aborted = false
  skipped : c.skipped = false
  egErr : c.egErr = none

theorem goSteps_nil (env : Env υ) (l : List Nat) (c : RCtx υ) (h : c.gos = []) : l.foldl (goStep env) c = c := by
  induction l with
  | nil => rfl
  | cons i l ih => simp [goStep, h, ih]

theorem Untouched.tick {env : Env υ} {resp : Resp} {st : υ} {c : RCtx υ} (h : Untouched resp st c) :
    Untouched resp st (tick env c) := by
  unfold Verif.tick
  rw [goSteps_nil env _ c h.gos]
  exact ⟨h.gos, h.resp, h.store, h.stopped, h.aborted, h.skipped, h.egErr⟩

theorem Untouched.event {resp : Resp} {st : υ} {c : RCtx υ} (h : Untouched resp st c) (e : Ev) :
    Untouched resp st (c.event e) :=
  ⟨h.gos, h.resp, h.store, h.stopped, h.aborted, h.skipped, h.egErr⟩

theorem Untouched.name {resp : Resp} {st : υ} {c : RCtx υ} (h : Untouched resp st c) (s : Str) :
    Untouched resp st (addDebugName c s) := by
  unfold addDebugName
  split
  · exact ⟨h.gos, h.resp, h.store, h.stopped, h.aborted, h.skipped, h.egErr⟩
  · exact h

theorem Untouched.level {resp : Resp} {st : υ} {c : RCtx υ} (h : Untouched resp st c) (l : Int) :
    Untouched resp st { c with level := l } :=
  ⟨h.gos, h.resp, h.store, h.stopped, h.aborted, h.skipped, h.egErr⟩

theorem Untouched.eg {resp : Resp} {st : υ} {c : RCtx υ} (h : Untouched resp st c) :
    Untouched resp st { c with egCancelled := true } :=
  ⟨h.gos, h.resp, h.store, h.stopped, h.aborted, h.skipped, h.egErr⟩

theorem Untouched.wait {env : Env υ} {resp : Resp} {st : υ} {c : RCtx υ} (h : Untouched resp st c) :
    Untouched resp st (egWait env c).1 ∧ (egWait env c).2 = none := by
  have : waitAll env (goFuel c.gos) c = c := by
    rw [h.gos]; rfl
  unfold egWait
  simp only [this]
  exact ⟨h.eg, h.egErr⟩

/-- The error of a static handler, as the pipeline sees it. -/
def staticErr (msg : ServeErr → Str) (s : StaticRun) : Option GoErr := s.err.map fun e => .leaf 0 (msg e)

theorem staticMain_call (env : Env υ) (V : ReqView υ) (msg : ServeErr → Str) (name : Str) (serve : HttpReq → HttpResp → RunOut)
    (resp : Resp) (st : υ) (c : RCtx υ) (h : Untouched resp st c) (s : StaticRun)
    (hs : (serve (V.req st) resp.http).result = .ret s) :
    ∃ c', callStop env .main (staticMain V msg name serve).run c =
        (c', match staticErr msg s with | some e => .returned (some e) | none => .next) ∧
      Untouched s.resp.plain (V.setPath (serve (V.req st) resp.http).path st) c' := by
  have h1 := h.event (.start .main c.done)
  have hrun : (staticMain V msg name serve).run (c.event (.start .main c.done)) =
      .call (.resp fun _ => s.resp.plain) fun _ =>
        .call (.upd (V.setPath (serve (V.req st) resp.http).path)) fun _ =>
          .ret (match s.err with | none => .ok | some e => .err (.leaf 0 (msg e))) := by
    simp only [staticMain, h1.store, h1.resp, hs]
    cases s.err <;> rfl
  unfold callStop callProg
  simp only [hrun, runProg]
  have h2 : Untouched s.resp.plain st (applyOp env (c.event (.start .main c.done)) (.resp fun _ => s.resp.plain)) := by
    have := h1.tick (env := env)
    exact ⟨this.gos, rfl, this.store, this.stopped, this.aborted, this.skipped, this.egErr⟩
  have h3 : Untouched s.resp.plain (V.setPath (serve (V.req st) resp.http).path st)
      (applyOp env (applyOp env (c.event (.start .main c.done)) (.resp fun _ => s.resp.plain))
        (.upd (V.setPath (serve (V.req st) resp.http).path))) := by
    have := h2.tick (env := env)
    exact ⟨this.gos, this.resp, by simp only [applyOp]; rw [← this.store]; rfl, this.stopped, this.aborted, this.skipped, this.egErr⟩
  generalize applyOp env (applyOp env (c.event (.start .main c.done)) (.resp fun _ => s.resp.plain))
        (.upd (V.setPath (serve (V.req st) resp.http).path)) = c3 at h3 ⊢
  have h4 := h3.tick (env := env)
  have h5 := fun o => h4.event (.ret o (tick env c3).done)
  cases he : s.err with
  | none =>
    refine ⟨_, ?_, h5 .ok⟩
    have : ((tick env c3).event (.ret .ok (tick env c3).done)).isStopped = false := by
      simp [RCtx.isStopped, (h5 .ok).aborted, (h5 .ok).stopped]
    simp [staticErr, he, this]
  | some e =>
    exact ⟨_, by simp [staticErr, he], h5 (.err (.leaf 0 (msg e)))⟩

/-- A set that holds nothing but a static handler. -/
theorem staticMain_routed (env : Env υ) (V : ReqView υ) (msg : ServeErr → Str) (name : Str) (serve : HttpReq → HttpResp → RunOut)
    (resp : Resp) (st : υ) (c : RCtx υ) (h : Untouched resp st c) (s : StaticRun)
    (hs : (serve (V.req st) resp.http).result = .ret s) :
    ∃ c', runRouted env ⟨[], [], none, some (staticMain V msg name serve)⟩ c = (c', .returned (staticErr msg s)) ∧
      Untouched s.resp.plain (V.setPath (serve (V.req st) resp.http).path st) c' := by
  have hinit : ∀ c0, Untouched resp st c0 →
      ∃ c1, callProg env .init (staticMain V msg name serve).init c0 = (c1, .ok) ∧ Untouched resp st c1 := by
    intro c0 h0
    exact ⟨_, rfl, ((h0.event _).tick).event _⟩
  obtain ⟨c1, e1, h1⟩ := hinit _ (h.name (staticMain V msg name serve).name)
  obtain ⟨c2, e2, h2⟩ := staticMain_call env V msg name serve resp st _ (h1.name (staticMain V msg name serve).name) s hs
  have hset : runSet env ⟨[], [], none, some (staticMain V msg name serve)⟩ c = (c2, .returned (staticErr msg s)) := by
    unfold runSet
    simp only [e1, runList, h1.skipped, Bool.false_eq_true, if_false, e2]
    cases staticErr msg s <;> rfl
  obtain ⟨w1, w2⟩ := h2.wait (env := env)
  refine ⟨(egWait env c2).1, ?_, w1⟩
  unfold runRouted
  rw [hset]
  simp only [h2.aborted, Bool.false_eq_true, if_false, w2, runLast]
  cases staticErr msg s <;> rfl

end

section
variable {ρ υ : Type} [DecidableEq ρ]

/-- A request for a route whose set holds nothing but a static handler. -/
theorem static_request {σ : Type} (env : Env υ) (rxMatch : ρ → Str → Bool) (visit : GoMap ρ (Option σ) → List (ρ × Option σ))
    (srv : Srv υ σ ρ) (req : Req) (resp : Resp) (store : Args → υ) (buf : Args) (clock : Nat) (a : σ) (b : Args)
    (V : ReqView υ) (msg : ServeErr → Str) (name : Str) (serve : HttpReq → HttpResp → RunOut) (s : StaticRun)
    (hf : serverFind rxMatch visit srv.tree srv.regs req.method req.path buf = .ret ⟨some a, true, b⟩)
    (hset : srv.sets a = ⟨[], [], none, some (staticMain V msg name serve)⟩) (hinit : srv.initCtx = none)
    (hs : (serve (V.req (store b)) resp.http).result = .ret s) :
    ∃ d c, runHTTP env rxMatch visit srv req.method req.path resp store buf clock = .ret d ∧ d.resp = s.resp.plain ∧
      d.flow = .returned (staticErr msg s) ∧ d.ctx = some c ∧
      c.store = V.setPath (serve (V.req (store b)) resp.http).path (store b) := by
  have h0 : Untouched resp (store b) (newContext resp (store b) clock) := ⟨rfl, rfl, rfl, rfl, rfl, rfl, rfl⟩
  obtain ⟨c', e, h⟩ := staticMain_routed env V msg name serve resp (store b) _ (h0.level srv.logLevel) s hs
  refine ⟨⟨some ({ c' with cancelled := true }.event .released), .returned (staticErr msg s), c'.resp⟩, _, ?_, h.resp, rfl, rfl,
    h.store⟩
  unfold runHTTP
  rw [hf]
  simp only [Outcome.bind_ret, not_true_eq_false, if_false, hinit, hset, e]

/-- The same from ServeHTTP on, for every request that gets past authentication. -/
theorem static_served {σ : Type} (u : Str → Str) (env : Env υ) (rxMatch : ρ → Str → Bool)
    (visit : GoMap ρ (Option σ) → List (ρ × Option σ)) (srv : Srv υ σ ρ) (ba : BaseAuth) (req : Req) (resp : Resp)
    (store : Args → υ) (buf : Args) (clock : Nat) (a : σ) (b : Args)
    (V : ReqView υ) (msg : ServeErr → Str) (name : Str) (serve : HttpReq → HttpResp → RunOut) (s : StaticRun)
    (hf : serverFind rxMatch visit srv.tree srv.regs req.method req.path buf = .ret ⟨some a, true, b⟩)
    (hset : srv.sets a = ⟨[], [], none, some (staticMain V msg name serve)⟩) (hinit : srv.initCtx = none)
    (hs : (serve (V.req (store b)) resp.http).result = .ret s) :
    (∀ sv d, serveHTTP u env rxMatch visit srv ba req resp store buf clock = .ret sv → sv.ran = some d →
      sv.resp = s.resp.plain ∧ d.flow = .returned (staticErr msg s)) ∧
    (ba.use = false → ∃ sv d, serveHTTP u env rxMatch visit srv ba req resp store buf clock = .ret sv ∧ sv.ran = some d) := by
  obtain ⟨d0, c, e, g1, g2, -, -⟩ := static_request env rxMatch visit srv req resp store buf clock a b V msg name serve s hf hset hinit hs
  constructor
  · intro sv d h hd
    rcases serve_shape h with ⟨h1, h2, k, h3, h4, h5⟩ | ⟨h1, h2, d', h3, h4, h5⟩
    · rcases h5 with ⟨k1, k2, k3⟩ | ⟨k1, d', k2, k3, k4⟩
      · rw [hd] at k2; cases k2
      · have := (check_eq u _ _ _ _ h3 h1).2.2
        rw [if_pos k1] at this
        rw [this, e] at k2
        cases k2
        rw [hd] at k3
        cases k3
        exact ⟨by rw [k4, g1], g2⟩
    · rw [e] at h3
      cases h3
      rw [hd] at h4
      cases h4
      exact ⟨by rw [h5, g1], g2⟩
  · intro hb
    unfold serveHTTP
    simp only [hb, Bool.false_eq_true, if_false, e, Outcome.bind_ret]
    exact ⟨_, _, rfl, rfl⟩

/-- The lookup on a server with one expression. -/
theorem sole_reg_find (rxMatch : ρ → Str → Bool) (visit : GoMap ρ (Option Nat) → List (ρ × Option Nat)) (hv : AnyOrder visit)
    (m meth : Method) (rx : ρ) (path : Str) (buf : Args) (hmeth : m ∈ rxMethods) (hcov : covers m meth = true)
    (hm : rxMatch rx path = true) :
    serverFind rxMatch visit (newTree : Node Nat) (regOf [⟨m, rx, 0⟩]) meth path buf = .ret ⟨some 0, true, []⟩ := by
  obtain ⟨rt, ht, -, hmiss, -⟩ := C14_tree_first rxMatch visit (newTree : Node Nat) (regOf [⟨m, rx, 0⟩]) meth path buf
  have hf : rt.found = false := by
    cases hf : rt.found with
    | false => rfl
    | true =>
      obtain ⟨r, hr, -⟩ := C02_sound ([] : List (Reg Nat)) meth path buf rt ht hf
      simp at hr
  rw [hmiss hf]
  congr 1
  refine C13_determined _ (by simpa using hmeth) rxMatch visit hv meth path [] ⟨m, rx, 0⟩ ?_ hm ?_
  · simp [hcov]
  · intro x hx _ _
    simp only [List.mem_singleton] at hx
    rw [hx]

end

/-- What is assumed of the server around a static route: no route of the tree and no other expression answers the request,
and routes have no empty segments. -/
structure Unrivalled {η : Type} (prog : List (Op η RxPtr)) (req : Req) : Prop where
  clean : cleanOps prog
  tree : NoTreeRoute prog req.method req.path
  rx : NoRxRival RxPtr.matches prog req.method req.path

/-- What is assumed of a file: it can be opened under `name`, is a regular file of the stated size. -/
structure Readable (fSys : RawFS) (name : Str) (f : FsFile) (fi : FileInfo) : Prop where
  opens : fSys.opens name = .ok f
  stat : f.stat = .ok fi
  regular : fi.isDir = false
  size : fi.size = f.content.data.length
  small : f.content.data.length < 2 ^ 63
  seek : f.content.seekable = true

section
variable {η υ : Type} [Inhabited η] (I : Handlers3 η υ) (level : Int) (u : Str → Str) (env : Env υ)
  (visit : GoMap RxPtr (Option Nat) → List (RxPtr × Option Nat)) (hv : AnyOrder visit)
  (ba : BaseAuth) (req : Req) (resp : Resp) (store : Args → υ) (buf : Args) (clock : Nat)
  (V : ReqView υ) (msg : ServeErr → Str) (lib : Lib) (href : Str → Str) (fSys : RawFS)
  (r : HttpReq) (hreq : ∀ a, V.req (store a) = r) (hrp : r.path = req.path) (hrm : r.method = req.method)

include hv hreq in
/-- **C90** (composition).  A static route answers every GET or HEAD request below its prefix with what its file server makes
of it, whatever the program registered before and afterwards: the response is the file server's response and the error that
is printed is the file server's error. -/
theorem C90_answer (grow : Nat → Nat → Nat) (ops later : List (Op η RxPtr)) (addr : Nat) (urlPath : Str)
    (hord : PlainText urlPath) (h : η) (name : Str) (serve : HttpReq → HttpResp → RunOut)
    (hI : I.main h = some (staticMain V msg name serve)) (hmeth : req.method = b!"GET" ∨ req.method = b!"HEAD")
    (hpath : (urlPath ++ b!"/") <+: req.path) (hun : Unrivalled (ops ++ later) req)
    (s : StaticRun) (hs : (serve r resp.http).result = .ret s) :
    ∃ calls, staticCalls (rxCompileAt addr) (progState grow ops).setVars.length urlPath (some h) [] = some calls ∧
      (∀ sv d, serveHTTP u env RxPtr.matches visit (serverOf I (progState grow (ops ++ calls ++ later)) none level) ba req
          resp store buf clock = .ret sv → sv.ran = some d →
        sv.resp = s.resp.plain ∧ d.flow = .returned (staticErr msg s)) ∧
      (ba.use = false → ∃ sv d, serveHTTP u env RxPtr.matches visit
          (serverOf I (progState grow (ops ++ calls ++ later)) none level) ba req resp store buf clock = .ret sv ∧
        sv.ran = some d) := by
  obtain ⟨calls, rx, h1, h2, h3⟩ := C76_serves I none level u env visit hv ba req resp store buf clock grow ops later addr
    urlPath hord h hmeth hpath hun.clean hun.tree hun.rx
  refine ⟨calls, h1, ?_⟩
  rw [h3]
  refine static_served u env RxPtr.matches visit _ ba req resp store buf clock 0 [] V msg name serve s ?_ ?_ rfl ?_
  · exact sole_reg_find RxPtr.matches visit hv b!"GETHEAD" req.method rx req.path buf (by decide)
      (by rcases hmeth with e | e <;> rw [e] <;> decide) ((h2 _).2 hpath)
  · simp [soleRegServer, viewSet, hI]
  · rw [hreq]; exact hs

/-- A request for a file below the prefix of a StaticFile route. -/
theorem file_prefix (urlPath : Str) (rest : List Str) (path : Str) (h : path = urlPath ++ b!"/" ++ fileName rest) :
    (urlPath ++ b!"/") <+: path := ⟨fileName rest, by rw [h]⟩

include hv hreq hrp hrm in
/-- **C90** (StaticFile).  GET below the prefix, for a file that exists in the directory: the client gets 200 and exactly the
bytes of the file, and nothing is reported as an error. -/
theorem C90_static_file (grow : Nat → Nat → Nat) (ops later : List (Op η RxPtr)) (addr : Nat) (U urlPath : Str)
    (hurl : urlPath = b!"/" ++ U) (hord : PlainText urlPath) (h : η)
    (hI : I.main h = some (staticFileMain V msg lib href fSys urlPath)) (rest : List Str) (hrne : rest ≠ [])
    (hrest : ∀ s ∈ rest, Elem s ∧ ¬ HasEscape s) (hi : rest.getLast? ≠ some b!"index.html")
    (hmeth : req.method = b!"GET") (hpath : req.path = urlPath ++ b!"/" ++ fileName rest) (hplain : PlainRequest r)
    (f : FsFile) (fi : FileInfo) (hfile : Readable fSys (fileName rest) f fi) (hun : Unrivalled (ops ++ later) req) :
    ∃ calls, staticCalls (rxCompileAt addr) (progState grow ops).setVars.length urlPath (some h) [] = some calls ∧
      (∀ sv d, serveHTTP u env RxPtr.matches visit (serverOf I (progState grow (ops ++ calls ++ later)) none level) ba req
          resp store buf clock = .ret sv → sv.ran = some d →
        sv.resp.status = 200 ∧ sv.resp.body = resp.body ++ f.content.data ∧ d.flow = .returned none) ∧
      (ba.use = false → ∃ sv d, serveHTTP u env RxPtr.matches visit
          (serverOf I (progState grow (ops ++ calls ++ later)) none level) ba req resp store buf clock = .ret sv ∧
        sv.ran = some d) := by
  obtain ⟨s, e, s1, s2, s3, -⟩ := C77_serves lib href fSys urlPath r resp.http U hurl rest hrne hrest
    (by rw [hrp, hpath, hurl]) hi (by rw [hrm, hmeth]) hplain f fi hfile.opens hfile.stat hfile.regular hfile.size hfile.small hfile.seek
  obtain ⟨calls, h1, h2, h3⟩ := C90_answer I level u env visit hv ba req resp store buf clock V msg r hreq
    grow ops later addr urlPath hord h _ _ hI (Or.inl hmeth) (file_prefix _ _ _ hpath) hun s e
  refine ⟨calls, h1, fun sv d hs hd => ?_, h3⟩
  obtain ⟨g1, g2⟩ := h2 sv d hs hd
  rw [g1]
  exact ⟨s1, s2, by rw [g2]; simp [staticErr, s3]⟩

include hv hreq hrp hrm in
/-- **C90** (StaticFileFS).  The same for the files below a directory of an embedded file system. -/
theorem C90_static_embedded (grow : Nat → Nat → Nat) (ops later : List (Op η RxPtr)) (addr : Nat) (U urlPath filePath : Str)
    (hurl : urlPath = b!"/" ++ U) (hord : PlainText urlPath) (h : η)
    (dir : List Str) (hdir : ∀ s ∈ dir, Elem s ∧ ¬ HasEscape s) (hdne : dir ≠ [])
    (hfp : filePath = fileName dir ∨ filePath = b!"/" ++ fileName dir)
    (hI : I.main h = some (staticFSMain V msg lib href fSys filePath urlPath)) (rest : List Str) (hrne : rest ≠ [])
    (hrest : ∀ s ∈ rest, Elem s ∧ ¬ HasEscape s) (hi : rest.getLast? ≠ some b!"index.html")
    (hmeth : req.method = b!"GET") (hpath : req.path = urlPath ++ b!"/" ++ fileName rest) (hplain : PlainRequest r)
    (f : FsFile) (fi : FileInfo) (hfile : Readable fSys (fileName (dir ++ rest)) f fi) (hun : Unrivalled (ops ++ later) req) :
    ∃ calls, staticCalls (rxCompileAt addr) (progState grow ops).setVars.length urlPath (some h) [] = some calls ∧
      (∀ sv d, serveHTTP u env RxPtr.matches visit (serverOf I (progState grow (ops ++ calls ++ later)) none level) ba req
          resp store buf clock = .ret sv → sv.ran = some d →
        sv.resp.status = 200 ∧ sv.resp.body = resp.body ++ f.content.data ∧ d.flow = .returned none) ∧
      (ba.use = false → ∃ sv d, serveHTTP u env RxPtr.matches visit
          (serverOf I (progState grow (ops ++ calls ++ later)) none level) ba req resp store buf clock = .ret sv ∧
        sv.ran = some d) := by
  obtain ⟨s, e, s1, s2, s3, -⟩ := C72_serves lib href fSys filePath urlPath r resp.http dir hdir hdne hfp U hurl rest hrne hrest
    (by rw [hrp, hpath, hurl]) hi (by rw [hrm, hmeth]) hplain f fi hfile.opens hfile.stat hfile.regular hfile.size hfile.small hfile.seek
  obtain ⟨calls, h1, h2, h3⟩ := C90_answer I level u env visit hv ba req resp store buf clock V msg r hreq
    grow ops later addr urlPath hord h _ _ hI (Or.inl hmeth) (file_prefix _ _ _ hpath) hun s e
  refine ⟨calls, h1, fun sv d hs hd => ?_, h3⟩
  obtain ⟨g1, g2⟩ := h2 sv d hs hd
  rw [g1]
  exact ⟨s1, s2, by rw [g2]; simp [staticErr, s3]⟩

include hv hreq hrp in
/-- **C90** (StaticFile, no such file).  404 "404 page not found", and the error is printed. -/
theorem C90_missing (grow : Nat → Nat → Nat) (ops later : List (Op η RxPtr)) (addr : Nat) (U urlPath : Str)
    (hurl : urlPath = b!"/" ++ U) (hord : PlainText urlPath) (h : η)
    (hI : I.main h = some (staticFileMain V msg lib href fSys urlPath)) (rest : List Str) (hrne : rest ≠ [])
    (hrest : ∀ s ∈ rest, Elem s ∧ ¬ HasEscape s) (hi : rest.getLast? ≠ some b!"index.html")
    (hmeth : req.method = b!"GET" ∨ req.method = b!"HEAD") (hpath : req.path = urlPath ++ b!"/" ++ fileName rest)
    (hfile : fSys.opens (fileName rest) = .error .notExist) (hun : Unrivalled (ops ++ later) req) :
    ∃ calls, staticCalls (rxCompileAt addr) (progState grow ops).setVars.length urlPath (some h) [] = some calls ∧
      (∀ sv d, serveHTTP u env RxPtr.matches visit (serverOf I (progState grow (ops ++ calls ++ later)) none level) ba req
          resp store buf clock = .ret sv → sv.ran = some d →
        sv.resp.status = 404 ∧ sv.resp.body = resp.body ++ b!"404 page not found" ∧
          d.flow = .returned (some (.leaf 0 (msg (.fs .notExist))))) ∧
      (ba.use = false → ∃ sv d, serveHTTP u env RxPtr.matches visit
          (serverOf I (progState grow (ops ++ calls ++ later)) none level) ba req resp store buf clock = .ret sv ∧
        sv.ran = some d) := by
  have hU : trimPrefix urlPath b!"/" = U := by rw [hurl]; simp [trimPrefix, hasPrefix]
  have hu : trimPrefix (trimPrefix r.path b!"/") U = 47 :: joinByte 47 rest := by
    have h1 : trimPrefix r.path b!"/" = U ++ 47 :: joinByte 47 rest := by
      rw [hrp, hpath, hurl, fileName_eq rest hrne]; simp [trimPrefix, hasPrefix]
    rw [h1]
    unfold trimPrefix hasPrefix
    rw [if_pos (by rw [List.isPrefixOf_iff_prefix]; exact ⟨_, rfl⟩)]
    simp
  obtain ⟨k1, k2, k3, k4⟩ := clean_name fSys rest hrne hrest hi
  have hopen : openMapped fSys (fileName rest) = (.error .notExist, [.open (fileName rest)]) := by
    unfold openMapped; rw [hfile]; rfl
  have e : (staticFileRun lib href fSys urlPath r resp.http).result =
      .ret ⟨httpError resp.http b!"404 page not found" 404, some (.fs .notExist), [.open (fileName rest)]⟩ := by
    unfold staticFileRun runWith
    simp only
    rw [hU, hu, k1]
    unfold fileServe
    simp only
    rw [if_pos k2]
    unfold serveFile
    simp only
    rw [if_neg k3, k4, hopen]
    rfl
  obtain ⟨calls, h1, h2, h3⟩ := C90_answer I level u env visit hv ba req resp store buf clock V msg r hreq
    grow ops later addr urlPath hord h _ _ hI hmeth (file_prefix _ _ _ hpath) hun _ e
  refine ⟨calls, h1, fun sv d hs hd => ?_, h3⟩
  obtain ⟨g1, g2⟩ := h2 sv d hs hd
  rw [g1]
  exact ⟨rfl, rfl, by rw [g2]; rfl⟩

/-- The copy registered by Server.Add, for a class `P` of set variables used afterwards. -/
theorem add_template (grow : Nat → Nat → Nat) (ops later : List (Op η RxPtr)) (j : Nat) (m : Method) (route : Str) (h : Option η)
    (v : HView η) (hv : setView (progState grow ops) j = some v) (P : Nat → Prop)
    (hP : ∀ k b s addr s', P k → (progState grow ops).setVars[k]? = some b → (progState grow ops).sets[b]? = some s →
      (progState grow ops).setVars[j]? = some addr → (progState grow ops).sets[addr]? = some s' →
      Safe s.before s'.before ∧ Safe s.after s'.after)
    (hlater : ∀ o ∈ later, ∀ k, o.setVar? = some k → P k) :
    ∃ a more, (progState grow (ops ++ .sAdd m route h (some j) :: later)).log =
        (progState grow ops).log ++ ⟨m, route, a⟩ :: more ∧
      (progState grow (ops ++ .sAdd m route h (some j) :: later)).tree =
        treeOf (progState grow (ops ++ .sAdd m route h (some j) :: later)).log ∧
      setHandlers (progState grow (ops ++ .sAdd m route h (some j) :: later)) a = some { v with main := h } := by
  have hwf := progState_wf (η := η) (ρ := RxPtr) grow ops
  have hw : progState grow (ops ++ .sAdd m route h (some j) :: later) =
      runOps grow (step grow (progState grow ops) (.sAdd m route h (some j))).1 later := by
    simp [progState, runOps]
  have hex : ∃ w' a, opCopySet (progState grow ops) (some j) h = some (w', a) := by
    simp only [setView, Option.bind_eq_some_iff] at hv
    obtain ⟨addr, h1, _⟩ := hv
    simp [opCopySet, h1]
  obtain ⟨w', a, he⟩ := hex
  obtain ⟨s, hs⟩ := copy_sealed hwf hv he P hP
  have hstep : (step grow (progState grow ops) (.sAdd m route h (some j))).1 = (opTreeAdd w' m route a).1 := by
    simp only [step, opAdd, he]
  have hs' : Sealed P (progState grow (ops ++ .sAdd m route h (some j) :: later)) a s { v with main := h } := by
    rw [hw, hstep]
    exact (hs.opTreeAdd m route a).run grow later hlater
  obtain ⟨⟨l, hl⟩, _⟩ := log_grows_run grow later (step grow (progState grow ops) (.sAdd m route h (some j))).1
  refine ⟨a, l, ?_, (progState_wf grow _).tree, hs'.view⟩
  have hw'log : w'.log = (progState grow ops).log := by
    obtain ⟨_, _, _, _, _, _, _, rfl⟩ := opCopySet_frame hwf he; rfl
  rw [hw, hl, hstep]
  simp [opTreeAdd, hw'log]

include hreq in
/-- **C90** (composition, FixStaticFileFS).  A fixed file route answers every GET or POST request for the route with what its
file server makes of it, whatever the program registered before and afterwards. -/
theorem C90_fixed_answer (grow : Nat → Nat → Nat) (ops later : List (Op η RxPtr)) (urlPath : Str) (h : η)
    (name : Str) (serve : HttpReq → HttpResp → RunOut)
    (hI : I.main h = some (staticMain V msg name serve)) (hmeth : req.method = b!"GET" ∨ req.method = b!"POST")
    (b : List (Str × Str)) (hm : matchRoute ((segs urlPath).map segPat) (segs req.path) = some b)
    (hurl : ∀ s ∈ segs urlPath, s.dropWhile (· == 58) ≠ []) (hclean : cleanOps (ops ++ later))
    (huniq : NoRival (ops ++ later) req.path) (s : StaticRun) (hs : (serve r resp.http).result = .ret s) :
    let prog := ops ++ fixStaticCalls (progState grow ops).setVars.length urlPath (some h) [] ++ later
    (∀ sv d, serveHTTP u env RxPtr.matches visit (serverOf I (progState grow prog) none level) ba req
        resp store buf clock = .ret sv → sv.ran = some d →
      sv.resp = s.resp.plain ∧ d.flow = .returned (staticErr msg s)) ∧
    (ba.use = false → ∃ sv d, serveHTTP u env RxPtr.matches visit
        (serverOf I (progState grow prog) none level) ba req resp store buf clock = .ret sv ∧ sv.ran = some d) := by
  intro prog
  obtain ⟨n1, n2⟩ := new_set (η := η) (ρ := RxPtr) grow ops
  have hprog : prog = (ops ++ [.newSet]) ++ .sAdd b!"GETPOST" urlPath (some h) (some (progState grow ops).setVars.length) :: later := by
    simp [prog, fixStaticCalls, staticSet]
  rw [hprog]
  generalize (progState grow ops).setVars.length = N at n1 n2 ⊢
  have hfree : ∀ p ∈ (ops ++ [.newSet]) ++ later, p = Op.newSet ∨ p ∈ ops ++ later := by
    intro p hp
    simp only [List.mem_append, List.mem_singleton] at hp ⊢
    rcases hp with (h | h) | h
    · exact Or.inr (Or.inl h)
    · exact Or.inl h
    · exact Or.inr (Or.inr h)
  have hcov : covers b!"GETPOST" req.method = true := by rcases hmeth with e | e <;> rw [e] <;> decide
  have hA : cleanOps ((ops ++ [.newSet]) ++ Op.sAdd b!"GETPOST" urlPath (some h) (some N) :: later) := by
    intro p hp m route e
    have hp' : p = Op.sAdd b!"GETPOST" urlPath (some h) (some N) ∨ p ∈ (ops ++ [.newSet]) ++ later := by
      simp only [List.mem_append, List.mem_cons] at hp ⊢
      rcases hp with h | h | h
      · exact Or.inr (Or.inl h)
      · exact Or.inl h
      · exact Or.inr (Or.inr h)
    rcases hp' with rfl | hp'
    · simp only [registers, Option.some.injEq, Prod.mk.injEq] at e
      rw [← e.2]; exact hurl
    · rcases hfree p hp' with rfl | hp'
      · simp [registers] at e
      · exact hclean p hp' m route e
  have hB : NoRival ((ops ++ [.newSet]) ++ later) req.path := by
    intro p hp m route e
    rcases hfree p hp with rfl | hp
    · simp [registers] at e
    · exact huniq p hp m route e
  obtain ⟨a, more, h1, h2, h3⟩ := add_template grow (ops ++ [.newSet]) later N b!"GETPOST" urlPath (some h) _ n1
    (fun _ => True) (fun k b s addr s' _ => n2 k b s addr s') (fun _ _ _ _ => trivial)
  have key := around_alone I none level u env RxPtr.matches visit ba req resp store buf clock grow (ops ++ [Op.newSet]) later
    (Op.sAdd b!"GETPOST" urlPath (some h) (some N)) b!"GETPOST" urlPath a more _ rfl h1
    (sAdd_logs grow (ops ++ [Op.newSet]) N b!"GETPOST" urlPath (some h) _ n1) h2 h3 hA hcov b hm hB
  rw [key]
  exact static_served u env RxPtr.matches visit
    (soleServer I b!"GETPOST" urlPath ⟨[], [], none, some h⟩ none level : Srv υ Nat RxPtr) ba req resp store buf clock 0 b V msg
    name serve s
    (found_in_tree _ _ _ _ _ _ _ _ _ (sole_find _ _ _ _ _ _ hurl hcov hm))
    (by simp [soleServer, viewSet, hI]) rfl (by rw [hreq]; exact hs)

include hreq hrm in
/-- **C90** (FixStaticFileFS).  A GET request for the route gets 200 and exactly the bytes of the configured file, whatever
its path. -/
theorem C90_fixed_file (grow : Nat → Nat → Nat) (ops later : List (Op η RxPtr)) (urlPath filePath : Str) (h : η)
    (hI : I.main h = some (fixStaticMain V msg lib href fSys filePath)) (l : List Str) (hlne : l ≠ [])
    (hl : ∀ s ∈ l, Elem s ∧ ¬ HasEscape s) (hi : l.getLast? ≠ some b!"index.html") (hfp : filePath = b!"/" ++ fileName l)
    (hmeth : req.method = b!"GET") (b : List (Str × Str))
    (hm : matchRoute ((segs urlPath).map segPat) (segs req.path) = some b) (hplain : PlainRequest r)
    (f : FsFile) (fi : FileInfo) (hfile : Readable fSys (fileName l) f fi)
    (hurl : ∀ s ∈ segs urlPath, s.dropWhile (· == 58) ≠ []) (hclean : cleanOps (ops ++ later))
    (huniq : NoRival (ops ++ later) req.path) :
    let prog := ops ++ fixStaticCalls (progState grow ops).setVars.length urlPath (some h) [] ++ later
    (∀ sv d, serveHTTP u env RxPtr.matches visit (serverOf I (progState grow prog) none level) ba req
        resp store buf clock = .ret sv → sv.ran = some d →
      sv.resp.status = 200 ∧ sv.resp.body = resp.body ++ f.content.data ∧ d.flow = .returned none) ∧
    (ba.use = false → ∃ sv d, serveHTTP u env RxPtr.matches visit
        (serverOf I (progState grow prog) none level) ba req resp store buf clock = .ret sv ∧ sv.ran = some d) := by
  intro prog
  obtain ⟨s, e, s1, s2, s3, -⟩ := C70_serves_partial lib href fSys filePath r resp.http l hlne hl hfp hi
    (by rw [hrm, hmeth]) hplain f fi hfile.opens hfile.stat hfile.regular hfile.size hfile.small hfile.seek
  obtain ⟨g1, g2⟩ := C90_fixed_answer I level u env visit ba req resp store buf clock V msg r hreq
    grow ops later urlPath h _ _ hI (Or.inl hmeth) b hm hurl hclean huniq s e
  refine ⟨fun sv d hs hd => ?_, g2⟩
  obtain ⟨k1, k2⟩ := g1 sv d hs hd
  rw [k1]
  exact ⟨s1, s2, by rw [k2]; simp [staticErr, s3]⟩

end

namespace StaticMainEx

/-- The request itself is the state behind the context. -/
def view : ReqView HttpReq := ⟨id, fun p r => { r with path := p }⟩

def msg : ServeErr → Str
  | .fs .notExist => b!"file does not exist"
  | _ => b!"other"

/-- Handler 3 is the one StaticFile("…", "/html") registers, 4 that of FixStaticFileFS("/static/a.txt", "/one"). -/
def handlers : Handlers3 Nat HttpReq where
  hdl := fun _ => none
  main := fun k => if k = 3 then some (staticFileMain view msg exLib id exFS b!"/html")
    else if k = 4 then some (fixStaticMain view msg exLib id exFS b!"/static/a.txt") else none
  last := fun _ => none

def env : Env HttpReq := ⟨fun _ c => (none, c.store), fun _ => [], fun _ => false⟩

def server (calls : List (Op Nat RxPtr)) : Srv HttpReq Nat RxPtr :=
  serverOf handlers (progState (fun c _ => 2 * c) (exStaticOps ++ calls ++ exStaticLater)) none 5

/-- Status, body and whether an error is printed. -/
def answer (calls : List (Op Nat RxPtr)) (m path : Str) : Option (Nat × Str × Bool) :=
  match serveHTTP id env RxPtr.matches id (server calls) newBaseAuth ⟨m, path, []⟩ ⟨200, [], []⟩
    (fun _ => { exGet path with method := m }) [] 0 with
  | .ret ⟨_, some d, r⟩ => some (r.status, r.body, decide (d.flow ≠ .returned none))
  | _ => none

def htmlCalls : List (Op Nat RxPtr) := (staticCalls (rxCompileAt 2) 0 b!"/html" (some 3) []).getD []

example : answer htmlCalls b!"GET" b!"/html/static/a.txt" = some (200, b!"hello", false) := by decide +kernel
example : answer htmlCalls b!"GET" b!"/html/static/b.txt" = some (404, b!"404 page not found", true) := by decide +kernel
example : answer htmlCalls b!"POST" b!"/html/static/a.txt" = some (404, b!"not found", true) := by decide +kernel
example : answer (fixStaticCalls 0 b!"/one" (some 4) []) b!"GET" b!"/one" = some (200, b!"hello", false) := by decide +kernel

theorem good (l : List Str) (h : ∀ s ∈ l, (s ≠ [] ∧ s ≠ b!"." ∧ s ≠ b!".." ∧ (47 : UInt8) ∉ s) ∧ (37 : UInt8) ∉ s) :
    ∀ s ∈ l, Elem s ∧ ¬ HasEscape s := fun s hs => ⟨(h s hs).1, no_escape s (h s hs).2⟩

/-- The hypotheses of `C90_static_file` hold here. -/
example : PlainText b!"/html" ∧ handlers.main 3 = some (staticFileMain view msg exLib id exFS b!"/html") ∧
    (∀ s ∈ [b!"static", b!"a.txt"], Elem s ∧ ¬ HasEscape s) ∧
    b!"/html/static/a.txt" = b!"/html" ++ b!"/" ++ fileName [b!"static", b!"a.txt"] ∧
    PlainRequest (exGet b!"/html/static/a.txt") ∧
    Readable exFS (fileName [b!"static", b!"a.txt"]) (exFile b!"a.txt" b!"hello") (exInfo b!"a.txt" b!"hello") ∧
    Unrivalled (exStaticOps ++ exStaticLater) ⟨b!"GET", b!"/html/static/a.txt", []⟩ := by
  refine ⟨plain_ascii _ (by decide +kernel), rfl, good _ (by decide), by decide, ⟨rfl, rfl, rfl, rfl, rfl⟩,
    ⟨rfl, rfl, rfl, rfl, by decide, rfl⟩, ⟨?_, ?_, ?_⟩⟩
  · intro o ho m route hr
    have : ∀ o ∈ exStaticOps ++ exStaticLater,
        ((registers o).all fun x => (segs x.2).all fun s => decide (s.dropWhile (· == 58) ≠ [])) = true := by
      decide +kernel
    have := this o ho
    rw [hr] at this
    simpa using this
  · intro o ho m route hr _
    have : ∀ o ∈ exStaticOps ++ exStaticLater,
        ((registers o).all fun x => (matchRoute ((segs x.2).map segPat) (segs b!"/html/static/a.txt")).isNone) = true := by
      decide +kernel
    have := this o ho
    rw [hr] at this
    simpa using this
  · intro o ho m rx hr _
    have : ∀ o ∈ exStaticOps ++ exStaticLater,
        ((registersRx o).all fun x => x.2.matches b!"/html/static/a.txt" == false) = true := by
      decide +kernel
    have := this o ho
    rw [hr] at this
    simpa using this

end StaticMainEx

end Verif
