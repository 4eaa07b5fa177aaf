import Verif.Model.Video
import Verif.Props.Mount
import Verif.Props.Kept
import Verif.Props.Plain
import Verif.Props.DatesHttp
/-
C124: the video of examples/static_video.
-/
namespace Verif
open Spec
set_option linter.unusedSectionVars false

section
variable {υ : Type}

/-- What the handler makes of a fresh context. -/
theorem video_call (env : Env υ) (V : ReqView υ) (mark : υ → υ) (hmark : ∀ s, V.req (mark s) = V.req s) (msg : ServeErr → Str) (missing : Str)
    (lib : Lib) (file : Option Str) (now : Int) (resp : Resp) (st : υ) (c : RCtx υ) (h : Untouched resp st c) (w : HttpResp) (err : Option GoErr)
    (hout : (file = none ∧ w = videoHeaders resp.http ∧ err = some (.leaf 0 missing)) ∨
      ∃ data e, file = some data ∧ ServeContent lib (V.req st) (videoHeaders resp.http) videoName now ⟨data, true⟩ = .ret (w, e) ∧
        err = e.map fun e => .leaf 0 (msg e)) :
    ∃ c', callStop env .main (videoMain V mark msg missing lib file now).run c =
        (c', match err with | some e => .returned (some e) | none => .next) ∧ Untouched w.plain (mark st) c' := by
  have h1 := h.event (.start .main c.done)
  have h2 : Untouched (videoHeaders resp.http).plain st
      (applyOp env (c.event (.start .main c.done)) (.resp fun w => (videoHeaders w.http).plain)) := by
    have := h1.tick (env := env)
    exact ⟨this.gos, by simp only [applyOp]; rw [← this.resp]; rfl, this.store, this.stopped, this.aborted, this.skipped, this.egErr⟩
  have h3 : Untouched (videoHeaders resp.http).plain (mark st)
      (applyOp env (applyOp env (c.event (.start .main c.done)) (.resp fun w => (videoHeaders w.http).plain)) (.upd mark)) := by
    have := h2.tick (env := env)
    exact ⟨this.gos, this.resp, by simp only [applyOp]; rw [← this.store]; rfl, this.stopped, this.aborted, this.skipped, this.egErr⟩
  have hr : ∀ c0, runProg env ((videoMain V mark msg missing lib file now).run c0) (c.event (.start .main c.done)) =
      runProg env (serveVideo V msg missing lib file now
          (applyOp env (applyOp env (c.event (.start .main c.done)) (.resp fun w => (videoHeaders w.http).plain)) (.upd mark)))
        (applyOp env (applyOp env (c.event (.start .main c.done)) (.resp fun w => (videoHeaders w.http).plain)) (.upd mark)) := fun _ => rfl
  unfold callStop callProg
  simp only [hr]
  generalize applyOp env (applyOp env (c.event (.start .main c.done)) (.resp fun w => (videoHeaders w.http).plain)) (.upd mark) = c3 at h3 ⊢
  have hhttp : c3.resp.http = videoHeaders resp.http := by rw [h3.resp]; rfl
  unfold serveVideo
  rw [h3.store, hmark, hhttp]
  rcases hout with ⟨rfl, rfl, rfl⟩ | ⟨data, e, rfl, hs, rfl⟩
  · simp only [runProg]
    exact ⟨_, rfl, (h3.tick (env := env)).event _⟩
  · simp only [hs, runProg]
    have h4 : Untouched w.plain (mark st) (applyOp env c3 (.resp fun _ => w.plain)) := by
      have := h3.tick (env := env)
      exact ⟨this.gos, rfl, this.store, this.stopped, this.aborted, this.skipped, this.egErr⟩
    generalize applyOp env c3 (.resp fun _ => w.plain) = c4 at h4 ⊢
    have h5 := fun o => (h4.tick (env := env)).event (.ret o (tick env c4).done)
    cases e with
    | none =>
      refine ⟨_, ?_, h5 .ok⟩
      have : ((tick env c4).event (.ret .ok (tick env c4).done)).isStopped = false := by
        simp [RCtx.isStopped, (h5 .ok).aborted, (h5 .ok).stopped]
      simp [this]
    | some e => exact ⟨_, by simp, h5 (.err (.leaf 0 (msg e)))⟩

theorem video_routed (env : Env υ) (V : ReqView υ) (mark : υ → υ) (hmark : ∀ s, V.req (mark s) = V.req s) (msg : ServeErr → Str) (missing : Str)
    (lib : Lib) (file : Option Str) (now : Int) (resp : Resp) (st : υ) (c : RCtx υ) (h : Untouched resp st c) (w : HttpResp) (err : Option GoErr)
    (hout : (file = none ∧ w = videoHeaders resp.http ∧ err = some (.leaf 0 missing)) ∨
      ∃ data e, file = some data ∧ ServeContent lib (V.req st) (videoHeaders resp.http) videoName now ⟨data, true⟩ = .ret (w, e) ∧
        err = e.map fun e => .leaf 0 (msg e)) :
    ∃ c', runRouted env ⟨[], [], none, some (videoMain V mark msg missing lib file now)⟩ c = (c', .returned err) ∧ Untouched w.plain (mark st) c' := by
  have hinit : ∀ c0, Untouched resp st c0 →
      ∃ c1, callProg env .init (videoMain V mark msg missing lib file now).init c0 = (c1, .ok) ∧ Untouched resp st c1 := by
    intro c0 h0
    exact ⟨_, rfl, ((h0.event _).tick).event _⟩
  obtain ⟨c1, e1, h1⟩ := hinit _ (h.name b!"run-handler")
  obtain ⟨c2, e2, h2⟩ := video_call env V mark hmark msg missing lib file now resp st _ (h1.name b!"run-handler") w err hout
  have hn : (videoMain V mark msg missing lib file now).name = b!"run-handler" := rfl
  have hset : runSet env ⟨[], [], none, some (videoMain V mark msg missing lib file now)⟩ c = (c2, .returned err) := by
    unfold runSet
    simp only [hn, e1, runList, h1.skipped, Bool.false_eq_true, if_false, e2]
    cases err <;> rfl
  obtain ⟨w1, w2⟩ := h2.wait (env := env)
  refine ⟨(egWait env c2).1, ?_, w1⟩
  unfold runRouted
  rw [hset]
  simp only [h2.aborted, Bool.false_eq_true, if_false, w2, runLast]
  cases err <;> rfl

end

section
variable {υ : Type} (level : Int) (u : Str → Str) (env : Env υ)
  (visit : GoMap RxPtr (Option Nat) → List (RxPtr × Option Nat)) (hv : AnyOrder visit)
  (V : ReqView υ) (mark : υ → υ) (hmark : ∀ s, V.req (mark s) = V.req s) (msg : ServeErr → Str) (missing : Str) (lib : Lib)
  (grow : Nat → Nat → Nat) (addr : Nat)

/-- What the program of examples/static_video does with a request, its video handler being that of the program, `file` and `now` as at the
time of the request; the other handlers are any. -/
def playsVideo (I : Handlers3 ExH υ) (file : Option Str) (now : Int) (a : Arrival υ) (out : Outcome (Served υ)) : Prop :=
  I.main .video = some (videoMain V mark msg missing lib file now) ∧
    ∃ ops, exampleVideo addr = some ops ∧ out = served level u env visit grow I ops a

include hv hmark in
theorem video_served (I : Handlers3 ExH υ) (file : Option Str) (now : Int) (a : Arrival υ) (out : Outcome (Served υ))
    (hplay : playsVideo level u env visit V mark msg missing lib grow addr I file now a out)
    (hu : a.ba.use = false) (hp : a.req.path = b!"/file") (hm : a.req.method = b!"GET" ∨ a.req.method = b!"POST")
    (r : HttpReq) (hr : a.Reads V r) (w : HttpResp) (err : Option GoErr)
    (hout : (file = none ∧ w = videoHeaders a.resp.http ∧ err = some (.leaf 0 missing)) ∨
      ∃ data e, file = some data ∧ ServeContent lib r (videoHeaders a.resp.http) videoName now ⟨data, true⟩ = .ret (w, e) ∧
        err = e.map fun e => .leaf 0 (msg e)) :
    ∃ sv d, out = .ret sv ∧ sv.ran = some d ∧ d.flow = .returned err ∧ sv.resp = w.plain := by
  obtain ⟨hI, ops, hops, rfl⟩ := hplay
  obtain ⟨ops', rx, e, -, h1, -⟩ := C98_video I none level u env a.ba a.req a.resp a.store a.buf a.clock visit hv addr grow
  rw [hops] at e; cases e
  have ha : answers (b!"GETPOST", b!"/file", (⟨[], [], none, some .video⟩ : HView ExH)) a.req := by
    unfold answers
    rw [hp]
    refine ⟨?_, by decide +kernel⟩
    rcases hm with h | h <;> rw [h] <;> decide +kernel
  unfold served
  rw [h1 (b!"GETPOST", b!"/file", ⟨[], [], none, some .video⟩) (by simp [videoRows]) ha]
  obtain ⟨b, hb⟩ := Option.isSome_iff_exists.1 ha.2
  have hcl : Clean (⟨b!"GETPOST", b!"/file", 0⟩ : Reg Nat) := by
    have key : ∀ (m : Method) (route : Str) (v : HView ExH), cleanRows [(m, route, v)] = true → Clean (⟨m, route, 0⟩ : Reg Nat) := by
      intro m route v h
      simp only [cleanRows, List.all_eq_true, decide_eq_true_eq] at h
      exact h (m, route, v) (List.mem_singleton.2 rfl)
    exact key _ _ ⟨[], [], none, some .video⟩ (by decide +kernel)
  have hf := found_in_tree RxPtr.matches visit _ newRegTree _ _ _ _ _ (sole_find b!"GETPOST" a.req.method b!"/file" a.req.path a.buf b hcl ha.1 hb)
  have h0 : Untouched a.resp (a.store b) (newContext a.resp (a.store b) a.clock) := ⟨rfl, rfl, rfl, rfl, rfl, rfl, rfl⟩
  rw [← hr.1 b] at hout
  obtain ⟨c', e, hc⟩ := video_routed env V mark hmark msg missing lib file now a.resp (a.store b) _ (h0.level level) w err hout
  have hset : (soleServer (ρ := RxPtr) I b!"GETPOST" b!"/file" ⟨[], [], none, some .video⟩ none level).sets 0 =
      ⟨[], [], none, some (videoMain V mark msg missing lib file now)⟩ := by
    show (⟨[], [], none, I.main .video⟩ : HSetV υ) = _
    rw [hI]
  have hrun : runHTTP env RxPtr.matches visit (soleServer I b!"GETPOST" b!"/file" ⟨[], [], none, some .video⟩ none level) a.req.method a.req.path
      a.resp a.store a.buf a.clock = .ret ⟨some ({ c' with cancelled := true }.event .released), .returned err, c'.resp⟩ := by
    unfold runHTTP
    have hf' : serverFind RxPtr.matches visit (soleServer (ρ := RxPtr) I b!"GETPOST" b!"/file" ⟨[], [], none, some .video⟩ none level).tree
      (soleServer (ρ := RxPtr) I b!"GETPOST" b!"/file" ⟨[], [], none, some .video⟩ none level).regs a.req.method a.req.path a.buf = .ret ⟨some 0, true, b⟩ := hf
    rw [hf']
    have hi : (soleServer (ρ := RxPtr) I b!"GETPOST" b!"/file" ⟨[], [], none, some .video⟩ none level).initCtx = none := rfl
    have hl : (soleServer (ρ := RxPtr) I b!"GETPOST" b!"/file" ⟨[], [], none, some .video⟩ none level).logLevel = level := rfl
    simp only [Outcome.bind_ret, not_true_eq_false, if_false, hi, hset, hl, e]
  refine ⟨⟨[], some ⟨some ({ c' with cancelled := true }.event .released), .returned err, c'.resp⟩, c'.resp⟩, _, ?_, rfl, rfl, hc.resp⟩
  unfold serveHTTP
  simp only [hu, Bool.false_eq_true, if_false, hrun]
  rfl

/-! ### The content -/

/-- A file system with one file. -/
def oneFile (name data : Str) (t : Int) : RawFS where
  opens n := if n = b!"v" then .ok ⟨.ok ⟨name, data.length, false, t⟩, ⟨data, true⟩, ⟨[], false⟩, .error .notExist⟩ else .error .notExist
  stats _ := .error .notExist

theorem oneFile_has (name data : Str) (t : Int) (h : data.length < 2 ^ 63) : HasFile (oneFile name data t) [b!"v"] name data t :=
  ⟨h, _, rfl, rfl, rfl⟩

theorem oneFile_names (path : Str) : StaticRoute.Names (.fixFS b!"/v") path [b!"v"] := by
  refine ⟨⟨by simp, fun s hs => ?_⟩, by decide, by decide⟩
  simp only [List.mem_cons, List.not_mem_nil, or_false] at hs
  subst hs
  exact ⟨⟨by decide, by decide, by decide, by decide⟩, no_escape _ (by decide)⟩

/-- Serving content is what a route for one file does. -/
theorem content_route (r : HttpReq) (w : HttpResp) (name data : Str) (t : Int) (h : data.length < 2 ^ 63) (s : StaticRun)
    (hs : (StaticRoute.run lib id (oneFile name data t) (.fixFS b!"/v") r w).result = .ret s) :
    ServeContent lib r w name t ⟨data, true⟩ = .ret (s.resp, s.err) := by
  obtain ⟨s', h1, -, h3⟩ := C105_content lib id (oneFile name data t) r w (.fixFS b!"/v") [b!"v"] (oneFile_names _) name data t (oneFile_has name data t h)
  rw [hs] at h1
  cases h1
  exact h3

theorem video_noEncoding {w : HttpResp} (h : NoEncoding w) : NoEncoding (videoHeaders w) := by
  unfold videoHeaders
  refine ⟨?_, ?_⟩
  · rw [peek_set, if_neg (by decide), peek_set, if_neg (by decide)]; exact h.1
  · rw [peek_set, if_neg (by decide), peek_set, if_neg (by decide)]; exact h.2

theorem video_kept (r : HttpReq) (w w' : HttpResp) (name : Str) (t : Int) (c : Content) (e : Option ServeErr)
    (h : ServeContent lib r (videoHeaders w) name t c = .ret (w', e)) : w'.peek b!"Cache-Control" = b!"private, max-age=21299" := by
  obtain ⟨w1, e1, h1, h2, -⟩ := C118_headers lib r (videoHeaders w) name t c
  rw [h] at h1
  cases h1
  rw [h2 _ (by decide)]
  unfold videoHeaders
  rw [peek_set, if_neg (by decide), peek_set, if_pos rfl]

include hv hmark in
/-- From the content to the client. -/
theorem video_gets (I : Handlers3 ExH υ) (data : Str) (hlen : data.length < 2 ^ 63) (now : Int) (a : Arrival υ) (out : Outcome (Served υ))
    (hplay : playsVideo level u env visit V mark msg missing lib grow addr I (some data) now a out)
    (hu : a.ba.use = false) (hp : a.req.path = b!"/file") (hm : a.req.method = b!"GET" ∨ a.req.method = b!"POST")
    (r : HttpReq) (hr : a.Reads V r) (s : StaticRun) (he : s.err = none)
    (hs : (StaticRoute.run lib id (oneFile videoName data now) (.fixFS b!"/v") r (videoHeaders a.resp.http)).result = .ret s) :
    GetsAnswer out s.resp ∧ s.resp.peek b!"Cache-Control" = b!"private, max-age=21299" := by
  have hsc := content_route lib r _ videoName data now hlen s hs
  rw [he] at hsc
  obtain ⟨sv, d, h1, h2, h3, h4⟩ := video_served level u env visit hv V mark hmark msg missing lib grow addr I (some data) now a out hplay hu hp hm r hr
    s.resp none (.inr ⟨data, none, rfl, hsc, rfl⟩)
  exact ⟨⟨sv, d, h1, h2, h3, h4⟩, video_kept lib r _ _ _ _ _ _ hsc⟩

theorem got_unique {out : Outcome (Served υ)} {w w' : HttpResp} (h : GetsAnswer out w) (h' : GetsAnswer out w') : w = w' := by
  obtain ⟨sv, d, h1, -, -, h4⟩ := h
  obtain ⟨sv', d', g1, -, -, g4⟩ := h'
  rw [h1] at g1
  cases g1
  exact plain_inj (h4.symm.trans g4)

include hv hmark in
/-- **C124** (watching, `_partial`).  The program of examples/static_video, without authentication, and its video file: GET /file is
answered with the whole file. Missing: the type the handler sets (`C124_violated`). -/
theorem C124_watch_partial (I : Handlers3 ExH υ) (data : Str) (hlen : data.length < 2 ^ 63) (now : Int) (a : Arrival υ) (out : Outcome (Served υ))
    (hplay : playsVideo level u env visit V mark msg missing lib grow addr I (some data) now a out)
    (hu : a.ba.use = false) (hp : a.req.path = b!"/file") (hm : a.req.method = b!"GET") (hw : NoEncoding a.resp.http)
    (r : HttpReq) (hr : a.Reads V r) (hc : Unconditional r) (hir : r.header b!"If-Range" = []) (hrange : r.header b!"Range" = []) :
    ∃ w, GetsAnswer out w ∧ WholeAnswer r a.resp.http data ⟨w, none, []⟩ ∧ w.peek b!"Cache-Control" = b!"private, max-age=21299" := by
  have hpre := (uncond_pre lib r (setLastModified lib.toTimeLib (videoHeaders a.resp.http) now) now hc).2 (fun h => h.2.1 hir)
  rw [hrange] at hpre
  obtain ⟨s, hs, hA⟩ := whole_answer lib id (oneFile videoName data now) r (videoHeaders a.resp.http) (.fixFS b!"/v") [b!"v"] (oneFile_names _)
    videoName data now (oneFile_has _ _ _ hlen) (video_noEncoding hw) hpre
  obtain ⟨h1, h2⟩ := video_gets level u env visit hv V mark hmark msg missing lib grow addr I data hlen now a out hplay hu hp (.inl hm) r hr s hA.1 hs
  exact ⟨s.resp, h1, ⟨rfl, hA.2.1, hA.2.2.1, hA.2.2.2⟩, h2⟩

include hv hmark in
/-- **C124** (the type, exact).  The answer of `C124_watch_partial` is called "video/mp4" only if the request has a Content-Type; otherwise the
type is what the first bytes show, or what the extension says. -/
theorem C124_type_exact (I : Handlers3 ExH υ) (data : Str) (now : Int) (a : Arrival υ) (out : Outcome (Served υ))
    (hplay : playsVideo level u env visit V mark msg missing lib grow addr I (some data) now a out)
    (hu : a.ba.use = false) (hp : a.req.path = b!"/file") (hm : a.req.method = b!"GET")
    (r : HttpReq) (hr : a.Reads V r) (hc : Unconditional r) (hir : r.header b!"If-Range" = []) (hrange : r.header b!"Range" = []) :
    ∃ w, GetsAnswer out w ∧ (r.header b!"Content-Type" ≠ [] → w.peek b!"Content-Type" = b!"video/mp4") ∧
      (r.header b!"Content-Type" = [] → UsedType lib r videoName data (w.peek b!"Content-Type")) := by
  have hpre := (uncond_pre lib r (setLastModified lib.toTimeLib (videoHeaders a.resp.http) now) now hc).2 (fun h => h.2.1 hir)
  rw [hrange] at hpre
  obtain ⟨w, h1, h2, h3⟩ := C68_exact lib r (videoHeaders a.resp.http) videoName now ⟨data, true⟩ _ rfl hpre [] rfl (by decide)
  obtain ⟨sv, d, g1, g2, g3, g4⟩ := video_served level u env visit hv V mark hmark msg missing lib grow addr I (some data) now a out hplay hu hp (.inl hm) r hr
    w none (.inr ⟨data, none, rfl, h1, rfl⟩)
  refine ⟨w, ⟨sv, d, g1, g2, g3, g4⟩, fun h => ?_, h2⟩
  rw [h3 h]
  unfold videoHeaders
  rw [peek_set, if_pos rfl]

include hv hmark in
/-- **C124** (seeking).  GET /file with one range: 206 and exactly the bytes it selects. -/
theorem C124_seek (I : Handlers3 ExH υ) (data : Str) (hlen : data.length < 2 ^ 63) (now : Int) (a : Arrival υ) (out : Outcome (Served υ))
    (hplay : playsVideo level u env visit V mark msg missing lib grow addr I (some data) now a out)
    (hu : a.ba.use = false) (hp : a.req.path = b!"/file") (hm : a.req.method = b!"GET") (hw : NoEncoding a.resp.http)
    (r : HttpReq) (hr : a.Reads V r) (hc : Unconditional r) (hir : r.header b!"If-Range" = [])
    (x : Str) (b : ByteSpec) (hrange : r.header b!"Range" = b!"bytes=" ++ x) (hx : b.Text x) (hb : b.Valid)
    (hcomma : 44 ∉ x) (hsel : ∃ i, b.Selects data.length i) :
    ∃ w n m, GetsAnswer out w ∧ 0 < m ∧ n + m ≤ data.length ∧ (∀ i, b.Selects data.length i ↔ n ≤ i ∧ i < n + m) ∧
      PartAnswer r a.resp.http data n m ⟨w, none, []⟩ ∧ w.peek b!"Cache-Control" = b!"private, max-age=21299" := by
  obtain ⟨s, n, m, hs, k1, k2, k3, hA⟩ := C105_one lib id (oneFile videoName data now) r (videoHeaders a.resp.http) (.fixFS b!"/v") [b!"v"]
    (oneFile_names _) videoName data now (oneFile_has _ _ _ hlen) hc hir (video_noEncoding hw) x b hrange hx hb hcomma hsel
  obtain ⟨h1, h2⟩ := video_gets level u env visit hv V mark hmark msg missing lib grow addr I data hlen now a out hplay hu hp (.inl hm) r hr s hA.1 hs
  exact ⟨s.resp, n, m, h1, k1, k2, k3, ⟨rfl, hA.2.1, hA.2.2.1, hA.2.2.2.1, hA.2.2.2.2⟩, h2⟩

include hv hmark in
/-- **C124** (seeking beyond the end).  A range that selects nothing of a file that is not empty is answered with 416 and the size of the file, and the error is returned. -/
theorem C124_beyond (I : Handlers3 ExH υ) (data : Str) (hlen : data.length < 2 ^ 63) (hdata : data ≠ []) (now : Int) (a : Arrival υ) (out : Outcome (Served υ))
    (hplay : playsVideo level u env visit V mark msg missing lib grow addr I (some data) now a out)
    (hu : a.ba.use = false) (hp : a.req.path = b!"/file") (hm : a.req.method = b!"GET") (hw : NoEncoding a.resp.http)
    (r : HttpReq) (hr : a.Reads V r) (hc : Unconditional r) (hir : r.header b!"If-Range" = [])
    (x : Str) (b : ByteSpec) (hrange : r.header b!"Range" = b!"bytes=" ++ x) (hx : b.Text x) (hb : b.Valid)
    (hcomma : 44 ∉ x) (hsel : ∀ i, ¬ b.Selects data.length i) :
    ∃ sv d w z, out = .ret sv ∧ sv.ran = some d ∧ d.flow = .returned (some (.leaf 0 (msg (.range .noOverlap)))) ∧ sv.resp = HttpResp.plain w ∧
      w.status = 416 ∧ Number data.length z ∧ w.peek b!"Content-Range" = b!"bytes */" ++ z := by
  obtain ⟨s, z, hs, k1, k2, k3, k4⟩ := C105_none lib id (oneFile videoName data now) r (videoHeaders a.resp.http) (.fixFS b!"/v") [b!"v"]
    (oneFile_names _) videoName data now (oneFile_has _ _ _ hlen) hdata hc hir (video_noEncoding hw) x b hrange hx hb hcomma hsel
  have hsc := content_route lib r _ videoName data now hlen s hs
  rw [k2] at hsc
  obtain ⟨sv, d, h1, h2, h3, h4⟩ := video_served level u env visit hv V mark hmark msg missing lib grow addr I (some data) now a out hplay hu hp (.inl hm) r hr
    s.resp _ (.inr ⟨data, _, rfl, hsc, rfl⟩)
  exact ⟨sv, d, s.resp, z, h1, h2, h3, h4, k1, k3, k4⟩

include hv hmark in
/-- **C124** (no file).  If the file cannot be opened, the handler's error is the result of the request, and the client gets what was there
before: no status is set, nothing is written, and the answer is called a video. -/
theorem C124_missing (I : Handlers3 ExH υ) (now : Int) (a : Arrival υ) (out : Outcome (Served υ))
    (hplay : playsVideo level u env visit V mark msg missing lib grow addr I none now a out)
    (hu : a.ba.use = false) (hp : a.req.path = b!"/file") (hm : a.req.method = b!"GET" ∨ a.req.method = b!"POST") (r : HttpReq) (hr : a.Reads V r) :
    ∃ sv d, out = .ret sv ∧ sv.ran = some d ∧ d.flow = .returned (some (.leaf 0 missing)) ∧ sv.resp.status = a.resp.status ∧
      sv.resp.body = a.resp.body ∧ sv.resp.http.peek b!"Content-Type" = b!"video/mp4" := by
  obtain ⟨sv, d, h1, h2, h3, h4⟩ := video_served level u env visit hv V mark hmark msg missing lib grow addr I none now a out hplay hu hp hm r hr
    (videoHeaders a.resp.http) _ (.inl ⟨rfl, rfl, rfl⟩)
  refine ⟨sv, d, h1, h2, h3, by rw [h4]; rfl, by rw [h4]; rfl, ?_⟩
  rw [h4]
  show (videoHeaders a.resp.http).peek _ = _
  unfold videoHeaders
  rw [peek_set, if_pos rfl]

include hv hmark in
/-- An answer the client has is that of the content. -/
theorem video_first (I : Handlers3 ExH υ) (data : Str) (hlen : data.length < 2 ^ 63) (now : Int) (a : Arrival υ) (out : Outcome (Served υ))
    (hplay : playsVideo level u env visit V mark msg missing lib grow addr I (some data) now a out)
    (hu : a.ba.use = false) (hp : a.req.path = b!"/file") (hm : a.req.method = b!"GET") (r : HttpReq) (hr : a.Reads V r)
    (w : HttpResp) (hgot : GetsAnswer out w) :
    ∃ s, (StaticRoute.run lib id (oneFile videoName data now) (.fixFS b!"/v") r (videoHeaders a.resp.http)).result = .ret s ∧ s.err = none ∧ s.resp = w := by
  obtain ⟨s0, hs0, -, hsc0⟩ := C105_content lib id (oneFile videoName data now) r (videoHeaders a.resp.http) (.fixFS b!"/v") [b!"v"] (oneFile_names _)
    videoName data now (oneFile_has _ _ _ hlen)
  obtain ⟨sv, d, g1, g2, g3, g4⟩ := video_served level u env visit hv V mark hmark msg missing lib grow addr I (some data) now a out hplay hu hp (.inl hm) r hr
    s0.resp _ (.inr ⟨data, s0.err, rfl, hsc0, rfl⟩)
  obtain ⟨sv', d', e1, e2, e3, e4⟩ := hgot
  rw [g1] at e1; cases e1
  rw [g2] at e2; cases e2
  rw [g3] at e3
  refine ⟨s0, hs0, ?_, plain_inj (g4.symm.trans e4)⟩
  cases h : s0.err with
  | none => rfl
  | some e => rw [h] at e3; cases e3

include hv hmark in
/-- **C124** (asking again, exact).  A client that has an answer from `now` and asks again at `now'`, If-Modified-Since the date of that
answer: it is told 304 exactly if that is not a later second; otherwise it gets the whole file, although nothing changed. -/
theorem C124_again_exact (I I' : Handlers3 ExH υ) (data data' : Str) (hlen : data.length < 2 ^ 63) (hlen' : data'.length < 2 ^ 63) (now now' : Int)
    (a a' : Arrival υ) (out out' : Outcome (Served υ))
    (hplay : playsVideo level u env visit V mark msg missing lib grow addr I (some data) now a out)
    (hplay' : playsVideo level u env visit V mark msg missing lib grow addr I' (some data') now' a' out')
    (hu : a.ba.use = false) (hp : a.req.path = b!"/file") (hm : a.req.method = b!"GET")
    (hu' : a'.ba.use = false) (hp' : a'.req.path = b!"/file") (hm' : a'.req.method = b!"GET")
    (r r' : HttpReq) (hr : a.Reads V r) (hr' : a'.Reads V r') (hw' : NoEncoding a'.resp.http)
    (ht : KnownTime now) (ht' : KnownTime now') (hdate : DateLaw lib now)
    (w : HttpResp) (hgot : GetsAnswer out w) (h3 : w.status ≠ 304)
    (hif : r'.header b!"If-Match" = []) (hius : r'.header b!"If-Unmodified-Since" = []) (hnone : r'.header b!"If-None-Match" = [])
    (hrange : r'.header b!"Range" = []) (hims : r'.header b!"If-Modified-Since" = w.peek b!"Last-Modified") :
    ∃ w', GetsAnswer out' w' ∧ (now' / 10 ^ 9 ≤ now / 10 ^ 9 → w'.status = 304 ∧ w'.body = a'.resp.body) ∧
      (now / 10 ^ 9 < now' / 10 ^ 9 → WholeAnswer r' a'.resp.http data' ⟨w', none, []⟩) := by
  obtain ⟨s0, hs0, he0, hw0⟩ := video_first level u env visit hv V mark hmark msg missing lib grow addr I data hlen now a out hplay hu hp hm r hr w hgot
  obtain ⟨s', hs', k1, k2⟩ := C106_revalidate lib id (oneFile videoName data now) r (videoHeaders a.resp.http) (.fixFS b!"/v") [b!"v"] (oneFile_names _)
    videoName data now (oneFile_has _ _ _ hlen) ht hdate s0 hs0 he0 (by rw [hw0]; exact h3)
    (oneFile videoName data' now') r' (videoHeaders a'.resp.http) (oneFile_names _) videoName data' now' (oneFile_has _ _ _ hlen') ht'
    (video_noEncoding hw') (.inl (by rw [hr'.2.2]; exact hm')) hif hius hnone hrange (by rw [hw0]; exact hims)
  have he' : s'.err = none := by
    rcases Int.lt_or_le (now / 10 ^ 9) (now' / 10 ^ 9) with h | h
    · exact (k2 h).1.1
    · exact (k1 h).2.1
  obtain ⟨g, -⟩ := video_gets level u env visit hv V mark hmark msg missing lib grow addr I' data' hlen' now' a' out' hplay' hu' hp' (.inl hm') r' hr' s' he' hs'
  refine ⟨s'.resp, g, fun h => ⟨(k1 h).1, (k1 h).2.2.1⟩, fun h => ?_⟩
  obtain ⟨-, b1, b2, b3⟩ := (k2 h).1
  exact ⟨rfl, b1, b2, b3⟩

include hv hmark in
/-- **C124** (resuming, exact).  A client that has the first `k` bytes of an answer from `now` and asks at `now'` for the rest, If-Range the
date of that answer: it gets 206 and exactly the missing bytes if that is the same second; otherwise it gets the whole file, although nothing
changed. -/
theorem C124_resume_exact (I I' : Handlers3 ExH υ) (data data' : Str) (hlen : data.length < 2 ^ 63) (hlen' : data'.length < 2 ^ 63) (now now' : Int)
    (a a' : Arrival υ) (out out' : Outcome (Served υ))
    (hplay : playsVideo level u env visit V mark msg missing lib grow addr I (some data) now a out)
    (hplay' : playsVideo level u env visit V mark msg missing lib grow addr I' (some data') now' a' out')
    (hu : a.ba.use = false) (hp : a.req.path = b!"/file") (hm : a.req.method = b!"GET")
    (hu' : a'.ba.use = false) (hp' : a'.req.path = b!"/file") (hm' : a'.req.method = b!"GET")
    (r r' : HttpReq) (hr : a.Reads V r) (hr' : a'.Reads V r') (hw' : NoEncoding a'.resp.http)
    (ht : KnownTime now) (ht' : KnownTime now') (hdate : DateLaw lib now)
    (w : HttpResp) (hgot : GetsAnswer out w) (h3 : w.status ≠ 304) (hc : Unconditional r')
    (k : Nat) (x : Str) (hx : Digits x) (hk : decVal x = k) (hrange : r'.header b!"Range" = b!"bytes=" ++ (x ++ b!"-"))
    (hir : r'.header b!"If-Range" = w.peek b!"Last-Modified") :
    (now' / 10 ^ 9 = now / 10 ^ 9 → k < data'.length →
      ∃ w' rest, GetsAnswer out' w' ∧ PartAnswer r' a'.resp.http data' k (data'.length - k) ⟨w', none, []⟩ ∧
        w'.body = a'.resp.body ++ rest ∧ data'.take k ++ rest = data') ∧
      (now' / 10 ^ 9 ≠ now / 10 ^ 9 → ∃ w', GetsAnswer out' w' ∧ WholeAnswer r' a'.resp.http data' ⟨w', none, []⟩) := by
  obtain ⟨s0, hs0, he0, hw0⟩ := video_first level u env visit hv V mark hmark msg missing lib grow addr I data hlen now a out hplay hu hp hm r hr w hgot
  obtain ⟨s', hs', k1, k2⟩ := C107_resume lib id (oneFile videoName data now) r (videoHeaders a.resp.http) (.fixFS b!"/v") [b!"v"] (oneFile_names _)
    videoName data now (oneFile_has _ _ _ hlen) ht hdate s0 hs0 he0 (by rw [hw0]; exact h3)
    (oneFile videoName data' now') r' (videoHeaders a'.resp.http) (oneFile_names _) videoName data' now' (oneFile_has _ _ _ hlen') ht'
    (video_noEncoding hw') hc k x hx hk hrange (by rw [hw0]; exact hir)
  have g := fun he' => (video_gets level u env visit hv V mark hmark msg missing lib grow addr I' data' hlen' now' a' out' hplay' hu' hp' (.inl hm') r' hr' s' he' hs').1
  refine ⟨fun h hl => ?_, fun h => ?_⟩
  · obtain ⟨⟨b0, b1⟩, b2⟩ := k1 h hl
    obtain ⟨rest, b3, b4⟩ := b2 (by rw [hr'.2.2]; exact hm')
    exact ⟨s'.resp, rest, g b0, ⟨rfl, b1⟩, b3, b4⟩
  · obtain ⟨b0, b1⟩ := k2 h
    exact ⟨s'.resp, g b0, ⟨rfl, b1⟩⟩

end

/-! ### The video, twice -/

namespace VideoEx

/-- The example, with a video of ten bytes, its clock and nothing else. -/
def handlers (file : Option Str) (now : Int) : Handlers3 ExH HttpReq where
  hdl := fun _ => none
  main := fun h => match h with
    | .video => some (videoMain StaticMainEx.view id StaticMainEx.msg b!"no such file" DatesEx.lib file now)
    | _ => none
  last := fun _ => none

def arrival (r : HttpReq) : Arrival HttpReq := ⟨newBaseAuth, ⟨r.method, r.path, []⟩, ⟨200, [], []⟩, fun _ => r, [], 0⟩

/-- GET /file with these headers. -/
def get (h : Str → Str) : HttpReq := ⟨b!"GET", b!"/file", [], h⟩

def play (file : Option Str) (now : Int) (r : HttpReq) : Outcome (Served HttpReq) :=
  match exampleVideo 2 with
  | none => .panic
  | some ops => served 5 id StaticMainEx.env id (fun c _ => 2 * c) (handlers file now) ops (arrival r)

theorem plays (file : Option Str) (now : Int) (r : HttpReq) :
    playsVideo 5 id StaticMainEx.env id StaticMainEx.view id StaticMainEx.msg b!"no such file" DatesEx.lib (fun c _ => 2 * c) 2
      (handlers file now) file now (arrival r) (play file now r) := by
  refine ⟨rfl, ?_⟩
  obtain ⟨ops, rx, e, -⟩ := C98_video (handlers file now) none 5 id StaticMainEx.env newBaseAuth ⟨r.method, r.path, []⟩ ⟨200, [], []⟩ (fun _ => r) [] 0 id
    (fun _ => List.Perm.refl _) 2 (fun c _ => 2 * c)
  refine ⟨ops, e, ?_⟩
  unfold play
  rw [e]

def none_ : Str → Str := fun _ => []

/-- The date of the first answer. -/
def since : Str → Str := fun h => if h = b!"If-Modified-Since" then b!"Sun, 06 Nov 1994 08:49:37 GMT" else []

def rest : Str → Str := fun h => if h = b!"Range" then b!"bytes=4-" else if h = b!"If-Range" then b!"Sun, 06 Nov 1994 08:49:37 GMT" else []

/-- 784111777 is Sun, 06 Nov 1994 08:49:37 GMT. -/
def noon : Int := 784111777 * 10 ^ 9

/-- Two requests, one second apart or less. -/
theorem answers (r : HttpReq) (hr : r = get r.header) (now : Int) (w : HttpResp)
    (h : ServeContent DatesEx.lib r (videoHeaders HttpResp.fresh) videoName now ⟨b!"0123456789", true⟩ = .ret (w, none)) :
    GetsAnswer (play (some b!"0123456789") now r) w := by
  obtain ⟨sv, d, h1, h2, h3, h4⟩ := video_served 5 id StaticMainEx.env id (fun _ => List.Perm.refl _) StaticMainEx.view id (fun _ => rfl) StaticMainEx.msg
    b!"no such file" DatesEx.lib (fun c _ => 2 * c) 2 (handlers (some b!"0123456789") now) (some b!"0123456789") now (arrival r) _
    (plays (some b!"0123456789") now r) rfl (by rw [hr]; rfl) (by rw [hr]; exact .inl rfl) r ⟨fun _ => rfl, rfl, rfl⟩ w none
    (.inr ⟨_, none, rfl, h, rfl⟩)
  exact ⟨sv, d, h1, h2, h3, h4⟩

/-- What there is to see of an answer. -/
def look (o : Outcome (HttpResp × Option ServeErr)) : Option (Nat × Str × Str × Str) :=
  match o with
  | .ret (w, none) => some (w.status, w.body, w.peek b!"Content-Type", w.peek b!"Last-Modified")
  | _ => none

theorem looked (r : HttpReq) (hr : r = get r.header) (now : Int) (st : Nat) (body ct lm : Str)
    (h : look (ServeContent DatesEx.lib r (videoHeaders HttpResp.fresh) videoName now ⟨b!"0123456789", true⟩) = some (st, body, ct, lm)) :
    ∃ w, GetsAnswer (play (some b!"0123456789") now r) w ∧ w.status = st ∧ w.body = body ∧ w.peek b!"Content-Type" = ct ∧ w.peek b!"Last-Modified" = lm := by
  revert h
  generalize hs : ServeContent DatesEx.lib r (videoHeaders HttpResp.fresh) videoName now ⟨b!"0123456789", true⟩ = o
  intro h
  match o, h with
  | .ret (w, none), h =>
    cases h
    exact ⟨w, answers r hr now w hs, rfl, rfl, rfl, rfl⟩

end VideoEx

open VideoEx in
/-- **C124** fails: the video, asked for, asked for again two seconds later, and the rest of it asked for then, nothing having changed, is sent
whole each time; and it is not called a video. -/
theorem C124_violated : ∃ w w' w'', GetsAnswer (play (some b!"0123456789") noon (get none_)) w ∧
    GetsAnswer (play (some b!"0123456789") (noon + 2 * 10 ^ 9) (get since)) w' ∧
    GetsAnswer (play (some b!"0123456789") (noon + 2 * 10 ^ 9) (get rest)) w'' ∧
    w.peek b!"Last-Modified" = b!"Sun, 06 Nov 1994 08:49:37 GMT" ∧ w.peek b!"Content-Type" = b!"text/plain; charset=utf-8" ∧
    w.status = 200 ∧ w.body = b!"0123456789" ∧ w'.status = 200 ∧ w'.body = b!"0123456789" ∧ w''.status = 200 ∧ w''.body = b!"0123456789" := by
  obtain ⟨w, h1, h2, h3, h4, h5⟩ := looked (get none_) rfl noon 200 b!"0123456789" b!"text/plain; charset=utf-8" b!"Sun, 06 Nov 1994 08:49:37 GMT" (by decide +kernel)
  obtain ⟨w', k1, k2, k3, -, -⟩ := looked (get since) rfl (noon + 2 * 10 ^ 9) 200 b!"0123456789" b!"text/plain; charset=utf-8" b!"Sun, 06 Nov 1994 08:49:39 GMT"
    (by decide +kernel)
  obtain ⟨w'', l1, l2, l3, -, -⟩ := looked (get rest) rfl (noon + 2 * 10 ^ 9) 200 b!"0123456789" b!"text/plain; charset=utf-8" b!"Sun, 06 Nov 1994 08:49:39 GMT"
    (by decide +kernel)
  exact ⟨w, w', w'', h1, k1, l1, h5, h4, h2, h3, k2, k3, l2, l3⟩

namespace VideoEx

theorem date : DateLaw DatesEx.lib noon :=
  C114_law (fun _ _ => none) DatesEx.lib rfl civilOf civilOf_calendar noon (by decide +kernel) (by decide +kernel)

/-- Within the second the client is told that it has the video: the hypotheses of `C124_again_exact` hold here. -/
example : ∃ w', GetsAnswer (play (some b!"0123456789") (noon + 10 ^ 8) (get since)) w' ∧ w'.status = 304 ∧ w'.body = [] := by
  obtain ⟨w, h1, h2, -, -, h5⟩ := looked (get none_) rfl noon 200 b!"0123456789" b!"text/plain; charset=utf-8" b!"Sun, 06 Nov 1994 08:49:37 GMT" (by decide +kernel)
  obtain ⟨w', g, k, -⟩ := C124_again_exact 5 id StaticMainEx.env id (fun _ => List.Perm.refl _) StaticMainEx.view id (fun _ => rfl) StaticMainEx.msg
    b!"no such file" DatesEx.lib (fun c _ => 2 * c) 2 (handlers (some b!"0123456789") noon) (handlers (some b!"0123456789") (noon + 10 ^ 8))
    b!"0123456789" b!"0123456789" (by decide) (by decide) noon (noon + 10 ^ 8) (arrival (get none_)) (arrival (get since)) _ _
    (plays _ _ _) (plays _ _ _) rfl rfl rfl rfl rfl rfl (get none_) (get since) ⟨fun _ => rfl, rfl, rfl⟩ ⟨fun _ => rfl, rfl, rfl⟩
    ⟨by decide, by decide⟩ (by unfold KnownTime; decide +kernel) (by unfold KnownTime; decide +kernel) date w h1 (by rw [h2]; decide)
    (by decide) (by decide) (by decide) (by decide) (by rw [h5]; decide)
  exact ⟨w', g, k (by decide +kernel)⟩

/-- Within the second the client gets the rest: the hypotheses of `C124_resume_exact` hold here. -/
example : ∃ w', GetsAnswer (play (some b!"0123456789") (noon + 10 ^ 8) (get rest)) w' ∧ w'.status = 206 ∧ w'.body = b!"456789" := by
  obtain ⟨w, h1, h2, -, -, h5⟩ := looked (get none_) rfl noon 200 b!"0123456789" b!"text/plain; charset=utf-8" b!"Sun, 06 Nov 1994 08:49:37 GMT" (by decide +kernel)
  obtain ⟨k, -⟩ := C124_resume_exact 5 id StaticMainEx.env id (fun _ => List.Perm.refl _) StaticMainEx.view id (fun _ => rfl) StaticMainEx.msg
    b!"no such file" DatesEx.lib (fun c _ => 2 * c) 2 (handlers (some b!"0123456789") noon) (handlers (some b!"0123456789") (noon + 10 ^ 8))
    b!"0123456789" b!"0123456789" (by decide) (by decide) noon (noon + 10 ^ 8) (arrival (get none_)) (arrival (get rest)) _ _
    (plays _ _ _) (plays _ _ _) rfl rfl rfl rfl rfl rfl (get none_) (get rest) ⟨fun _ => rfl, rfl, rfl⟩ ⟨fun _ => rfl, rfl, rfl⟩
    ⟨by decide, by decide⟩ (by unfold KnownTime; decide +kernel) (by unfold KnownTime; decide +kernel) date w h1 (by rw [h2]; decide)
    (by unfold Unconditional; decide) 4 b!"4" (by unfold Digits; decide) (by decide) rfl (by rw [h5]; decide)
  obtain ⟨w', rest, g, hA, hb, he⟩ := k (by decide +kernel) (by decide)
  refine ⟨w', g, hA.2.1, ?_⟩
  have : rest = b!"456789" := List.append_cancel_left (as := b!"0123") he
  rw [hb, this]; rfl

/-- The missing file. -/
example : ∃ sv, play none noon (get none_) = .ret sv ∧ sv.resp.status = 200 ∧ sv.resp.body = [] := by
  obtain ⟨sv, d, h1, -, -, h2, h3, -⟩ := C124_missing 5 id StaticMainEx.env id (fun _ => List.Perm.refl _) StaticMainEx.view id (fun _ => rfl) StaticMainEx.msg
    b!"no such file" DatesEx.lib (fun c _ => 2 * c) 2 (handlers none noon) noon (arrival (get none_)) _ (plays _ _ _) rfl rfl (.inl rfl) (get none_)
    ⟨fun _ => rfl, rfl, rfl⟩
  exact ⟨sv, h1, h2, h3⟩

/-- Watching and seeking. -/
example : ∃ w, GetsAnswer (play (some b!"0123456789") noon (get none_)) w ∧ w.body = b!"0123456789" := by
  obtain ⟨w, g, hA, -⟩ := C124_watch_partial 5 id StaticMainEx.env id (fun _ => List.Perm.refl _) StaticMainEx.view id (fun _ => rfl) StaticMainEx.msg
    b!"no such file" DatesEx.lib (fun c _ => 2 * c) 2 (handlers (some b!"0123456789") noon) b!"0123456789" (by decide) noon (arrival (get none_)) _
    (plays _ _ _) rfl rfl rfl ⟨by decide, by decide⟩ (get none_) ⟨fun _ => rfl, rfl, rfl⟩ (by unfold Unconditional; decide) (by decide) (by decide)
  exact ⟨w, g, hA.2.2.2⟩

/-- Three bytes from the middle. -/
example : ∃ w n m, GetsAnswer (play (some b!"0123456789") noon (get fun h => if h = b!"Range" then b!"bytes=2-4" else [])) w ∧ w.status = 206 ∧
    w.body = slice b!"0123456789" n (n + m) ∧ (∀ i, ByteSpec.Selects 10 i (.fromTo 2 4) ↔ n ≤ i ∧ i < n + m) := by
  obtain ⟨w, n, m, g, -, -, k, hA, -⟩ := C124_seek 5 id StaticMainEx.env id (fun _ => List.Perm.refl _) StaticMainEx.view id (fun _ => rfl) StaticMainEx.msg
    b!"no such file" DatesEx.lib (fun c _ => 2 * c) 2 (handlers (some b!"0123456789") noon) b!"0123456789" (by decide) noon
    (arrival (get fun h => if h = b!"Range" then b!"bytes=2-4" else [])) _
    (plays _ _ _) rfl rfl rfl ⟨by decide, by decide⟩ (get fun h => if h = b!"Range" then b!"bytes=2-4" else []) ⟨fun _ => rfl, rfl, rfl⟩
    (by unfold Unconditional; decide) (by decide) b!"2-4" (.fromTo 2 4)
    (by decide) ⟨b!"2", b!"4", ⟨b!"2", b!"4", by decide, by decide,
        ⟨[], [], by decide, by simp, by simp, by unfold Space; intro c h; cases h; decide, by unfold Space; intro c h; cases h; decide⟩,
        ⟨[], [], by decide, by simp, by simp, by unfold Space; intro c h; cases h; decide, by unfold Space; intro c h; cases h; decide⟩⟩,
      by unfold Digits; decide, by unfold Digits; decide, by decide, by decide⟩
    (by unfold ByteSpec.Valid; decide) (by decide) ⟨2, by unfold ByteSpec.Selects; decide⟩
  exact ⟨w, n, m, g, hA.2.1, hA.2.2.2.2, k⟩

end VideoEx

end Verif
