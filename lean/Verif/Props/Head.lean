import Verif.Spec.Head
import Verif.Props.Mount
/-
C135: a HEAD request for a static file learns what GET would send.
-/
namespace Verif
open Spec
set_option linter.unusedSectionVars false

/-- Two responses that are the same, and have no new content. -/
theorem headAnswers_refl {before : Str} {w : HttpResp} (h : w.status < 400 → w.body = before) : HeadAnswers before w w :=
  ⟨rfl, rfl, h, fun _ => rfl⟩

theorem httpError_head (before : Str) (w : HttpResp) (m : Str) (code : Nat) (h : 400 ≤ code) :
    HeadAnswers before (httpError w m code) (httpError w m code) :=
  headAnswers_refl fun hs => absurd (show code < 400 from hs) (by omega)

theorem sendBody_head (r : HttpReq) (w w' : HttpResp) (code : Nat) (hc : code < 400) (s : Str) (n : Int) (hb : w'.body = w.body) :
    HeadAnswers w.body (sendBody r w' code s n) (sendBody r.head w' code s n) := by
  obtain ⟨h1, h2⟩ := sendBody_same r w' code s n
  obtain ⟨k1, -⟩ := sendBody_facts r w' code s n
  refine ⟨h1.symm, h2.symm, fun _ => ?_, fun h => ?_⟩
  · rw [← hb]; exact (sendBody_facts r.head w' code s n).2.2.2 rfl
  · rw [k1] at h; omega

theorem serveSized_headAnswers (lib : Lib) (r : HttpReq) (w : HttpResp) (ct rng : Str) (size : Int) (c : Content) :
    HeadAnswers w.body (serveSized lib r w ct rng size c).1 (serveSized lib r.head w ct rng size c).1 ∧
      (serveSized lib r w ct rng size c).2 = (serveSized lib r.head w ct rng size c).2 := by
  have hlen : ∀ (w : HttpResp) n, (lengthHeaders w n).body = w.body := fun w n => (lengthHeaders_facts w n).1
  unfold serveSized
  by_cases hs : size ≥ 0
  · rw [if_pos hs, if_pos hs]
    cases parseRange rng size with
    | error e => exact ⟨httpError_head _ _ _ _ (by decide), rfl⟩
    | ok rs =>
      simp only
      generalize (if sumRangesSize rs > size then [] else rs) = rs'
      unfold sendRanges
      match rs' with
      | [] => exact ⟨sendBody_head _ _ _ _ (by decide) _ _ (hlen _ _), rfl⟩
      | [ra] =>
        simp only
        by_cases hk : c.seekable = false
        · rw [if_pos hk, if_pos hk]
          exact ⟨httpError_head _ _ _ _ (by decide), rfl⟩
        · rw [if_neg hk, if_neg hk]
          exact ⟨sendBody_head _ w _ _ (by decide) _ _ (by rw [hlen]; rfl), rfl⟩
      | ra :: rb :: t => exact ⟨sendBody_head _ w _ _ (by decide) _ _ (by rw [hlen]; rfl), rfl⟩
  · rw [if_neg hs, if_neg hs]
    exact ⟨sendBody_head _ w _ _ (by decide) _ _ rfl, rfl⟩

theorem serveContent_headAnswers (lib : Lib) (r : HttpReq) (w : HttpResp) (name : Str) (t : Int) (size : Option Int) (c : Content)
    (hm : r.method = b!"GET") :
    ∃ w1 w2 e, serveContent lib r w name t size c = .ret (w1, e) ∧ serveContent lib r.head w name t size c = .ret (w2, e) ∧
      HeadAnswers w.body w1 w2 := by
  unfold serveContent
  simp only
  rw [checkPreconditions_head lib.toTimeLib r hm]
  obtain ⟨⟨o, w'⟩, h1, h2, -⟩ := checkPreconditions_ret lib.toTimeLib r (setLastModified lib.toTimeLib w t) t
  rw [h1, Outcome.bind_ret, Outcome.bind_ret]
  rw [setLastModified_body] at h2
  simp only at h2
  cases o with
  | none => exact ⟨_, _, _, rfl, rfl, headAnswers_refl fun _ => h2⟩
  | some rng =>
    simp only
    have hct : contentType lib r.head w' name c = contentType lib r w' name c := rfl
    have hret : ∃ x, contentType lib r w' name c = .ret x ∧ (∀ ct w2, x = .ok (ct, w2) → w2.body = w'.body) ∧
        (∀ w2, x = .error w2 → 400 ≤ w2.status) := by
      unfold contentType
      simp only
      by_cases e1 : r.header b!"Content-Type" = []
      · rw [if_pos e1]
        by_cases e2 : lib.typeByName name = []
        · rw [if_pos e2]
          obtain ⟨ct, e3, -⟩ := C59_exact (c.data.take 512)
          rw [e3, Outcome.bind_ret]
          by_cases e4 : c.seekable = true
          · rw [if_pos e4]
            refine ⟨_, rfl, ?_, fun _ h => by cases h⟩
            intro ct' w2 h; injection h with h; injection h with _ h; subst h; rfl
          · rw [if_neg e4]
            refine ⟨_, rfl, (fun _ _ h => by cases h), fun w2 h => ?_⟩
            injection h with h; subst h; exact (show 400 ≤ 500 by decide)
        · rw [if_neg e2]
          refine ⟨_, rfl, ?_, fun _ h => by cases h⟩
          intro ct' w2 h; injection h with h; injection h with _ h; subst h; rfl
      · rw [if_neg e1]
        refine ⟨_, rfl, ?_, fun _ h => by cases h⟩
        intro ct' w2 h; injection h with h; injection h with _ h; subst h; rfl
    rw [hct]
    obtain ⟨x, hx, hxb, hxe⟩ := hret
    rw [hx, Outcome.bind_ret, Outcome.bind_ret]
    cases x with
    | error w2 =>
      have := hxe w2 rfl
      exact ⟨_, _, _, rfl, rfl, headAnswers_refl fun h => by omega⟩
    | ok p =>
      obtain ⟨ct, w2⟩ := p
      have hb2 := hxb ct w2 rfl
      cases size with
      | none => exact ⟨_, _, _, rfl, rfl, httpError_head _ _ _ _ (by decide)⟩
      | some size =>
        simp only
        obtain ⟨k1, k2⟩ := serveSized_headAnswers lib r w2 ct rng size c
        rw [hb2.trans h2] at k1
        generalize serveSized lib r w2 ct rng size c = a at k1 k2 ⊢
        generalize serveSized lib r.head w2 ct rng size c = b at k1 k2 ⊢
        obtain ⟨a1, a2⟩ := a
        obtain ⟨b1, b2⟩ := b
        cases (show a2 = b2 from k2)
        exact ⟨a1, b1, a2, rfl, rfl, k1⟩

/-- What a HEAD request comes to, beside the same request with GET. -/
structure HeadRun (before : Str) (get head : StaticRun) : Prop where
  resp : HeadAnswers before get.resp head.resp
  err : head.err = get.err
  log : head.log = get.log

theorem fileServe_head (lib : Lib) (href : Str → Str) (root : FileSys) (r : HttpReq) (w : HttpResp) (hm : r.method = b!"GET") :
    ∃ s s', fileServe lib href root r w = .ret s ∧ fileServe lib href root r.head w = .ret s' ∧ HeadRun w.body s s' := by
  have key : ∀ (name : Str) (q : HttpReq), q.method = b!"GET" →
      ∃ s s', serveFile lib href root name false false q w = .ret s ∧ serveFile lib href root name false false q.head w = .ret s' ∧
        HeadRun w.body s s' := by
    intro name q hq
    unfold serveFile
    have hp : q.head.path = q.path := rfl
    simp only [hp]
    by_cases h1 : hasSuffix q.path b!"/index.html" = true
    · rw [if_pos h1, if_pos h1]
      exact ⟨_, _, rfl, rfl, headAnswers_refl fun _ => rfl, rfl, rfl⟩
    · rw [if_neg h1, if_neg h1]
      have herr : ∀ e : FsErr, 400 ≤ (toHTTPError e).2 := by intro e; cases e <;> simp [toHTTPError]
      cases (root name).1 with
      | error e => exact ⟨_, _, rfl, rfl, httpError_head _ _ _ _ (herr e), rfl, rfl⟩
      | ok f =>
        simp only
        cases f.stat with
        | error e => exact ⟨_, _, rfl, rfl, httpError_head _ _ _ _ (herr e), rfl, rfl⟩
        | ok fi =>
          simp only
          by_cases hd : fi.isDir = true
          · rw [if_pos ⟨by first | rfl | trivial, hd⟩, if_pos ⟨by first | rfl | trivial, hd⟩]
            exact ⟨_, _, rfl, rfl, httpError_head _ _ _ _ (by decide), rfl, rfl⟩
          · have hn : ¬ (True ∧ fi.isDir = true) := fun h => hd h.2
            rw [if_neg hn, if_neg hn]
            simp only [Bool.false_eq_true, if_false]
            unfold serveStat
            rw [if_neg hd, if_neg hd]
            unfold serveOpen
            obtain ⟨w1, w2, e, k1, k2, k3⟩ := serveContent_headAnswers lib q w fi.name fi.modTime (some fi.size) f.content hq
            rw [k1, k2, Outcome.bind_ret, Outcome.bind_ret]
            exact ⟨⟨w1, e, _⟩, ⟨w2, e, _⟩, rfl, rfl, k3, rfl, rfl⟩
  by_cases h : hasPrefix r.path b!"/" = true
  · have e : fileServe lib href root r w = serveFile lib href root (pathClean r.path) false false r w := by
      unfold fileServe; exact if_pos h
    have e' : fileServe lib href root r.head w = serveFile lib href root (pathClean r.path) false false r.head w := by
      unfold fileServe; exact if_pos h
    rw [e, e']
    exact key _ r hm
  · have e : fileServe lib href root r w =
        serveFile lib href root (pathClean (47 :: r.path)) false false { r with path := normalizePath (47 :: r.path) } w := by
      unfold fileServe; exact if_neg h
    have e' : fileServe lib href root r.head w = serveFile lib href root (pathClean (47 :: r.path)) false false
        (HttpReq.head { r with path := normalizePath (47 :: r.path) }) w := by
      unfold fileServe; exact if_neg h
    rw [e, e']
    exact key _ { r with path := normalizePath (47 :: r.path) } hm

theorem runWith_head (lib : Lib) (href : Str → Str) (root : FileSys) (newU : Str) (r : HttpReq) (w : HttpResp) (hm : r.method = b!"GET") :
    ∃ s s', (runWith lib href root newU r w).result = .ret s ∧ (runWith lib href root newU r.head w).result = .ret s' ∧
      HeadRun w.body s s' := by
  unfold runWith
  exact fileServe_head lib href root { r with path := normalizePath newU } w hm

/-- All three handlers: the run on a HEAD request beside the run on the same request with GET. -/
theorem run_head (lib : Lib) (href : Str → Str) (fSys : RawFS) (route : StaticRoute) (r : HttpReq) (w : HttpResp)
    (hm : r.method = b!"GET") :
    ∃ s s', (route.run lib href fSys r w).result = .ret s ∧ (route.run lib href fSys r.head w).result = .ret s' ∧ HeadRun w.body s s' := by
  have hp : r.head.path = r.path := rfl
  cases route with
  | fileFS filePath urlPath =>
    unfold StaticRoute.run staticFSRun
    simp only [hp]
    exact runWith_head lib href _ _ r w hm
  | file urlPath =>
    unfold StaticRoute.run staticFileRun
    simp only [hp]
    exact runWith_head lib href _ _ r w hm
  | fixFS filePath =>
    unfold StaticRoute.run fixStaticRun
    exact runWith_head lib href _ _ r w hm

section
variable {η υ : Type} [Inhabited η] (level : Int) (u : Str → Str) (env : Env υ)
  (visit : GoMap RxPtr (Option Nat) → List (RxPtr × Option Nat)) (hv : AnyOrder visit)
  (V : ReqView υ) (msg : ServeErr → Str) (lib : Lib) (href : Str → Str) (grow : Nat → Nat → Nat)
  (ops later : List (Op η RxPtr)) (addr : Nat) (fixed : Str) (h : η) (route : StaticRoute)

/-- The path is one the route is registered for: below its prefix, or (FixStaticFileFS) an instance of its pattern. -/
def Spec.StaticRoute.Covers (path : Str) : StaticRoute → Prop
  | .fileFS _ urlPath => (urlPath ++ b!"/") <+: path
  | .file urlPath => (urlPath ++ b!"/") <+: path
  | .fixFS _ => True

include hv in
/-- The route answers every request for its paths, whether there is such a file or not, with what its file server makes of
it. -/
theorem mounted_any (I : Handlers3 η υ) (a : Arrival υ) (r : HttpReq) (hr : a.Reads V r) (fSys : RawFS)
    (hI : I.main h = some (route.main V msg lib href fSys)) (hfree : route.Reached fixed (ops ++ later) a.req)
    (hcov : route.Covers a.req.path)
    (calls : List (Op η RxPtr)) (hcalls : route.mount addr (progState grow ops).setVars.length fixed h = some calls)
    (s : StaticRun) (hs : (route.run lib href fSys r a.resp.http).result = .ret s) :
    (∀ sv d, served level u env visit grow I (ops ++ calls ++ later) a = .ret sv → sv.ran = some d →
      sv.resp = s.resp.plain ∧ d.flow = .returned (staticErr msg s)) ∧
    (a.ba.use = false → Admitted (served level u env visit grow I (ops ++ calls ++ later) a)) := by
  obtain ⟨r1, -, -⟩ := hr
  have pref : ∀ (urlPath nm : Str), PlainText urlPath → (a.req.method = b!"GET" ∨ a.req.method = b!"HEAD") →
      Unrivalled (ops ++ later) a.req → (urlPath ++ b!"/") <+: a.req.path →
      I.main h = some (staticMain V msg nm (route.run lib href fSys)) →
      staticCalls (rxCompileAt addr) (progState grow ops).setVars.length urlPath (some h) [] = some calls →
      (∀ sv d, served level u env visit grow I (ops ++ calls ++ later) a = .ret sv → sv.ran = some d →
        sv.resp = s.resp.plain ∧ d.flow = .returned (staticErr msg s)) ∧
      (a.ba.use = false → Admitted (served level u env visit grow I (ops ++ calls ++ later) a)) := by
    intro urlPath nm h1 h2 h3 h4 h5 h6
    obtain ⟨calls', g1, g2⟩ := C90_answer I level u env visit hv a.ba a.req a.resp a.store a.buf a.clock V msg r r1
      grow ops later addr urlPath h1 h nm _ h5 h2 h4 h3 s hs
    rw [h6] at g1
    cases g1
    exact g2
  cases route with
  | fileFS filePath urlPath => exact pref urlPath b!"handler" hfree.1 hfree.2.1 hfree.2.2 hcov hI hcalls
  | file urlPath => exact pref urlPath b!"StaticFileHandler" hfree.1 hfree.2.1 hfree.2.2 hcov hI hcalls
  | fixFS filePath =>
    obtain ⟨m1, ⟨b, m2⟩, m3, m4, m5⟩ := hfree
    cases hcalls
    exact C90_fixed_answer I level u env visit a.ba a.req a.resp a.store a.buf a.clock V msg r r1
      grow ops later fixed h b!"handler" _ hI m1 b m2 m3 m4 m5 s hs

include hv in
/-- **C135** (partial).  A server with a StaticFile or StaticFileFS route, whatever else its program registers: a GET request
for a path of the route, and the same request with HEAD, both past the guard.  The two get the same status and the same
headers, the same error is reported for both, and the HEAD request gets no content.  Missing: FixStaticFileFS, where HEAD is
not answered at all (`C135_violated`). -/
theorem C135_prefixes_partial (I : Handlers3 η υ) (a a' : Arrival υ) (r : HttpReq) (hr : a.Reads V r) (hr' : a'.Reads V r.head)
    (hget : r.method = b!"GET") (hfirst : a'.resp = a.resp) (fSys : RawFS)
    (hI : I.main h = some (route.main V msg lib href fSys)) (hfree : route.Reached fixed (ops ++ later) a.req)
    (hfree' : route.Reached fixed (ops ++ later) a'.req) (hcov : route.Covers r.path)
    (calls : List (Op η RxPtr)) (hcalls : route.mount addr (progState grow ops).setVars.length fixed h = some calls)
    (hin : Admitted (served level u env visit grow I (ops ++ calls ++ later) a))
    (hin' : Admitted (served level u env visit grow I (ops ++ calls ++ later) a')) :
    ∃ sv sv' d d' get head, served level u env visit grow I (ops ++ calls ++ later) a = .ret sv ∧ sv.ran = some d ∧
      served level u env visit grow I (ops ++ calls ++ later) a' = .ret sv' ∧ sv'.ran = some d' ∧
      sv.resp = HttpResp.plain get ∧ sv'.resp = HttpResp.plain head ∧ HeadAnswers a.resp.body get head ∧ d'.flow = d.flow := by
  obtain ⟨s, s', e, e', hh⟩ := run_head lib href fSys route r a.resp.http hget
  rw [← hfirst] at e'
  have c : route.Covers a.req.path := by rw [← hr.2.1]; exact hcov
  have c' : route.Covers a'.req.path := by rw [← hr'.2.1]; exact hcov
  obtain ⟨g, -⟩ := mounted_any level u env visit hv V msg lib href grow ops later addr fixed h route I a r hr fSys hI hfree c calls hcalls s e
  obtain ⟨g', -⟩ := mounted_any level u env visit hv V msg lib href grow ops later addr fixed h route I a' r.head hr' fSys hI hfree' c' calls hcalls s' e'
  obtain ⟨sv, d, i1, i2⟩ := hin
  obtain ⟨sv', d', i1', i2'⟩ := hin'
  obtain ⟨k1, k2⟩ := g sv d i1 i2
  obtain ⟨k1', k2'⟩ := g' sv' d' i1' i2'
  refine ⟨sv, sv', d, d', s.resp, s'.resp, i1, i2, i1', i2', k1, k1', hh.resp, ?_⟩
  rw [k2, k2']
  unfold staticErr
  rw [hh.err]

/-- A server answers 404 to a request for which its program registers nothing. -/
theorem unregistered (I : Handlers3 η υ) (prog : List (Op η RxPtr)) (a : Arrival υ) (hclean : cleanOps prog)
    (ht : NoTreeRoute prog a.req.method a.req.path) (hr : NoRxRival RxPtr.matches prog a.req.method a.req.path)
    (hv : AnyOrder visit) (sv : Served υ) (d : Done υ)
    (h1 : served level u env visit grow I prog a = .ret sv) (h2 : sv.ran = some d) :
    sv.resp.status = 404 ∧ sv.resp.body = b!"not found" ∧ d.ctx = none := by
  obtain ⟨l0, g0, o0⟩ := log_run grow prog (World.init : World η RxPtr)
  have hlog : (progState grow prog).log = l0 := by unfold progState; rw [g0]; rfl
  obtain ⟨l1, g1, o1⟩ := rxLog_run grow prog (World.init : World η RxPtr)
  have hrx : (progState grow prog).rxLog = l1 := by unfold progState; rw [g1]; rfl
  have wf := progState_wf (η := η) (ρ := RxPtr) grow prog
  have key : ∀ resp, ∃ d, runHTTP env RxPtr.matches visit (serverOf I (progState grow prog) none level) a.req.method a.req.path resp
      a.store a.buf a.clock = .ret d ∧ d.ctx = none ∧ d.trace = [] ∧ d.resp.status = 404 ∧ d.resp.body = b!"not found" := by
    intro resp
    refine C25_no_route (env := env) (rxMatch := RxPtr.matches) (visit := visit) (progState grow prog).log (progState grow prog).rxLog wf.rxOk ?_ hv wf.tree wf.regs ?_ ?_
    · intro x hx
      rw [hlog] at hx
      obtain ⟨o, ho, e⟩ := o0 x hx
      exact hclean o ho _ _ e
    · intro x hx hc
      rw [hlog] at hx
      obtain ⟨o, ho, e⟩ := o0 x hx
      exact ht o ho _ _ e hc
    · intro x hx hc
      rw [hrx] at hx
      obtain ⟨o, ho, e⟩ := o1 x hx
      exact hr o ho _ _ e hc
  unfold served at h1
  rcases serve_shape h1 with ⟨-, -, k, -, -, h5⟩ | ⟨-, -, d', h3, h4, h5⟩
  · rcases h5 with ⟨-, k2, -⟩ | ⟨-, d', k2, k3, k4⟩
    · rw [h2] at k2; cases k2
    · obtain ⟨d0, e1, e2, -, e3, e4⟩ := key k.resp
      rw [e1] at k2
      cases k2
      rw [h2] at k3
      cases k3
      rw [k4]
      exact ⟨e3, e4, e2⟩
  · obtain ⟨d0, e1, e2, -, e3, e4⟩ := key a.resp
    rw [e1] at h3
    cases h3
    rw [h2] at h4
    cases h4
    rw [h5]
    exact ⟨e3, e4, e2⟩

include hv in
/-- **C135** (FixStaticFileFS).  A route registered with FixStaticFileFS answers GET and POST: a HEAD request that nothing
else the program registers answers gets 404 "not found" without a handler being called, whatever the route and the file. -/
theorem C135_fixed (I : Handlers3 η υ) (a : Arrival υ) (hm : a.req.method = b!"HEAD")
    (hurl : ∀ s ∈ segs fixed, s.dropWhile (· == 58) ≠ []) (hun : Unrivalled (ops ++ later) a.req)
    (sv : Served υ) (d : Done υ)
    (h1 : served level u env visit grow I (ops ++ fixStaticCalls (progState grow ops).setVars.length fixed (some h) [] ++ later) a = .ret sv)
    (h2 : sv.ran = some d) : sv.resp.status = 404 ∧ sv.resp.body = b!"not found" ∧ d.ctx = none := by
  have hfree : ∀ n, ∀ p ∈ ops ++ fixStaticCalls n fixed (some h) [] ++ later,
      p = Op.newSet ∨ p = .sAdd b!"GETPOST" fixed (some h) (some n) ∨ p ∈ ops ++ later := by
    intro n p hp
    simp only [fixStaticCalls, staticSet, List.mem_append, List.mem_cons, List.not_mem_nil, or_false] at hp ⊢
    rcases hp with (h | h | h) | h
    · exact Or.inr (Or.inr (Or.inl h))
    · exact Or.inl h
    · exact Or.inr (Or.inl h)
    · exact Or.inr (Or.inr (Or.inr h))
  refine unregistered level u env visit grow I _ a ?_ ?_ ?_ hv sv d h1 h2
  · intro p hp m route e
    rcases hfree _ p hp with rfl | rfl | hp
    · simp [registers] at e
    · simp only [registers, Option.some.injEq, Prod.mk.injEq] at e
      rw [← e.2]; exact hurl
    · exact hun.clean p hp m route e
  · intro p hp m route e hc
    rcases hfree _ p hp with rfl | rfl | hp
    · simp [registers] at e
    · simp only [registers, Option.some.injEq, Prod.mk.injEq] at e
      rw [← e.1, hm] at hc
      exact absurd hc (by decide)
    · exact hun.tree p hp m route e hc
  · intro p hp m rx e hc
    rcases hfree _ p hp with rfl | rfl | hp
    · simp [registersRx] at e
    · simp [registersRx] at e
    · exact hun.rx p hp m rx e hc

end

namespace HeadEx
open StaticMainEx

/-- Status, headers, body. -/
def full (calls : List (Op Nat RxPtr)) (m path : Str) : Option (Nat × List (Str × Str) × Str) :=
  match serveHTTP id env RxPtr.matches id (server calls) newBaseAuth ⟨m, path, []⟩ ⟨200, [], []⟩
    (fun _ => { exGet path with method := m }) [] 0 with
  | .ret ⟨_, some _, r⟩ => some (r.status, r.headers, r.body)
  | _ => none

example : (full htmlCalls b!"GET" b!"/html/static/a.txt").map (fun x => (x.1, x.2.1.length, x.2.2)) = some (200, 3, b!"hello") := by
  decide +kernel
example : (full htmlCalls b!"HEAD" b!"/html/static/a.txt") = ((full htmlCalls b!"GET" b!"/html/static/a.txt").map fun x => (x.1, x.2.1, [])) := by
  decide +kernel

/-- The two requests. -/
def get : Arrival HttpReq := ⟨newBaseAuth, ⟨b!"GET", b!"/html/static/a.txt", []⟩, ⟨200, [], []⟩, fun _ => exGet b!"/html/static/a.txt", [], 0⟩
def head : Arrival HttpReq := ⟨newBaseAuth, ⟨b!"HEAD", b!"/html/static/a.txt", []⟩, ⟨200, [], []⟩, fun _ => (exGet b!"/html/static/a.txt").head, [], 0⟩

/-- The hypotheses of `C135_prefixes_partial` hold for them, around the program of `StaticMainEx`. -/
example : get.Reads view (exGet b!"/html/static/a.txt") ∧ head.Reads view (exGet b!"/html/static/a.txt").head ∧
    (StaticRoute.file b!"/html").Reached b!"" (exStaticOps ++ exStaticLater) get.req ∧
    (StaticRoute.file b!"/html").Reached b!"" (exStaticOps ++ exStaticLater) head.req ∧
    (StaticRoute.file b!"/html").Covers b!"/html/static/a.txt" := by
  have key : ∀ m, Unrivalled (exStaticOps ++ exStaticLater) ⟨m, b!"/html/static/a.txt", []⟩ := by
    intro m
    refine ⟨?_, ?_, ?_⟩
    · intro o ho m route hr
      have : ∀ o ∈ exStaticOps ++ exStaticLater,
          ((registers o).all fun x => (segs x.2).all fun s => decide (s.dropWhile (· == 58) ≠ [])) = true := by
        decide +kernel
      have := this o ho
      rw [hr] at this
      simpa using this
    · intro o ho m route hr _
      have : ∀ o ∈ exStaticOps ++ exStaticLater,
          ((registers o).all fun x => (matchRoute ((segs x.2).map segPat) (segs b!"/html/static/a.txt")).isNone) = true := by
        decide +kernel
      have := this o ho
      rw [hr] at this
      simpa using this
    · intro o ho m rx hr _
      have : ∀ o ∈ exStaticOps ++ exStaticLater,
          ((registersRx o).all fun x => x.2.matches b!"/html/static/a.txt" == false) = true := by
        decide +kernel
      have := this o ho
      rw [hr] at this
      simpa using this
  have hplain : PlainText b!"/html" := plain_ascii _ (by decide +kernel)
  exact ⟨⟨fun _ => rfl, rfl, rfl⟩, ⟨fun _ => rfl, rfl, rfl⟩, ⟨hplain, .inl rfl, key _⟩, ⟨hplain, .inr rfl, key _⟩,
    by show b!"/html" ++ b!"/" <+: b!"/html/static/a.txt"; exact ⟨b!"static/a.txt", by decide⟩⟩

end HeadEx

/-- **C135** is false as it stands: a file served with FixStaticFileFS is found with GET and, the rest of the request and the
server being the same, not with HEAD. -/
theorem C135_violated : StaticMainEx.answer (fixStaticCalls 0 b!"/one" (some 4) []) b!"GET" b!"/one" = some (200, b!"hello", false) ∧
    StaticMainEx.answer (fixStaticCalls 0 b!"/one" (some 4) []) b!"HEAD" b!"/one" = some (404, b!"not found", true) := by
  constructor <;> decide +kernel

end Verif
