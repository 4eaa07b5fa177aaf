import Verif.Props.Seek
import Verif.Props.StaticMain
/-
C110: ranges, revalidation and resumed downloads through a whole server.
-/
namespace Verif
open Spec
set_option linter.unusedSectionVars false

/-- The main handler the static route registers. -/
def Spec.StaticRoute.main {υ : Type} (V : ReqView υ) (msg : ServeErr → Str) (lib : Lib) (href : Str → Str) (fSys : RawFS) :
    StaticRoute → MainH υ
  | .fileFS filePath urlPath => staticFSMain V msg lib href fSys filePath urlPath
  | .file urlPath => staticFileMain V msg lib href fSys urlPath
  | .fixFS filePath => fixStaticMain V msg lib href fSys filePath

/-- The calls that register it, without a set of its own: StaticFileFS and StaticFile compile an expression (at the address
`addr`), FixStaticFileFS registers the route `fixed`. -/
def Spec.StaticRoute.mount {η : Type} (addr n : Nat) (fixed : Str) (h : η) : StaticRoute → Option (List (Op η RxPtr))
  | .fileFS _ urlPath => staticCalls (rxCompileAt addr) n urlPath (some h) []
  | .file urlPath => staticCalls (rxCompileAt addr) n urlPath (some h) []
  | .fixFS _ => some (fixStaticCalls n fixed (some h) [])

/-- The request is one the route answers, and nothing else the program registers answers it. -/
def Spec.StaticRoute.Reached {η : Type} (fixed : Str) (prog : List (Op η RxPtr)) (req : Req) : StaticRoute → Prop
  | .fileFS _ urlPath => PlainText urlPath ∧ (req.method = b!"GET" ∨ req.method = b!"HEAD") ∧ Unrivalled prog req
  | .file urlPath => PlainText urlPath ∧ (req.method = b!"GET" ∨ req.method = b!"HEAD") ∧ Unrivalled prog req
  | .fixFS _ => (req.method = b!"GET" ∨ req.method = b!"POST") ∧
      (∃ b, matchRoute ((segs fixed).map segPat) (segs req.path) = some b) ∧
      (∀ s ∈ segs fixed, s.dropWhile (· == 58) ≠ []) ∧ cleanOps prog ∧ NoRival prog req.path

/-- A request as it arrives, with everything the connection brings. -/
structure Arrival (υ : Type) where
  ba : BaseAuth
  req : Req
  resp : Resp
  store : Args → υ
  buf : Args
  clock : Nat

/-- The file server reads the request `r`. -/
def Arrival.Reads {υ : Type} (a : Arrival υ) (V : ReqView υ) (r : HttpReq) : Prop :=
  (∀ args, V.req (a.store args) = r) ∧ r.path = a.req.path ∧ r.method = a.req.method

/-- The request got past the guard, its handlers returned without an error, and the client got this response. -/
def GetsAnswer {υ : Type} (out : Outcome (Served υ)) (w : HttpResp) : Prop :=
  ∃ sv d, out = .ret sv ∧ sv.ran = some d ∧ d.flow = .returned none ∧ sv.resp = w.plain

/-- The request got past the guard. -/
def Admitted {υ : Type} (out : Outcome (Served υ)) : Prop := ∃ sv d, out = .ret sv ∧ sv.ran = some d

theorem plain_inj {a b : HttpResp} (h : a.plain = b.plain) : a = b := by
  cases a; cases b
  simp only [HttpResp.plain, Resp.mk.injEq] at h
  simp [h]

section
variable {η υ : Type} [Inhabited η] (level : Int) (u : Str → Str) (env : Env υ)
  (visit : GoMap RxPtr (Option Nat) → List (RxPtr × Option Nat)) (hv : AnyOrder visit)
  (V : ReqView υ) (msg : ServeErr → Str) (lib : Lib) (href : Str → Str) (grow : Nat → Nat → Nat)
  (ops later : List (Op η RxPtr)) (addr : Nat) (fixed : Str) (h : η) (route : StaticRoute)

/-- What a server built by `prog`, its handlers being `I`, does with the request. -/
def served (I : Handlers3 η υ) (prog : List (Op η RxPtr)) (a : Arrival υ) : Outcome (Served υ) :=
  serveHTTP u env RxPtr.matches visit (serverOf I (progState grow prog) none level) a.ba a.req a.resp a.store a.buf a.clock

/-- The calls exist: the expression compiles. -/
theorem mount_some (req : Req) (hfree : route.Reached fixed (ops ++ later) req) :
    ∃ calls, route.mount addr (progState grow ops).setVars.length fixed h = some calls := by
  have key : ∀ urlPath : Str, PlainText urlPath → ∃ calls,
      staticCalls (η := η) (rxCompileAt addr) (progState grow ops).setVars.length urlPath (some h) [] = some calls := by
    intro urlPath ho
    obtain ⟨parts, hc, -⟩ := rx_literal urlPath ho
    refine ⟨_, by unfold staticCalls rxCompileAt staticExpr; rw [hc]; rfl⟩
  cases route with
  | fileFS _ urlPath => exact key urlPath hfree.1
  | file urlPath => exact key urlPath hfree.1
  | fixFS _ => exact ⟨_, rfl⟩

include hv in
/-- The route answers a request that names a file with what its file server makes of it. -/
theorem mounted (I : Handlers3 η υ) (a : Arrival υ) (r : HttpReq) (hr : a.Reads V r) (fSys : RawFS)
    (hI : I.main h = some (route.main V msg lib href fSys)) (hfree : route.Reached fixed (ops ++ later) a.req)
    (calls : List (Op η RxPtr)) (hcalls : route.mount addr (progState grow ops).setVars.length fixed h = some calls)
    (name : List Str) (hn : route.Names r.path name) (base data : Str) (t : Int) (hf : HasFile fSys name base data t) :
    ∃ s, (route.run lib href fSys r a.resp.http).result = .ret s ∧
      (∀ sv d, served level u env visit grow I (ops ++ calls ++ later) a = .ret sv → sv.ran = some d →
        sv.resp = s.resp.plain ∧ d.flow = .returned (staticErr msg s)) ∧
      (a.ba.use = false → Admitted (served level u env visit grow I (ops ++ calls ++ later) a)) := by
  obtain ⟨s, hs, -⟩ := C105_content lib href fSys r a.resp.http route name hn base data t hf
  refine ⟨s, hs, ?_⟩
  obtain ⟨r1, r2, r3⟩ := hr
  have pref : ∀ (urlPath nm : Str), PlainText urlPath → (a.req.method = b!"GET" ∨ a.req.method = b!"HEAD") →
      Unrivalled (ops ++ later) a.req → (urlPath ++ b!"/") <+: a.req.path →
      I.main h = some (staticMain V msg nm (route.run lib href fSys)) →
      staticCalls (rxCompileAt addr) (progState grow ops).setVars.length urlPath (some h) [] = some calls →
      (∀ sv d, served level u env visit grow I (ops ++ calls ++ later) a = .ret sv → sv.ran = some d →
        sv.resp = s.resp.plain ∧ d.flow = .returned (staticErr msg s)) ∧
      (a.ba.use = false → Admitted (served level u env visit grow I (ops ++ calls ++ later) a)) := by
    intro urlPath nm h1 h2 h3 h4 h5 h6
    obtain ⟨calls', g1, g2⟩ := C90_answer I level u env visit hv a.ba a.req a.resp a.store a.buf a.clock V msg r r1
      grow ops later addr urlPath h1 h nm _ h5 h2 h4 h3 s hs
    rw [h6] at g1
    cases g1
    exact g2
  cases route with
  | fileFS filePath urlPath =>
    obtain ⟨dir, rest, U, -, -, -, -, h7, h8, -⟩ := hn
    exact pref urlPath b!"handler" hfree.1 hfree.2.1 hfree.2.2 ⟨fileName rest, by rw [← r2, h8, h7]⟩ hI hcalls
  | file urlPath =>
    obtain ⟨U, -, -, h7, h8⟩ := hn
    exact pref urlPath b!"StaticFileHandler" hfree.1 hfree.2.1 hfree.2.2 ⟨fileName name, by rw [← r2, h8, h7]⟩ hI hcalls
  | fixFS filePath =>
    obtain ⟨m1, ⟨b, m2⟩, m3, m4, m5⟩ := hfree
    cases hcalls
    exact C90_fixed_answer I level u env visit a.ba a.req a.resp a.store a.buf a.clock V msg r r1
      grow ops later fixed h b!"handler" _ hI m1 b m2 m3 m4 m5 s hs

theorem staticErr_none {s : StaticRun} : staticErr msg s = none ↔ s.err = none := by
  unfold staticErr
  cases s.err <;> simp

include hv in
/-- **C110** (existence).  The calls that register the static route do not fail, and without authentication every request is
admitted. -/
theorem C110_registers (I : Handlers3 η υ) (a : Arrival υ) (r : HttpReq) (hr : a.Reads V r) (fSys : RawFS)
    (hI : I.main h = some (route.main V msg lib href fSys)) (hfree : route.Reached fixed (ops ++ later) a.req)
    (name : List Str) (hn : route.Names r.path name) (base data : Str) (t : Int) (hf : HasFile fSys name base data t) :
    ∃ calls, route.mount addr (progState grow ops).setVars.length fixed h = some calls ∧
      (a.ba.use = false → Admitted (served level u env visit grow I (ops ++ calls ++ later) a)) := by
  obtain ⟨calls, hcalls⟩ := mount_some grow ops later addr fixed h route a.req hfree
  obtain ⟨s, -, -, h3⟩ := mounted level u env visit hv V msg lib href grow ops later addr fixed h route I a r hr fSys hI hfree
    calls hcalls name hn base data t hf
  exact ⟨calls, hcalls, h3⟩

include hv in
/-- **C110** (range).  A static route of a server, whatever else the program registers before and afterwards, and a file it
has: a client that asks for one byte range and is admitted gets 206, exactly the bytes it selects of the file, and says
which; nothing is reported as an error. -/
theorem C110_range (I : Handlers3 η υ) (a : Arrival υ) (r : HttpReq) (hr : a.Reads V r) (fSys : RawFS)
    (hI : I.main h = some (route.main V msg lib href fSys)) (hfree : route.Reached fixed (ops ++ later) a.req)
    (calls : List (Op η RxPtr)) (hcalls : route.mount addr (progState grow ops).setVars.length fixed h = some calls)
    (name : List Str) (hn : route.Names r.path name) (base data : Str) (t : Int) (hf : HasFile fSys name base data t)
    (hu : Unconditional r) (hir : r.header b!"If-Range" = []) (hw : NoEncoding a.resp.http)
    (x : Str) (b : ByteSpec) (hrange : r.header b!"Range" = b!"bytes=" ++ x) (hx : b.Text x) (hb : b.Valid)
    (hcomma : 44 ∉ x) (hsel : ∃ i, b.Selects data.length i)
    (hin : Admitted (served level u env visit grow I (ops ++ calls ++ later) a)) :
    ∃ w n m, GetsAnswer (served level u env visit grow I (ops ++ calls ++ later) a) w ∧ 0 < m ∧ n + m ≤ data.length ∧
      (∀ i, b.Selects data.length i ↔ n ≤ i ∧ i < n + m) ∧ PartAnswer r a.resp.http data n m ⟨w, none, []⟩ := by
  obtain ⟨s, hs, h2, -⟩ := mounted level u env visit hv V msg lib href grow ops later addr fixed h route I a r hr fSys hI hfree
    calls hcalls name hn base data t hf
  obtain ⟨s', n, m, k1, k2, k3, k4, k5⟩ := C105_one lib href fSys r a.resp.http route name hn base data t hf hu hir hw x b hrange hx hb
    hcomma hsel
  rw [hs] at k1
  cases k1
  obtain ⟨sv, d, i1, i2⟩ := hin
  obtain ⟨g1, g2⟩ := h2 sv d i1 i2
  exact ⟨s.resp, n, m, ⟨sv, d, i1, i2, by rw [g2, (staticErr_none msg).2 k5.1], g1⟩, k2, k3, k4, rfl, k5.2⟩

include hv in
/-- **C110** (no bytes).  If the specification selects nothing in a file that is not empty, the answer is 416 with the size of the file, and the error is returned. -/
theorem C110_none (I : Handlers3 η υ) (a : Arrival υ) (r : HttpReq) (hr : a.Reads V r) (fSys : RawFS)
    (hI : I.main h = some (route.main V msg lib href fSys)) (hfree : route.Reached fixed (ops ++ later) a.req)
    (calls : List (Op η RxPtr)) (hcalls : route.mount addr (progState grow ops).setVars.length fixed h = some calls)
    (name : List Str) (hn : route.Names r.path name) (base data : Str) (t : Int) (hf : HasFile fSys name base data t) (hdata : data ≠ [])
    (hu : Unconditional r) (hir : r.header b!"If-Range" = []) (hw : NoEncoding a.resp.http)
    (x : Str) (b : ByteSpec) (hrange : r.header b!"Range" = b!"bytes=" ++ x) (hx : b.Text x) (hb : b.Valid)
    (hcomma : 44 ∉ x) (hsel : ∀ i, ¬ b.Selects data.length i)
    (hin : Admitted (served level u env visit grow I (ops ++ calls ++ later) a)) :
    ∃ sv d w z, served level u env visit grow I (ops ++ calls ++ later) a = .ret sv ∧ sv.ran = some d ∧
      d.flow = .returned (some (.leaf 0 (msg (.range .noOverlap)))) ∧ sv.resp = HttpResp.plain w ∧
      w.status = 416 ∧ Number data.length z ∧ w.peek b!"Content-Range" = b!"bytes */" ++ z := by
  obtain ⟨s, hs, h2, -⟩ := mounted level u env visit hv V msg lib href grow ops later addr fixed h route I a r hr fSys hI hfree
    calls hcalls name hn base data t hf
  obtain ⟨s', z, k1, k2, k3, k4, k5⟩ := C105_none lib href fSys r a.resp.http route name hn base data t hf hdata hu hir hw x b hrange hx hb
    hcomma hsel
  rw [hs] at k1
  cases k1
  obtain ⟨sv, d, i1, i2⟩ := hin
  obtain ⟨g1, g2⟩ := h2 sv d i1 i2
  refine ⟨sv, d, s.resp, z, i1, i2, ?_, g1, k2, k4, k5⟩
  rw [g2]
  unfold staticErr
  rw [k3]
  rfl

/-- What an answer without an error is. -/
theorem answered {I : Handlers3 η υ} {prog : List (Op η RxPtr)} {a : Arrival υ} {s : StaticRun} {w : HttpResp}
    (h2 : ∀ sv d, served level u env visit grow I prog a = .ret sv → sv.ran = some d →
        sv.resp = s.resp.plain ∧ d.flow = .returned (staticErr msg s))
    (h : GetsAnswer (served level u env visit grow I prog a) w) : s.resp = w ∧ s.err = none := by
  obtain ⟨sv, d, i1, i2, i3, i4⟩ := h
  obtain ⟨g1, g2⟩ := h2 sv d i1 i2
  refine ⟨plain_inj (g1.symm.trans i4), ?_⟩
  rw [g2] at i3
  exact (staticErr_none msg).1 (by simpa using i3)

include hv in
/-- **C110** (revalidation).  Two requests to a static route of a server (two arrivals, between which the file and everything
else a handler reads may have changed): the client sends back the date of the first answer, and is told 304 without
content if the file is not from a later second, and otherwise gets the file as it is now, whole. -/
theorem C110_revalidate (I I' : Handlers3 η υ) (a a' : Arrival υ) (r r' : HttpReq) (hr : a.Reads V r) (hr' : a'.Reads V r')
    (fSys fSys' : RawFS)
    (hI : I.main h = some (route.main V msg lib href fSys)) (hI' : I'.main h = some (route.main V msg lib href fSys'))
    (hfree : route.Reached fixed (ops ++ later) a.req) (hfree' : route.Reached fixed (ops ++ later) a'.req)
    (calls : List (Op η RxPtr)) (hcalls : route.mount addr (progState grow ops).setVars.length fixed h = some calls)
    (name : List Str) (hn : route.Names r.path name) (hn' : route.Names r'.path name)
    (base base' data data' : Str) (t t' : Int) (hf : HasFile fSys name base data t) (hf' : HasFile fSys' name base' data' t')
    (ht : KnownTime t) (ht' : KnownTime t') (hdate : DateLaw lib t) (hw' : NoEncoding a'.resp.http)
    (hsafe : r'.method = b!"GET" ∨ r'.method = b!"HEAD") (hm : r'.header b!"If-Match" = [])
    (hus : r'.header b!"If-Unmodified-Since" = []) (hnone : r'.header b!"If-None-Match" = []) (hrange : r'.header b!"Range" = [])
    (w : HttpResp) (hgot : GetsAnswer (served level u env visit grow I (ops ++ calls ++ later) a) w) (h3 : w.status ≠ 304)
    (hims : r'.header b!"If-Modified-Since" = w.peek b!"Last-Modified")
    (hin : Admitted (served level u env visit grow I' (ops ++ calls ++ later) a')) :
    ∃ w', GetsAnswer (served level u env visit grow I' (ops ++ calls ++ later) a') w' ∧
      (t' / 10 ^ 9 ≤ t / 10 ^ 9 → w'.status = 304 ∧ w'.body = a'.resp.body ∧ w'.peek b!"Content-Length" = [] ∧
        w'.peek b!"Content-Type" = [] ∧ w'.peek b!"Last-Modified" = lib.format t') ∧
      (t / 10 ^ 9 < t' / 10 ^ 9 → WholeAnswer r' a'.resp.http data' ⟨w', none, []⟩ ∧ w'.peek b!"Last-Modified" = lib.format t') := by
  obtain ⟨s, hs, h2, -⟩ := mounted level u env visit hv V msg lib href grow ops later addr fixed h route I a r hr fSys hI hfree
    calls hcalls name hn base data t hf
  obtain ⟨s', hs', h2', -⟩ := mounted level u env visit hv V msg lib href grow ops later addr fixed h route I' a' r' hr' fSys' hI' hfree'
    calls hcalls name hn' base' data' t' hf'
  obtain ⟨e1, e2⟩ := answered level u env visit msg grow h2 hgot
  obtain ⟨s'', k1, k2, k3⟩ := C106_revalidate lib href fSys r a.resp.http route name hn base data t hf ht hdate s hs e2 (by rw [e1]; exact h3)
    fSys' r' a'.resp.http hn' base' data' t' hf' ht' hw' hsafe hm hus hnone hrange (by rw [e1]; exact hims)
  rw [hs'] at k1
  cases k1
  obtain ⟨sv, d, i1, i2⟩ := hin
  obtain ⟨g1, g2⟩ := h2' sv d i1 i2
  have herr : s'.err = none := by
    rcases Int.lt_or_le (t / 10 ^ 9) (t' / 10 ^ 9) with hl | hl
    · exact (k3 hl).1.1
    · exact (k2 hl).2.1
  refine ⟨s'.resp, ⟨sv, d, i1, i2, by rw [g2, (staticErr_none msg).2 herr], g1⟩, fun hl => ?_, fun hl => ?_⟩
  · obtain ⟨q1, -, q2⟩ := k2 hl
    exact ⟨q1, q2⟩
  · exact ⟨⟨rfl, (k3 hl).1.2⟩, (k3 hl).2⟩

include hv in
/-- **C110** (resumed download).  As before, but the client has the first `k` bytes and asks for the rest, If-Range the date of
the first answer: it gets 206 and exactly the missing bytes if the file is from the same second and longer than `k`, and the
file as it is now, whole, if it is from another second. -/
theorem C110_resume (I I' : Handlers3 η υ) (a a' : Arrival υ) (r r' : HttpReq) (hr : a.Reads V r) (hr' : a'.Reads V r')
    (fSys fSys' : RawFS)
    (hI : I.main h = some (route.main V msg lib href fSys)) (hI' : I'.main h = some (route.main V msg lib href fSys'))
    (hfree : route.Reached fixed (ops ++ later) a.req) (hfree' : route.Reached fixed (ops ++ later) a'.req)
    (calls : List (Op η RxPtr)) (hcalls : route.mount addr (progState grow ops).setVars.length fixed h = some calls)
    (name : List Str) (hn : route.Names r.path name) (hn' : route.Names r'.path name)
    (base base' data data' : Str) (t t' : Int) (hf : HasFile fSys name base data t) (hf' : HasFile fSys' name base' data' t')
    (ht : KnownTime t) (ht' : KnownTime t') (hdate : DateLaw lib t) (hw' : NoEncoding a'.resp.http) (hu : Unconditional r')
    (k : Nat) (x : Str) (hx : Digits x) (hk : decVal x = k) (hrange : r'.header b!"Range" = b!"bytes=" ++ (x ++ b!"-"))
    (w : HttpResp) (hgot : GetsAnswer (served level u env visit grow I (ops ++ calls ++ later) a) w) (h3 : w.status ≠ 304)
    (hir : r'.header b!"If-Range" = w.peek b!"Last-Modified")
    (hin : Admitted (served level u env visit grow I' (ops ++ calls ++ later) a')) :
    (t' / 10 ^ 9 = t / 10 ^ 9 → k < data'.length →
      ∃ w', GetsAnswer (served level u env visit grow I' (ops ++ calls ++ later) a') w' ∧
        PartAnswer r' a'.resp.http data' k (data'.length - k) ⟨w', none, []⟩ ∧
        (r'.method = b!"GET" → ∃ rest, w'.body = a'.resp.body ++ rest ∧ data'.take k ++ rest = data')) ∧
    (t' / 10 ^ 9 ≠ t / 10 ^ 9 →
      ∃ w', GetsAnswer (served level u env visit grow I' (ops ++ calls ++ later) a') w' ∧
        WholeAnswer r' a'.resp.http data' ⟨w', none, []⟩) := by
  obtain ⟨s, hs, h2, -⟩ := mounted level u env visit hv V msg lib href grow ops later addr fixed h route I a r hr fSys hI hfree
    calls hcalls name hn base data t hf
  obtain ⟨s', hs', h2', -⟩ := mounted level u env visit hv V msg lib href grow ops later addr fixed h route I' a' r' hr' fSys' hI' hfree'
    calls hcalls name hn' base' data' t' hf'
  obtain ⟨e1, e2⟩ := answered level u env visit msg grow h2 hgot
  obtain ⟨s'', k1, k2, k3⟩ := C107_resume lib href fSys r a.resp.http route name hn base data t hf ht hdate s hs e2 (by rw [e1]; exact h3)
    fSys' r' a'.resp.http hn' base' data' t' hf' ht' hw' hu k x hx hk hrange (by rw [e1]; exact hir)
  rw [hs'] at k1
  cases k1
  obtain ⟨sv, d, i1, i2⟩ := hin
  obtain ⟨g1, g2⟩ := h2' sv d i1 i2
  refine ⟨fun he hl => ⟨s'.resp, ?_, ?_, (k2 he hl).2⟩, fun hne => ⟨s'.resp, ?_, ?_⟩⟩
  · exact ⟨sv, d, i1, i2, by rw [g2, (staticErr_none msg).2 (k2 he hl).1.1], g1⟩
  · exact ⟨rfl, (k2 he hl).1.2⟩
  · exact ⟨sv, d, i1, i2, by rw [g2, (staticErr_none msg).2 (k3 hne).1], g1⟩
  · exact ⟨rfl, (k3 hne).2⟩

end

namespace MountEx

/-- Handler 3 is the one StaticFileFS(…, "static", "/files") registers. -/
def handlers : Handlers3 Nat HttpReq where
  hdl := fun _ => none
  main := fun k => if k = 3 then some (StaticRoute.main StaticMainEx.view StaticMainEx.msg seekLib id seekFS (.fileFS b!"static" b!"/files"))
    else none
  last := fun _ => none

def calls : List (Op Nat RxPtr) := (StaticRoute.mount 2 0 [] 3 (.fileFS b!"static" b!"/files")).getD []

def arrival (r : HttpReq) : Arrival HttpReq := ⟨newBaseAuth, ⟨r.method, r.path, []⟩, ⟨200, [], []⟩, fun _ => r, [], 0⟩

def serve (r : HttpReq) : Outcome (Served HttpReq) :=
  served 5 id StaticMainEx.env id (fun c _ => 2 * c) handlers (exStaticOps ++ calls ++ exStaticLater) (arrival r)

/-- The rest of the download. -/
def again (date : Str) : HttpReq :=
  ⟨b!"GET", b!"/files/a.txt", [], fun h => if h = b!"Range" then b!"bytes=4-" else if h = b!"If-Range" then date else []⟩

def look (o : Outcome (Served HttpReq)) : Option (Nat × Str × Str × Bool) :=
  match o with
  | .ret ⟨_, some d, r⟩ => some (r.status, r.body, r.http.peek b!"Last-Modified", decide (d.flow = .returned none))
  | _ => none

example : look (serve (seekReq [] [])) = some (200, b!"0123456789", b!"Mon, 02 Jan 2006 15:04:05 GMT", true) := by decide +kernel
example : look (serve (again b!"Mon, 02 Jan 2006 15:04:05 GMT")) =
    some (206, b!"456789", b!"Mon, 02 Jan 2006 15:04:05 GMT", true) := by decide +kernel
example : look (serve (again b!"Mon, 02 Jan 2006 15:04:06 GMT")) =
    some (200, b!"0123456789", b!"Mon, 02 Jan 2006 15:04:05 GMT", true) := by decide +kernel
example : look (serve (seekReq b!"If-Modified-Since" b!"Mon, 02 Jan 2006 15:04:05 GMT")) =
    some (304, [], b!"Mon, 02 Jan 2006 15:04:05 GMT", true) := by decide +kernel

/-- The hypotheses of C110 about the server and the requests hold here. -/
theorem reached : StaticRoute.Reached [] (exStaticOps ++ exStaticLater) ⟨b!"GET", b!"/files/a.txt", []⟩ (.fileFS b!"static" b!"/files") := by
  refine ⟨plain_ascii _ (by decide +kernel), .inl rfl, ⟨?_, ?_, ?_⟩⟩
  · intro o ho m route hr
    have : ∀ o ∈ exStaticOps ++ exStaticLater,
        ((registers o).all fun x => (segs x.2).all fun s => decide (s.dropWhile (· == 58) ≠ [])) = true := by
      decide +kernel
    have := this o ho
    rw [hr] at this
    simpa using this
  · intro o ho m route hr _
    have : ∀ o ∈ exStaticOps ++ exStaticLater,
        ((registers o).all fun x => (matchRoute ((segs x.2).map segPat) (segs b!"/files/a.txt")).isNone) = true := by
      decide +kernel
    have := this o ho
    rw [hr] at this
    simpa using this
  · intro o ho m rx hr _
    have : ∀ o ∈ exStaticOps ++ exStaticLater,
        ((registersRx o).all fun x => x.2.matches b!"/files/a.txt" == false) = true := by
      decide +kernel
    have := this o ho
    rw [hr] at this
    simpa using this

theorem mountedCalls : StaticRoute.mount 2 (progState (fun c _ => 2 * c) exStaticOps).setVars.length [] 3
    (.fileFS b!"static" b!"/files") = some calls := by
  have hl : (progState (fun c _ => 2 * c) exStaticOps).setVars.length = 0 := by decide +kernel
  rw [hl]
  obtain ⟨parts, hc, -⟩ := rx_literal b!"/files" (plain_ascii _ (by decide +kernel))
  unfold calls StaticRoute.mount staticCalls rxCompileAt staticExpr
  simp only [hc]
  rfl

/-- All hypotheses of `C110_resume` together. -/
example : ∃ w w', GetsAnswer (serve (seekReq [] [])) w ∧ GetsAnswer (serve (again (w.peek b!"Last-Modified"))) w' ∧
    w'.status = 206 ∧ b!"0123456789".take 4 ++ w'.body = b!"0123456789" := by
  obtain ⟨sv, d, h1, h2, h3, h4⟩ : ∃ sv d, serve (seekReq [] []) = .ret sv ∧ sv.ran = some d ∧ d.flow = .returned none ∧
      sv.resp.status = 200 := by
    obtain ⟨s, e, f, -⟩ := mounted 5 id StaticMainEx.env id (fun _ => List.Perm.refl _) StaticMainEx.view StaticMainEx.msg seekLib id
      (fun c _ => 2 * c) exStaticOps exStaticLater 2 [] 3 _ handlers (arrival (seekReq [] [])) (seekReq [] []) ⟨fun _ => rfl, rfl, rfl⟩ seekFS
      rfl reached calls mountedCalls _ exNames _ _ _ exHas
    obtain ⟨s', e', f1, f2, -⟩ := whole_answer seekLib id seekFS (seekReq [] []) HttpResp.fresh _ _ exNames _ _ _ exHas
      ⟨by decide, by decide⟩ (by decide +kernel)
    have : HttpResp.fresh = (arrival (seekReq [] [])).resp.http := rfl
    rw [← this, e'] at e
    cases e
    have hadm : Admitted (serve (seekReq [] [])) := by
      obtain ⟨-, -, -, g⟩ := mounted 5 id StaticMainEx.env id (fun _ => List.Perm.refl _) StaticMainEx.view StaticMainEx.msg seekLib id
        (fun c _ => 2 * c) exStaticOps exStaticLater 2 [] 3 _ handlers (arrival (seekReq [] [])) (seekReq [] []) ⟨fun _ => rfl, rfl, rfl⟩ seekFS
        rfl reached calls mountedCalls _ exNames _ _ _ exHas
      exact g rfl
    obtain ⟨sv, d, i1, i2⟩ := hadm
    obtain ⟨g1, g2⟩ := f sv d i1 i2
    exact ⟨sv, d, i1, i2, by rw [g2, (staticErr_none _).2 f1], by rw [g1]; exact f2⟩
  have hgot : GetsAnswer (serve (seekReq [] [])) sv.resp.http := ⟨sv, d, h1, h2, h3, rfl⟩
  have hadm : Admitted (serve (again (sv.resp.http.peek b!"Last-Modified"))) := by
    obtain ⟨-, -, -, g⟩ := mounted 5 id StaticMainEx.env id (fun _ => List.Perm.refl _) StaticMainEx.view StaticMainEx.msg seekLib id
      (fun c _ => 2 * c) exStaticOps exStaticLater 2 [] 3 _ handlers (arrival (again (sv.resp.http.peek b!"Last-Modified")))
      (again (sv.resp.http.peek b!"Last-Modified")) ⟨fun _ => rfl, rfl, rfl⟩ seekFS
      rfl reached calls mountedCalls _ exNames _ _ _ exHas
    exact g rfl
  obtain ⟨k1, -⟩ := C110_resume 5 id StaticMainEx.env id (fun _ => List.Perm.refl _) StaticMainEx.view StaticMainEx.msg seekLib id
      (fun c _ => 2 * c) exStaticOps exStaticLater 2 [] 3 _ handlers handlers (arrival (seekReq [] []))
      (arrival (again (sv.resp.http.peek b!"Last-Modified"))) (seekReq [] []) (again (sv.resp.http.peek b!"Last-Modified"))
      ⟨fun _ => rfl, rfl, rfl⟩ ⟨fun _ => rfl, rfl, rfl⟩ seekFS seekFS rfl rfl reached reached calls mountedCalls _ exNames exNames
      _ _ _ _ _ _ exHas exHas exKnown exKnown exDate ⟨rfl, rfl⟩ ⟨.inl rfl, rfl, rfl, rfl, rfl⟩ 4 b!"4"
      (by unfold Digits; decide) (by decide) rfl sv.resp.http hgot (by show sv.resp.status ≠ 304; rw [h4]; decide) rfl hadm
  obtain ⟨w', j1, j2, j3⟩ := k1 rfl (by decide)
  obtain ⟨rest, j4, j5⟩ := j3 rfl
  refine ⟨sv.resp.http, w', hgot, j1, j2.2.1, ?_⟩
  have : w'.body = rest := by rw [j4]; rfl
  rw [this]; exact j5

end MountEx

end Verif
