import Verif.Witness.Program
import Verif.Props.StaticMain
import Verif.Props.StaticExact
import Verif.Props.Sniff
/-
Witnesses: the theorems of Props/Static, Props/StaticExact, Props/StaticMain and Props/Sniff applied to the file system
`exFS`.
-/
namespace Verif.Witness
open Verif Verif.Spec

theorem noIndex (p : Str) (h : hasSuffix p b!"/index.html" = false) : ¬ ∃ pre, p = pre ++ b!"/index.html" := by
  rintro ⟨pre, rfl⟩
  have h' : hasSuffix (pre ++ b!"/index.html") b!"/index.html" = true := by
    unfold hasSuffix; rw [List.isSuffixOf_iff_suffix]; exact ⟨pre, rfl⟩
  rw [h'] at h; cases h

/-- The status and the body of a run. -/
def showRun (x : Outcome StaticRun) : Nat × Str := match x with | .ret s => (s.resp.status, s.resp.body) | _ => (0, [])

/-! #### One request -/

example : ∃ s, fileServe exLib id (ioOpen exFS) (exGet b!"/static") HttpResp.fresh = .ret s ∧ s.resp.status = 403 := by
  obtain ⟨s, h, h2, -⟩ := C53_directory exLib id (exGet b!"/static") HttpResp.fresh (ioOpen exFS) (by decide +kernel)
    (noIndex _ (by decide +kernel)) (exDir b!"static" [(b!"a.txt", false)]) [.open b!"static"] ⟨b!"static", 0, true, 0⟩
    (by rfl) rfl rfl
  exact ⟨s, h, h2⟩
example : ∃ s, fileServe exLib id (ioOpen exFS) (exGet b!"/docs/index.html") HttpResp.fresh = .ret s ∧ s.resp.status = 301 ∧ s.log = [] := by
  obtain ⟨s, h, h2, -, -, h5⟩ := C53_redirect exLib id (exGet b!"/docs/index.html") HttpResp.fresh (ioOpen exFS) (by decide +kernel)
    b!"/docs" (by decide +kernel)
  exact ⟨s, h, h2, h5⟩
example : ∃ s, fileServe exLib id (ioOpen exFS) (exGet b!"/docs/index.html") HttpResp.fresh = .ret s ∧
    s.resp.peek b!"Location" = b!"./?/docs/index.html" := by
  obtain ⟨s, h, -, h3⟩ := C71_location exLib id (exGet b!"/docs/index.html") HttpResp.fresh (ioOpen exFS) (by decide +kernel)
    b!"/docs" (by decide +kernel) (by decide +kernel)
  exact ⟨s, h, h3⟩
example : (staticFSRun exLib id exFS b!"static" b!"/files" (exGet b!"/files/a%20b") HttpResp.fresh).path =
    (exGet b!"/files/a%20b").path :=
  (C61_exact exLib id exFS b!"static" b!"/files" (exGet b!"/files/a%20b") HttpResp.fresh b!"/files/a%20b" rfl).2.1.2
    (no_escape _ (by decide +kernel))
example : (staticFSRun exLib id exFS b!"static" b!"/files" (exGet b!"/files/a%25%34%31") HttpResp.fresh).path ≠
    (exGet b!"/files/a%25%34%31").path := fun h =>
  (C61_exact exLib id exFS b!"static" b!"/files" (exGet b!"/files/a%25%34%31") HttpResp.fresh b!"/files/a%25%34%31" rfl).2.1.1 h
    ⟨b!"/files/a", 52, 49, [], by decide +kernel, by decide, by decide⟩
example : ∃ s, fileServe exLib id (ioOpen exFS) (exGet b!"/nowhere") HttpResp.fresh = .ret s ∧ s.resp.status = 404 ∧
    s.err = some (.fs .notExist) := by
  obtain ⟨s, h, -, h3, -, h5⟩ := C62_answer exLib id (exGet b!"/nowhere") HttpResp.fresh (ioOpen exFS) (by decide +kernel)
    (noIndex _ (by decide +kernel)) .notExist (Or.inl (by rfl))
  exact ⟨s, h, h3, h5⟩
example : (ioOpen exFS (b!"/" ++ fileName [b!"static", b!"a.txt", b!"x"])).1 = .error .notExist := by
  refine ((C62_below exFS [b!"static", b!"a.txt", b!"x"] (by simp) ?_ (.other 7) rfl).2 7 rfl).1 ?_
  · intro s hs
    exact ((List.forall_mem_cons.2 ⟨⟨by decide, by decide, by decide, by decide⟩, List.forall_mem_cons.2
      ⟨⟨by decide, by decide, by decide, by decide⟩, List.forall_mem_cons.2 ⟨⟨by decide, by decide, by decide, by decide⟩,
        by simp⟩⟩⟩ : ∀ s ∈ [b!"static", b!"a.txt", b!"x"], Elem s)) s hs
  · refine ⟨[b!"static"], b!"a.txt", [b!"x"], exInfo b!"a.txt" b!"hello", rfl, rfl, rfl, ?_⟩
    intro a' b' ha h
    cases a' with
    | nil => exact absurd rfl ha
    | cons x t =>
      simp at h
      obtain ⟨rfl, rfl, -⟩ := h
      exact ⟨_, rfl, rfl⟩
example : BelowDir b!"/srv/www" b!"/srv/www/etc/passwd" :=
  C69_dir exFS b!"/srv/www/" b!"/../../etc/passwd" b!"/srv/www/etc/passwd" (by decide +kernel)
example : ∃ s, ServeFile exLib id exFS b!"./static/a.txt" (exGet b!"/whatever") HttpResp.fresh = .ret s ∧
    ∀ n, .open n ∈ s.log ↔ n = b!"static/a.txt" := by
  have hd : ¬ HasDotDot (exGet b!"/whatever").path := fun h => by
    have := (containsDotDot_iff _).2 h
    revert this; decide +kernel
  obtain ⟨s, h, -, h3, -⟩ := (C69_serveFile exLib id (exGet b!"/whatever") HttpResp.fresh exFS b!"./static/a.txt" (by decide)).2 hd
  refine ⟨s, h, ?_⟩
  have := h3 (noIndex _ (by decide +kernel)) (by
    rintro ⟨d, h | h⟩
    · have := congrArg List.getLast? h
      rw [show d ++ b!"/.." = (d ++ b!"/.") ++ [46] by simp, List.getLast?_concat] at this
      exact absurd this (by decide)
    · exact absurd h (by decide))
  have hc : pathClean b!"./static/a.txt" = b!"static/a.txt" := by decide +kernel
  rw [hc] at this
  exact this
example : ∃ s, (fixStaticRun exLib id exFS b!"a%41.txt" (exGet b!"/x") HttpResp.fresh).result = .ret s ∧
    ∀ n, .open n ∈ s.log ↔ n = b!"aA.txt" := by
  obtain ⟨s, h, -, h3⟩ := C70_exact exLib id exFS b!"a%41.txt" (exGet b!"/x") HttpResp.fresh
  exact ⟨s, h, h3 (by decide +kernel)⟩
example : ∃ s, (staticFileRun exLib id exFS b!"/files" (exGet b!"/files/a%2541") HttpResp.fresh).result = .ret s ∧
    ∀ n, .open n ∈ s.log ↔ n = b!"aA" := by
  obtain ⟨s, h, -, h3⟩ := C77_exact exLib id exFS b!"/files" (exGet b!"/files/a%2541") HttpResp.fresh b!"files" b!"a%41" rfl (by decide +kernel)
  exact ⟨s, h, h3 (by decide +kernel)⟩
example : detectContentType (List.replicate 600 65) = detectContentType (List.replicate 512 65 ++ [0, 1, 2]) :=
  C59_local _ _ (by decide +kernel)
example : (∀ c ∈ (b!"GIF89").take 512, ¬ BinaryByte c) ∨ ∃ rest, b!"GIF89" = [0xEF, 0xBB, 0xBF] ++ rest := C59_text b!"GIF89" (by decide +kernel)

/-! #### Through the server -/
open StaticMainEx

theorem idOrder : AnyOrder (id : GoMap RxPtr (Option Nat) → List (RxPtr × Option Nat)) := fun l => List.Perm.refl l

/-- The handlers of StaticMainEx and one of StaticFS("static", "/emb"). -/
def fileHandlers : Handlers3 Nat HttpReq where
  hdl := fun _ => none
  main := fun k => if k = 5 then some (staticFSMain view StaticMainEx.msg exLib id exFS b!"static" b!"/emb") else handlers.main k
  last := fun _ => none

theorem unrivalled_of (prog : List (Op Nat RxPtr)) (req : Req)
    (h1 : (prog.all fun o => (registers o).all fun x => (segs x.2).all fun s => decide (s.dropWhile (· == 58) ≠ [])) = true)
    (h2 : (prog.all fun o => (registers o).all fun x => !covers x.1 req.method ||
      (matchRoute ((segs x.2).map segPat) (segs req.path)).isNone) = true)
    (h3 : (prog.all fun o => (registersRx o).all fun x => !covers x.1 req.method || !x.2.matches req.path) = true) :
    Unrivalled prog req := ⟨cleanOps_of _ h1, noTreeRoute_of _ _ _ h2, noRxRival_of _ _ _ _ h3⟩

/-- A request without headers. -/
def bare (m p : Str) : Req := ⟨m, p, []⟩

example : ∃ calls sv d, staticCalls (rxCompileAt 2) 0 b!"/html" (some 3) [] = some calls ∧
    serveHTTP id env RxPtr.matches id (serverOf handlers (progState (fun c _ => 2 * c) (exStaticOps ++ calls ++ exStaticLater)) none 5)
      newBaseAuth (bare b!"GET" b!"/html/static/a.txt") ⟨200, [], []⟩ (fun _ => exGet b!"/html/static/a.txt") [] 0 = .ret sv ∧
    sv.ran = some d ∧ sv.resp.status = 200 ∧ sv.resp.body = b!"hello" := by
  obtain ⟨calls, h1, h2, h3⟩ := C90_static_file handlers 5 id env id idOrder newBaseAuth (bare b!"GET" b!"/html/static/a.txt")
    ⟨200, [], []⟩ (fun _ => exGet b!"/html/static/a.txt") [] 0 view StaticMainEx.msg exLib id exFS (exGet b!"/html/static/a.txt")
    (fun _ => rfl) (by decide +kernel) rfl (fun c _ => 2 * c) exStaticOps exStaticLater 2 b!"html" b!"/html" rfl (plain_ascii _ (by decide +kernel)) 3 rfl
    [b!"static", b!"a.txt"] (by simp) (good _ (by decide)) (by decide) rfl (by decide) ⟨rfl, rfl, rfl, rfl, rfl⟩
    (exFile b!"a.txt" b!"hello") (exInfo b!"a.txt" b!"hello") ⟨rfl, rfl, rfl, rfl, by decide, rfl⟩
    (unrivalled_of _ _ (by decide +kernel) (by decide +kernel) (by decide +kernel))
  obtain ⟨sv, d, h4, h5⟩ := h3 rfl
  obtain ⟨h6, h7, -⟩ := h2 sv d h4 h5
  exact ⟨calls, sv, d, h1, h4, h5, h6, h7⟩
example : ∃ calls sv d, staticCalls (rxCompileAt 2) 0 b!"/emb" (some 5) [] = some calls ∧
    serveHTTP id env RxPtr.matches id (serverOf fileHandlers (progState (fun c _ => 2 * c) (exStaticOps ++ calls ++ exStaticLater)) none 5)
      newBaseAuth (bare b!"GET" b!"/emb/a.txt") ⟨200, [], []⟩ (fun _ => exGet b!"/emb/a.txt") [] 0 = .ret sv ∧
    sv.ran = some d ∧ sv.resp.status = 200 ∧ sv.resp.body = b!"hello" := by
  obtain ⟨calls, h1, h2, h3⟩ := C90_static_embedded fileHandlers 5 id env id idOrder newBaseAuth (bare b!"GET" b!"/emb/a.txt")
    ⟨200, [], []⟩ (fun _ => exGet b!"/emb/a.txt") [] 0 view StaticMainEx.msg exLib id exFS (exGet b!"/emb/a.txt")
    (fun _ => rfl) (by decide +kernel) rfl (fun c _ => 2 * c) exStaticOps exStaticLater 2 b!"emb" b!"/emb" b!"static" rfl (plain_ascii _ (by decide +kernel)) 5
    [b!"static"] (good _ (by decide)) (by simp) (Or.inl rfl) rfl
    [b!"a.txt"] (by simp) (good _ (by decide)) (by decide) rfl (by decide) ⟨rfl, rfl, rfl, rfl, rfl⟩
    (exFile b!"a.txt" b!"hello") (exInfo b!"a.txt" b!"hello") ⟨rfl, rfl, rfl, rfl, by decide, rfl⟩
    (unrivalled_of _ _ (by decide +kernel) (by decide +kernel) (by decide +kernel))
  obtain ⟨sv, d, h4, h5⟩ := h3 rfl
  obtain ⟨h6, h7, -⟩ := h2 sv d h4 h5
  exact ⟨calls, sv, d, h1, h4, h5, h6, h7⟩
example : ∃ calls sv d, staticCalls (rxCompileAt 2) 0 b!"/html" (some 3) [] = some calls ∧
    serveHTTP id env RxPtr.matches id (serverOf handlers (progState (fun c _ => 2 * c) (exStaticOps ++ calls ++ exStaticLater)) none 5)
      newBaseAuth (bare b!"GET" b!"/html/b.txt") ⟨200, [], []⟩ (fun _ => exGet b!"/html/b.txt") [] 0 = .ret sv ∧
    sv.ran = some d ∧ sv.resp.status = 404 ∧ d.flow = .returned (some (.leaf 0 b!"file does not exist")) := by
  obtain ⟨calls, h1, h2, h3⟩ := C90_missing handlers 5 id env id idOrder newBaseAuth (bare b!"GET" b!"/html/b.txt")
    ⟨200, [], []⟩ (fun _ => exGet b!"/html/b.txt") [] 0 view StaticMainEx.msg exLib id exFS (exGet b!"/html/b.txt")
    (fun _ => rfl) (by decide +kernel) (fun c _ => 2 * c) exStaticOps exStaticLater 2 b!"html" b!"/html" rfl (plain_ascii _ (by decide +kernel)) 3 rfl
    [b!"b.txt"] (by simp) (good _ (by decide)) (by decide) (Or.inl rfl) (by decide) rfl
    (unrivalled_of _ _ (by decide +kernel) (by decide +kernel) (by decide +kernel))
  obtain ⟨sv, d, h4, h5⟩ := h3 rfl
  obtain ⟨h6, -, h8⟩ := h2 sv d h4 h5
  exact ⟨calls, sv, d, h1, h4, h5, h6, h8⟩
example : ∃ calls sv d s, staticCalls (rxCompileAt 2) 0 b!"/html" (some 3) [] = some calls ∧
    serveHTTP id env RxPtr.matches id (serverOf handlers (progState (fun c _ => 2 * c) (exStaticOps ++ calls ++ exStaticLater)) none 5)
      newBaseAuth (bare b!"HEAD" b!"/html/static") ⟨200, [], []⟩ (fun _ => exGet b!"/html/static") [] 0 = .ret sv ∧
    sv.ran = some d ∧ (staticFileRun exLib id exFS b!"/html" (exGet b!"/html/static") HttpResp.fresh).result = .ret s ∧
    sv.resp = s.resp.plain := by
  obtain ⟨calls, h1, h2, h3⟩ := C90_answer handlers 5 id env id idOrder newBaseAuth (bare b!"HEAD" b!"/html/static")
    ⟨200, [], []⟩ (fun _ => exGet b!"/html/static") [] 0 view StaticMainEx.msg (exGet b!"/html/static")
    (fun _ => rfl) (fun c _ => 2 * c) exStaticOps exStaticLater 2 b!"/html" (plain_ascii _ (by decide +kernel)) 3 _ _ rfl
    (Or.inr rfl) ⟨b!"static", by decide⟩
    (unrivalled_of _ _ (by decide +kernel) (by decide +kernel) (by decide +kernel)) _ rfl
  obtain ⟨sv, d, h4, h5⟩ := h3 rfl
  exact ⟨calls, sv, d, _, h1, h4, h5, rfl, (h2 sv d h4 h5).1⟩

/-- "/docs/index.html/" asks for the page that "/docs/index.html" only redirects. -/
example : ∃ s, fileServe exLib id (ioOpen exFS) { exGet [] with path := normalizePath b!"/docs/%69ndex.html/" } HttpResp.fresh = .ret s ∧
    Access.open b!"docs/index.html" ∈ s.log :=
  C53_exact_slash exLib id exFS (exGet []) HttpResp.fresh [b!"docs"] (by unfold Elem; decide) b!"/docs/%69ndex.html/" (by decide +kernel)

end Verif.Witness
