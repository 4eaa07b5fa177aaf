import Verif.Spec.Examples
import Verif.Props.Table
import Verif.Props.Orderly
/-
C97 for whole servers, and C98: the example programs.
-/
namespace Verif
open Spec
set_option linter.unusedSectionVars false
variable {η ρ υ : Type}

/-- The entry of an orderly table: the latest row that answers. -/
theorem entry_orderly (routes : List (Method × Str × HView η)) (hclean : cleanRows routes = true)
    (ho : orderly (routes.map fun x => (segs x.2.1).map segPat)) (meth : Method) (path : Str) :
    entry routes meth path = routes.reverse.find? fun x =>
      (matchRoute ((segs x.2.1).map segPat) (segs path)).isSome && covers x.1 meth := by
  let hist : List (Reg (Method × Str × HView η)) := routes.map fun x => ⟨x.1, x.2.1, x⟩
  have e1 : hist.map Reg.toRoute = routes.map asRoute := by
    simp only [hist, List.map_map]; rfl
  have e2 : hist.map routePats = routes.map fun x => (segs x.2.1).map segPat := by
    simp only [hist, List.map_map]; rfl
  have hcl : ∀ r ∈ hist, Clean r := by
    intro r hr
    obtain ⟨x, hx, rfl⟩ := List.mem_map.1 hr
    intro s hs
    simp only [cleanRows, List.all_eq_true, decide_eq_true_eq] at hclean
    exact hclean x hx s hs
  have h1 := find_clean hcl meth path []
  have h2 := C97_reading hist hcl (by rw [e2]; exact ho) meth path []
  rw [h1, e1] at h2
  have e3 : (hist.reverse.find? fun r => (matchRoute (routePats r) (segs path)).isSome && covers r.method meth) =
      (routes.reverse.find? fun x => (matchRoute ((segs x.2.1).map segPat) (segs path)).isSome && covers x.1 meth).map
        fun x => (⟨x.1, x.2.1, x⟩ : Reg _) := by
    simp only [hist, ← List.map_reverse, List.find?_map]
    rfl
  rw [e3] at h2
  unfold entry
  cases hs : serve (routes.map asRoute) meth (segs path) with
  | none =>
    cases hf : routes.reverse.find? fun x => (matchRoute ((segs x.2.1).map segPat) (segs path)).isSome && covers x.1 meth with
    | none => rfl
    | some y => rw [hs, hf] at h2; simp [specResult, FindResult.notFound] at h2
  | some a =>
    cases hf : routes.reverse.find? fun x => (matchRoute ((segs x.2.1).map segPat) (segs path)).isSome && covers x.1 meth with
    | none => rw [hs, hf] at h2; simp [specResult] at h2
    | some y =>
      rw [hs, hf] at h2
      simp only [specResult, Option.map_some, Outcome.ret.injEq, FindResult.mk.injEq, Option.some.injEq] at h2
      simp [h2.1]

theorem share_of_covers {a b m : Method} (ha : covers a m = true) (hb : covers b m = true) : shareMethod a b = true := by
  unfold shareMethod
  by_cases ea : a = b!"GETPOST" ∨ a = b!"GETHEAD"
  · by_cases eb : b = b!"GETPOST" ∨ b = b!"GETHEAD"
    · simp only [ea, eb, decide_true, Bool.and_self, Bool.or_true]
    · have : m = b := by
        have h1 : b ≠ b!"GETPOST" := fun h => eb (Or.inl h)
        have h2 : b ≠ b!"GETHEAD" := fun h => eb (Or.inr h)
        simpa [covers, h1, h2] using hb
      rw [this] at ha
      simp [ha]
  · have : m = a := by
      have h1 : a ≠ b!"GETPOST" := fun h => ea (Or.inl h)
      have h2 : a ≠ b!"GETHEAD" := fun h => ea (Or.inr h)
      simpa [covers, h1, h2] using ha
    rw [this] at hb
    simp [hb]

/-- The row that answers. -/
theorem the_row [DecidableEq η] (rows : List (Method × Str × HView η)) (hclean : cleanRows rows = true)
    (ho : orderlyCheck (rows.map fun x => (segs x.2.1).map segPat) = true) (hcol : noCollision rows = true) (req : Req) :
    (∀ x ∈ rows, answers x req → entry rows req.method req.path = some x) ∧
    ((∀ x ∈ rows, ¬ answers x req) → entry rows req.method req.path = none) := by
  rw [entry_orderly rows hclean ((orderlyCheck_iff _).1 ho)]
  constructor
  · intro x hx ha
    cases hf : rows.reverse.find? fun x => (matchRoute ((segs x.2.1).map segPat) (segs req.path)).isSome && covers x.1 req.method with
    | none =>
      rw [List.find?_eq_none] at hf
      exact absurd (by simp [ha.1, ha.2]) (hf x (by simpa using hx))
    | some y =>
      have hy := List.mem_of_find?_eq_some hf
      have hp := List.find?_some hf
      rw [List.mem_reverse] at hy
      simp only [Bool.and_eq_true] at hp
      simp only [noCollision, List.all_eq_true, Bool.or_eq_true, decide_eq_true_eq] at hcol
      rcases hcol x hx y hy with h | h
      · rw [h]
      · exfalso
        obtain ⟨bx, hbx⟩ := Option.isSome_iff_exists.1 ha.2
        obtain ⟨b', hb'⟩ := Option.isSome_iff_exists.1 hp.1
        rw [share_of_covers ha.1 hp.2, meets_of_path (competes_of_match hbx) hp.1, meets_of_path (competes_of_match hb') ha.2] at h
        simp at h
  · intro h
    rw [List.find?_eq_none]
    intro x hx hc
    simp only [Bool.and_eq_true] at hc
    exact h x (by simpa using hx) ⟨hc.2, hc.1⟩

variable [Inhabited η] [DecidableEq ρ]

section
variable (I : Handlers3 η υ) (init : Option (RCtx υ → Prog υ)) (level : Int)
  (u : Str → Str) (env : Env υ) (rxMatch : ρ → Str → Bool) (visit : GoMap ρ (Option Nat) → List (ρ × Option Nat))
  (hv : AnyOrder visit)
  (ba : BaseAuth) (req : Req) (resp : Resp) (store : Args → υ) (buf : Args) (clock : Nat)

include hv in
/-- **C97** for whole servers.  If the table of a program (read as values) is orderly and no two rows of it answer the same
request, then every request that some row answers is processed exactly as by a server that has only that row. -/
theorem C97_server [DecidableEq η] (grow : Nat → Nat → Nat) (ops : List (Op η ρ)) (hp : ByValue ops) (hops : cleanOps ops)
    (hclean : cleanRows (vrun rxMethods ops).routes = true)
    (ho : orderlyCheck ((vrun rxMethods ops).routes.map fun x => (segs x.2.1).map segPat) = true)
    (hcol : noCollision (vrun rxMethods ops).routes = true) (x : Method × Str × HView η)
    (hx : x ∈ (vrun rxMethods ops).routes) (ha : answers x req) :
    serveHTTP u env rxMatch visit (serverOf I (progState grow ops) init level) ba req resp store buf clock =
    serveHTTP u env rxMatch visit (soleServer I x.1 x.2.1 x.2.2 init level) ba req resp store buf clock :=
  (C96_table I init level u env rxMatch visit hv ba req resp store buf clock grow ops hp hops).1 x
    ((the_row _ hclean ho hcol req).1 x hx ha)

include hv in
/-- **C96**, nothing: a server that has nothing answers 404 to every request (that basic authentication lets through). -/
theorem C96_empty (hu : ba.use = false) : serveHTTP u env rxMatch visit (emptyServer (ρ := ρ) init level) ba req resp store buf clock =
    .ret ⟨[], some ⟨none, .returned (some (.leaf 0 (b!"path '" ++ req.path ++ b!"' not found"))), respError b!"not found" 404⟩,
      respError b!"not found" 404⟩ := by
  obtain ⟨rt, ht, -, hmiss, hnf⟩ := C14_tree_first rxMatch visit (newTree : Node Nat) (newRegTree : RegTable ρ Nat) req.method req.path buf
  have hf : rt.found = false := by
    cases hf : rt.found with
    | false => rfl
    | true =>
      obtain ⟨r, hr, -⟩ := C02_sound ([] : List (Reg Nat)) req.method req.path buf rt ht hf
      simp at hr
  have hr : (regFind rxMatch visit (newRegTree : RegTable ρ Nat) req.method req.path []).found = false := by
    cases hf : (regFind rxMatch visit (newRegTree : RegTable ρ Nat) req.method req.path []).found with
    | false => rfl
    | true =>
      obtain ⟨d1, -⟩ := C13_found_iff ([] : List (RxReg ρ Nat)) (by simp) rxMatch visit hv req.method req.path []
      obtain ⟨y, hy, -⟩ := d1.1 hf
      simp at hy
  unfold serveHTTP runHTTP
  simp only [hu, Bool.false_eq_true, if_false]
  rw [show (emptyServer (ρ := ρ) init level).tree = newTree from rfl, show (emptyServer (ρ := ρ) init level).regs = newRegTree from rfl, hmiss hf]
  simp [hr]

/-- What the checks over the calls need. -/
def callsOk (ops : List (Op η ρ)) : Bool :=
  ops.all fun o => plain o && !isRClone o && (registers o).all fun x => (segs x.2).all fun s => decide (s.dropWhile (· == 58) ≠ [])

theorem callsOk_iff {ops : List (Op η ρ)} (h : callsOk ops = true) : ByValue ops ∧ cleanOps ops := by
  simp only [callsOk, List.all_eq_true, Bool.and_eq_true, Bool.not_eq_true'] at h
  refine ⟨⟨fun o ho => (h o ho).1.1, Or.inl fun o ho => (h o ho).1.2⟩, ?_⟩
  intro o ho m route hr s hs
  have := (h o ho).2
  rw [hr] at this
  simp only [Option.all_some, List.all_eq_true, decide_eq_true_eq] at this
  exact this s hs

include hv in
/-- A program with these rows and at most one expression. -/
theorem program_serves [DecidableEq η] (grow : Nat → Nat → Nat) (ops : List (Op η ρ)) (hok : callsOk ops = true)
    (rows : List (Method × Str × HView η)) (rxs : List (Method × ρ × HView η)) (hrows : (vrun rxMethods ops).routes = rows)
    (hrxs : (vrun rxMethods ops).rxRoutes = rxs) (hone : rxs.length ≤ 1)
    (hcheck : (cleanRows rows && orderlyCheck (rows.map fun x => (segs x.2.1).map segPat) && noCollision rows) = true) :
    (∀ x ∈ rows, answers x req →
      serveHTTP u env rxMatch visit (serverOf I (progState grow ops) init level) ba req resp store buf clock =
      serveHTTP u env rxMatch visit (soleServer I x.1 x.2.1 x.2.2 init level) ba req resp store buf clock) ∧
    ((∀ x ∈ rows, ¬ answers x req) →
      (∀ y ∈ rxs, covers y.1 req.method = true → rxMatch y.2.1 req.path = true →
        serveHTTP u env rxMatch visit (serverOf I (progState grow ops) init level) ba req resp store buf clock =
        serveHTTP u env rxMatch visit (soleRegServer I y.1 y.2.1 y.2.2 init level) ba req resp store buf clock) ∧
      ((∀ y ∈ rxs, covers y.1 req.method = true → rxMatch y.2.1 req.path = false) →
        serveHTTP u env rxMatch visit (serverOf I (progState grow ops) init level) ba req resp store buf clock =
        serveHTTP u env rxMatch visit (emptyServer init level) ba req resp store buf clock)) := by
  obtain ⟨hp, hops⟩ := callsOk_iff hok
  simp only [Bool.and_eq_true] at hcheck
  obtain ⟨t1, t2, t3⟩ := C96_table I init level u env rxMatch visit hv ba req resp store buf clock grow ops hp hops
  rw [hrows] at t1 t2 t3
  rw [hrxs] at t2 t3
  obtain ⟨r1, r2⟩ := the_row rows hcheck.1.1 hcheck.1.2 hcheck.2 req
  refine ⟨fun x hx ha => t1 x (r1 x hx ha), fun hno => ⟨fun y hy hc hm => ?_, t2 (r2 hno)⟩⟩
  obtain ⟨z, hz, -, e⟩ := t3 (r2 hno) ⟨y, hy, hc, hm⟩
  have hzm : z ∈ rxs := by
    unfold rxEntry at hz
    simpa using List.mem_of_find?_eq_some hz
  have : z = y := by
    match rxs, hone with
    | [], _ => simp at hy
    | [a], _ => simp only [List.mem_singleton] at hy hzm; rw [hy, hzm]
  rw [this] at e
  exact e

end

/-! ### C98 The example programs -/

section
variable (I : Handlers3 ExH υ) (init : Option (RCtx υ → Prog υ)) (level : Int)
  (u : Str → Str) (env : Env υ)
  (ba : BaseAuth) (req : Req) (resp : Resp) (store : Args → υ) (buf : Args) (clock : Nat)

/-- **C98** examples/server.go: each row is served on all its paths by exactly its handlers, everything else is not found. -/
theorem C98_server (rxMatch : RxPtr → Str → Bool) (visit : GoMap RxPtr (Option Nat) → List (RxPtr × Option Nat)) (hv : AnyOrder visit)
    (grow : Nat → Nat → Nat) :
    (∀ x ∈ serverRows, answers x req →
      serveHTTP u env rxMatch visit (serverOf I (progState grow exampleServer) init level) ba req resp store buf clock =
      serveHTTP u env rxMatch visit (soleServer I x.1 x.2.1 x.2.2 init level) ba req resp store buf clock) ∧
    ((∀ x ∈ serverRows, ¬ answers x req) →
      serveHTTP u env rxMatch visit (serverOf I (progState grow exampleServer) init level) ba req resp store buf clock =
      serveHTTP u env rxMatch visit (emptyServer init level) ba req resp store buf clock) := by
  obtain ⟨h1, h2⟩ := program_serves I init level u env rxMatch visit hv ba req resp store buf clock grow exampleServer (by decide +kernel)
    serverRows [] (by decide +kernel) rfl (by simp) (by decide +kernel)
  exact ⟨h1, fun h => (h2 h).2 (by simp)⟩

/-- **C98** examples/example_1. -/
theorem C98_example_1 (rxMatch : RxPtr → Str → Bool) (visit : GoMap RxPtr (Option Nat) → List (RxPtr × Option Nat)) (hv : AnyOrder visit)
    (grow : Nat → Nat → Nat) :
    (∀ x ∈ example1Rows, answers x req →
      serveHTTP u env rxMatch visit (serverOf I (progState grow example1) init level) ba req resp store buf clock =
      serveHTTP u env rxMatch visit (soleServer I x.1 x.2.1 x.2.2 init level) ba req resp store buf clock) ∧
    ((∀ x ∈ example1Rows, ¬ answers x req) →
      serveHTTP u env rxMatch visit (serverOf I (progState grow example1) init level) ba req resp store buf clock =
      serveHTTP u env rxMatch visit (emptyServer init level) ba req resp store buf clock) := by
  obtain ⟨h1, h2⟩ := program_serves I init level u env rxMatch visit hv ba req resp store buf clock grow example1 (by decide +kernel)
    example1Rows [] (by decide +kernel) rfl (by simp) (by decide +kernel)
  exact ⟨h1, fun h => (h2 h).2 (by simp)⟩

/-- The static row of the other examples. -/
def htmlRow (rx : RxPtr) : Method × RxPtr × HView ExH :=
  (b!"GETHEAD", rx, ⟨[], [], none, some (.static b!"data" b!"/html")⟩)

/-- A program with these rows and static files under /html. -/
theorem html_serves (visit : GoMap RxPtr (Option Nat) → List (RxPtr × Option Nat)) (hv : AnyOrder visit)
    (grow : Nat → Nat → Nat) (ops : List (Op ExH RxPtr)) (rows : List (Method × Str × HView ExH)) (rx : RxPtr)
    (hm : ∀ s, rx.matches s = true ↔ b!"/html/" <+: s) (hok : callsOk ops = true) (hrows : (vrun rxMethods ops).routes = rows)
    (hrxs : (vrun rxMethods ops).rxRoutes = [htmlRow rx])
    (hcheck : (cleanRows rows && orderlyCheck (rows.map fun x => (segs x.2.1).map segPat) && noCollision rows) = true) :
    (∀ x ∈ rows, answers x req →
      serveHTTP u env RxPtr.matches visit (serverOf I (progState grow ops) init level) ba req resp store buf clock =
      serveHTTP u env RxPtr.matches visit (soleServer I x.1 x.2.1 x.2.2 init level) ba req resp store buf clock) ∧
    ((∀ x ∈ rows, ¬ answers x req) →
      ((req.method = b!"GET" ∨ req.method = b!"HEAD") ∧ b!"/html/" <+: req.path →
        serveHTTP u env RxPtr.matches visit (serverOf I (progState grow ops) init level) ba req resp store buf clock =
        serveHTTP u env RxPtr.matches visit (soleRegServer I b!"GETHEAD" rx ⟨[], [], none, some (.static b!"data" b!"/html")⟩ init level)
          ba req resp store buf clock) ∧
      (¬ ((req.method = b!"GET" ∨ req.method = b!"HEAD") ∧ b!"/html/" <+: req.path) →
        serveHTTP u env RxPtr.matches visit (serverOf I (progState grow ops) init level) ba req resp store buf clock =
        serveHTTP u env RxPtr.matches visit (emptyServer init level) ba req resp store buf clock)) := by
  have hcov : ∀ m, covers b!"GETHEAD" m = true ↔ m = b!"GET" ∨ m = b!"HEAD" := fun m => (covers_exact m).2.1
  obtain ⟨h1, h2⟩ := program_serves I init level u env RxPtr.matches visit hv ba req resp store buf clock grow ops hok
    rows [htmlRow rx] hrows hrxs (by simp) hcheck
  refine ⟨h1, fun hno => ?_⟩
  obtain ⟨g1, g2⟩ := h2 hno
  refine ⟨fun ⟨hmeth, hpath⟩ => g1 (htmlRow rx) (by simp) ((hcov _).2 hmeth) ((hm _).2 hpath), fun hn => g2 ?_⟩
  intro y hy hcy
  simp only [List.mem_singleton] at hy
  subst hy
  cases hx : RxPtr.matches (htmlRow rx).2.1 req.path with
  | false => rfl
  | true => exact absurd ⟨(hcov _).1 hcy, (hm _).1 hx⟩ hn

/-- **C98** examples/example_2: the program starts; its rows are served on all their paths, other GET and HEAD requests for a
path under /html/ by the static handler alone, and everything else is not found. -/
theorem C98_example_2 (visit : GoMap RxPtr (Option Nat) → List (RxPtr × Option Nat)) (hv : AnyOrder visit) (addr : Nat)
    (grow : Nat → Nat → Nat) :
    ∃ ops rx, example2 addr = some ops ∧ (∀ s, rx.matches s = true ↔ b!"/html/" <+: s) ∧
    (∀ x ∈ cookieRows ++ [iconRow], answers x req →
      serveHTTP u env RxPtr.matches visit (serverOf I (progState grow ops) init level) ba req resp store buf clock =
      serveHTTP u env RxPtr.matches visit (soleServer I x.1 x.2.1 x.2.2 init level) ba req resp store buf clock) ∧
    ((∀ x ∈ cookieRows ++ [iconRow], ¬ answers x req) →
      ((req.method = b!"GET" ∨ req.method = b!"HEAD") ∧ b!"/html/" <+: req.path →
        serveHTTP u env RxPtr.matches visit (serverOf I (progState grow ops) init level) ba req resp store buf clock =
        serveHTTP u env RxPtr.matches visit (soleRegServer I b!"GETHEAD" rx ⟨[], [], none, some (.static b!"data" b!"/html")⟩ init level)
          ba req resp store buf clock) ∧
      (¬ ((req.method = b!"GET" ∨ req.method = b!"HEAD") ∧ b!"/html/" <+: req.path) →
        serveHTTP u env RxPtr.matches visit (serverOf I (progState grow ops) init level) ba req resp store buf clock =
        serveHTTP u env RxPtr.matches visit (emptyServer init level) ba req resp store buf clock)) := by
  obtain ⟨parts, hc, hm⟩ := rx_literal b!"/html" (plain_ascii _ (by decide +kernel))
  refine ⟨_, ⟨addr, parts⟩, ?_, hm, html_serves I init level u env ba req resp store buf clock visit hv grow
    (cookieRoutes ++ [.newSet, .sAddReg b!"GETHEAD" ⟨addr, parts⟩ (some (.static b!"data" b!"/html")) (some 0)] ++
      fixStaticCalls 1 b!"/favicon.ico" (some (.fix b!"/data/favicons/favicon.ico")) [])
    (cookieRows ++ [iconRow]) ⟨addr, parts⟩ hm rfl rfl rfl (by decide +kernel)⟩
  unfold example2 staticCalls rxCompileAt staticExpr
  rw [hc]
  rfl

/-- **C98** examples/example_3: the same without the icon. -/
theorem C98_example_3 (visit : GoMap RxPtr (Option Nat) → List (RxPtr × Option Nat)) (hv : AnyOrder visit) (addr : Nat)
    (grow : Nat → Nat → Nat) :
    ∃ ops rx, example3 addr = some ops ∧ (∀ s, rx.matches s = true ↔ b!"/html/" <+: s) ∧
    (∀ x ∈ cookieRows, answers x req →
      serveHTTP u env RxPtr.matches visit (serverOf I (progState grow ops) init level) ba req resp store buf clock =
      serveHTTP u env RxPtr.matches visit (soleServer I x.1 x.2.1 x.2.2 init level) ba req resp store buf clock) ∧
    ((∀ x ∈ cookieRows, ¬ answers x req) →
      ((req.method = b!"GET" ∨ req.method = b!"HEAD") ∧ b!"/html/" <+: req.path →
        serveHTTP u env RxPtr.matches visit (serverOf I (progState grow ops) init level) ba req resp store buf clock =
        serveHTTP u env RxPtr.matches visit (soleRegServer I b!"GETHEAD" rx ⟨[], [], none, some (.static b!"data" b!"/html")⟩ init level)
          ba req resp store buf clock) ∧
      (¬ ((req.method = b!"GET" ∨ req.method = b!"HEAD") ∧ b!"/html/" <+: req.path) →
        serveHTTP u env RxPtr.matches visit (serverOf I (progState grow ops) init level) ba req resp store buf clock =
        serveHTTP u env RxPtr.matches visit (emptyServer init level) ba req resp store buf clock)) := by
  obtain ⟨parts, hc, hm⟩ := rx_literal b!"/html" (plain_ascii _ (by decide +kernel))
  refine ⟨_, ⟨addr, parts⟩, ?_, hm, html_serves I init level u env ba req resp store buf clock visit hv grow
    (cookieRoutes ++ [.newSet, .sAddReg b!"GETHEAD" ⟨addr, parts⟩ (some (.static b!"data" b!"/html")) (some 0)])
    (cookieRows) ⟨addr, parts⟩ hm rfl rfl rfl (by decide +kernel)⟩
  unfold example3 staticCalls rxCompileAt staticExpr
  rw [hc]
  rfl

/-- **C98** examples/static_video. -/
theorem C98_video (visit : GoMap RxPtr (Option Nat) → List (RxPtr × Option Nat)) (hv : AnyOrder visit) (addr : Nat)
    (grow : Nat → Nat → Nat) :
    ∃ ops rx, exampleVideo addr = some ops ∧ (∀ s, rx.matches s = true ↔ b!"/html/" <+: s) ∧
    (∀ x ∈ videoRows, answers x req →
      serveHTTP u env RxPtr.matches visit (serverOf I (progState grow ops) init level) ba req resp store buf clock =
      serveHTTP u env RxPtr.matches visit (soleServer I x.1 x.2.1 x.2.2 init level) ba req resp store buf clock) ∧
    ((∀ x ∈ videoRows, ¬ answers x req) →
      ((req.method = b!"GET" ∨ req.method = b!"HEAD") ∧ b!"/html/" <+: req.path →
        serveHTTP u env RxPtr.matches visit (serverOf I (progState grow ops) init level) ba req resp store buf clock =
        serveHTTP u env RxPtr.matches visit (soleRegServer I b!"GETHEAD" rx ⟨[], [], none, some (.static b!"data" b!"/html")⟩ init level)
          ba req resp store buf clock) ∧
      (¬ ((req.method = b!"GET" ∨ req.method = b!"HEAD") ∧ b!"/html/" <+: req.path) →
        serveHTTP u env RxPtr.matches visit (serverOf I (progState grow ops) init level) ba req resp store buf clock =
        serveHTTP u env RxPtr.matches visit (emptyServer init level) ba req resp store buf clock)) := by
  obtain ⟨parts, hc, hm⟩ := rx_literal b!"/html" (plain_ascii _ (by decide +kernel))
  refine ⟨_, ⟨addr, parts⟩, ?_, hm, html_serves I init level u env ba req resp store buf clock visit hv grow
    ([.newRouter, .rUse 0 b!"GETPOST" b!"/" (some (.ih b!"for MethodGetPost '/'")),
     .newRouter, .rUse 1 b!"GETPOST" b!"/file" (some .video)] ++ [.newSet, .sAddReg b!"GETHEAD" ⟨addr, parts⟩ (some (.static b!"data" b!"/html")) (some 0)])
    (videoRows) ⟨addr, parts⟩ hm rfl rfl rfl (by decide +kernel)⟩
  unfold exampleVideo staticCalls rxCompileAt staticExpr
  rw [hc]
  rfl

end

/-- Requests that rows answer. -/
example : ∃ x ∈ example1Rows, x.2.1 = b!"/user/:user_id/:action" ∧ answers x ⟨b!"GET", b!"/user/7/edit", []⟩ :=
  ⟨example1Rows[7], by decide +kernel, by decide +kernel, by decide +kernel, by decide +kernel⟩
example : (∀ x ∈ example1Rows, ¬ answers x ⟨b!"PUT", b!"/a", []⟩) := by
  intro x hx h
  have : ∀ x ∈ example1Rows, covers x.1 b!"PUT" = false := by decide +kernel
  have h1 := this x hx
  rw [h.1] at h1
  cases h1
example : answers iconRow ⟨b!"POST", b!"/favicon.ico", []⟩ := ⟨by decide +kernel, by decide +kernel⟩

end Verif
