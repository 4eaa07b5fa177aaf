import Verif.Spec.Odd
import Verif.Props.Every
import Verif.Props.Whole
/-
C138: a whole server, with whatever routes, is the reading of its table.
-/
namespace Verif
open Spec
set_option linter.unusedSectionVars false

/-! ### Reading a table does not look at what is registered -/

section
variable {σ τ : Type}

/-- Another thing registered at the same row. -/
def Spec.Row.mapSet (f : σ → τ) (r : Row σ) : Row τ := ⟨r.segs, r.method, f r.set⟩

def Spec.Fork.mapSet (f : σ → τ) (x : Fork σ) : Fork τ := ⟨x.text, x.name, x.rows.map (Row.mapSet f)⟩

theorem forkFirst_mapSet (f : σ → τ) (p : Str) (r : Row σ) (fs : List (Fork σ)) :
    forkFirst p (r.mapSet f) (fs.map (Fork.mapSet f)) = (forkFirst p r fs).map (Fork.mapSet f) := by
  induction fs with
  | nil => rfl
  | cons x fs ih =>
    simp only [List.map_cons, forkFirst, ih]
    by_cases h : x.text = p
    · simp [Fork.mapSet, h, Fork.take]
    · simp [Fork.mapSet, h]

theorem fork_mapSet (f : σ → τ) (below : Bool) (fs : List (Fork σ)) (r : Row σ) :
    fork below (fs.map (Fork.mapSet f)) (r.mapSet f) = (fork below fs r).map (Fork.mapSet f) := by
  unfold fork
  cases hs : r.segs with
  | nil => simp [Row.mapSet, hs]
  | cons p ps =>
    simp only [Row.mapSet, hs]
    by_cases h : below = true ∧ fs ≠ []
    · rw [if_pos h, if_pos (by simpa using h), List.map_map, List.map_map]
      apply List.map_congr_left
      intro x _
      simp [Fork.mapSet, Fork.take, Row.mapSet]
    · rw [if_neg h, if_neg (by simpa using h)]
      exact forkFirst_mapSet f p ⟨ps, r.method, r.set⟩ fs

theorem forks_mapSet (f : σ → τ) (below : Bool) (rows : List (Row σ)) :
    forks below (rows.map (Row.mapSet f)) = (forks below rows).map (Fork.mapSet f) := by
  have key : ∀ (rows : List (Row σ)) (fs : List (Fork σ)),
      (rows.map (Row.mapSet f)).foldl (fork below) (fs.map (Fork.mapSet f)) = (rows.foldl (fork below) fs).map (Fork.mapSet f) := by
    intro rows
    induction rows with
    | nil => intro fs; rfl
    | cons r rows ih => intro fs; simp only [List.map_cons, List.foldl_cons, fork_mapSet, ih]
  exact key rows []

theorem choices_mapSet (f : σ → τ) (ss : List Str) : ∀ (below : Bool) (rows : List (Row σ)),
    choices below (rows.map (Row.mapSet f)) ss = (choices below rows ss).map fun c => (c.1.map (Row.mapSet f), c.2) := by
  induction ss with
  | nil => intro below rows; simp only [choices, List.filter_map, List.map_cons, List.map_nil]; rfl
  | cons s ss ih =>
    intro below rows
    simp only [choices]
    rw [forks_mapSet, List.flatMap_map, List.map_flatMap]
    congr 1
    funext x
    simp only [Fork.mapSet, ih]
    by_cases hn : x.name = []
    · by_cases ht : x.text = s <;> simp [hn, ht]
    · simp [hn]

theorem serveEvery_mapSet (f : σ → τ) (rows : List (Row σ)) (m : Str) (ss : List Str) :
    serveEvery (rows.map (Row.mapSet f)) m ss = (serveEvery rows m ss).map fun x => (x.1.mapSet f, x.2) := by
  unfold serveEvery
  rw [choices_mapSet]
  cases choices false rows ss with
  | nil => rfl
  | cons c cs =>
    simp only [List.map_cons, ← List.map_reverse, List.find?_map, Option.map_map]
    rfl

end

/-! ### C138 -/

variable {η ρ υ : Type} [Inhabited η] [DecidableEq ρ]

section
variable (I : Handlers3 η υ) (init : Option (RCtx υ → Prog υ)) (level : Int)
  (u : Str → Str) (env : Env υ) (rxMatch : ρ → Str → Bool) (visit : GoMap ρ (Option Nat) → List (ρ × Option Nat))
  (hv : AnyOrder visit)
  (ba : BaseAuth) (req : Req) (resp : Resp) (store : Args → υ) (buf : Args) (clock : Nat)

/-- What is found in a world, from its table. -/
theorem every_found (w : World η ρ) (routes : List (Method × Str × HView η)) (hwf : WF w)
    (hlog : w.log.map (fun r => (r.method, r.route, setHandlers w r.set)) = routes.map fun x => (x.1, x.2.1, some x.2.2)) :
    (∀ x b, entryEvery routes req.method req.path = some (x, b) → ∃ i,
      serverFind rxMatch visit w.tree w.regs req.method req.path buf = .ret ⟨some i, true, b⟩ ∧ setHandlers w i = some x.2.2) ∧
    (entryEvery routes req.method req.path = none →
      serverFind rxMatch visit w.tree w.regs req.method req.path buf = .ret (regFind rxMatch visit (regOf w.rxLog) req.method req.path [])) := by
  obtain ⟨z, z1, z2, z3⟩ := zip_table _ _ _ _ hlog
  let base : List (Row (Reg Nat × (Method × Str × HView η))) := z.map fun p => ⟨segs p.1.route, p.1.method, p⟩
  have b1 : w.log.map Reg.toRow = base.map (Row.mapSet fun p => p.1.set) := by
    rw [← z1]
    simp only [base, List.map_map]
    rfl
  have b2 : (routes.map fun x => (⟨segs x.2.1, x.1, x⟩ : Row (Method × Str × HView η))) = base.map (Row.mapSet (·.2)) := by
    rw [← z2]
    simp only [base, List.map_map]
    apply List.map_congr_left
    intro p hp
    have := z3 p hp
    simp only [Prod.mk.injEq] at this
    simp [Row.mapSet, this.1, this.2.1]
  have hfind : treeFind w.tree req.method req.path buf =
      .ret (rowResult (serveEvery (w.log.map Reg.toRow) req.method (segs req.path))) := by
    rw [hwf.tree]; exact treeFind_every _ req.method req.path buf
  have hsv1 := serveEvery_mapSet (fun p : Reg Nat × (Method × Str × HView η) => p.1.set) base req.method (segs req.path)
  have hsv2 := serveEvery_mapSet (fun p : Reg Nat × (Method × Str × HView η) => p.2) base req.method (segs req.path)
  rw [← b1] at hsv1
  rw [← b2] at hsv2
  refine ⟨?_, ?_⟩
  · intro x b hx
    unfold entryEvery at hx
    rw [hsv2] at hx
    cases hs : serveEvery base req.method (segs req.path) with
    | none => rw [hs] at hx; simp at hx
    | some a =>
      obtain ⟨r, b'⟩ := a
      rw [hs] at hx hsv1
      simp only [Option.map_some, Option.some.injEq, Row.mapSet, Prod.mk.injEq] at hx
      obtain ⟨rfl, rfl⟩ := hx
      refine ⟨r.set.1.set, ?_, ?_⟩
      · refine found_in_tree rxMatch visit _ _ _ _ _ _ _ ?_
        rw [hfind, hsv1]
        rfl
      · have hmem : r.set ∈ z := by
          have h : r ∈ base ∨ True := Or.inr trivial
          unfold serveEvery at hs
          cases hc : choices false base (segs req.path) with
          | nil => rw [hc] at hs; simp at hs
          | cons c cs =>
            obtain ⟨rs, bb⟩ := c
            rw [hc] at hs
            simp only at hs
            obtain ⟨y, hy, e⟩ := Option.map_eq_some_iff.1 hs
            simp only [Prod.mk.injEq] at e
            obtain ⟨rfl, rfl⟩ := e
            obtain ⟨i, o, h1, h2, h3, -, -⟩ := choices_reads (segs req.path) false base (rs, bb) (by rw [hc]; simp) y
              (List.mem_reverse.1 (List.mem_of_find?_eq_some hy))
            have ho : o ∈ base := List.mem_of_getElem? h1
            obtain ⟨p, hp, rfl⟩ := List.mem_map.1 ho
            rw [← h3]
            exact hp
        have e := z3 r.set hmem
        simp only [Prod.mk.injEq] at e
        exact e.2.2
  · intro he
    unfold entryEvery at he
    rw [Option.map_eq_none_iff, hsv2, Option.map_eq_none_iff] at he
    rw [he] at hsv1
    obtain ⟨rt, ht, -, hm, -⟩ := C14_tree_first rxMatch visit w.tree w.regs req.method req.path buf
    rw [hfind, hsv1] at ht
    simp only [Outcome.ret.injEq] at ht
    rw [hm (by rw [← ht]; rfl), hwf.regs]

variable (grow : Nat → Nat → Nat) (ops : List (Op η ρ)) (hp : ByValue ops)

include hp in
/-- **C138**, served.  For every program of calls, whatever the routes look like, and every request: if reading its table gives an entry and
bindings, the request is answered exactly as by a server with one ordinary route that binds the same, and the handlers of the entry. -/
theorem C138_served (x : Method × Str × HView η) (b : List (Str × Str))
    (hx : entryEvery (vrun rxMethods ops).routes req.method req.path = some (x, b))
    (m : Method) (route : Str) (hm : covers m req.method = true) (hc : ∀ s ∈ segs route, s.dropWhile (· == 58) ≠ [])
    (hb : matchRoute ((segs route).map segPat) (segs req.path) = some b) :
    serveHTTP u env rxMatch visit (serverOf I (progState grow ops) init level) ba req resp store buf clock =
    serveHTTP u env rxMatch visit (soleServer I m route x.2.2 init level) ba req resp store buf clock := by
  obtain ⟨nc, hrel⟩ := byValue_rel grow ops hp
  obtain ⟨i, h1, h2⟩ := (every_found rxMatch visit req buf (progState grow ops) _ hrel.wf hrel.log).1 x b hx
  refine serveHTTP_same u env rxMatch visit _ _ ba req resp store buf clock fun resp => ?_
  refine runHTTP_same env rxMatch visit _ _ req.method req.path resp store buf clock i 0 b h1 ?_ ?_ rfl rfl
  · refine found_in_tree rxMatch visit _ _ _ _ _ _ _ ?_
    exact sole_find m req.method route req.path buf b hc hm hb
  · simp [serverOf, soleServer, viewSet, h2]

include hp in
/-- **C138**, the reading is all there is: two programs of calls, whatever their routes look like, answer a request alike if reading their tables
gives the same handlers and the same bindings. -/
theorem C138_alike (grow' : Nat → Nat → Nat) (ops' : List (Op η ρ)) (hp' : ByValue ops')
    (x x' : Method × Str × HView η) (b : List (Str × Str))
    (hx : entryEvery (vrun rxMethods ops).routes req.method req.path = some (x, b))
    (hx' : entryEvery (vrun rxMethods ops').routes req.method req.path = some (x', b)) (he : x.2.2 = x'.2.2) :
    serveHTTP u env rxMatch visit (serverOf I (progState grow ops) init level) ba req resp store buf clock =
    serveHTTP u env rxMatch visit (serverOf I (progState grow' ops') init level) ba req resp store buf clock := by
  obtain ⟨nc, hrel⟩ := byValue_rel grow ops hp
  obtain ⟨nc', hrel'⟩ := byValue_rel grow' ops' hp'
  obtain ⟨i, h1, h2⟩ := (every_found rxMatch visit req buf (progState grow ops) _ hrel.wf hrel.log).1 x b hx
  obtain ⟨j, g1, g2⟩ := (every_found rxMatch visit req buf (progState grow' ops') _ hrel'.wf hrel'.log).1 x' b hx'
  refine serveHTTP_same u env rxMatch visit _ _ ba req resp store buf clock fun resp => ?_
  refine runHTTP_same env rxMatch visit _ _ req.method req.path resp store buf clock i j b h1 g1 ?_ rfl rfl
  simp [serverOf, viewSet, h2, g2, he]

include hp hv in
/-- **C138**, not in the table: the latest registration of a matching expression answers, or nobody. -/
theorem C138_unrouted (he : entryEvery (vrun rxMethods ops).routes req.method req.path = none) :
    ((∀ y ∈ (vrun rxMethods ops).rxRoutes, covers y.1 req.method = true → rxMatch y.2.1 req.path = false) →
      serveHTTP u env rxMatch visit (serverOf I (progState grow ops) init level) ba req resp store buf clock =
      serveHTTP u env rxMatch visit (emptyServer init level) ba req resp store buf clock) ∧
    ((∃ y ∈ (vrun rxMethods ops).rxRoutes, covers y.1 req.method = true ∧ rxMatch y.2.1 req.path = true) →
      ∃ y, rxEntry (vrun rxMethods ops).rxRoutes req.method y.2.1 = some y ∧ rxMatch y.2.1 req.path = true ∧
        serveHTTP u env rxMatch visit (serverOf I (progState grow ops) init level) ba req resp store buf clock =
        serveHTTP u env rxMatch visit (soleRegServer I y.1 y.2.1 y.2.2 init level) ba req resp store buf clock) := by
  obtain ⟨nc, hrel⟩ := byValue_rel grow ops hp
  have hmiss := (every_found rxMatch visit req buf (progState grow ops) _ hrel.wf hrel.log).2 he
  exact unrouted_answer I init level u env rxMatch visit hv ba req resp store buf clock (progState grow ops) _ hrel.wf hrel.rx hmiss

include hp in
/-- **C138**, from the bytes of a request: a client asks for the (intact) segments `ss`, with query and form parameters, each written in any of the
ways there are.  If reading the table for `ss` gives an entry and bindings, its handlers answer as the only ones of a server, and see the
bindings, the query parameters and the form parameters. -/
theorem C138_bytes (mk : Sources → υ) (auth : Str) (m : Method) (r : WireReq) (ss : List Str) (qs fs : List (Str × Str))
    (h : ReadsAs r ss qs fs) (hi : Intact ss) (y : Row (Method × Str × HView η)) (b : List (Str × Str))
    (hs : serveEvery ((vrun rxMethods ops).routes.map fun x => ⟨segs x.2.1, x.1, x⟩) m ss = some (y, b))
    (m' : Method) (route : Str) (hm : covers m' m = true) (hc : ∀ s ∈ segs route, s.dropWhile (· == 58) ≠ [])
    (hb : matchRoute ((segs route).map segPat) ss = some b) :
    serveHTTP u env rxMatch visit (serverOf I (progState grow ops) init level) ba ⟨m, wirePath r, auth⟩ resp
        (fun url => mk (wireSources r url)) buf clock =
    serveHTTP u env rxMatch visit (soleServer I m' route y.set.2.2 init level) ba ⟨m, ofSegs ss, auth⟩ resp
        (fun _ => mk ⟨b, named qs, named fs⟩) [] clock := by
  have hseg := (C100_exact r ss qs h.target).2 hi
  rw [← hseg] at hs hb
  rw [C138_served I init level u env rxMatch visit ba ⟨m, wirePath r, auth⟩ resp (fun url => mk (wireSources r url)) buf clock grow ops hp y.set b
    (by unfold entryEvery; simp only; rw [hs]; rfl) m' route hm hc hb, ← intact_path h.target hi]
  have hfind : ∀ buf, serverFind rxMatch visit (soleServer I m' route y.set.2.2 init level : Srv υ Nat ρ).tree
      (soleServer I m' route y.set.2.2 init level : Srv υ Nat ρ).regs m (wirePath r) buf = .ret ⟨some 0, true, b⟩ := fun buf =>
    found_in_tree rxMatch visit _ _ _ _ _ _ _ (sole_find m' m route (wirePath r) buf b hc hm hb)
  unfold serveHTTP
  have hrun : ∀ resp, runHTTP env rxMatch visit (soleServer I m' route y.set.2.2 init level : Srv υ Nat ρ) m (wirePath r) resp
      (fun url => mk (wireSources r url)) buf clock =
      runHTTP env rxMatch visit (soleServer I m' route y.set.2.2 init level : Srv υ Nat ρ) m (wirePath r) resp
      (fun _ => mk ⟨b, named qs, named fs⟩) [] clock := by
    intro resp
    refine runHTTP_store env rxMatch visit resp clock m _ _ _ _ _ _ 0 b (hfind _) (hfind _) ?_
    simp only [means_sources h]
  simp only [hrun]

end

section Examples

/-- A program whose routes are odd: empty segments, and segments of colons only. -/
def oddOps : List (Op Nat Nat) := [.newRouter, .rBefore 0 (.lit [1]), .rUse 0 b!"GET" b!"/u/:id" (some 10), .rUse 0 b!"GET" b!"/u//x" (some 11),
  .rFirst 0 2, .rUse 0 b!"GETHEAD" b!"/u//y" (some 12), .rUse 0 b!"GET" b!"/:/:" (some 13), .rUseReg 0 b!"GET" 7 (some 14)]

/-- What the theorems ask for: the request for /u/7/x is read as the row of /u//y, with the parameter of /u/:id. -/
example : ByValue oddOps ∧
    entryEvery (vrun rxMethods oddOps).routes b!"GET" b!"/u/7/x" = some ((b!"GETHEAD", b!"/u//y", ⟨[2, 1], [], none, some 12⟩), [(b!"id", b!"7")]) ∧
    (∀ s ∈ segs b!"/u/:id/x", s.dropWhile (· == 58) ≠ []) ∧
    matchRoute ((segs b!"/u/:id/x").map segPat) (segs b!"/u/7/x") = some [(b!"id", b!"7")] ∧
    entryEvery (vrun rxMethods oddOps).routes b!"GET" b!"/u/7/y" = none ∧
    (∃ y ∈ (vrun rxMethods oddOps).rxRoutes, covers y.1 b!"GET" = true) :=
  ⟨⟨by decide +kernel, Or.inl (by decide +kernel)⟩, by decide +kernel, by decide +kernel, by decide +kernel, by decide +kernel, by decide +kernel⟩

/-- A client that asks for /u/%37/x. -/
example : ReadsAs ⟨b!"/u/%37/x", [], []⟩ [b!"u", b!"7", b!"x"] [] [] ∧ Intact [b!"u", b!"7", b!"x"] ∧
    (serveEvery ((vrun rxMethods oddOps).routes.map fun x => ⟨segs x.2.1, x.1, x⟩) b!"GET" [b!"u", b!"7", b!"x"]).map (fun a => (a.1.set, a.2)) =
      some ((b!"GETHEAD", b!"/u//y", ⟨[2, 1], [], none, some 12⟩), [(b!"id", b!"7")]) := by
  have s : ∀ {c : UInt8} {w s : Str}, PathByte c → WrittenSeg w s → WrittenSeg (c :: w) (c :: s) := fun h => .plain h
  refine ⟨⟨?_, .other (by decide)⟩, ⟨by decide, by decide, ?_⟩, by decide +kernel⟩
  · refine .bare (.path ?_)
    refine .cons (w := b!"u") (t := b!"/%37/x") (s (by decide) .nil) (.cons (w := b!"%37") (t := b!"/x") ?_ (.one (w := b!"x") (s (by decide) .nil)))
    exact .escaped (x := 51) (y := 55) (by decide) (by decide) .nil
  · rintro t ht ⟨x, hx, hs⟩
    cases ht
    revert x
    decide +kernel

end Examples

end Verif
