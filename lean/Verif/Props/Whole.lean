import Verif.Spec.Whole
import Verif.Props.Wire
import Verif.Props.Table
/-
C109: from the bytes of the request to the handlers of a whole server.
-/
namespace Verif
open Spec
set_option linter.unusedSectionVars false

theorem named_said (ps : List (Str × Str)) : named ps = said ps := by
  unfold named said
  congr 1
  funext e
  cases e.1 <;> cases e.2 <;> simp

theorem intact_path {r : WireReq} {ss : List Str} {qs : List (Str × Str)} (h : WrittenTarget r.target ss qs) (hi : Intact ss) :
    wirePath r = ofSegs ss := by
  obtain ⟨hne, hw⟩ := wire_path h
  have hn := intact_normal hne hi
  obtain ⟨l, -, -, hl, hid, -⟩ := normalize_steps ss hne hn.2.1
  rw [hw.trans hl, hid hn]

theorem means_sources {r : WireReq} {ss : List Str} {qs fs : List (Str × Str)} (h : ReadsAs r ss qs fs) (url : Args) :
    wireSources r url = ⟨url, named qs, named fs⟩ := by
  unfold wireSources
  rw [wire_values h.target, wire_form h.form, named_said, named_said]

variable {η ρ υ : Type} [Inhabited η] [DecidableEq ρ]

section
variable (I : Handlers3 η υ) (init : Option (RCtx υ → Prog υ)) (level : Int)
  (u : Str → Str) (env : Env υ) (rxMatch : ρ → Str → Bool) (visit : GoMap ρ (Option Nat) → List (ρ × Option Nat))
  (ba : BaseAuth) (resp : Resp) (mk : Sources → υ) (buf : Args) (clock : Nat)
  (r : WireReq) (ss : List Str) (qs fs : List (Str × Str)) (m : Method) (auth : Str)

/-- **C109**, two ways to write the same: for every server and every request, how the client spelled the path and the
parameters, an unnamed empty parameter, and a fragment make no difference — to what the guard decides, to which handlers run,
to what they see, or to the answer. -/
theorem C109_same {σ : Type} (srv : Srv υ σ ρ) (visit : GoMap ρ (Option σ) → List (ρ × Option σ)) (r' : WireReq) (qs' fs' : List (Str × Str))
    (h : ReadsAs r ss qs fs) (h' : ReadsAs r' ss qs' fs') (hq : named qs = named qs') (hf : named fs = named fs') :
    serveHTTP u env rxMatch visit srv ba ⟨m, wirePath r, auth⟩ resp (fun url => mk (wireSources r url)) buf clock =
    serveHTTP u env rxMatch visit srv ba ⟨m, wirePath r', auth⟩ resp (fun url => mk (wireSources r' url)) buf clock := by
  have e : wirePath r = wirePath r' := by rw [(wire_path h.target).2, (wire_path h'.target).2]
  have e2 : wireSources r = wireSources r' := by
    funext url
    rw [means_sources h, means_sources h', hq, hf]
  rw [e, e2]

variable (hv : AnyOrder visit) (grow : Nat → Nat → Nat) (ops : List (Op η ρ)) (hp : ByValue ops) (hclean : cleanOps ops)
  (h : ReadsAs r ss qs fs) (hi : Intact ss)

theorem entry_serve (routes : List (Method × Str × HView η)) (path : Str) (x : Route (Method × Str × HView η)) (b : List (Str × Str))
    (hs : serve (routes.map asRoute) m (segs path) = some (x, b)) :
    entry routes m path = some x.set ∧ x.set ∈ routes ∧ covers x.set.1 m = true ∧
      matchRoute ((segs x.set.2.1).map segPat) (segs path) = some b := by
  obtain ⟨rs, g1, g2⟩ := serve_some hs
  obtain ⟨o, ho, o1, o2, o3⟩ := cand_sound (segs path) (routes.map asRoute) (rs, b) (List.mem_of_mem_head? g1) x
    (by simpa using List.mem_of_find?_eq_some g2)
  have hcov := List.find?_some g2
  obtain ⟨y, hy, rfl⟩ := List.mem_map.1 ho
  simp only [asRoute] at o1 o2 o3
  rw [← o2]
  refine ⟨by unfold entry; rw [hs, o2]; rfl, hy, ?_, o3⟩
  rw [o1]
  exact hcov

/-- The same set found with the same parameters: what the request brings for other parameters, and what was in the buffer,
does not matter. -/
theorem runHTTP_store (s : Srv υ Nat ρ) (path : Str) (store store' : Args → υ) (buf buf' : Args)
    (a : Nat) (b : Args) (h1 : serverFind rxMatch visit s.tree s.regs m path buf = .ret ⟨some a, true, b⟩)
    (h2 : serverFind rxMatch visit s.tree s.regs m path buf' = .ret ⟨some a, true, b⟩) (hs : store b = store' b) :
    runHTTP env rxMatch visit s m path resp store buf clock = runHTTP env rxMatch visit s m path resp store' buf' clock := by
  unfold runHTTP
  rw [h1, h2]
  simp only [Outcome.bind_ret, hs]

include hv hp hclean h hi in
/-- **C109**: a client asks for the path with the (intact) segments `ss`, with query parameters `qs` and form parameters `fs`,
each written in any of the ways there are.  If the table of routes the program of calls builds has an entry `x` for `ss`
with bindings `b`, the request is answered exactly as by a server that has only that entry, and whose handlers see the
bindings `b`, the query parameters and the form parameters (those with a name or a value), in the order sent. -/
theorem C109_routed (x : Route (Method × Str × HView η)) (b : List (Str × Str))
    (hs : serve ((vrun rxMethods ops).routes.map asRoute) m ss = some (x, b)) :
    serveHTTP u env rxMatch visit (serverOf I (progState grow ops) init level) ba ⟨m, wirePath r, auth⟩ resp
        (fun url => mk (wireSources r url)) buf clock =
    serveHTTP u env rxMatch visit (soleServer I x.set.1 x.set.2.1 x.set.2.2 init level) ba ⟨m, ofSegs ss, auth⟩ resp
        (fun _ => mk ⟨b, named qs, named fs⟩) [] clock := by
  have hseg := (C100_exact r ss qs h.target).2 hi
  rw [← hseg] at hs
  obtain ⟨e1, e2, e3, e4⟩ := entry_serve m _ _ x b hs
  have hpath := intact_path h.target hi
  rw [(C96_table I init level u env rxMatch visit hv ba ⟨m, wirePath r, auth⟩ resp (fun url => mk (wireSources r url)) buf clock
    grow ops hp hclean).1 x.set e1, ← hpath]
  have hcl : Clean (⟨x.set.1, x.set.2.1, 0⟩ : Reg Nat) := by
    obtain ⟨nc, hrel⟩ := byValue_rel grow ops hp
    have hl := hrel.log
    have : (x.set.1, x.set.2.1, some x.set.2.2) ∈ (vrun rxMethods ops).routes.map fun x => (x.1, x.2.1, some x.2.2) :=
      List.mem_map.2 ⟨x.set, e2, rfl⟩
    rw [← hl] at this
    obtain ⟨y, hy, ey⟩ := List.mem_map.1 this
    have hc := log_clean grow ops hclean y hy
    simp only [Prod.mk.injEq] at ey
    unfold Clean at hc ⊢
    rw [ey.2.1] at hc
    exact hc
  have hfind : ∀ buf, serverFind rxMatch visit (soleServer I x.set.1 x.set.2.1 x.set.2.2 init level : Srv υ Nat ρ).tree
      (soleServer I x.set.1 x.set.2.1 x.set.2.2 init level : Srv υ Nat ρ).regs m (wirePath r) buf = .ret ⟨some 0, true, b⟩ := fun buf =>
    found_in_tree rxMatch visit _ _ _ _ _ _ _ (sole_find x.set.1 m x.set.2.1 (wirePath r) buf b hcl e3 e4)
  unfold serveHTTP
  have hrun : ∀ resp, runHTTP env rxMatch visit (soleServer I x.set.1 x.set.2.1 x.set.2.2 init level : Srv υ Nat ρ) m (wirePath r) resp
      (fun url => mk (wireSources r url)) buf clock =
      runHTTP env rxMatch visit (soleServer I x.set.1 x.set.2.1 x.set.2.2 init level : Srv υ Nat ρ) m (wirePath r) resp
      (fun _ => mk ⟨b, named qs, named fs⟩) [] clock := by
    intro resp
    refine runHTTP_store env rxMatch visit resp clock m _ _ _ _ _ _ 0 b (hfind _) (hfind _) ?_
    simp only [means_sources h]
  simp only [hrun]

include hv hp hclean h hi in
/-- **C109**, no route: if some expression matches the path, the request is answered exactly as by a server that has only the
latest registration of a matching expression, whose handlers see no bindings; otherwise as by a server that has nothing. -/
theorem C109_unrouted (hs : serve ((vrun rxMethods ops).routes.map asRoute) m ss = none) :
    ((∃ y ∈ (vrun rxMethods ops).rxRoutes, covers y.1 m = true ∧ rxMatch y.2.1 (ofSegs ss) = true) →
      ∃ y, rxEntry (vrun rxMethods ops).rxRoutes m y.2.1 = some y ∧ rxMatch y.2.1 (ofSegs ss) = true ∧
        serveHTTP u env rxMatch visit (serverOf I (progState grow ops) init level) ba ⟨m, wirePath r, auth⟩ resp
          (fun url => mk (wireSources r url)) buf clock =
        serveHTTP u env rxMatch visit (soleRegServer I y.1 y.2.1 y.2.2 init level) ba ⟨m, ofSegs ss, auth⟩ resp
          (fun _ => mk ⟨[], named qs, named fs⟩) [] clock) ∧
    ((∀ y ∈ (vrun rxMethods ops).rxRoutes, covers y.1 m = true → rxMatch y.2.1 (ofSegs ss) = false) →
      serveHTTP u env rxMatch visit (serverOf I (progState grow ops) init level) ba ⟨m, wirePath r, auth⟩ resp
        (fun url => mk (wireSources r url)) buf clock =
      serveHTTP u env rxMatch visit (emptyServer init level) ba ⟨m, ofSegs ss, auth⟩ resp
        (fun _ => mk ⟨[], named qs, named fs⟩) [] clock) := by
  have hseg := (C100_exact r ss qs h.target).2 hi
  have hpath := intact_path h.target hi
  have he : entry (vrun rxMethods ops).routes m (wirePath r) = none := by
    unfold entry
    rw [hseg, hs]
    rfl
  obtain ⟨-, t2, t3⟩ := C96_table I init level u env rxMatch visit hv ba ⟨m, wirePath r, auth⟩ resp (fun url => mk (wireSources r url))
    buf clock grow ops hp hclean
  have hempty : ∀ (regs : RegTable ρ Nat) buf, serverFind rxMatch visit (newTree : Node Nat) regs m (wirePath r) buf =
      .ret (regFind rxMatch visit regs m (wirePath r) []) := by
    intro regs buf
    obtain ⟨rt, ht, -, hmiss, -⟩ := C14_tree_first rxMatch visit (newTree : Node Nat) regs m (wirePath r) buf
    refine hmiss ?_
    cases hf : rt.found with
    | false => rfl
    | true =>
      obtain ⟨r, hr, -⟩ := C02_sound ([] : List (Reg Nat)) m (wirePath r) buf rt ht hf
      simp at hr
  rw [← hpath]
  constructor
  · intro hex
    obtain ⟨y, y1, y2, y3⟩ := t3 he hex
    refine ⟨y, y1, y2, y3.trans ?_⟩
    have hargs : ∀ regs : RegTable ρ Nat, (regFind rxMatch visit regs m (wirePath r) []).args = [] := by
      intro regs
      unfold regFind
      split
      · rfl
      · dsimp only
        split <;> rfl
    unfold serveHTTP
    have hrun : ∀ resp, runHTTP env rxMatch visit (soleRegServer I y.1 y.2.1 y.2.2 init level : Srv υ Nat ρ) m (wirePath r) resp
        (fun url => mk (wireSources r url)) buf clock =
        runHTTP env rxMatch visit (soleRegServer I y.1 y.2.1 y.2.2 init level : Srv υ Nat ρ) m (wirePath r) resp
        (fun _ => mk ⟨[], named qs, named fs⟩) [] clock := by
      intro resp
      unfold runHTTP
      have : ∀ buf, serverFind rxMatch visit (soleRegServer I y.1 y.2.1 y.2.2 init level : Srv υ Nat ρ).tree
          (soleRegServer I y.1 y.2.1 y.2.2 init level : Srv υ Nat ρ).regs m (wirePath r) buf = _ := hempty _
      rw [this, this]
      simp only [Outcome.bind_ret, hargs, means_sources h]
    simp only [hrun]
  · intro hno
    refine (t2 he hno).trans ?_
    unfold serveHTTP
    have hrun : ∀ resp, runHTTP env rxMatch visit (emptyServer init level : Srv υ Nat ρ) m (wirePath r) resp
        (fun url => mk (wireSources r url)) buf clock =
        runHTTP env rxMatch visit (emptyServer init level : Srv υ Nat ρ) m (wirePath r) resp
        (fun _ => mk ⟨[], named qs, named fs⟩) [] clock := by
      intro resp
      unfold runHTTP
      have : ∀ buf, serverFind rxMatch visit (emptyServer init level : Srv υ Nat ρ).tree
          (emptyServer init level : Srv υ Nat ρ).regs m (wirePath r) buf = _ := hempty _
      rw [this, this]
      have hf : (regFind rxMatch visit (emptyServer init level : Srv υ Nat ρ).regs m (wirePath r) []).found = false := by
        cases hf : (regFind rxMatch visit (newRegTree : RegTable ρ Nat) m (wirePath r) []).found with
        | false => exact hf
        | true =>
          obtain ⟨d1, -⟩ := C13_found_iff ([] : List (RxReg ρ Nat)) (by simp) rxMatch visit hv m (wirePath r) []
          obtain ⟨y, hy, -⟩ := d1.1 hf
          simp at hy
      simp [hf]
    simp only [hrun]

end

/-- A case that meets the hypotheses of `C109_routed`: the server of `exTableOps`, a request for /user/7/a b with a query
and a form. -/
example :
    ReadsAs ⟨b!"/user/7/%61%20b?q=1&&x=%2B#top", b!"application/x-www-form-urlencoded", b!"y=a+b"⟩
      [b!"user", b!"7", b!"a b"] [(b!"q", b!"1"), ([], []), (b!"x", b!"+")] [(b!"y", b!"a b")] ∧
    Intact [b!"user", b!"7", b!"a b"] ∧
    (serve ((vrun rxMethods exTableOps).routes.map asRoute) b!"GET" [b!"user", b!"7", b!"a b"]).map (fun a => (a.1.set, a.2)) =
      some ((b!"GET", b!"/user/:id/:do", ⟨[11, 12, 13], [], none, some 54⟩), [(b!"id", b!"7"), (b!"do", b!"a b")]) ∧
    named [(b!"q", b!"1"), ([], []), (b!"x", b!"+")] = [(b!"q", b!"1"), (b!"x", b!"+")] ∧
    ofSegs [b!"user", b!"7", b!"a b"] = b!"/user/7/a b" := by
  have s : ∀ {c : UInt8} {w s : Str}, PathByte c → WrittenSeg w s → WrittenSeg (c :: w) (c :: s) := fun h => .plain h
  have q : ∀ {P : UInt8 → Prop} {c : UInt8} {w s : Str}, P c → WrittenText P w s → WrittenText P (c :: w) (c :: s) :=
    fun h => .plain h
  refine ⟨⟨?_, ?_⟩, ⟨by decide, by decide, ?_⟩, by decide +kernel, by decide, by decide⟩
  · refine .fragment (t := b!"/user/7/%61%20b?q=1&&x=%2B") (f := b!"top") (.query (p := b!"/user/7/%61%20b") (q := b!"q=1&&x=%2B") ?_ ?_)
    · refine .cons (w := b!"user") (t := b!"/7/%61%20b") ?_ (.cons (w := b!"7") (t := b!"/%61%20b") ?_ (.one (w := b!"%61%20b") ?_))
      · exact s (by decide) (s (by decide) (s (by decide) (s (by decide) .nil)))
      · exact s (by decide) .nil
      · exact .escaped (x := 54) (y := 49) (by decide) (by decide) (.escaped (x := 50) (y := 48) (by decide) (by decide)
          (s (by decide) .nil))
    · refine .cons (w := b!"q=1") (t := b!"&x=%2B") ?_ (.cons (w := []) (t := b!"x=%2B") (.bare .nil) (.one (w := b!"x=%2B") ?_))
      · exact .full (wn := b!"q") (wv := b!"1") (q (by decide) .nil) (q (by decide) .nil)
      · exact .full (wn := b!"x") (wv := b!"%2B") (q (by decide) .nil) (.escaped (x := 50) (y := 66) (by decide) (by decide) .nil)
  · refine .form (more := []) (by decide) (.one (w := b!"y=a+b") ?_)
    exact .full (wn := b!"y") (wv := b!"a+b") (q (by decide) .nil) (q (by decide) (.space (q (by decide) .nil)))
  · rintro t ht ⟨x, hx, hs⟩
    cases ht
    revert x
    decide +kernel

end Verif
