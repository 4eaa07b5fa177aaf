import Verif.Spec.Table
import Verif.Props.StaticReg
import Verif.Props.Builders
/-
C96: a whole server is the table of its registrations.
-/
namespace Verif
open Spec
set_option linter.unusedSectionVars false

/-! ### Routing does not look at what is registered -/

section
variable {σ τ : Type}

/-- Another thing registered at the same route. -/
def Spec.Route.mapSet (f : σ → τ) (r : Route σ) : Route τ := ⟨r.pats, r.method, f r.set⟩

def Spec.Branch.mapSet (f : σ → τ) : Branch σ → Branch τ
  | .lit t rs => .lit t (rs.map (Route.mapSet f))
  | .par n r => .par n (r.mapSet f)

theorem addBranch_mapSet (f : σ → τ) (bs : List (Branch σ)) (r : Route σ) :
    addBranch (bs.map (Branch.mapSet f)) (r.mapSet f) = (addBranch bs r).map (Branch.mapSet f) := by
  induction bs with
  | nil =>
    simp only [List.map_nil, addBranch, Route.mapSet]
    split <;> simp [Branch.mapSet, Route.mapSet]
  | cons b bs ih =>
    cases b with
    | lit t rs =>
      simp only [List.map_cons, Branch.mapSet, addBranch, ih]
      cases hp : r.pats with
      | nil => simp [Route.mapSet, hp, Branch.mapSet]
      | cons q ps =>
        cases q with
        | par n => simp [Route.mapSet, hp, Branch.mapSet]
        | lit t' =>
          by_cases ht : t = t'
          · simp [Route.mapSet, hp, Branch.mapSet, ht]
          · simp [Route.mapSet, hp, Branch.mapSet, ht]
    | par n r' => simp only [List.map_cons, Branch.mapSet, addBranch, ih]

theorem branches_mapSet (f : σ → τ) (regs : List (Route σ)) :
    branches (regs.map (Route.mapSet f)) = (branches regs).map (Branch.mapSet f) := by
  have key : ∀ (regs : List (Route σ)) (bs : List (Branch σ)),
      (regs.map (Route.mapSet f)).foldl addBranch (bs.map (Branch.mapSet f)) =
        (regs.foldl addBranch bs).map (Branch.mapSet f) := by
    intro regs
    induction regs with
    | nil => intro bs; rfl
    | cons r regs ih => intro bs; simp only [List.map_cons, List.foldl_cons, addBranch_mapSet, ih]
  exact key regs []

theorem candidates_mapSet (f : σ → τ) (ss : List Str) : ∀ regs : List (Route σ),
    candidates (regs.map (Route.mapSet f)) ss = (candidates regs ss).map fun c => (c.1.map (Route.mapSet f), c.2) := by
  induction ss with
  | nil => intro regs; simp only [candidates, List.filter_map, List.map_cons, List.map_nil]; rfl
  | cons s ss ih =>
    intro regs
    rw [candidates_cons, candidates_cons, branches_mapSet, List.flatMap_map, List.map_flatMap]
    congr 1
    funext b
    cases b with
    | lit t rs =>
      simp only [Branch.mapSet, contrib, ih]
      split <;> rfl
    | par n r =>
      have := ih [r]
      simp only [List.map_cons, List.map_nil] at this
      simp [Branch.mapSet, contrib, this]

theorem serve_mapSet (f : σ → τ) (regs : List (Route σ)) (m : Str) (ss : List Str) :
    serve (regs.map (Route.mapSet f)) m ss = (serve regs m ss).map fun x => (x.1.mapSet f, x.2) := by
  unfold serve
  rw [candidates_mapSet]
  cases candidates regs ss with
  | nil => rfl
  | cons c cs =>
    simp only [List.map_cons, ← List.map_reverse, List.find?_map, Option.map_map]
    rfl

end

/-! ### C96 -/

variable {η ρ υ : Type} [Inhabited η] [DecidableEq ρ]

section
variable (I : Handlers3 η υ) (init : Option (RCtx υ → Prog υ)) (level : Int)
  (u : Str → Str) (env : Env υ) (rxMatch : ρ → Str → Bool) (visit : GoMap ρ (Option Nat) → List (ρ × Option Nat))
  (hv : AnyOrder visit)
  (ba : BaseAuth) (req : Req) (resp : Resp) (store : Args → υ) (buf : Args) (clock : Nat)

theorem find?_congr' {α : Type} {p p' : α → Bool} {l : List α} (h : ∀ x ∈ l, p x = p' x) : l.find? p = l.find? p' := by
  induction l with
  | nil => rfl
  | cons a l ih =>
    simp only [List.find?_cons, h a (List.mem_cons_self ..)]
    rw [ih fun x hx => h x (List.mem_cons_of_mem _ hx)]

/-- The two lists side by side. -/
theorem zip_table {α β γ : Type} (f : α → γ) (g : β → γ) : ∀ (l : List α) (l' : List β), l.map f = l'.map g →
    ∃ z : List (α × β), z.map (·.1) = l ∧ z.map (·.2) = l' ∧ ∀ p ∈ z, f p.1 = g p.2 := by
  intro l
  induction l with
  | nil => intro l' h; cases l' with
    | nil => exact ⟨[], rfl, rfl, by simp⟩
    | cons => simp at h
  | cons a l ih => intro l' h; cases l' with
    | nil => simp at h
    | cons b l' =>
      simp only [List.map_cons, List.cons.injEq] at h
      obtain ⟨z, h1, h2, h3⟩ := ih l' h.2
      refine ⟨(a, b) :: z, by simp [h1], by simp [h2], ?_⟩
      intro p hp
      rcases List.mem_cons.1 hp with rfl | hp
      · exact h.1
      · exact h3 p hp

/-- Nothing found: the answer does not depend on the server. -/
theorem runHTTP_none (s1 s2 : Srv υ Nat ρ) (meth : Method) (path : Str) (r1 r2 : FindResult Nat)
    (h1 : serverFind rxMatch visit s1.tree s1.regs meth path buf = .ret r1) (f1 : r1.found = false)
    (h2 : serverFind rxMatch visit s2.tree s2.regs meth path buf = .ret r2) (f2 : r2.found = false) :
    runHTTP env rxMatch visit s1 meth path resp store buf clock =
      runHTTP env rxMatch visit s2 meth path resp store buf clock := by
  unfold runHTTP
  rw [h1, h2]
  simp [f1, f2]

include hv in
/-- The answer to a request that the tree does not answer, from the table of expressions. -/
theorem unrouted_answer (w : World η ρ) (rxs : List (Method × ρ × HView η)) (hwf : WF w)
    (hrx : w.rxLog.map (fun r => (r.method, r.rx, setHandlers w r.set)) = rxs.map fun x => (x.1, x.2.1, some x.2.2))
    (hmiss : serverFind rxMatch visit w.tree w.regs req.method req.path buf = .ret (regFind rxMatch visit (regOf w.rxLog) req.method req.path [])) :
    ((∀ y ∈ rxs, covers y.1 req.method = true → rxMatch y.2.1 req.path = false) →
      serveHTTP u env rxMatch visit (serverOf I w init level) ba req resp store buf clock =
      serveHTTP u env rxMatch visit (emptyServer init level) ba req resp store buf clock) ∧
    ((∃ y ∈ rxs, covers y.1 req.method = true ∧ rxMatch y.2.1 req.path = true) →
      ∃ y, rxEntry rxs req.method y.2.1 = some y ∧ rxMatch y.2.1 req.path = true ∧
        serveHTTP u env rxMatch visit (serverOf I w init level) ba req resp store buf clock =
        serveHTTP u env rxMatch visit (soleRegServer I y.1 y.2.1 y.2.2 init level) ba req resp store buf clock) := by
  obtain ⟨q, q1, q2, q3⟩ := zip_table _ _ _ _ hrx
  have hempty : ∀ regs : RegTable ρ Nat, serverFind rxMatch visit (newTree : Node Nat) regs req.method req.path buf =
      .ret (regFind rxMatch visit regs req.method req.path []) := by
    intro regs
    obtain ⟨rt, ht, -, hmiss, -⟩ := C14_tree_first rxMatch visit (newTree : Node Nat) regs req.method req.path buf
    have hf : rt.found = false := by
      cases hf : rt.found with
      | false => rfl
      | true =>
        obtain ⟨r, hr, -⟩ := C02_sound ([] : List (Reg Nat)) req.method req.path buf rt ht hf
        simp at hr
    exact hmiss hf
  have hq : ∀ (P : Method → ρ → Prop), (∃ r ∈ w.rxLog, P r.method r.rx) ↔ ∃ y ∈ rxs, P y.1 y.2.1 := by
    intro P
    constructor
    · rintro ⟨r, hr, h⟩
      rw [← q1] at hr
      obtain ⟨p, hp, rfl⟩ := List.mem_map.1 hr
      have := q3 p hp
      simp only [Prod.mk.injEq] at this
      exact ⟨p.2, by rw [← q2]; exact List.mem_map.2 ⟨p, hp, rfl⟩, by rw [← this.1, ← this.2.1]; exact h⟩
    · rintro ⟨r, hr, h⟩
      rw [← q2] at hr
      obtain ⟨p, hp, rfl⟩ := List.mem_map.1 hr
      have := q3 p hp
      simp only [Prod.mk.injEq] at this
      exact ⟨p.1, by rw [← q1]; exact List.mem_map.2 ⟨p, hp, rfl⟩, by rw [this.1, this.2.1]; exact h⟩
  obtain ⟨c1, c2, c3⟩ := C13_found_iff w.rxLog hwf.rxOk rxMatch visit hv req.method req.path []
  refine ⟨?_, ?_⟩
  · intro hno
    refine serveHTTP_same u env rxMatch visit _ _ ba req resp store buf clock fun resp => ?_
    refine runHTTP_none env rxMatch visit resp store buf clock _ _ _ _ _ _ (hmiss) ?_ (hempty newRegTree) ?_
    · cases hf : (regFind rxMatch visit (regOf w.rxLog) req.method req.path []).found with
      | false => rfl
      | true =>
        obtain ⟨y, hy, g1, g2⟩ := (hq fun m rx => covers m req.method = true ∧ rxMatch rx req.path = true).1 (c1.1 hf)
        rw [hno y hy g1] at g2
        simp at g2
    · cases hf : (regFind rxMatch visit (newRegTree : RegTable ρ Nat) req.method req.path []).found with
      | false => rfl
      | true =>
        obtain ⟨d1, -⟩ := C13_found_iff ([] : List (RxReg ρ Nat)) (by simp) rxMatch visit hv req.method req.path []
        obtain ⟨y, hy, -⟩ := d1.1 hf
        simp at hy
  · intro hex
    have hf := c1.2 ((hq fun m rx => covers m req.method = true ∧ rxMatch rx req.path = true).2 hex)
    obtain ⟨r, g1, g2, g3⟩ := c2 hf
    -- the entry next to it
    have hent : ∃ p ∈ q, p.1 = r ∧ (q.reverse.find? fun p => decide (p.1.rx = r.rx) && covers p.1.method req.method) = some p := by
      rw [← q1, ← List.map_reverse, List.find?_map] at g3
      obtain ⟨p, hp, rfl⟩ := Option.map_eq_some_iff.1 g3
      exact ⟨p, by simpa using List.mem_of_find?_eq_some hp, rfl, hp⟩
    obtain ⟨p, hp, rfl, hfirst⟩ := hent
    have e := q3 p hp
    simp only [Prod.mk.injEq] at e
    have hrcov := List.find?_some hfirst
    simp only [Bool.and_eq_true, decide_eq_true_eq, true_and] at hrcov
    have hmeth : p.1.method ∈ rxMethods := hwf.rxOk p.1 (by rw [← q1]; exact List.mem_map.2 ⟨p, hp, rfl⟩)
    refine ⟨p.2, ?_, by rw [← e.2.1]; exact g1, ?_⟩
    · unfold rxEntry
      rw [← q2, ← List.map_reverse, List.find?_map]
      have : q.reverse.find? ((fun y => decide (y.2.1 = p.2.2.1) && covers y.1 req.method) ∘ fun x => x.2) = some p := by
        rw [← hfirst]
        refine find?_congr' fun x hx => ?_
        have ex := q3 x (by simpa using hx)
        simp only [Prod.mk.injEq] at ex
        simp [ex.1, ex.2.1, e.2.1]
      rw [this]
      rfl
    · refine serveHTTP_same u env rxMatch visit _ _ ba req resp store buf clock fun resp => ?_
      refine runHTTP_same env rxMatch visit _ _ req.method req.path resp store buf clock p.1.set 0 [] ?_ ?_ ?_ rfl rfl
      · show serverFind rxMatch visit w.tree w.regs req.method req.path buf = _
        rw [hmiss]
        congr 1
        generalize regFind rxMatch visit (regOf w.rxLog) req.method req.path [] = res at c3 hf g2
        cases res; simp_all
      · show serverFind rxMatch visit newTree (regOf [⟨p.2.1, p.2.2.1, 0⟩]) req.method req.path buf = _
        rw [hempty]
        congr 1
        refine C13_determined _ (by rw [e.1] at hmeth; simpa using hmeth) rxMatch visit hv req.method req.path [] ⟨p.2.1, p.2.2.1, 0⟩ ?_
          (by rw [← e.2.1]; exact g1) ?_
        · rw [e.1] at hrcov
          simp [hrcov]
        · intro x hx _ _
          simp only [List.mem_singleton] at hx
          rw [hx]
      · simp [serverOf, soleRegServer, viewSet, e.2.2]

include hv in
/-- The answer to a request, from the two tables. -/
theorem table_answer (w : World η ρ) (routes : List (Method × Str × HView η)) (rxs : List (Method × ρ × HView η))
    (hwf : WF w) (hcl : ∀ x ∈ w.log, Clean x)
    (hlog : w.log.map (fun r => (r.method, r.route, setHandlers w r.set)) = routes.map fun x => (x.1, x.2.1, some x.2.2))
    (hrx : w.rxLog.map (fun r => (r.method, r.rx, setHandlers w r.set)) = rxs.map fun x => (x.1, x.2.1, some x.2.2)) :
    (∀ x, entry routes req.method req.path = some x →
      serveHTTP u env rxMatch visit (serverOf I w init level) ba req resp store buf clock =
      serveHTTP u env rxMatch visit (soleServer I x.1 x.2.1 x.2.2 init level) ba req resp store buf clock) ∧
    (entry routes req.method req.path = none →
      (∀ y ∈ rxs, covers y.1 req.method = true → rxMatch y.2.1 req.path = false) →
      serveHTTP u env rxMatch visit (serverOf I w init level) ba req resp store buf clock =
      serveHTTP u env rxMatch visit (emptyServer init level) ba req resp store buf clock) ∧
    (entry routes req.method req.path = none →
      (∃ y ∈ rxs, covers y.1 req.method = true ∧ rxMatch y.2.1 req.path = true) →
      ∃ y, rxEntry rxs req.method y.2.1 = some y ∧ rxMatch y.2.1 req.path = true ∧
        serveHTTP u env rxMatch visit (serverOf I w init level) ba req resp store buf clock =
        serveHTTP u env rxMatch visit (soleRegServer I y.1 y.2.1 y.2.2 init level) ba req resp store buf clock) := by
  obtain ⟨z, z1, z2, z3⟩ := zip_table _ _ _ _ hlog
  -- the common list of routes
  let base : List (Route (Reg Nat × (Method × Str × HView η))) := z.map fun p => ⟨(segs p.1.route).map segPat, p.1.method, p⟩
  have b1 : w.log.map Reg.toRoute = base.map (Route.mapSet fun p => p.1.set) := by
    rw [← z1]
    simp only [base, List.map_map]
    rfl
  have b2 : routes.map asRoute = base.map (Route.mapSet (·.2)) := by
    rw [← z2]
    simp only [base, List.map_map]
    apply List.map_congr_left
    intro p hp
    have := z3 p hp
    simp only [Prod.mk.injEq] at this
    simp [asRoute, Route.mapSet, this.1, this.2.1]
  have hfind : treeFind w.tree req.method req.path buf =
      .ret (specResult (serve (w.log.map Reg.toRoute) req.method (segs req.path))) := by
    rw [hwf.tree]; exact find_clean hcl req.method req.path buf
  have hsv1 := serve_mapSet (fun p : Reg Nat × (Method × Str × HView η) => p.1.set) base req.method (segs req.path)
  have hsv2 := serve_mapSet (fun p : Reg Nat × (Method × Str × HView η) => p.2) base req.method (segs req.path)
  rw [← b1] at hsv1
  rw [← b2] at hsv2
  have hmiss : entry routes req.method req.path = none →
      serverFind rxMatch visit w.tree w.regs req.method req.path buf = .ret (regFind rxMatch visit (regOf w.rxLog) req.method req.path []) := by
    intro he
    unfold entry at he
    rw [Option.map_eq_none_iff, hsv2, Option.map_eq_none_iff] at he
    rw [he] at hsv1
    obtain ⟨rt, ht, -, hm, -⟩ := C14_tree_first rxMatch visit w.tree w.regs req.method req.path buf
    rw [hfind, hsv1] at ht
    simp only [Outcome.ret.injEq] at ht
    rw [hm (by rw [← ht]; rfl), hwf.regs]
  refine ⟨?_, fun he => (unrouted_answer I init level u env rxMatch visit hv ba req resp store buf clock w rxs hwf hrx (hmiss he)).1,
    fun he => (unrouted_answer I init level u env rxMatch visit hv ba req resp store buf clock w rxs hwf hrx (hmiss he)).2⟩
  · intro x hx
    unfold entry at hx
    rw [hsv2] at hx
    cases hs : serve base req.method (segs req.path) with
    | none => rw [hs] at hx; simp at hx
    | some a =>
      obtain ⟨r, b⟩ := a
      rw [hs] at hx hsv1
      simp only [Option.map_some, Option.some.injEq, Route.mapSet] at hx
      subst hx
      obtain ⟨rs, g1, g2⟩ := serve_some hs
      obtain ⟨o, ho, o1, o2, o3⟩ := cand_sound (segs req.path) base (rs, b) (List.mem_of_mem_head? g1) r
        (by simpa using List.mem_of_find?_eq_some g2)
      have hcov := List.find?_some g2
      obtain ⟨p, hp, rfl⟩ := List.mem_map.1 ho
      simp only at o1 o2 o3
      rw [← o1] at hcov
      simp only [Option.map_some, Route.mapSet] at hsv1
      rw [← o2] at hsv1 ⊢
      have e := z3 p hp
      simp only [Prod.mk.injEq] at e
      have hmem : p.1 ∈ w.log := by rw [← z1]; exact List.mem_map.2 ⟨p, hp, rfl⟩
      refine serveHTTP_same u env rxMatch visit _ _ ba req resp store buf clock fun resp => ?_
      refine runHTTP_same env rxMatch visit _ _ req.method req.path resp store buf clock p.1.set 0 b ?_ ?_ ?_ rfl rfl
      · refine found_in_tree rxMatch visit _ _ _ _ _ _ _ ?_
        show treeFind w.tree req.method req.path buf = _
        rw [hfind, hsv1]
        rfl
      · refine found_in_tree rxMatch visit _ _ _ _ _ _ _ ?_
        exact sole_find p.2.1 req.method p.2.2.1 req.path buf b (by
          have := hcl p.1 hmem
          unfold Clean at this ⊢
          rw [e.2.1] at this
          exact this) (by rw [← e.1]; exact hcov) (by rw [← e.2.1]; exact o3)
      · simp [serverOf, soleServer, viewSet, e.2.2]

/-- The calls are read as values, and either no router is cloned or LastAfter is not used. -/
def ByValue (ops : List (Op η ρ)) : Prop :=
  (∀ o ∈ ops, plain o = true) ∧ ((∀ o ∈ ops, isRClone o = false) ∨ ∀ o ∈ ops, isLastAfter o = false)

theorem byValue_rel (grow : Nat → Nat → Nat) (ops : List (Op η ρ)) (hp : ByValue ops) :
    ∃ nc, Rel nc (progState grow ops) (vrun rxMethods ops) := by
  rcases hp with ⟨h1, h2 | h2⟩
  · exact ⟨true, rel_run true grow ops h1 (fun _ => h2) (fun e => by simp at e)⟩
  · exact ⟨false, rel_run false grow ops h1 (fun e => by simp at e) (fun _ => h2)⟩

theorem log_clean (grow : Nat → Nat → Nat) (ops : List (Op η ρ)) (h : cleanOps ops) :
    ∀ x ∈ (progState grow ops).log, Clean x := by
  obtain ⟨l0, g0, o0⟩ := log_run grow ops (World.init : World η ρ)
  have hlog : (progState grow ops).log = l0 := by unfold progState; rw [g0]; rfl
  intro x hx
  rw [hlog] at hx
  obtain ⟨o, ho, e⟩ := o0 x hx
  exact h o ho _ _ e

include hv in
/-- **C96**.  For every program of calls (read as values) and every request: if the table of routes has an entry for the
request, the request is processed exactly as by a server that has only that entry; otherwise, if some expression of the
table of expressions matches, exactly as by a server that has only the latest registration of a matching expression;
otherwise as by a server that has nothing. -/
theorem C96_table (grow : Nat → Nat → Nat) (ops : List (Op η ρ)) (hp : ByValue ops) (hclean : cleanOps ops) :
    (∀ x, entry (vrun rxMethods ops).routes req.method req.path = some x →
      serveHTTP u env rxMatch visit (serverOf I (progState grow ops) init level) ba req resp store buf clock =
      serveHTTP u env rxMatch visit (soleServer I x.1 x.2.1 x.2.2 init level) ba req resp store buf clock) ∧
    (entry (vrun rxMethods ops).routes req.method req.path = none →
      (∀ y ∈ (vrun rxMethods ops).rxRoutes, covers y.1 req.method = true → rxMatch y.2.1 req.path = false) →
      serveHTTP u env rxMatch visit (serverOf I (progState grow ops) init level) ba req resp store buf clock =
      serveHTTP u env rxMatch visit (emptyServer init level) ba req resp store buf clock) ∧
    (entry (vrun rxMethods ops).routes req.method req.path = none →
      (∃ y ∈ (vrun rxMethods ops).rxRoutes, covers y.1 req.method = true ∧ rxMatch y.2.1 req.path = true) →
      ∃ y, rxEntry (vrun rxMethods ops).rxRoutes req.method y.2.1 = some y ∧ rxMatch y.2.1 req.path = true ∧
        serveHTTP u env rxMatch visit (serverOf I (progState grow ops) init level) ba req resp store buf clock =
        serveHTTP u env rxMatch visit (soleRegServer I y.1 y.2.1 y.2.2 init level) ba req resp store buf clock) := by
  obtain ⟨nc, hrel⟩ := byValue_rel grow ops hp
  exact table_answer I init level u env rxMatch visit hv ba req resp store buf clock (progState grow ops) _ _ hrel.wf
    (log_clean grow ops hclean) hrel.log hrel.rx

include hv in
/-- **C96**, equal tables: two programs that leave the same table of routes and register no expressions are the same
server, whatever calls they are made of. -/
theorem C96_same_table (grow grow' : Nat → Nat → Nat) (ops ops' : List (Op η ρ)) (hp : ByValue ops) (hp' : ByValue ops')
    (hclean : cleanOps ops) (hclean' : cleanOps ops')
    (h : (vrun rxMethods ops).routes = (vrun rxMethods ops').routes)
    (hr : (vrun rxMethods ops).rxRoutes = []) (hr' : (vrun rxMethods ops').rxRoutes = []) :
    serveHTTP u env rxMatch visit (serverOf I (progState grow ops) init level) ba req resp store buf clock =
    serveHTTP u env rxMatch visit (serverOf I (progState grow' ops') init level) ba req resp store buf clock := by
  obtain ⟨a1, a2, -⟩ := C96_table I init level u env rxMatch visit hv ba req resp store buf clock grow ops hp hclean
  obtain ⟨b1, b2, -⟩ := C96_table I init level u env rxMatch visit hv ba req resp store buf clock grow' ops' hp' hclean'
  rw [h] at a1 a2
  cases he : entry (vrun rxMethods ops').routes req.method req.path with
  | none => rw [a2 he (by simp [hr]), b2 he (by simp [hr'])]
  | some x => rw [a1 x he, b1 x he]

end

section Examples

/-- The first part of /repo/examples/example_1/main.go:33-60, and an expression. -/
def exTableOps : List (Op Nat Nat) := [.newSet, .setBefore 0 (.lit [1, 2]), .setAfter 0 (.lit [9, 10]),
  .sAdd b!"GETPOST" b!"/private_group" (some 50) (some 0),
  .newRouter, .rBefore 0 (.lit [11, 12, 13]), .rUse 0 b!"POST" b!"/" (some 51), .rUse 0 b!"GETPOST" b!"/a" (some 52),
  .rClone 0, .rUse 1 b!"GET" b!"/user/:id" (some 53), .rUse 1 b!"GET" b!"/user/:id/:do" (some 54),
  .rUseReg 1 b!"GET" 7 (some 55), .rFirst 1 14, .rUseReg 1 b!"GET" 7 (some 56)]

/-- The hypotheses of `C96_table` hold, and each of its three cases occurs. -/
example : ByValue exTableOps ∧ cleanOps exTableOps ∧
    entry (vrun rxMethods exTableOps).routes b!"GET" b!"/user/7/edit" =
      some (b!"GET", b!"/user/:id/:do", ⟨[11, 12, 13], [], none, some 54⟩) ∧
    entry (vrun rxMethods exTableOps).routes b!"GET" b!"/nothing" = none ∧
    rxEntry (vrun rxMethods exTableOps).rxRoutes b!"GET" 7 = some (b!"GET", 7, ⟨[14, 11, 12, 13], [], none, some 56⟩) ∧
    (∀ y ∈ (vrun rxMethods exTableOps).rxRoutes, covers y.1 b!"PUT" = false) := by
  refine ⟨⟨by decide +kernel, Or.inr (by decide +kernel)⟩, ?_, by decide +kernel, by decide +kernel, by decide +kernel,
    by decide +kernel⟩
  intro o ho m route hr
  have : ∀ o ∈ exTableOps, ((registers o).all fun x => (segs x.2).all fun s => decide (s.dropWhile (· == 58) ≠ [])) = true := by
    decide +kernel
  have := this o ho
  rw [hr] at this
  simpa using this

end Examples

end Verif
