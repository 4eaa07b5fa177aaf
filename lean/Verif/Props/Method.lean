import Verif.Props.Gain
import Verif.Spec.Own
import Verif.Props.Request
/-
C140: whether the routes of other methods matter.
-/
namespace Verif
open Spec
variable {σ : Type}

theorem oneTable_par (n : Str) (x : Route σ) : ∀ (rest : List (Route σ)) (bs : List (Branch σ)),
    rest.foldl addBranch (.par n x :: bs) = .par n x :: rest.foldl addBranch bs := by
  intro rest
  induction rest with
  | nil => intro bs; rfl
  | cons r rest ih => intro bs; simp only [List.foldl_cons, addBranch, ih]

theorem oneTable_lit (t : Str) : ∀ (rest : List (Route σ)) (rs : List (Route σ)) (ps : List Pat), (∀ x ∈ rest, x.pats = .lit t :: ps) →
    rest.foldl addBranch [.lit t rs] = [.lit t (rs ++ rest.map fun x => { x with pats := ps })] := by
  intro rest
  induction rest with
  | nil => intro rs ps _; simp
  | cons r rest ih =>
    intro rs ps h
    have hr := h r (List.mem_cons_self ..)
    simp only [List.foldl_cons, addBranch, hr, if_true]
    rw [ih _ ps fun x hx => h x (List.mem_cons_of_mem _ hx)]
    simp

theorem candidates_single (ps : List Pat) : ∀ (ss : List Str) (r : Route σ) (b : List (Str × Str)), r.pats = ps → matchRoute ps ss = some b →
    candidates [r] ss = [([{ r with pats := [] }], b)] := by
  induction ps with
  | nil =>
    intro ss r b hp hm
    cases ss with
    | cons s ss => cases hm
    | nil =>
      obtain ⟨p, mt, st⟩ := r
      simp only at hp
      subst hp
      simp only [matchRoute, Option.some.injEq] at hm
      subst hm
      simp [candidates]
  | cons p ps ih =>
    intro ss r b hp hm
    cases ss with
    | nil => cases p <;> cases hm
    | cons s ss =>
      cases p with
      | lit t =>
        simp only [matchRoute] at hm
        split at hm
        · rename_i he
          have := ih ss { r with pats := ps } b rfl hm
          simp only [candidates, branches, List.foldl_cons, List.foldl_nil, addBranch, hp, List.flatMap_cons, List.flatMap_nil, he, if_true, this, List.append_nil]
        · cases hm
      | par n =>
        simp only [matchRoute, Option.map_eq_some_iff] at hm
        obtain ⟨b', hb', rfl⟩ := hm
        have := ih ss { r with pats := ps } b' rfl hb'
        simp only [candidates, branches, List.foldl_cons, List.foldl_nil, addBranch, hp, List.flatMap_cons, List.flatMap_nil, this, List.append_nil, List.map_cons,
          List.map_nil]

theorem candidates_same (ps : List Pat) : ∀ (ss : List Str) (r : Route σ) (rest : List (Route σ)) (b : List (Str × Str)), allLit ps = false →
    r.pats = ps → (∀ x ∈ rest, x.pats = ps) → matchRoute ps ss = some b →
    (candidates (r :: rest) ss).head? = some ([{ r with pats := [] }], b) := by
  induction ps with
  | nil => intro _ _ _ _ h; cases h
  | cons p ps ih =>
    intro ss r rest b hl hp hrest hm
    cases ss with
    | nil => cases p <;> cases hm
    | cons s ss =>
      cases p with
      | lit t =>
        simp only [matchRoute] at hm
        split at hm
        · rename_i he
          have h1 := ih ss { r with pats := ps } (rest.map fun x => { x with pats := ps }) b (by simpa [allLit] using hl) rfl
            (by intro x hx; obtain ⟨y, -, rfl⟩ := List.mem_map.1 hx; rfl) hm
          have h2 : branches (r :: rest) = [.lit t ([{ r with pats := ps }] ++ rest.map fun x => { x with pats := ps })] := by
            unfold branches
            rw [List.foldl_cons]
            simp only [addBranch, hp]
            exact oneTable_lit t rest _ ps hrest
          simp only [candidates, h2, List.flatMap_cons, List.flatMap_nil, List.append_nil, he, if_true]
          exact h1
        · cases hm
      | par n =>
        simp only [matchRoute, Option.map_eq_some_iff] at hm
        obtain ⟨b', hb', rfl⟩ := hm
        have h2 : branches (r :: rest) = .par n { r with pats := ps } :: branches rest := by
          unfold branches
          rw [List.foldl_cons]
          simp only [addBranch, hp]
          exact oneTable_par n _ rest []
        have h3 := candidates_single ps ss { r with pats := ps } b' rfl hb'
        simp only [candidates, h2, List.flatMap_cons, h3, List.map_cons, List.map_nil, List.cons_append, List.nil_append, List.head?_cons]

/-- C140, the usual case: if one route with a parameter is registered several times - say, for GET, then for POST - only the first registration counts:
requests are answered by it, and those with a method that it does not cover are not found. -/
theorem C140_same (r : Reg σ) (rest : List (Reg σ)) (hclean : Clean r) (hpar : allLit (routePats r) = false)
    (hsame : ∀ x ∈ rest, segs x.route = segs r.route) (m : Method) (path : Str) (buf : Args) (b : List (Str × Str))
    (hm : matchRoute (routePats r) (segs path) = some b) :
    treeFind (treeOf (r :: rest)) m path buf = .ret (if covers r.method m then ⟨some r.set, true, b⟩ else ⟨none, false, []⟩) := by
  have hall : ∀ x ∈ r :: rest, Clean x := by
    intro x hx
    rcases List.mem_cons.1 hx with rfl | hx
    · exact hclean
    · unfold Clean; rw [hsame x hx]; exact hclean
  rw [find_clean hall]
  have h := candidates_same (routePats r) (segs path) r.toRoute (rest.map Reg.toRoute) b hpar rfl (by
    intro x hx
    obtain ⟨y, hy, rfl⟩ := List.mem_map.1 hx
    show (segs y.route).map segPat = _
    rw [hsame y hy]; rfl) hm
  unfold serve
  rw [List.map_cons]
  cases hc : candidates (r.toRoute :: rest.map Reg.toRoute) (segs path) with
  | nil => rw [hc] at h; cases h
  | cons c cs =>
    rw [hc] at h
    simp only [List.head?_cons, Option.some.injEq] at h
    subst h
    by_cases hcov : covers r.method m = true
    · simp [Reg.toRoute, hcov, specResult]
    · simp [Reg.toRoute, hcov, specResult, FindResult.notFound]

/-- C140 for whole requests: on a server where one route with a parameter is registered several times, a request for it with a method that the first
registration does not cover is answered 404 "not found" and runs nothing, whatever methods the later registrations are for. -/
theorem C140_requests {υ ρ : Type} [DecidableEq ρ] {env : Env υ} {rxMatch : ρ → Str → Bool} {visit : GoMap ρ (Option σ) → List (ρ × Option σ)}
    {srv : Srv υ σ ρ} {resp : Resp} {store : Args → υ} {clock : Nat}
    (r : Reg σ) (rest : List (Reg σ)) (hclean : Clean r) (hpar : allLit (routePats r) = false)
    (hsame : ∀ x ∈ rest, segs x.route = segs r.route) (m : Method) (path : Str) (buf : Args) (b : List (Str × Str))
    (hm : matchRoute (routePats r) (segs path) = some b) (hcov : covers r.method m = false)
    (rxs : List (RxReg ρ σ)) (hrm : ∀ x ∈ rxs, x.method ∈ rxMethods) (hv : AnyOrder visit) (ht : srv.tree = treeOf (r :: rest))
    (hr : srv.regs = regOf rxs) (hrx : ∀ x ∈ rxs, covers x.method m = true → rxMatch x.rx path = false) :
    ∃ d, runHTTP env rxMatch visit srv m path resp store buf clock = .ret d ∧ d.ctx = none ∧ d.trace = [] ∧
      d.resp.status = 404 ∧ d.resp.body = b!"not found" := by
  refine C25_unrouted (r :: rest) rxs hrm hv ht hr ?_ hrx
  intro res h
  rw [C140_same r rest hclean hpar hsame m path buf b hm, hcov] at h
  simp only [Bool.false_eq_true, if_false, Outcome.ret.injEq] at h
  rw [← h]

/-- C140 for tables of literal routes: routes of other methods do not matter at all. -/
theorem C140_literal_partial (hist : List (Reg σ)) (hlit : ∀ r ∈ hist, Literal r) (m : Method) (path : Str) (buf buf' : Args) :
    treeFind (treeOf hist) m path buf = treeFind (treeOf (ofMethod m hist)) m path buf' := by
  rw [C01_literal_map hist hlit, C01_literal_map (ofMethod m hist) fun r hr => hlit r ((List.mem_filter.1 hr).1)]
  unfold ofMethod
  rw [← List.filter_reverse, List.find?_filter]
  congr 3
  funext r
  cases covers r.method m <;> simp

/-- C140 for every table: routes of other methods that are registered after all routes of the method and do not read the path do not matter. -/
theorem C140_later_partial (mine others : List (Reg σ)) (m : Method) (path : Str) (buf buf' : Args) (hmine : ∀ r ∈ mine, covers r.method m = true)
    (hothers : ∀ r ∈ others, covers r.method m = false)
    (h : ∀ r ∈ others, ¬ reads ((segs r.route).take (segs path).length) (segs path)) :
    treeFind (treeOf (mine ++ others)) m path buf = treeFind (treeOf (ofMethod m (mine ++ others))) m path buf' := by
  have : ofMethod m (mine ++ others) = mine := by
    unfold ofMethod
    rw [List.filter_append, List.filter_eq_self.2 hmine, List.filter_eq_nil_iff.2 fun r hr => by simp [hothers r hr], List.append_nil]
  rw [this]
  exact C07_unread_partial mine others m path buf buf' h

/-- C140 is false: a GET route hides the same route for POST; and a POST route that does not even compete for the path decides between two GET routes. -/
theorem C140_violated :
    (∃ (hist : List (Reg Nat)) (m path : Str), (∀ r ∈ hist, Clean r) ∧ treeFind (treeOf hist) m path [] = .ret ⟨none, false, []⟩ ∧
      ∃ s args, treeFind (treeOf (ofMethod m hist)) m path [] = .ret ⟨some s, true, args⟩) ∧
    (∃ (hist : List (Reg Nat)) (m path : Str) (s s' : Nat) (a a' : Args), (∀ r ∈ hist, Clean r) ∧
      (∀ r ∈ hist, covers r.method m = false → competes (routePats r) (segs path) = false) ∧ s ≠ s' ∧
      treeFind (treeOf hist) m path [] = .ret ⟨some s, true, a⟩ ∧ treeFind (treeOf (ofMethod m hist)) m path [] = .ret ⟨some s', true, a'⟩) :=
  ⟨⟨[⟨b!"GET", b!"/u/:id", 1⟩, ⟨b!"POST", b!"/u/:id", 2⟩], b!"POST", b!"/u/7", by decide +kernel, by decide +kernel, 2, [(b!"id", b!"7")], by decide +kernel⟩,
   ⟨[⟨b!"POST", b!"/a/x", 1⟩, ⟨b!"GET", b!"/:p/b", 2⟩, ⟨b!"GET", b!"/a/b", 3⟩], b!"GET", b!"/a/b", 3, 2, [], [(b!"p", b!"a")],
    by decide +kernel, by decide +kernel, by decide, by decide +kernel, by decide +kernel⟩⟩

/-- One route, three methods. -/
example : treeFind (treeOf [(⟨b!"GETHEAD", b!"/u/:id/x", 1⟩ : Reg Nat), ⟨b!"POST", b!"/u/:id/x/", 2⟩, ⟨b!"PUT", b!"u/:id/x", 3⟩]) b!"PUT" b!"/u/7/x" [] =
    .ret ⟨none, false, []⟩ :=
  C140_same _ _ (by decide +kernel) (by decide +kernel) (by decide +kernel) _ _ _ [(b!"id", b!"7")] (by decide +kernel)

end Verif
