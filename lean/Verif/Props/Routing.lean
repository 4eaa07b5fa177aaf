import Verif.Lemmas.Arbitration
import Verif.Lemmas.NodeInv
import Verif.Lemmas.SplitPath
import Verif.Lemmas.NodePath
import Verif.Lemmas.Again
/-
Properties C01–C12: the routing tree.

Vocabulary of the statements:
* `treeOf hist` is the tree after the registrations `hist` (oldest first), `treeFind t m path buf` a
  lookup with a buffer holding `buf` (Model/Tree.lean);
* `segs` are the segments of a path, characterised by C10;
* `routePats r` is the route as a list of patterns; `Spec.matchRoute`, `Spec.covers`, `Spec.birth`
  are the independent specification (Spec/Routing.lean).
-/
namespace Verif
open Spec
variable {σ : Type}

/-- A registered route read as patterns: `:name` segments are parameters. -/
def routePats (r : Reg σ) : List Pat := (segs r.route).map segPat

/-- No segment of the route is empty or consists of colons only. -/
def Clean (r : Reg σ) : Prop := ∀ s ∈ segs r.route, s.dropWhile (· == 58) ≠ []

/-- No segment of the route starts with a colon. -/
def Literal (r : Reg σ) : Prop := ∀ s ∈ segs r.route, s.head? ≠ some 58

instance (r : Reg σ) : Decidable (Clean r) := inferInstanceAs (Decidable (∀ s ∈ _, _))
instance (r : Reg σ) : Decidable (Literal r) := inferInstanceAs (Decidable (∀ s ∈ _, _))

/-! #### Bridging lemmas -/

theorem find_clean {hist : List (Reg σ)} (h : ∀ r ∈ hist, Clean r) (m : Method) (path : Str) (buf : Args) :
    treeFind (treeOf hist) m path buf =
      .ret (specResult (serve (hist.map Reg.toRoute) m (segs path))) :=
  treeFind_spec false hist (fun r hr s hs => by simpa [WFSeg] using h r hr s hs) m path buf

theorem find_literal {hist : List (Reg σ)} (h : ∀ r ∈ hist, Literal r) (m : Method) (path : Str) (buf : Args) :
    treeFind (treeOf hist) m path buf =
      .ret (specResult (serve (hist.map Reg.toRoute) m (segs path))) :=
  treeFind_spec true hist (fun r hr s hs => by simpa [WFSeg] using h r hr s hs) m path buf

theorem specResult_found {o : Option (Route σ × List (Str × Str))} {res : FindResult σ}
    (h : specResult o = res) (hf : res.found = true) :
    ∃ r b, o = some (r, b) ∧ res.set = some r.set ∧ res.args = b := by
  subst h
  cases o with
  | none => simp [specResult, FindResult.notFound] at hf
  | some x => exact ⟨x.1, x.2, rfl, rfl, rfl⟩

theorem literal_pats {r : Reg σ} (h : Literal r) : r.toRoute.pats = (segs r.route).map Pat.lit := by
  simp only [Reg.toRoute]
  exact List.map_congr_left fun s hs => segPat_lit (h s hs)

theorem map_lit_inj {a b : List Str} (h : a.map Pat.lit = b.map Pat.lit) : a = b :=
  (List.map_inj_right (by intro x y e; exact Pat.lit.inj e)).1 h

theorem matchRoute_lits (ss : List Str) : matchRoute (ss.map Pat.lit) ss = some [] := by
  induction ss with
  | nil => rfl
  | cons s ss ih => simp [matchRoute, ih]

theorem competes_take_lit {ts ss : List Str} (h : competes (ts.map Pat.lit) ss = true) :
    (ts.map Pat.lit).take ss.length = ss.map Pat.lit := by
  induction ss generalizing ts with
  | nil => simp
  | cons s ss ih =>
    cases ts with
    | nil => simp at h
    | cons t ts =>
      simp only [List.map_cons, competes_lit, Bool.and_eq_true, decide_eq_true_eq] at h
      obtain ⟨rfl, h⟩ := h
      simp [ih h]

theorem serve_literal {hist : List (Reg σ)} {ss : List Str}
    (h : ∀ r ∈ hist, competes r.toRoute.pats ss = true →
      r.toRoute.pats.take ss.length = ss.map Pat.lit) (m : Str) :
    serve (hist.map Reg.toRoute) m ss =
      (hist.reverse.find? fun r => decide (routePats r = ss.map Pat.lit) && covers r.method m).map
        fun r => (⟨[], r.method, r.set⟩, []) := by
  by_cases hne : hist.map Reg.toRoute ≠ [] ∨ ss ≠ []
  · have hc := cand_literal ss (hist.map Reg.toRoute) hne (by
      intro o ho hco
      simp only [List.mem_map] at ho
      obtain ⟨r, hr, rfl⟩ := ho
      exact h r hr hco)
    have hfind : ((((hist.map Reg.toRoute).filter fun o => o.pats = ss.map Pat.lit).map
          fun o => ({ o with pats := [] } : Route σ)).reverse.find? fun r => covers r.method m)
        = (hist.reverse.find? fun r => decide (routePats r = ss.map Pat.lit) && covers r.method m).map
            fun r => (⟨[], r.method, r.set⟩ : Route σ) := by
      rw [← List.map_reverse, List.find?_map, ← List.filter_reverse, ← List.map_reverse, List.find?_filter,
        List.find?_map, Option.map_map]
      congr 2
      funext r
      have : routePats r = r.toRoute.pats := rfl
      rw [this, Bool.eq_iff_iff]
      simp [Reg.toRoute]
    unfold serve
    rw [hc]
    split
    · rename_i hnil
      split at hnil
      · simp at hnil
      · rename_i hno
        symm
        simp only [Option.map_eq_none_iff, List.find?_eq_none, List.mem_reverse]
        intro r hr hp
        simp only [Bool.and_eq_true, decide_eq_true_eq] at hp
        refine hno ⟨r.toRoute, List.mem_map.2 ⟨r, hr, rfl⟩, ?_⟩
        have : r.toRoute.pats = ss.map Pat.lit := hp.1
        rw [this]; exact competes_of_match (matchRoute_lits ss)
    · rename_i rs b rest hcons
      split at hcons
      · simp only [List.cons.injEq, Prod.mk.injEq] at hcons
        obtain ⟨⟨rfl, rfl⟩, rfl⟩ := hcons
        rw [hfind, Option.map_map]; rfl
      · simp at hcons
  · have h1 : hist = [] ∧ ss = [] := by
      refine ⟨?_, ?_⟩
      · rcases hist with _ | ⟨x, xs⟩
        · rfl
        · exact absurd (Or.inl (by simp)) hne
      · rcases ss with _ | ⟨x, xs⟩
        · rfl
        · exact absurd (Or.inr (by simp)) hne
    obtain ⟨rfl, rfl⟩ := h1
    rfl

/-! ### C01 Literal routes behave like a map -/

/-- C01.  With `:`-free routes a lookup is: the latest registration with the same segments and a
covering method; not found iff there is none; never any URL parameters. -/
theorem C01_literal_map (hist : List (Reg σ)) (hlit : ∀ r ∈ hist, Literal r) (m : Method) (path : Str)
    (buf : Args) :
    treeFind (treeOf hist) m path buf = .ret
      (match hist.reverse.find? fun r => decide (segs r.route = segs path) && covers r.method m with
        | some r => ⟨some r.set, true, []⟩
        | none => ⟨none, false, []⟩) := by
  rw [find_literal hlit, serve_literal]
  · congr 1
    have hpq : ∀ r ∈ hist, (routePats r = (segs path).map Pat.lit) ↔ segs r.route = segs path := by
      intro r hr
      have : routePats r = (segs r.route).map Pat.lit := literal_pats (hlit r hr)
      rw [this]
      exact ⟨map_lit_inj, fun e => by rw [e]⟩
    have : (hist.reverse.find? fun r => decide (routePats r = (segs path).map Pat.lit) && covers r.method m)
        = hist.reverse.find? fun r => decide (segs r.route = segs path) && covers r.method m := by
      have gen : ∀ l : List (Reg σ), (∀ r ∈ l, r ∈ hist) →
          (l.find? fun r => decide (routePats r = (segs path).map Pat.lit) && covers r.method m)
          = l.find? fun r => decide (segs r.route = segs path) && covers r.method m := by
        intro l
        induction l with
        | nil => intro _; rfl
        | cons x l ih =>
          intro hl
          have hx : decide (routePats x = (segs path).map Pat.lit) = decide (segs x.route = segs path) := by
            simp only [hpq x (hl x (by simp))]
          simp only [List.find?_cons, hx, ih (fun r hr => hl r (by simp [hr]))]
      exact gen _ (by simp)
    rw [this]
    cases hist.reverse.find? fun r => decide (segs r.route = segs path) && covers r.method m <;> rfl
  · intro r hr hc
    rw [literal_pats (hlit r hr)] at hc ⊢
    exact competes_take_lit hc

/-- A non-trivial literal table: a shared prefix, an empty segment, a combined method, an overwrite. -/
example :
    let hist : List (Reg Nat) := [⟨b!"GET", b!"/a/b", 1⟩, ⟨b!"GETPOST", b!"/a", 2⟩, ⟨b!"POST", b!"a//c/", 3⟩,
      ⟨b!"POST", b!"/a", 4⟩]
    (∀ r ∈ hist, Literal r) ∧ treeFind (treeOf hist) b!"GET" b!"/a/" [] = .ret ⟨some 2, true, []⟩ ∧
      treeFind (treeOf hist) b!"POST" b!"/a" [] = .ret ⟨some 4, true, []⟩ ∧
      treeFind (treeOf hist) b!"POST" b!"/a/b" [] = .ret ⟨none, false, []⟩ := by decide +kernel

/-! ### C02 Only registered routes are served -/

example :
    let hist : List (Reg Nat) := [⟨b!"GET", b!"/u/:id/posts", 1⟩, ⟨b!"GET", b!"/u/:name", 2⟩, ⟨b!"GET", b!"/:x/:y/z", 3⟩]
    (∀ r ∈ hist, Clean r) ∧
      treeFind (treeOf hist) b!"GET" b!"/u/7/posts" [(b!"old", b!"x")] = .ret ⟨some 1, true, [(b!"id", b!"7")]⟩ := by
  decide +kernel

/-- C02 for EVERY history, with no condition on any route.  A found handler set was registered with a covering method
under a route with as many segments as the path; the route matches the path up to its first empty or colon-only segment,
and the parameters start with the bindings of that part; all parameter values are segments of the path, in order. -/
theorem C02_any_history (hist : List (Reg σ)) (m : Method) (path : Str) (buf : Args) (res : FindResult σ)
    (h : treeFind (treeOf hist) m path buf = .ret res) (hf : res.found = true) :
    (res.args.map Prod.snd).Sublist (segs path) ∧
    ∃ r ∈ hist, res.set = some r.set ∧ covers r.method m = true ∧ (segs r.route).length = (segs path).length ∧
      ∀ k, (∀ s ∈ (segs r.route).take k, s.dropWhile (· == 58) ≠ []) →
        ∃ b, matchRoute ((routePats r).take k) ((segs path).take k) = some b ∧ b <+: res.args := by
  obtain ⟨P, r, hr, h1, h2, h3, h4, h5, h6⟩ := treeFind_place hist m path buf res h hf
  refine ⟨by rw [h6]; exact bindsAt_values _ _, r, hr, h1, h2, by rw [← h3.length, h5.length], ?_⟩
  intro k hk
  have hk' : ∀ s ∈ (segs r.route).take k, WFSeg false s := by simpa [WFSeg] using hk
  obtain ⟨b, e1, e2, -⟩ := acceptAll_match (segs r.route) P (segs path) k hk' h3.length (h3.clean rfl h4 k hk') h5
  exact ⟨b, e1, by rw [h6]; exact e2⟩

/-- C02.  In EVERY history, a found handler set was registered with a covering method under some route, and if that
route has no empty or colon-only segment (whatever the other routes look like) it matches the path and the parameters
are exactly its bindings. -/
theorem C02_sound (hist : List (Reg σ)) (m : Method) (path : Str) (buf : Args) (res : FindResult σ)
    (h : treeFind (treeOf hist) m path buf = .ret res) (hf : res.found = true) :
    ∃ r ∈ hist, res.set = some r.set ∧ covers r.method m = true ∧
      (Clean r → matchRoute (routePats r) (segs path) = some res.args) := by
  obtain ⟨P, r, hr, h1, h2, h3, h4, h5, h6⟩ := treeFind_place hist m path buf res h hf
  refine ⟨r, hr, h1, h2, ?_⟩
  intro hc
  have hk' : ∀ s ∈ (segs r.route).take (segs r.route).length, WFSeg false s := by
    rw [List.take_length]; simpa [WFSeg, Clean] using hc
  obtain ⟨b, e1, -, e2⟩ := acceptAll_match (segs r.route) P (segs path) _ hk' h3.length (h3.clean rfl h4 _ hk') h5
  have hl : (segs r.route).length = (segs path).length := by rw [← h3.length, h5.length]
  have e3 : routePats r = ((segs r.route).map segPat).take (segs r.route).length := by
    rw [List.take_of_length_le (by simp)]; rfl
  have e4 : segs path = (segs path).take (segs r.route).length := by rw [hl, List.take_length]
  rw [h6, ← e2 (Nat.le_refl _), e3, e4]
  rw [← e4]; rw [← e4] at e1; exact e1

/-- The same when all routes are clean. -/
theorem sound_clean (hist : List (Reg σ)) (hclean : ∀ r ∈ hist, Clean r) (m : Method) (path : Str)
    (buf : Args) (res : FindResult σ) (h : treeFind (treeOf hist) m path buf = .ret res) (hf : res.found = true) :
    ∃ r ∈ hist, res.set = some r.set ∧ covers r.method m = true ∧
      matchRoute (routePats r) (segs path) = some res.args := by
  obtain ⟨r, hr, h1, h2, h3⟩ := C02_sound hist m path buf res h hf
  exact ⟨r, hr, h1, h2, h3 (hclean r hr)⟩

/-- A history with an unclean route, in which clean routes are found as they should. -/
example :
    let hist : List (Reg Nat) := [⟨b!"POST", b!"/a/:id/x", 1⟩, ⟨b!"GET", b!"/a//b", 2⟩, ⟨b!"GET", b!"/:q/c/x", 3⟩]
    treeFind (treeOf hist) b!"GET" b!"/a/5/x" [] = .ret ⟨some 2, true, [(b!"id", b!"5")]⟩ ∧
      treeFind (treeOf hist) b!"POST" b!"/a/5/x" [] = .ret ⟨some 1, true, [(b!"id", b!"5")]⟩ ∧
      treeFind (treeOf hist) b!"GET" b!"/b/c/x" [] = .ret ⟨some 3, true, [(b!"q", b!"b")]⟩ ∧
      Clean (⟨b!"GET", b!"/:q/c/x", 3⟩ : Reg Nat) ∧ ¬ Clean (⟨b!"GET", b!"/a//b", 2⟩ : Reg Nat) := by decide +kernel

/-- C02 is violated by the code for routes with an empty segment: registering `/a//b` attaches its
handler to the unrelated route `/a/:id/x`: a request for `/a/5/x` is answered by it. -/
theorem C02_condition_needed :
    ∃ (hist : List (Reg Nat)) (m path : Str) (res : FindResult Nat),
      treeFind (treeOf hist) m path [] = .ret res ∧ res.found = true ∧
      ∀ r ∈ hist, res.set = some r.set → matchRoute (routePats r) (segs path) = none :=
  ⟨[⟨b!"POST", b!"/a/:id/x", 1⟩, ⟨b!"POST", b!"/a//b", 2⟩], b!"POST", b!"/a/5/x",
    ⟨some 2, true, [(b!"id", b!"5")]⟩, by decide +kernel⟩

/-! ### C03 A registered route is reachable -/

/-- C03 is violated by the code: with GET `/a/:id` registered before POST `/a/:id`, the POST route is
never found. -/
theorem C03_violated :
    ∃ (hist : List (Reg Nat)) (m path : Str), (∀ r ∈ hist, Clean r) ∧
      (∃ r ∈ hist, covers r.method m = true ∧ (matchRoute (routePats r) (segs path)).isSome = true) ∧
      treeFind (treeOf hist) m path [] = .ret ⟨none, false, []⟩ :=
  ⟨[⟨b!"GET", b!"/a/:id", 1⟩, ⟨b!"POST", b!"/a/:id", 2⟩], b!"POST", b!"/a/5", by decide +kernel⟩

/-- C03, second violation, within one method: a longer route registered first hides a shorter one. -/
theorem C03_violated_prefix :
    ∃ (hist : List (Reg Nat)) (path : Str), (∀ r ∈ hist, Clean r ∧ r.method = b!"GET") ∧
      (∃ r ∈ hist, (matchRoute (routePats r) (segs path)).isSome = true) ∧
      treeFind (treeOf hist) b!"GET" path [] = .ret ⟨none, false, []⟩ :=
  ⟨[⟨b!"GET", b!"/a/:id/borrow", 1⟩, ⟨b!"GET", b!"/a/:id", 2⟩], b!"/a/5", by decide +kernel⟩

theorem serve_ne_none {regs : List (Route σ)} {m : Str} {ss : List Str} (o : Route σ) (ho : o ∈ regs)
    (hco : competes o.pats ss = true)
    (hall : ∀ o ∈ regs, competes o.pats ss = true →
      (matchRoute o.pats ss).isSome = true ∧ covers o.method m = true) :
    ∃ x, serve regs m ss = some x := by
  obtain ⟨c, hc, _⟩ := cand_complete ss regs o ho hco
  cases hcs : candidates regs ss with
  | nil => rw [hcs] at hc; simp at hc
  | cons c0 cs =>
    obtain ⟨o', ho', h1, h2⟩ := cand_origin ss regs (by intro e; simp [e] at ho) c0 (by simp [hcs])
    obtain ⟨g1, g2⟩ := hall o' ho' h1
    have hm := h2 g1
    unfold serve
    rw [hcs]
    obtain ⟨rs, b⟩ := c0
    cases hf : rs.reverse.find? (fun r => covers r.method m) with
    | some x => exact ⟨(x, b), by simp [hf]⟩
    | none =>
      rw [List.find?_eq_none] at hf
      have := hf _ (by simpa using hm)
      simp [g2] at this

/-- C03, proved part 1: if every registration competing for the path (matching it, or matching it with
its first segments) matches it fully and covers the method, and there is at least one, the lookup
succeeds. -/
theorem C03_reachable_partial (hist : List (Reg σ)) (hclean : ∀ r ∈ hist, Clean r) (m : Method) (path : Str)
    (buf : Args) (r : Reg σ) (hr : r ∈ hist) (hm : (matchRoute (routePats r) (segs path)).isSome = true)
    (hall : ∀ o ∈ hist, competes (routePats o) (segs path) = true →
      (matchRoute (routePats o) (segs path)).isSome = true ∧ covers o.method m = true) :
    ∃ s args, treeFind (treeOf hist) m path buf = .ret ⟨some s, true, args⟩ := by
  have hmb := Option.isSome_iff_exists.1 hm
  obtain ⟨b, hb⟩ := hmb
  obtain ⟨x, hx⟩ := serve_ne_none (regs := hist.map Reg.toRoute) (m := m) (ss := segs path) r.toRoute
    (List.mem_map.2 ⟨r, hr, rfl⟩) (competes_of_match hb) (by
      intro o ho hco
      simp only [List.mem_map] at ho
      obtain ⟨y, hy, rfl⟩ := ho
      exact hall y hy hco)
  rw [find_clean hclean, hx]
  exact ⟨x.1.set, x.2, rfl⟩

/-- C03, proved part 2: a route with no competitor for the path is served, with exactly its own
handler set and bindings. -/
theorem C03_unique_partial (hist : List (Reg σ)) (hclean : ∀ r ∈ hist, Clean r) (m : Method) (path : Str)
    (buf : Args) (r : Reg σ) (hr : r ∈ hist) (hcov : covers r.method m = true) (b : List (Str × Str))
    (hm : matchRoute (routePats r) (segs path) = some b)
    (huniq : ∀ o ∈ hist, competes (routePats o) (segs path) = true → o = r) :
    treeFind (treeOf hist) m path buf = .ret ⟨some r.set, true, b⟩ := by
  obtain ⟨s, args, h⟩ := C03_reachable_partial hist hclean m path buf r hr (by simp [hm]) (by
    intro o ho hco
    have := huniq o ho hco
    subst this; simp [hm, hcov])
  obtain ⟨r', hr', h1, h2, h3⟩ := sound_clean hist hclean m path buf _ h rfl
  have := huniq r' hr' (competes_of_match h3)
  subst this
  rw [h]
  simp only [Option.some.injEq] at h1
  rw [hm] at h3
  simp only [Option.some.injEq] at h3
  rw [h1, h3]

/-- C03, proved part 3: if all registrations competing for the path are literal as far as the path
reaches, the lookup succeeds exactly when one of them ends there and covers the method. -/
theorem C03_literal_partial (hist : List (Reg σ)) (hclean : ∀ r ∈ hist, Clean r) (m : Method) (path : Str)
    (buf : Args) (hl : ∀ o ∈ hist, competes (routePats o) (segs path) = true →
      allLit ((routePats o).take (segs path).length) = true) :
    (∃ s args, treeFind (treeOf hist) m path buf = .ret ⟨some s, true, args⟩) ↔
      ∃ r ∈ hist, covers r.method m = true ∧ (matchRoute (routePats r) (segs path)).isSome = true := by
  have key : ∀ (ps : List Pat) (ss : List Str), competes ps ss = true → allLit (ps.take ss.length) = true →
      ps.take ss.length = ss.map Pat.lit := by
    intro ps ss
    induction ss generalizing ps with
    | nil => simp
    | cons s ss ih =>
      intro h1 h2
      cases ps with
      | nil => simp at h1
      | cons q ps =>
        cases q with
        | par n => simp [allLit] at h2
        | lit t =>
          simp only [competes_lit, Bool.and_eq_true, decide_eq_true_eq] at h1
          obtain ⟨rfl, h1⟩ := h1
          simp [ih ps h1 (by simpa [allLit] using h2)]
  constructor
  · rintro ⟨s, args, h⟩
    obtain ⟨r, hr, _, h2, h3⟩ := sound_clean hist hclean m path buf _ h rfl
    exact ⟨r, hr, h2, by simp at h3; simp [h3]⟩
  · rintro ⟨r, hr, hcov, hm⟩
    have hco : competes (routePats r) (segs path) = true := by
      obtain ⟨b, hb⟩ := Option.isSome_iff_exists.1 hm
      exact competes_of_match hb
    have hlen : ∀ (ps : List Pat) (ss : List Str), (matchRoute ps ss).isSome = true → ps.length = ss.length := by
      intro ps ss
      induction ss generalizing ps with
      | nil => intro h; rw [matchRoute_nil_right] at h; split at h <;> simp_all
      | cons s ss ih =>
        intro h
        cases ps with
        | nil => simp [matchRoute] at h
        | cons q ps =>
          cases q with
          | lit t =>
            by_cases ht : t = s
            · simp [matchRoute, ht] at h; simp [ih ps h]
            · simp [matchRoute, ht] at h
          | par n => simp [matchRoute] at h; simp [ih ps h]
    have hrp : routePats r = (segs path).map Pat.lit := by
      have := key _ _ hco (hl r hr hco)
      rw [← hlen _ _ hm, List.take_length] at this
      exact this
    rw [find_clean hclean, serve_literal (by
      intro o ho h; exact key _ _ h (hl o ho h))]
    cases hf : hist.reverse.find? fun r => decide (routePats r = (segs path).map Pat.lit) && covers r.method m with
    | some x => exact ⟨_, _, rfl⟩
    | none =>
      rw [List.find?_eq_none] at hf
      have := hf r (by simpa using hr)
      simp [hrp, hcov] at this

/-- Concrete table for the three parts: `/u/:id` has no competitor on `/u/7`; `/a/b` only a literal
one (`/a/b/c`). -/
example :
    let hist : List (Reg Nat) := [⟨b!"GET", b!"/a/b/c", 1⟩, ⟨b!"GET", b!"/u/:id", 2⟩, ⟨b!"GET", b!"/a/b", 3⟩]
    (∀ r ∈ hist, Clean r) ∧ matchRoute (routePats (⟨b!"GET", b!"/u/:id", 2⟩ : Reg Nat)) (segs b!"/u/7") = some [(b!"id", b!"7")] ∧
      (∀ o ∈ hist, competes (routePats o) (segs b!"/u/7") = true → o.set = 2) ∧
      (∀ o ∈ hist, competes (routePats o) (segs b!"/a/b") = true →
        allLit ((routePats o).take (segs b!"/a/b").length) = true) := by decide +kernel

/-! ### C04 Route arbitration -/

/-- C04, success.  The served registration `i` matches the path and covers the method; every other
registration competing for the path is outranked by it (at the first segment where their branches
differ, the branch of `i` is older) or lives on the very same branch, and among those on the same
branch that match and cover the method `i` is the latest. -/
theorem C04_arbitration (hist : List (Reg σ)) (hclean : ∀ r ∈ hist, Clean r) (m : Method) (path : Str)
    (buf : Args) (res : FindResult σ) (h : treeFind (treeOf hist) m path buf = .ret res)
    (hf : res.found = true) :
    ∃ i r, hist[i]? = some r ∧ res.set = some r.set ∧ covers r.method m = true ∧
      matchRoute (routePats r) (segs path) = some res.args ∧
      ∀ j o, hist[j]? = some o → competes (routePats o) (segs path) = true →
        outranks (hist.map routePats) (segs path).length i j ∨
        (sameBranch (hist.map routePats) (segs path).length i j ∧
          (covers o.method m = true → (matchRoute (routePats o) (segs path)).isSome = true → j ≤ i)) := by
  rw [find_clean hclean] at h
  simp only [Outcome.ret.injEq] at h
  obtain ⟨r0, b, hs, h1, h2⟩ := specResult_found h hf
  have hunt := candidates_untag (segs path) (tagFrom 0 (hist.map Reg.toRoute))
  rw [tag_untag] at hunt
  obtain ⟨rs, hc, hfind⟩ := serve_some hs
  rw [hunt, List.head?_map, Option.map_eq_some_iff] at hc
  obtain ⟨c, hc, hce⟩ := hc
  simp only [Prod.mk.injEq] at hce
  obtain ⟨rfl, rfl⟩ := hce
  have hcm : c ∈ candidates (tagFrom 0 (hist.map Reg.toRoute)) (segs path) := by
    cases hcc : candidates (tagFrom 0 (hist.map Reg.toRoute)) (segs path) with
    | nil => simp [hcc] at hc
    | cons x xs => simp [hcc] at hc; subst hc; simp
  rw [← List.map_reverse, List.find?_map, Option.map_eq_some_iff] at hfind
  obtain ⟨x, hx, hxe⟩ := hfind
  have hxm : x ∈ c.1 := by simpa using List.mem_of_find?_eq_some hx
  have hxc : covers x.method m = true := by simpa [untag] using List.find?_some hx
  have hsort := tag_sorted 0 (hist.map Reg.toRoute)
  -- position of a registration
  have pos : ∀ j o, hist[j]? = some o →
      (⟨routePats o, o.method, (j, o.set)⟩ : IdRoute σ) ∈ tagFrom 0 (hist.map Reg.toRoute) := by
    intro j o ho
    rw [tag_mem]
    exact ⟨j, o.toRoute, by simp [ho], by simp [Reg.toRoute, routePats]⟩
  have hne : tagFrom 0 (hist.map Reg.toRoute) ≠ [] := by
    intro e
    obtain ⟨o, ho, _⟩ := cand_sound _ _ c hcm x hxm
    rw [e] at ho; simp at ho
  obtain ⟨w, hw, hcw, hord, hmem, hsc⟩ := cand_winner (segs path) _ hne hsort c hc
  obtain ⟨y, hy, e1, e2, e3⟩ := cand_sound _ _ c hcm x hxm
  obtain ⟨i, ri, hi, hye⟩ := (tag_mem 0 _ y).1 hy
  simp only [Nat.zero_add] at hye
  rw [List.getElem?_map, Option.map_eq_some_iff] at hi
  obtain ⟨r, hri, rfl⟩ := hi
  have hxe' : x = ⟨[], r.method, (i, r.set)⟩ := by
    have hxp := candidates_terminal _ _ c hcm x hxm
    cases x with
    | mk xp xm xs =>
      simp only at hxp e1 e2
      rw [hye] at e1 e2
      simp only at e1 e2
      rw [hxp, ← e1, ← e2]; rfl
  have bt : ∀ j o, hist[j]? = some o → ∀ k,
      birthId (tagFrom 0 (hist.map Reg.toRoute)) ⟨routePats o, o.method, (j, o.set)⟩ k
        = birth (hist.map routePats) j k := by
    intro j o ho k
    have := birth_tag (hist.map Reg.toRoute) j o.toRoute (by simp [ho]) k
    rw [List.map_map] at this
    exact this
  have hywin : ∀ k ≤ (segs path).length, birthId (tagFrom 0 (hist.map Reg.toRoute)) w k
      = birth (hist.map routePats) i k := by
    have := ((hmem y hy).1 (by rw [hye]; rw [hxe'] at hxm; exact hxm)).2
    intro k hk
    rw [this k hk, hye]
    exact bt i r hri k
  refine ⟨i, r, hri, ?_, ?_, ?_, ?_⟩
  · rw [h1, ← hxe, hxe']; rfl
  · rw [hxe'] at hxc; exact hxc
  · rw [h2, ← e3, hye]; rfl
  · intro j o hj hco
    have hoj := pos j o hj
    rcases hord _ hoj hco with ⟨k, hk, hlt, heq⟩ | hsame
    · left
      refine ⟨k, hk, ?_, ?_⟩
      · rw [← hywin k hk, ← bt j o hj k]; exact hlt
      · intro l hl
        rw [← hywin l (by omega), ← bt j o hj l]; exact heq l hl
    · right
      refine ⟨?_, ?_⟩
      · intro k hk; rw [← hywin k hk, ← bt j o hj k]; exact hsame k hk
      · intro hcov hmo
        have hjm := (hmem _ hoj).2 ⟨hmo, hsame⟩
        -- x is the last covering element of the sorted list c.1
        have last : ∀ (l : List (IdRoute σ)), Sorted l → ∀ x, (l.reverse.find? fun r => covers r.method m) = some x →
            ∀ z ∈ l, covers z.method m = true → rid z ≤ rid x := by
          intro l
          induction l with
          | nil => intro _ x hx z hz; simp at hz
          | cons a l ihl =>
            intro hsl x hx z hz hzc
            have hp := List.pairwise_cons.1 hsl
            rw [List.reverse_cons, List.find?_append] at hx
            cases hfl : l.reverse.find? (fun r => covers r.method m) with
            | some x' =>
              rw [hfl] at hx
              simp only [Option.some_or, Option.some.injEq] at hx
              subst hx
              rcases List.mem_cons.1 hz with rfl | hz
              · exact Nat.le_of_lt (hp.1 _ (by simpa using List.mem_of_find?_eq_some hfl))
              · exact ihl hp.2 _ hfl z hz hzc
            | none =>
              rw [hfl] at hx
              simp only [Option.none_or] at hx
              have hxa := List.mem_of_find?_eq_some hx
              simp only [List.mem_singleton] at hxa
              rw [hxa]
              rcases List.mem_cons.1 hz with rfl | hz
              · exact Nat.le_refl _
              · rw [List.find?_eq_none] at hfl
                exact absurd hzc (hfl z (by simpa using hz))
        have hx' : (c.1.reverse.find? fun r => covers r.method m) = some x := by
          simpa [untag, Function.comp_def] using hx
        have := last c.1 hsc x hx' _ hjm hcov
        rw [hxe'] at this
        exact this

/-- C04, failure.  If the lookup fails although some registration competes for the path, then the
oldest branch of all competitors is one on which no registration matches the path with a covering
method (so the outcome is determined by that branch alone). -/
theorem C04_not_found (hist : List (Reg σ)) (hclean : ∀ r ∈ hist, Clean r) (m : Method) (path : Str)
    (buf : Args) (res : FindResult σ) (h : treeFind (treeOf hist) m path buf = .ret res)
    (hf : res.found = false) (hsome : ∃ r ∈ hist, competes (routePats r) (segs path) = true) :
    ∃ i r, hist[i]? = some r ∧ competes (routePats r) (segs path) = true ∧
      (∀ j o, hist[j]? = some o → competes (routePats o) (segs path) = true →
        outranks (hist.map routePats) (segs path).length i j ∨
        sameBranch (hist.map routePats) (segs path).length i j) ∧
      (∀ j o, hist[j]? = some o → sameBranch (hist.map routePats) (segs path).length i j →
        (matchRoute (routePats o) (segs path)).isSome = true → covers o.method m = false) := by
  rw [find_clean hclean] at h
  simp only [Outcome.ret.injEq] at h
  have hnone : serve (hist.map Reg.toRoute) m (segs path) = none := by
    cases hs : serve (hist.map Reg.toRoute) m (segs path) with
    | none => rfl
    | some x => rw [hs] at h; rw [← h] at hf; simp [specResult] at hf
  have hunt := candidates_untag (segs path) (tagFrom 0 (hist.map Reg.toRoute))
  rw [tag_untag] at hunt
  have hsort := tag_sorted 0 (hist.map Reg.toRoute)
  have pos : ∀ j o, hist[j]? = some o →
      (⟨routePats o, o.method, (j, o.set)⟩ : IdRoute σ) ∈ tagFrom 0 (hist.map Reg.toRoute) := by
    intro j o ho
    rw [tag_mem]
    exact ⟨j, o.toRoute, by simp [ho], by simp [Reg.toRoute, routePats]⟩
  have bt : ∀ j o, hist[j]? = some o → ∀ k,
      birthId (tagFrom 0 (hist.map Reg.toRoute)) ⟨routePats o, o.method, (j, o.set)⟩ k
        = birth (hist.map routePats) j k := by
    intro j o ho k
    have := birth_tag (hist.map Reg.toRoute) j o.toRoute (by simp [ho]) k
    rw [List.map_map] at this
    exact this
  obtain ⟨r1, hr1, hc1⟩ := hsome
  obtain ⟨j1, hj1, hj1e⟩ := List.mem_iff_getElem.1 hr1
  have hr1p := pos j1 r1 (by rw [← hj1e]; simp [hj1])
  have hne : tagFrom 0 (hist.map Reg.toRoute) ≠ [] := by intro e; rw [e] at hr1p; simp at hr1p
  obtain ⟨c1, hc1m, _⟩ := cand_complete (segs path) _ _ hr1p hc1
  cases hcc : candidates (tagFrom 0 (hist.map Reg.toRoute)) (segs path) with
  | nil => rw [hcc] at hc1m; simp at hc1m
  | cons c cs =>
    obtain ⟨w, hw, hcw, hord, hmem, hsc⟩ := cand_winner (segs path) _ hne hsort c (by simp [hcc])
    obtain ⟨i, ri, hi, hwe⟩ := (tag_mem 0 _ w).1 hw
    simp only [Nat.zero_add] at hwe
    rw [List.getElem?_map, Option.map_eq_some_iff] at hi
    obtain ⟨r, hri, rfl⟩ := hi
    have hbw : ∀ k, birthId (tagFrom 0 (hist.map Reg.toRoute)) w k = birth (hist.map routePats) i k := by
      intro k; rw [hwe]; exact bt i r hri k
    refine ⟨i, r, hri, by rw [hwe] at hcw; exact hcw, ?_, ?_⟩
    · intro j o hj hco
      rcases hord _ (pos j o hj) hco with ⟨k, hk, hlt, heq⟩ | hsame
      · refine Or.inl ⟨k, hk, ?_, ?_⟩
        · rw [← hbw k, ← bt j o hj k]; exact hlt
        · intro l hl; rw [← hbw l, ← bt j o hj l]; exact heq l hl
      · refine Or.inr fun k hk => ?_
        rw [← hbw k, ← bt j o hj k]; exact hsame k hk
    · intro j o hj hsame hmo
      have hjm := (hmem _ (pos j o hj)).2 ⟨hmo, fun k hk => by
        rw [hbw k, bt j o hj k]; exact hsame k hk⟩
      cases hcov : covers o.method m with
      | false => rfl
      | true =>
        unfold serve at hnone
        rw [hunt, hcc] at hnone
        simp only [List.map_cons, Option.map_eq_none_iff, List.find?_eq_none] at hnone
        have := hnone ⟨[], o.method, o.set⟩ (by
          rw [List.mem_reverse, List.mem_map]
          exact ⟨_, hjm, rfl⟩)
        simp [hcov] at this

/-- Two routes match `/a/b`: the branch `a` is older than `:p` (created by `/a/x`), so `/a/b` wins
although it was registered last. -/
example :
    let hist : List (Reg Nat) := [⟨b!"GET", b!"/a/x", 1⟩, ⟨b!"GET", b!"/:p/b", 2⟩, ⟨b!"GET", b!"/a/b", 3⟩]
    (∀ r ∈ hist, Clean r) ∧ treeFind (treeOf hist) b!"GET" b!"/a/b" [] = .ret ⟨some 3, true, []⟩ ∧
      birth (hist.map routePats) 2 1 = 0 ∧ birth (hist.map routePats) 1 1 = 1 := by decide +kernel

/-! ### C05 URL parameters -/

theorem matchRoute_bindings (ps : List Pat) (ss : List Str) (b : List (Str × Str)) (h : matchRoute ps ss = some b) :
    ps.length = ss.length ∧ b = params ps ss := by
  induction ss generalizing ps b with
  | nil => rw [matchRoute_nil_right] at h; split at h <;> simp_all [params]
  | cons s ss ih =>
    cases ps with
    | nil => simp [matchRoute] at h
    | cons q ps =>
      cases q with
      | lit t =>
        by_cases ht : t = s
        · simp only [matchRoute, ht, if_true] at h
          obtain ⟨i1, i2⟩ := ih ps b h
          exact ⟨by simp [i1], by rw [i2]; simp [params]⟩
        · simp [matchRoute, ht] at h
      | par n =>
        simp only [matchRoute, Option.map_eq_some_iff] at h
        obtain ⟨b', hb', rfl⟩ := h
        obtain ⟨i1, i2⟩ := ih ps b' hb'
        exact ⟨by simp [i1], by rw [i2]; simp [params]⟩

/-- C05.  In EVERY history the served route has as many segments as the path; if it has no empty or colon-only segment
the parameters of the lookup are, in order, one `(name, segment)` pair for each of its parameters. -/
theorem C05_params (hist : List (Reg σ)) (m : Method) (path : Str) (buf : Args) (res : FindResult σ)
    (h : treeFind (treeOf hist) m path buf = .ret res) (hf : res.found = true) :
    ∃ r ∈ hist, res.set = some r.set ∧ covers r.method m = true ∧ (routePats r).length = (segs path).length ∧
      (Clean r → res.args = params (routePats r) (segs path)) := by
  obtain ⟨P, r, hr, h1, h2, h3, h4, h5, h6⟩ := treeFind_place hist m path buf res h hf
  have hl : (segs r.route).length = (segs path).length := by rw [← h3.length, h5.length]
  refine ⟨r, hr, h1, h2, by simpa [routePats] using hl, ?_⟩
  intro hc
  have hk' : ∀ s ∈ (segs r.route).take (segs r.route).length, WFSeg false s := by
    rw [List.take_length]; simpa [WFSeg, Clean] using hc
  obtain ⟨b, e1, -, e2⟩ := acceptAll_match (segs r.route) P (segs path) _ hk' h3.length (h3.clean rfl h4 _ hk') h5
  rw [List.take_of_length_le (by simp), hl, List.take_length] at e1
  rw [h6, ← e2 (Nat.le_refl _)]
  exact (matchRoute_bindings _ _ _ e1).2

/-- Repeated names give repeated pairs; the abandoned branch `:p/b` leaks nothing. -/
example :
    let hist : List (Reg Nat) := [⟨b!"GET", b!"/:p/:p/x", 1⟩, ⟨b!"GET", b!"/a/:q/:r", 2⟩]
    (∀ r ∈ hist, Clean r) ∧
      treeFind (treeOf hist) b!"GET" b!"/a/b/c" [] = .ret ⟨some 2, true, [(b!"q", b!"b"), (b!"r", b!"c")]⟩ ∧
      treeFind (treeOf hist) b!"GET" b!"/a/b/x" [] = .ret ⟨some 1, true, [(b!"p", b!"a"), (b!"p", b!"b")]⟩ := by
  decide +kernel

/-! ### C06 Re-registration -/

theorem par_colon {new : Reg σ} (h : ∃ n, Pat.par n ∈ routePats new) : ∃ q ∈ segs new.route, q.head? = some 58 := by
  obtain ⟨n, hn⟩ := h
  obtain ⟨q, hq, he⟩ := List.mem_map.1 hn
  refine ⟨q, hq, ?_⟩
  by_cases h : q.head? = some 58
  · exact h
  · rw [segPat_lit h] at he; cases he

/-- C06, parameters.  In EVERY history, registering a route again that contains a parameter (and no empty or colon-only
segment) changes no lookup at all. -/
theorem C06_param_reregistration_ignored (hist : List (Reg σ)) (old new : Reg σ) (hold : old ∈ hist)
    (hsame : segs new.route = segs old.route) (hclean : Clean new)
    (hpar : ∃ n, Pat.par n ∈ routePats new) (m : Method) (path : Str) (buf : Args) :
    treeFind (treeOf (hist ++ [new])) m path buf = treeFind (treeOf hist) m path buf :=
  treeAdd_again hist old new hold hsame (by simpa [WFSeg, Clean] using hclean) m path buf (Or.inl (par_colon hpar))

/-- A history with an unclean route, in which `/u/:id` is registered again. -/
example :
    let hist : List (Reg Nat) := [⟨b!"GET", b!"/u/:id", 1⟩, ⟨b!"GET", b!"/u//x", 2⟩, ⟨b!"GET", b!"//", 4⟩]
    let new : Reg Nat := ⟨b!"GET", b!"/u/:id", 3⟩
    ¬ Clean (⟨b!"GET", b!"/u//x", 2⟩ : Reg Nat) ∧ Clean new ∧ Pat.par b!"id" ∈ routePats new ∧
      treeFind (treeOf hist) b!"GET" b!"/u/7" [] = .ret ⟨some 1, true, [(b!"id", b!"7")]⟩ ∧
      treeFind (treeOf (hist ++ [new])) b!"GET" b!"/u/7" [] = .ret ⟨some 1, true, [(b!"id", b!"7")]⟩ ∧
      treeFind (treeOf (hist ++ [new])) b!"GET" b!"/u/7/x" [] = .ret ⟨some 2, true, [(b!"id", b!"7")]⟩ := by decide +kernel

/-- C06, literals.  If a literal route is registered and the lookup of its own path was won by the
literal branch (found, without parameters), then afterwards every covered method is served by the new
handler set and every other method exactly as before. -/
theorem C06_literal_reregistration (hist : List (Reg σ)) (hclean : ∀ r ∈ hist, Clean r)
    (new : Reg σ) (hnew : Clean new) (hlit : Literal new) (path : Str) (hpath : segs path = segs new.route)
    (m0 : Method) (buf0 : Args) (s0 : σ)
    (hwon : treeFind (treeOf hist) m0 path buf0 = .ret ⟨some s0, true, []⟩) (m : Method) (buf : Args) :
    treeFind (treeOf (hist ++ [new])) m path buf =
      if covers new.method m then .ret ⟨some new.set, true, []⟩ else treeFind (treeOf hist) m path buf := by
  have hclean' : ∀ r ∈ hist ++ [new], Clean r := by
    intro r hr
    rcases List.mem_append.1 hr with hr | hr
    · exact hclean r hr
    · simp only [List.mem_singleton] at hr; subst hr; exact hnew
  rw [find_clean hclean] at hwon
  simp only [Outcome.ret.injEq] at hwon
  obtain ⟨r, b, hs, h1, h2⟩ := specResult_found hwon rfl
  simp only at h2; subst h2
  obtain ⟨rs, hc, _⟩ := serve_some hs
  have hj := cand_literal_join (segs path) (hist.map Reg.toRoute) new.toRoute rs
    (by rw [literal_pats hlit, hpath]) hc
  rw [find_clean hclean', find_clean hclean, List.map_append, List.map_singleton]
  have hs1 : serve (hist.map Reg.toRoute ++ [new.toRoute]) m (segs path)
      = if covers new.method m then some (⟨[], new.method, new.set⟩, []) else serve (hist.map Reg.toRoute) m (segs path) := by
    unfold serve
    cases h3 : candidates (hist.map Reg.toRoute ++ [new.toRoute]) (segs path) with
    | nil => simp [h3] at hj
    | cons x xs =>
      rw [h3] at hj
      simp only [List.head?_cons, Option.some.injEq] at hj
      subst hj
      cases h4 : candidates (hist.map Reg.toRoute) (segs path) with
      | nil => simp [h4] at hc
      | cons y ys =>
        rw [h4] at hc
        simp only [List.head?_cons, Option.some.injEq] at hc
        subst hc
        simp only [List.reverse_append, List.reverse_singleton, List.singleton_append, List.find?_cons]
        have : ({ new.toRoute with pats := [] } : Route σ).method = new.method := rfl
        rw [this]
        cases covers new.method m <;> rfl
  rw [hs1]
  cases covers new.method m <;> rfl

/-- C06, literals, in EVERY history (with no condition on the other routes): if a literal route is registered again, and
the lookup of its own path was won by a branch without parameters, then every covered method is served by the new handler
set and every other method exactly as before. -/
theorem C06_literal_again (hist : List (Reg σ)) (old new : Reg σ) (hold : old ∈ hist)
    (hsame : segs new.route = segs old.route) (hclean : Clean new) (hlit : Literal new)
    (path : Str) (hpath : segs path = segs new.route) (m0 : Method) (buf0 : Args) (s0 : σ)
    (hwon : treeFind (treeOf hist) m0 path buf0 = .ret ⟨some s0, true, []⟩) (m : Method) (buf : Args) :
    treeFind (treeOf (hist ++ [new])) m path buf =
      if covers new.method m then .ret ⟨some new.set, true, []⟩ else treeFind (treeOf hist) m path buf := by
  have hwf : ∀ q ∈ segs new.route, WFSeg false q := by simpa [WFSeg, Clean] using hclean
  by_cases hcov : covers new.method m = true
  case neg =>
    rw [if_neg hcov]
    exact treeAdd_again hist old new hold hsame hwf m path buf (Or.inr (by simpa using hcov))
  rw [if_pos hcov, treeOf_append, treeFind_eq, hpath]
  rw [treeFind_eq, hpath] at hwon
  have htop := treeOf_top hist
  have hp := treeAdd_top (treeOf hist) new.method new.route (some new.set)
  rw [hp.1, hp.2, htop.1, htop.2]
  rw [htop.1, htop.2] at hwon
  have hb0 : bindSeg (treeOf hist) [47] [] = [] := by unfold bindSeg; rw [htop.2]; rfl
  have hb : bindSeg (treeAdd (treeOf hist) new.method new.route (some new.set)) [47] [] = [] := by
    unfold bindSeg; rw [hp.2, htop.2]; rfl
  rw [hb]
  rw [hb0] at hwon
  cases hr : segs new.route with
  | nil =>
    have hadd : treeAdd (treeOf hist) new.method new.route (some new.set) =
        .mk (treeOf hist).path (treeOf hist).urlId (addMethod new.method (treeOf hist).handlers (some new.set))
          (treeOf hist).children := by
      unfold treeAdd; rw [splitPath_eq, hr]
    rw [hadd, if_pos rfl]
    simp [decideFirst, Node.handlers, addMethod_get, hcov]
  | cons p ps =>
    have hadd : treeAdd (treeOf hist) new.method new.route (some new.set) = addRec new.method (some new.set) p ps (treeOf hist) := by
      unfold treeAdd; rw [splitPath_eq, hr]
    have hready := ready_treeOf hist old hold (by rw [← hsame]; exact hwf)
    rw [← hsame, hr] at hready
    rw [hr] at hwon hwf
    rw [if_neg (List.cons_ne_nil p ps), if_neg (by simp)] at hwon ⊢
    have hl : ∀ q ∈ p :: ps, q.head? ≠ some 58 := by rw [← hr]; exact hlit
    rw [hadd]
    rcases addRec_literal new.method (some new.set) ps p (treeOf hist) htop.2 (treeOf_named hist) hwf hl hready []
      with ⟨x, -, h2, h3⟩ | ⟨h, h1, -⟩
    · exfalso
      cases hc : candsAt (p :: ps) (treeOf hist) [] with
      | nil => rw [hc] at h2; cases h2
      | cons y ys =>
        rw [hc] at h2 hwon
        simp only [List.head?_cons, Option.some.injEq] at h2
        subst h2
        simp only [decideFirst] at hwon
        split at hwon
        · simp at hwon
          rw [hwon.2] at h3
          simp at h3
        · simp [FindResult.notFound] at hwon
    · cases hc : candsAt (p :: ps) (addRec new.method (some new.set) p ps (treeOf hist)) [] with
      | nil => rw [hc] at h1; cases h1
      | cons y ys =>
        rw [hc] at h1
        simp only [List.head?_cons, Option.some.injEq] at h1
        subst h1
        simp [decideFirst, addMethod_get, hcov]

example :
    let hist : List (Reg Nat) := [⟨b!"GET", b!"/u/x", 1⟩, ⟨b!"GET", b!"/u//x", 2⟩, ⟨b!"POST", b!"/u/:", 4⟩, ⟨b!"PUT", b!"/u/x", 5⟩]
    let new : Reg Nat := ⟨b!"GET", b!"/u/x", 3⟩
    Clean new ∧ Literal new ∧ treeFind (treeOf hist) b!"GET" b!"/u/x" [] = .ret ⟨some 1, true, []⟩ ∧
      treeFind (treeOf (hist ++ [new])) b!"GET" b!"/u/x" [] = .ret ⟨some 3, true, []⟩ ∧
      treeFind (treeOf (hist ++ [new])) b!"PUT" b!"/u/x" [] = .ret ⟨some 5, true, []⟩ := by decide +kernel

/-- Both cases on a table with competing literal and parameter routes. -/
example :
    let hist : List (Reg Nat) := [⟨b!"GET", b!"/a/b", 1⟩, ⟨b!"GET", b!"/u/:id", 2⟩, ⟨b!"POST", b!"/a/b", 3⟩]
    (∀ r ∈ hist, Clean r) ∧ treeFind (treeOf hist) b!"GET" b!"/a/b" [] = .ret ⟨some 1, true, []⟩ ∧
      treeFind (treeOf (hist ++ [⟨b!"GET", b!"/a/b", 9⟩])) b!"GET" b!"/a/b" [] = .ret ⟨some 9, true, []⟩ ∧
      treeFind (treeOf (hist ++ [⟨b!"GET", b!"/u/:id", 9⟩])) b!"GET" b!"/u/5" [] = .ret ⟨some 2, true, [(b!"id", b!"5")]⟩ := by
  decide +kernel

/-! ### C07 Further registrations and found paths -/

/-- C07 is violated by the code: a later registration can hide a path that was found before. -/
theorem C07_violated :
    ∃ (hist : List (Reg Nat)) (new : Reg Nat) (m path : Str) (s : Nat) (args : Args),
      (∀ r ∈ hist ++ [new], Clean r) ∧ treeFind (treeOf hist) m path [] = .ret ⟨some s, true, args⟩ ∧
      treeFind (treeOf (hist ++ [new])) m path [] = .ret ⟨none, false, []⟩ :=
  ⟨[⟨b!"GET", b!"/a/x", 1⟩, ⟨b!"GET", b!"/:p/b", 2⟩], ⟨b!"POST", b!"/a/b", 3⟩, b!"GET", b!"/a/b", 2,
    [(b!"p", b!"a")], by decide +kernel⟩

/-- C07, proved part 1: adding any number of routes, each of which starts with a parameter or with a
literal first segment no earlier route starts with, leaves every found lookup unchanged (same handler
set, same parameters). -/
theorem C07_fresh_partial (hist more : List (Reg σ)) (hclean : ∀ r ∈ hist ++ more, Clean r)
    (hfresh : ∀ pre new post, more = pre ++ new :: post → (routePats new) ≠ [] ∧
      ∀ t, (routePats new).head? = some (.lit t) → ∀ o ∈ hist ++ pre, (routePats o).head? ≠ some (.lit t))
    (m : Method) (path : Str) (buf buf' : Args) (s : σ) (args : Args)
    (hfound : treeFind (treeOf hist) m path buf = .ret ⟨some s, true, args⟩) :
    treeFind (treeOf (hist ++ more)) m path buf' = .ret ⟨some s, true, args⟩ := by
  induction more generalizing hist buf with
  | nil =>
    rw [List.append_nil] at hclean ⊢
    rw [find_clean hclean] at hfound ⊢; exact hfound
  | cons new more ih =>
    have h1 : hist ++ new :: more = (hist ++ [new]) ++ more := by simp
    rw [h1] at hclean ⊢
    refine ih (hist ++ [new]) hclean ?_ [] ?_
    · intro pre n post he
      have := hfresh (new :: pre) n post (by simp [he])
      simpa using this
    · have hc1 : ∀ r ∈ hist ++ [new], Clean r := fun r hr => hclean r (List.mem_append_left _ hr)
      have hc0 : ∀ r ∈ hist, Clean r := fun r hr => hc1 r (by simp [hr])
      rw [find_clean hc1]
      rw [find_clean hc0] at hfound
      rw [← hfound, List.map_append, List.map_singleton]
      congr 2
      obtain ⟨hne, hf⟩ := hfresh [] new more rfl
      simp only [Outcome.ret.injEq] at hfound
      obtain ⟨r, b, hs, _, _⟩ := specResult_found hfound rfl
      obtain ⟨rs, hc, _⟩ := serve_some hs
      refine serve_congr ?_
      cases hss : segs path with
      | nil => rw [cand_frame_root _ _ hne]
      | cons s0 ss0 =>
        rw [hss] at hc
        obtain ⟨X, hX⟩ := cand_fresh_append (regs := hist.map Reg.toRoute) (r := new.toRoute) (by
          intro t ht o ho
          simp only [List.mem_map] at ho
          obtain ⟨y, hy, rfl⟩ := ho
          exact hf t ht y (by simp [hy])) s0 ss0
        rw [hX, List.head?_append, hc]; rfl

/-- C07, proved part 2: among `:`-free routes a found lookup stays found (possibly with a newer
handler set), still without parameters, after any further registrations. -/
theorem C07_literal_partial (hist more : List (Reg σ)) (hlit : ∀ r ∈ hist ++ more, Literal r)
    (m : Method) (path : Str) (buf buf' : Args) (res : FindResult σ)
    (h : treeFind (treeOf hist) m path buf = .ret res) (hf : res.found = true) :
    ∃ s, treeFind (treeOf (hist ++ more)) m path buf' = .ret ⟨some s, true, []⟩ := by
  rw [C01_literal_map hist (fun r hr => hlit r (by simp [hr]))] at h
  rw [C01_literal_map (hist ++ more) hlit]
  cases hfi : hist.reverse.find? fun r => decide (segs r.route = segs path) && covers r.method m with
  | none => rw [hfi] at h; simp only [Outcome.ret.injEq] at h; subst h; simp at hf
  | some r =>
    rw [List.reverse_append, List.find?_append, hfi]
    cases hfm : more.reverse.find? fun r => decide (segs r.route = segs path) && covers r.method m with
    | none => exact ⟨r.set, rfl⟩
    | some r' => exact ⟨r'.set, rfl⟩

example :
    let hist : List (Reg Nat) := [⟨b!"GET", b!"/a/:id", 1⟩]
    let more : List (Reg Nat) := [⟨b!"GET", b!"/:p/:q", 2⟩, ⟨b!"POST", b!"/b/c", 3⟩]
    (∀ r ∈ hist ++ more, Clean r) ∧
      treeFind (treeOf hist) b!"GET" b!"/a/5" [] = .ret ⟨some 1, true, [(b!"id", b!"5")]⟩ ∧
      treeFind (treeOf (hist ++ more)) b!"GET" b!"/a/5" [] = .ret ⟨some 1, true, [(b!"id", b!"5")]⟩ := by
  decide +kernel

/-! ### C08 Frame -/

/-- C08.  In EVERY history, registering a route without empty or colon-only segments changes no lookup of a path that
neither the route nor a non-empty prefix of it matches. -/
theorem C08_frame (hist : List (Reg σ)) (new : Reg σ) (hclean : Clean new) (m : Method) (path : Str) (buf : Args)
    (hno : ∀ k, (0 < k ∨ routePats new = []) → matchRoute ((routePats new).take k) (segs path) = none) :
    treeFind (treeOf (hist ++ [new])) m path buf = treeFind (treeOf hist) m path buf := by
  rw [treeOf_append]
  refine treeAdd_frame hist new.method new.route (some new.set) (by simpa [WFSeg, Clean] using hclean) m path buf ?_
  intro k hk
  refine hno k ?_
  rcases hk with hk | hk
  · exact Or.inl hk
  · exact Or.inr (by simp [routePats, hk])

example :
    let hist : List (Reg Nat) := [⟨b!"GET", b!"/a/:id", 1⟩]
    let new : Reg Nat := ⟨b!"GET", b!"/a/b/c", 2⟩
    (∀ r ∈ hist ++ [new], Clean r) ∧ (∀ k < 4, matchRoute ((routePats new).take k) (segs b!"/a/5") = none) ∧
      treeFind (treeOf (hist ++ [new])) b!"GET" b!"/a/5" [] = .ret ⟨some 1, true, [(b!"id", b!"5")]⟩ := by
  decide +kernel

/-- C08 is violated by routes with an empty segment: registering `/a//x` replaces the handler of
`/a/:id/x`, whose paths it does not match. -/
theorem C08_condition_needed :
    ∃ (hist : List (Reg Nat)) (new : Reg Nat) (m path : Str),
      (∀ k, matchRoute ((routePats new).take k) (segs path) = none) ∧
      treeFind (treeOf (hist ++ [new])) m path [] ≠ treeFind (treeOf hist) m path [] := by
  refine ⟨[⟨b!"POST", b!"/a/:id/x", 1⟩], ⟨b!"POST", b!"/a//x", 2⟩, b!"POST", b!"/a/5/x", ?_, by decide +kernel⟩
  intro k
  have hlen : (routePats (⟨b!"POST", b!"/a//x", 2⟩ : Reg Nat)).length = 3 := by decide +kernel
  by_cases hk : k < 3
  · have : ∀ k < 3, matchRoute ((routePats (⟨b!"POST", b!"/a//x", 2⟩ : Reg Nat)).take k) (segs b!"/a/5/x") = none := by
      decide +kernel
    exact this k hk
  · rw [List.take_of_length_le (by omega)]
    decide +kernel

/-! ### C09 Method coverage -/

/-- C09, all histories (no condition on the routes): what is found was registered with a method
covering the requested one. -/
theorem C09_method_sound (hist : List (Reg σ)) (m : Method) (path : Str) (buf : Args) (res : FindResult σ)
    (h : treeFind (treeOf hist) m path buf = .ret res) (hf : res.found = true) :
    ∃ r ∈ hist, res.set = some r.set ∧ covers r.method m = true := by
  rcases treeFind_found _ _ _ _ _ h with ⟨hs, hin, s, hg, h1, _⟩ | h1
  · obtain ⟨r, hr, h2, h3⟩ := treeOf_entries hist hs hin m _ hg
    exact ⟨r, hr, by rw [h1]; exact h2, h3⟩
  · rw [h1] at hf; simp [FindResult.notFound] at hf

/-- What the combined methods cover: exactly GET+POST, exactly GET+HEAD; any other method exactly
itself. -/
theorem covers_exact (m : Str) :
    (covers b!"GETPOST" m = true ↔ m = b!"GET" ∨ m = b!"POST") ∧
    (covers b!"GETHEAD" m = true ↔ m = b!"GET" ∨ m = b!"HEAD") ∧
    (∀ r, r ≠ b!"GETPOST" → r ≠ b!"GETHEAD" → (covers r m = true ↔ m = r)) := by
  refine ⟨by simp [covers], by simp [covers], ?_⟩
  intro r h1 h2
  simp [covers, h1, h2]

/-- C09: a single registered clean route answers its own path exactly for the methods covered. -/
theorem C09_single_route (r : Reg σ) (hclean : Clean r) (m : Method) (path : Str) (buf : Args)
    (b : List (Str × Str)) (hm : matchRoute (routePats r) (segs path) = some b) :
    treeFind (treeOf [r]) m path buf =
      if covers r.method m then .ret ⟨some r.set, true, b⟩ else .ret ⟨none, false, []⟩ := by
  by_cases hc : covers r.method m = true
  · rw [if_pos hc]
    exact C03_unique_partial [r] (by simpa using hclean) m path buf r (by simp) hc b hm (by simp)
  · rw [if_neg hc]
    have h := find_clean (hist := [r]) (by simpa using hclean) m path buf
    rw [h]
    congr 1
    cases hs : serve ([r].map Reg.toRoute) m (segs path) with
    | none => rfl
    | some x =>
      rw [hs] at h
      obtain ⟨r', hr', _, h2⟩ := C09_method_sound [r] m path buf _ h rfl
      simp at hr'; subst hr'; exact absurd h2 hc

/-- C09, methods do not interfere: in EVERY history, registering a route that is registered already for a method that
does not cover `m` changes no lookup of `m`, whatever the path. -/
theorem C09_other_methods (hist : List (Reg σ)) (old new : Reg σ) (hold : old ∈ hist)
    (hsame : segs new.route = segs old.route) (hclean : Clean new) (m : Method) (hm : covers new.method m = false)
    (path : Str) (buf : Args) :
    treeFind (treeOf (hist ++ [new])) m path buf = treeFind (treeOf hist) m path buf :=
  treeAdd_again hist old new hold hsame (by simpa [WFSeg, Clean] using hclean) m path buf (Or.inr hm)

example :
    let hist : List (Reg Nat) := [⟨b!"GETPOST", b!"/a/b", 1⟩, ⟨b!"GET", b!"/:x/b", 2⟩]
    let new : Reg Nat := ⟨b!"GETHEAD", b!"a/b/", 3⟩
    segs new.route = segs b!"/a/b" ∧ Clean new ∧ covers new.method b!"POST" = false ∧
      treeFind (treeOf (hist ++ [new])) b!"POST" b!"/a/b" [] = .ret ⟨some 1, true, []⟩ ∧
      treeFind (treeOf (hist ++ [new])) b!"GET" b!"/a/b" [] = .ret ⟨some 3, true, []⟩ := by decide +kernel

/-- C09: the pseudo-methods are never found, whatever was registered. -/
theorem C09_pseudo_methods_not_found (hist : List (Reg σ)) (m : Method)
    (hm : m = b!"GETPOST" ∨ m = b!"GETHEAD") (path : Str) (buf : Args) :
    treeFind (treeOf hist) m path buf = .ret ⟨none, false, []⟩ := by
  have hex : ∃ res, treeFind (treeOf hist) m path buf = .ret res := ⟨_, treeFind_eq _ _ _ _⟩
  obtain ⟨res, h⟩ := hex
  rcases treeFind_found _ _ _ _ _ h with ⟨hs, hin, s, hg, _, _⟩ | h1
  · obtain ⟨r, _, _, h3⟩ := treeOf_entries hist hs hin m _ hg
    exfalso
    unfold covers at h3
    rcases hm with rfl | rfl
    · split at h3
      · simp at h3
      · split at h3
        · simp at h3
        · simp at h3; exact absurd h3.symm (by assumption)
    · split at h3
      · simp at h3
      · split at h3
        · simp at h3
        · simp at h3; exact absurd h3.symm (by assumption)
  · rw [h, h1]; rfl

/-- C09: a GET registration does not answer HEAD; registering POST keeps GET (via C06). -/
example :
    treeFind (treeOf [(⟨b!"GET", b!"/a", 1⟩ : Reg Nat)]) b!"HEAD" b!"/a" [] = .ret ⟨none, false, []⟩ ∧
    treeFind (treeOf [(⟨b!"GET", b!"/a", 1⟩ : Reg Nat), ⟨b!"POST", b!"/a", 2⟩]) b!"GET" b!"/a" [] = .ret ⟨some 1, true, []⟩ ∧
    treeFind (treeOf [(⟨b!"GETHEAD", b!"/a", 1⟩ : Reg Nat)]) b!"HEAD" b!"/a" [] = .ret ⟨some 1, true, []⟩ := by
  decide +kernel

/-! ### C10 Path normalisation -/

/-- C10.  Any amount of outer white space and any number of leading and trailing slashes around a
`/`-joined list of slash-free segments is insignificant: the segments are exactly that list.  The
first and last segments must be non-empty, the last must not end in white space, and if there is no
leading slash the first must not start with white space. -/
theorem C10_segments (ss : List Str) (hne : ss ≠ []) (hslash : ∀ s ∈ ss, (47 : UInt8) ∉ s)
    (hfirst : ss.head hne ≠ []) (hlast : ss.getLast hne ≠ [])
    (hend : ¬ EndsWithSpace (ss.getLast hne)) (w1 w2 : Str) (hw1 : Spaces w1) (hw2 : Spaces w2) (n k : Nat)
    (hstart : 0 < n ∨ ¬ StartsWithSpace (joinByte 47 ss ++ (List.replicate k 47 ++ w2))) :
    segs (w1 ++ (List.replicate n 47 ++ joinByte 47 ss ++ List.replicate k 47) ++ w2) = ss := by
  -- the joined text
  obtain ⟨pre, hj, hpre⟩ := joinByte_last 47 ss hne hlast
  have hjne : joinByte 47 ss ≠ [] := by rw [hj]; simp [hlast]
  have hjend : ¬ EndsWithSpace (joinByte 47 ss) := by
    rintro ⟨x, hx, hsuf⟩
    rw [hj] at hsuf
    rcases List.suffix_or_suffix_of_suffix hsuf (List.suffix_append pre (ss.getLast hne)) with h | h
    · exact hend ⟨x, hx, h⟩
    · -- the space sequence would contain the slash before the last segment
      obtain ⟨a, ha⟩ := h
      rcases hpre with hp | hp
      · rw [hp, List.nil_append] at hsuf; exact hend ⟨x, hx, hsuf⟩
      · obtain ⟨c, hc⟩ := hsuf
        rw [← ha, ← List.append_assoc] at hc
        have hc' := List.append_cancel_right hc
        cases ha' : a.getLast? with
        | none =>
          have : a = [] := List.getLast?_eq_none_iff.1 ha'
          subst this
          exact hend ⟨x, hx, by rw [← ha]; simp⟩
        | some z =>
          have : pre.getLast? = some z := by rw [← hc', List.getLast?_append, ha']; rfl
          rw [hp] at this
          simp only [Option.some.injEq] at this
          subst this
          have hno : ∀ y ∈ spaceSeqs, (47 : UInt8) ∉ y := by decide +kernel
          have hmem : (47 : UInt8) ∈ x := by rw [← ha]; exact List.mem_append_left _ (List.mem_of_getLast? ha')
          exact hno x hx hmem
  have hjhead : (joinByte 47 ss).head? ≠ some 47 := by
    cases ss with
    | nil => exact absurd rfl hne
    | cons x l =>
      rw [joinByte_head 47 x l (by simpa using hfirst)]
      intro h
      exact hslash x (by simp) (List.mem_of_mem_head? h)
  have hjlast : (joinByte 47 ss).getLast? ≠ some 47 := by
    rw [hj, List.getLast?_append]
    cases hg : (ss.getLast hne).getLast? with
    | none => exact absurd (List.getLast?_eq_none_iff.1 hg) hlast
    | some z =>
      intro h
      have hz : z = 47 := by simpa using h
      subst hz
      exact hslash _ (List.getLast_mem hne) (List.mem_of_getLast? hg)
  -- first trim
  have hnoslash : ∀ y ∈ spaceSeqs, (47 : UInt8) ∉ y ∧ y ≠ [] := by decide +kernel
  have slashStart : ∀ l : Str, ¬ StartsWithSpace (47 :: l) := by
    rintro l ⟨x, hx, hp⟩
    cases x with
    | nil => exact (hnoslash [] hx).2 rfl
    | cons a x =>
      have := List.cons_prefix_cons.1 hp
      exact (hnoslash _ hx).1 (by simp [this.1])
  have t1 : trimSpace (w1 ++ (List.replicate n 47 ++ joinByte 47 ss ++ List.replicate k 47) ++ w2)
      = List.replicate n 47 ++ joinByte 47 ss ++ List.replicate k 47 := by
    refine trimSpace_pad hw1 hw2 ?_ ?_
    · cases n with
      | zero => simpa using hstart
      | succ n => rw [List.replicate_succ]; exact slashStart _
    · cases k with
      | zero =>
        simp only [List.replicate_zero, List.append_nil]
        rintro ⟨x, hx, hsuf⟩
        rcases List.suffix_or_suffix_of_suffix hsuf (List.suffix_append _ (joinByte 47 ss)) with h | h
        · exact hjend ⟨x, hx, h⟩
        · obtain ⟨a, ha⟩ := h
          cases ha' : a.getLast? with
          | none =>
            have : a = [] := List.getLast?_eq_none_iff.1 ha'
            subst this
            exact hjend ⟨x, hx, by rw [← ha]; simp⟩
          | some z =>
            obtain ⟨c, hc⟩ := hsuf
            rw [← ha, ← List.append_assoc] at hc
            have hc' := List.append_cancel_right hc
            have hzr : z ∈ List.replicate n (47 : UInt8) := by
              rw [← hc']; exact List.mem_append_right _ (List.mem_of_getLast? ha')
            have hz := List.eq_of_mem_replicate hzr
            subst hz
            exact (hnoslash x hx).1 (by rw [← ha]; exact List.mem_append_left _ (List.mem_of_getLast? ha'))
      | succ k =>
        rintro ⟨x, hx, hsuf⟩
        rw [List.replicate_succ'] at hsuf
        obtain ⟨c, hc⟩ := hsuf
        have hg : x.getLast? = some 47 := by
          cases hxg : x.getLast? with
          | none => exact absurd (List.getLast?_eq_none_iff.1 hxg) (hnoslash x hx).2
          | some z =>
            have := congrArg List.getLast? hc
            rw [List.getLast?_append, hxg, ← List.append_assoc, List.getLast?_concat] at this
            simpa using this
        exact (hnoslash x hx).1 (List.mem_of_getLast? hg)
  have t3 : trimSpace (47 :: joinByte 47 ss) = 47 :: joinByte 47 ss := by
    refine trimSpace_id (slashStart _) ?_
    rintro ⟨x, hx, hsuf⟩
    rcases List.suffix_cons_iff.1 hsuf with h | h
    · exact (hnoslash x hx).1 (by rw [h]; simp)
    · exact hjend ⟨x, hx, h⟩
  unfold segs splitPath
  simp only [t1, trimByte_pad 47 n k _ hjhead hjlast hjne, t3]
  rw [if_neg (by simp [hjne])]
  have : splitByte 47 (47 :: joinByte 47 ss) = [] :: splitByte 47 (joinByte 47 ss) := by simp [splitByte]
  rw [this]
  simp only [List.tail_cons]
  exact splitByte_join 47 ss hne hslash

/-- C10.  White space and slashes only: the root. -/
theorem C10_root (w1 w2 : Str) (hw1 : Spaces w1) (hw2 : Spaces w2) (n : Nat) :
    segs (w1 ++ List.replicate n 47 ++ w2) = [] := by
  have hnoslash : ∀ y ∈ spaceSeqs, (47 : UInt8) ∉ y ∧ y ≠ [] := by decide +kernel
  have t1 : trimByte 47 (trimSpace (w1 ++ List.replicate n 47 ++ w2)) = [] := by
    cases n with
    | zero =>
      have : Spaces (w1 ++ w2) := by
        obtain ⟨l1, h1, rfl⟩ := hw1
        obtain ⟨l2, h2, rfl⟩ := hw2
        refine ⟨l1 ++ l2, ?_, by simp⟩
        intro x hx
        rcases List.mem_append.1 hx with h | h
        · exact h1 x h
        · exact h2 x h
      rw [List.replicate_zero, List.append_nil, trimSpace_spaces this]; rfl
    | succ n =>
      rw [trimSpace_pad hw1 hw2, trimByte_replicate]
      · rintro ⟨x, hx, hp⟩
        rw [List.replicate_succ] at hp
        cases x with
        | nil => exact (hnoslash [] hx).2 rfl
        | cons a x =>
          have := List.cons_prefix_cons.1 hp
          exact (hnoslash _ hx).1 (by simp [this.1])
      · rintro ⟨x, hx, hp⟩
        cases x with
        | nil => exact (hnoslash [] hx).2 rfl
        | cons a x =>
          have := hp.subset (List.mem_cons_self (a := a) (l := x))
          have ha := List.eq_of_mem_replicate this
          exact (hnoslash _ hx).1 (by simp [ha])
  unfold segs splitPath
  simp only [t1]
  decide +kernel

/-- C10.  Segments never contain a slash. -/
theorem C10_no_slash (path : Str) : ∀ s ∈ segs path, (47 : UInt8) ∉ s := splitPath_no_slash path

example : segs b!" \t//a/b c//d/// " = [b!"a", b!"b c", b!"", b!"d"] ∧ segs b!" // " = [] := by decide +kernel
example : Spaces b!" \t" ∧ ¬ EndsWithSpace b!"d" ∧ (0 < 2) :=
  ⟨⟨[b!" ", b!"\t"], by decide +kernel, rfl⟩, by rintro ⟨x, hx, h⟩; revert x; decide +kernel, by decide⟩

/-! ### C11 Lookup terminates, without panic, within one visit per node -/

/-- C11.  On every tree (reachable or not) the loop of `Find` returns, for every number of
iterations allowed that exceeds the number of nodes: it never indexes out of range and never examines
a node twice. -/
theorem C11_find_returns (t : Node σ) (m : Method) (path : Str) (buf : Args) (fuel : Nat)
    (hfuel : t.size < fuel) :
    ∃ res, treeFindFuel fuel t m path buf = .ret res ∧ treeFind t m path buf = .ret res :=
  ⟨_, treeFindFuel_eq fuel t m path buf hfuel, treeFind_eq t m path buf⟩

example : (treeOf [(⟨b!"GET", b!"/a/:b/c", 1⟩ : Reg Nat), ⟨b!"GET", b!"/a/d", 2⟩]).size < 6 := by decide +kernel

/-! ### C12 The caller's buffer is overwritten (tree part; regular expressions in Props/Server.lean) -/

/-- C12.  The result, including the final contents of the buffer, does not depend on what the buffer
held; it is empty when nothing is found and at the root. -/
theorem C12_buffer_overwritten (t : Node σ) (m : Method) (path : Str) (buf buf' : Args) :
    treeFind t m path buf = treeFind t m path buf' ∧
      ∀ res, treeFind t m path buf = .ret res → (res.found = false ∨ segs path = []) → res.args = [] := by
  refine ⟨by rw [treeFind_eq, treeFind_eq], ?_⟩
  intro res h hcase
  rw [treeFind_eq] at h
  simp only [Outcome.ret.injEq] at h
  subst h
  have dec : ∀ l : List (Handlers σ × Args), (decideFirst m [] l).found = false → (decideFirst m [] l).args = [] := by
    intro l hl
    cases l with
    | nil => rfl
    | cons c l =>
      obtain ⟨hs, a⟩ := c
      simp only [decideFirst] at hl ⊢
      split at hl
      · simp at hl
      · rfl
  rcases hcase with hcase | hcase
  · split at hcase
    · rename_i hs; rw [if_pos hs]; exact dec _ hcase
    · rename_i hs; rw [if_neg hs]
      split at hcase
      · rename_i ht; rw [if_pos ht]; rfl
      · rename_i ht; rw [if_neg ht]; exact dec _ hcase
  · rw [if_pos hcase]
    simp only [decideFirst]
    split <;> rfl

end Verif
