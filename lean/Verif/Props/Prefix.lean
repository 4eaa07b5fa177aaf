import Verif.Spec.Rename
import Verif.Lemmas.Rename
import Verif.Props.Routing
import Verif.Props.Orderly
/-
C133: what is registered below a prefix is a router of its own.
-/
namespace Verif
open Spec
variable {σ : Type}

/-- A route begins with the literal segments. -/
def Spec.beginsWith (pre : List Str) (pats : List Pat) : Bool := decide (pats.take pre.length = pre.map Pat.lit)

/-- The prefix belongs to the routes that begin with it: no route matches it, or its beginning does, in another way (with a parameter). -/
def Spec.Owned (pre : List Str) (hist : List (Reg σ)) : Prop :=
  ∀ r ∈ hist, (matchRoute ((routePats r).take pre.length) pre).isSome = true → beginsWith pre (routePats r) = true

/-- `sub` is what is registered below the prefix: the same methods and sets in the same order, the routes without the prefix. -/
def Spec.BelowPrefix (pre : List Str) (hist sub : List (Reg σ)) : Prop :=
  All2 (fun r r' => r.method = r'.method ∧ r.set = r'.set ∧ routePats r = pre.map Pat.lit ++ routePats r')
    (hist.filter fun r => beginsWith pre (routePats r)) sub

/-- The routes below the prefix, cut. -/
def cutAt (pre : List Str) (regs : List (Route σ)) : List (Route σ) :=
  (regs.filter fun r => beginsWith pre r.pats).map fun r => { r with pats := r.pats.drop pre.length }

theorem cutAt_nil (regs : List (Route σ)) : cutAt [] regs = regs := by
  simp [cutAt, beginsWith]

theorem beginsWith_cons (t : Str) (pre : List Str) (pats : List Pat) :
    beginsWith (t :: pre) pats = (beginsWith pre pats.tail && decide (pats.head? = some (.lit t))) := by
  unfold beginsWith
  cases pats with
  | nil => simp
  | cons q ps =>
    simp only [List.length_cons, List.take_succ_cons, List.map_cons, List.cons.injEq, List.tail_cons, List.head?_cons, Option.some.injEq]
    by_cases h1 : q = Pat.lit t <;> by_cases h2 : ps.take pre.length = pre.map Pat.lit <;> simp [h1, h2]

theorem cutAt_cons (t : Str) (pre : List Str) (regs : List (Route σ)) : cutAt (t :: pre) regs = cutAt pre (litRegs t regs) := by
  unfold cutAt litRegs
  rw [List.filter_map, List.map_map, List.filter_filter]
  simp only [beginsWith_cons, Function.comp_def, Route.cut, List.length_cons, List.drop_tail]

/-- A branch that is the only one to contribute. -/
theorem flatMap_only {α β : Type} (f : α → List β) (P : α → Bool) (v : List β) : ∀ (l : List α), (∀ a ∈ l, P a = false → f a = []) →
    (∀ a ∈ l, P a = true → f a = v) → (∀ A a B, l = A ++ a :: B → P a = true → ∀ b ∈ A ++ B, P b = false) →
    l.flatMap f = if (∃ a ∈ l, P a = true) then v else [] := by
  intro l
  induction l with
  | nil => intro _ _ _; simp
  | cons a l ih =>
    intro h1 h2 h3
    rw [List.flatMap_cons]
    cases ha : P a with
    | true =>
      have hno := h3 [] a l rfl ha
      simp only [List.nil_append] at hno
      have : l.flatMap f = [] := by
        rw [List.flatMap_eq_nil_iff]
        exact fun b hb => h1 b (List.mem_cons_of_mem _ hb) (hno b hb)
      rw [this, h2 a (List.mem_cons_self ..) ha, List.append_nil, if_pos ⟨a, List.mem_cons_self .., ha⟩]
    | false =>
      rw [h1 a (List.mem_cons_self ..) ha, List.nil_append, ih (fun b hb => h1 b (List.mem_cons_of_mem _ hb))
        (fun b hb => h2 b (List.mem_cons_of_mem _ hb)) (fun A b B e hb c hc => h3 (a :: A) b B (by simp [e]) hb c (by
          rw [List.cons_append]; exact List.mem_cons_of_mem _ hc))]
      simp [ha]

theorem serve_lit (regs : List (Route σ)) (m : Str) (t : Str) (ss : List Str)
    (h : ∀ o ∈ regs, ∀ n ps, o.pats = .par n :: ps → competes ps ss = false) :
    serve regs m (t :: ss) = serve (litRegs t regs) m ss := by
  have hinv := branchInv regs
  have hc : candidates regs (t :: ss) = if (∃ b ∈ branches regs, b.isLit t = true) then candidates (litRegs t regs) ss else [] := by
    rw [candidates_cons]
    refine flatMap_only (contrib t ss) (fun b => b.isLit t) _ _ ?_ ?_ ?_
    · intro b hb hl
      cases b with
      | lit t' rs =>
        simp only [contrib]
        rw [if_neg]
        rintro rfl
        simp [Branch.isLit] at hl
      | par n r =>
        obtain ⟨o, ho, e, -, -⟩ := hinv.par n r hb
        simp only [contrib, List.map_eq_nil_iff]
        exact cand_single_nil_of_not_competes (h o ho n _ e)
    · intro b hb hl
      cases b with
      | lit t' rs =>
        have : t' = t := by simpa [Branch.isLit] using hl
        subst this
        simp only [contrib, if_true]
        rw [hinv.lit _ _ hb]
      | par n r => simp [Branch.isLit] at hl
    · intro A b B e hl c hc
      cases b with
      | lit t' rs =>
        have : t' = t := by simpa [Branch.isLit] using hl
        subst this
        exact hinv.uniq _ A rs B e c hc
      | par n r => simp [Branch.isLit] at hl
  by_cases hex : ∃ b ∈ branches regs, b.isLit t = true
  · unfold serve
    rw [hc, if_pos hex]
  · have hnil : litRegs t regs = [] := by
      rw [hinv.litEx] at hex
      unfold litRegs
      rw [List.map_eq_nil_iff, List.filter_eq_nil_iff]
      intro r hr hh
      exact hex ⟨r, hr, by simpa using hh⟩
    rw [hnil]
    unfold serve
    rw [hc, if_neg hex]
    cases ss with
    | nil => rfl
    | cons s ss => rw [candidates_nil_cons]

theorem competes_take {ps : List Pat} {pre ss : List Str} (h : competes ps (pre ++ ss) = true) :
    (matchRoute (ps.take pre.length) pre).isSome = true := by
  induction pre generalizing ps with
  | nil => simp [matchRoute]
  | cons t pre ih =>
    cases ps with
    | nil => simp at h
    | cons q ps =>
      cases q with
      | lit a =>
        simp only [List.cons_append, competes_lit, Bool.and_eq_true, decide_eq_true_eq] at h
        simpa [matchRoute, h.1] using ih h.2
      | par n =>
        simp only [List.cons_append, competes_par] at h
        simpa [matchRoute] using ih h

theorem serve_cut (m : Str) (ss : List Str) (pre : List Str) : ∀ (regs : List (Route σ)),
    (∀ r ∈ regs, (matchRoute (r.pats.take pre.length) pre).isSome = true → beginsWith pre r.pats = true) →
    serve regs m (pre ++ ss) = serve (cutAt pre regs) m ss := by
  induction pre with
  | nil => intro regs _; rw [cutAt_nil]; rfl
  | cons t pre ih =>
    intro regs h
    rw [cutAt_cons, List.cons_append, serve_lit, ih]
    · intro r hr hm
      obtain ⟨o, ho, e, -, -⟩ := litRegs_mem hr
      have := h o ho (by rw [e]; simpa [matchRoute] using hm)
      rw [e, beginsWith_cons] at this
      simp only [List.tail_cons, Bool.and_eq_true] at this
      exact this.1
    · intro o ho n ps e
      cases hc : competes ps (pre ++ ss) with
      | false => rfl
      | true =>
        exfalso
        have hm : (matchRoute (ps.take pre.length) pre).isSome = true := competes_take hc
        have := h o ho (by rw [e]; simpa [matchRoute] using hm)
        rw [e, beginsWith_cons] at this
        simp at this

theorem clean_pats (r : Reg σ) : Clean r ↔ ∀ q ∈ routePats r, match q with | .lit t => t ≠ [] | .par n => n ≠ [] := by
  unfold Clean routePats
  simp only [List.mem_map, forall_exists_index, and_imp, forall_apply_eq_imp_iff₂]
  refine forall_congr' fun s => forall_congr' fun _ => ?_
  by_cases hc : s.head? = some 58
  · rw [segPat_colon hc]
  · rw [segPat_lit hc]
    cases s with
    | nil => simp
    | cons a s =>
      simp only [List.head?_cons, Option.some.injEq] at hc
      simp [hc]

theorem match_prefix {pre : List Str} {ps : List Pat} {ss : List Str} {b : List (Str × Str)}
    (h : matchRoute (pre.map Pat.lit ++ ps) ss = some b) : pre <+: ss := by
  induction pre generalizing ss b with
  | nil => exact List.nil_prefix
  | cons t pre ih =>
    cases ss with
    | nil => simp [matchRoute] at h
    | cons s ss =>
      simp only [List.map_cons, List.cons_append, matchRoute] at h
      split at h
      · rename_i e
        subst e
        exact (List.cons_prefix_cons).2 ⟨rfl, ih h⟩
      · simp at h

/-- C133.  Let no route match a prefix of literal segments other than literally.  Then the routes that begin with it are a router of their own: a lookup below the prefix gives what the table of
these routes, without the prefix, gives for the rest of the path: the same set with the same parameters, or nothing.  Whatever else is
registered, before, between and afterwards. -/
theorem C133_below (pre : List Str) (hist sub : List (Reg σ)) (hclean : ∀ r ∈ hist, Clean r) (howned : Owned pre hist) (hsub : BelowPrefix pre hist sub)
    (m : Method) (path rest : Str) (hp : segs path = pre ++ segs rest) (buf buf' : Args) :
    treeFind (treeOf hist) m path buf = treeFind (treeOf sub) m rest buf' := by
  have hcut : cutAt pre (hist.map Reg.toRoute) = sub.map Reg.toRoute := by
    have e : cutAt pre (hist.map Reg.toRoute) = (hist.filter fun r => beginsWith pre (routePats r)).map fun r =>
        ({ r.toRoute with pats := (routePats r).drop pre.length } : Route σ) := by
      unfold cutAt
      rw [List.filter_map, List.map_map]
      rfl
    rw [e]
    unfold BelowPrefix at hsub
    generalize hist.filter (fun r => beginsWith pre (routePats r)) = l at hsub
    induction hsub with
    | nil => rfl
    | @cons r r' l l' h _ ih =>
      rw [List.map_cons, List.map_cons, ih]
      congr 1
      have : (routePats r).drop pre.length = routePats r' := by
        rw [h.2.2, List.drop_append_of_le_length (by simp)]
        simp
      simp only [this, Reg.toRoute, h.1, h.2.1]
      rfl
  have hc' : ∀ r ∈ sub, Clean r := by
    clear hcut
    have hc0 : ∀ r ∈ hist.filter fun r => beginsWith pre (routePats r), Clean r := fun r hr => hclean r (List.mem_filter.1 hr).1
    unfold BelowPrefix at hsub
    generalize hist.filter (fun r => beginsWith pre (routePats r)) = l at hsub hc0
    induction hsub with
    | nil => simp
    | @cons r r' l l' h _ ih =>
      intro x hx
      rcases List.mem_cons.1 hx with rfl | hx
      · have := (clean_pats r).1 (hc0 r (List.mem_cons_self ..))
        refine (clean_pats x).2 fun q hq => this q ?_
        rw [h.2.2]
        exact List.mem_append_right _ hq
      · exact ih (fun r hr => hc0 r (List.mem_cons_of_mem _ hr)) x hx
  rw [find_clean hclean, find_clean hc', hp, serve_cut m (segs rest) pre (hist.map Reg.toRoute), hcut]
  intro r hr hm
  obtain ⟨o, ho, rfl⟩ := List.mem_map.1 hr
  exact howned o ho hm

/-- C133, moving a table.  Put a prefix of literal segments in front of every route of a table: the new table answers below the prefix what the old one answered, and finds nothing elsewhere. -/
theorem C133_moved (pre : List Str) (hist sub : List (Reg σ)) (hclean : ∀ r ∈ hist, Clean r)
    (h : All2 (fun r r' => r.method = r'.method ∧ r.set = r'.set ∧ routePats r = pre.map Pat.lit ++ routePats r') hist sub)
    (m : Method) (path : Str) (buf buf' : Args) :
    (∀ rest, segs path = pre ++ segs rest → treeFind (treeOf hist) m path buf = treeFind (treeOf sub) m rest buf') ∧
    (¬ pre <+: segs path → treeFind (treeOf hist) m path buf = .ret ⟨none, false, []⟩) := by
  have hb : ∀ r ∈ hist, ∃ ps, routePats r = pre.map Pat.lit ++ ps := by
    intro r hr
    clear hclean
    induction h with
    | nil => simp at hr
    | cons hab _ ih =>
      rcases List.mem_cons.1 hr with rfl | hr
      · exact ⟨_, hab.2.2⟩
      · exact ih hr
  have hbw : ∀ r ∈ hist, beginsWith pre (routePats r) = true := by
    intro r hr
    obtain ⟨ps, e⟩ := hb r hr
    unfold beginsWith
    rw [e, List.take_append_of_le_length (by simp), List.take_of_length_le (by simp)]
    simp
  refine ⟨fun rest hp => C133_below pre hist sub hclean (fun r hr _ => hbw r hr) ?_ m path rest hp buf buf', ?_⟩
  · unfold BelowPrefix
    rw [List.filter_eq_self.2 hbw]
    exact h
  · intro hn
    obtain ⟨res, hres, hnf, -⟩ := find_total hist hclean m path buf
    cases hf : res.found with
    | false => rw [hres, hnf hf]
    | true =>
      exfalso
      obtain ⟨r, hr, -, -, hm⟩ := C02_sound hist m path buf res hres hf
      have hm := hm (hclean r hr)
      obtain ⟨ps, e⟩ := hb r hr
      rw [e] at hm
      exact hn (match_prefix hm)

/-! ### The hypotheses are met: an API in two versions, beside other routes -/

/-- Version 2 below /api/v2, version 1 below /api/v1, and routes elsewhere, registered in between. -/
def apiTable : List (Reg Nat) := [⟨b!"GET", b!"/api/v1/user/:id", 1⟩, ⟨b!"GET", b!"/api/v2/user/:id/:what", 2⟩, ⟨b!"GET", b!"/api", 3⟩,
  ⟨b!"GET", b!"/:lang/help", 4⟩, ⟨b!"POST", b!"/api/v2", 5⟩, ⟨b!"GET", b!"/api/v2/user", 6⟩]

/-- Version 2 alone. -/
def apiV2 : List (Reg Nat) := [⟨b!"GET", b!"/user/:id/:what", 2⟩, ⟨b!"POST", b!"/", 5⟩, ⟨b!"GET", b!"/user", 6⟩]

theorem apiTable_ok : (∀ r ∈ apiTable, Clean r) ∧ Owned [b!"api", b!"v2"] apiTable ∧ BelowPrefix [b!"api", b!"v2"] apiTable apiV2 := by
  refine ⟨by decide +kernel, by unfold Owned; decide +kernel, ?_⟩
  unfold BelowPrefix
  rw [show (apiTable.filter fun r => beginsWith [b!"api", b!"v2"] (routePats r)) = [⟨b!"GET", b!"/api/v2/user/:id/:what", 2⟩, ⟨b!"POST", b!"/api/v2", 5⟩,
    ⟨b!"GET", b!"/api/v2/user", 6⟩] from rfl]
  exact .cons (by decide +kernel) (.cons (by decide +kernel) (.cons (by decide +kernel) .nil))

example : treeFind (treeOf apiTable) b!"GET" b!"/api/v2/user/7/mail" [] = treeFind (treeOf apiV2) b!"GET" b!"/user/7/mail" [] :=
  C133_below _ _ _ apiTable_ok.1 apiTable_ok.2.1 apiTable_ok.2.2 _ _ _ (by decide +kernel) _ _

example : treeFind (treeOf apiV2) b!"GET" b!"/user/7/mail" [] = .ret ⟨some 2, true, [(b!"id", b!"7"), (b!"what", b!"mail")]⟩ := by decide +kernel

/-- C133, the condition is needed: a route with a parameter in place of the prefix, registered before, answers or hides. -/
theorem C133_condition_needed : ∃ (pre : List Str) (hist sub : List (Reg Nat)) (m path rest : Str), (∀ r ∈ hist, Clean r) ∧ BelowPrefix pre hist sub ∧
    segs path = pre ++ segs rest ∧ treeFind (treeOf hist) m path [] ≠ treeFind (treeOf sub) m rest [] := by
  refine ⟨[b!"api"], [⟨b!"GET", b!"/:x/y/z", 1⟩, ⟨b!"GET", b!"/api/y", 2⟩], [⟨b!"GET", b!"/y", 2⟩], b!"GET", b!"/api/y", b!"/y", by decide +kernel, ?_,
    by decide +kernel, by decide +kernel⟩
  unfold BelowPrefix
  rw [show ([⟨b!"GET", b!"/:x/y/z", 1⟩, ⟨b!"GET", b!"/api/y", 2⟩].filter fun r : Reg Nat => beginsWith [b!"api"] (routePats r)) = [⟨b!"GET", b!"/api/y", 2⟩] from rfl]
  exact .cons (by decide +kernel) .nil

end Verif
