import Verif.Lemmas.Routing
/-
Consequences of the routing specification: soundness, completeness, frame, re-registration.
-/
namespace Verif
open Spec
variable {σ : Type}

theorem litRegs_mem {t : Str} {regs : List (Route σ)} {x : Route σ} (h : x ∈ litRegs t regs) :
    ∃ o ∈ regs, o.pats = .lit t :: x.pats ∧ o.method = x.method ∧ o.set = x.set := by
  simp only [litRegs, List.mem_map, List.mem_filter, decide_eq_true_eq] at h
  obtain ⟨o, ⟨ho, hh⟩, rfl⟩ := h
  refine ⟨o, ho, ?_, rfl, rfl⟩
  cases hp : o.pats with
  | nil => simp [hp] at hh
  | cons q ps => simp [hp] at hh; simp [Route.cut, hp, hh]

theorem mem_litRegs {t : Str} {regs : List (Route σ)} {o : Route σ} {ps : List Pat} (h : o ∈ regs)
    (hp : o.pats = .lit t :: ps) : { o with pats := ps } ∈ litRegs t regs := by
  simp only [litRegs, List.mem_map, List.mem_filter, decide_eq_true_eq]
  exact ⟨o, ⟨h, by simp [hp]⟩, by simp [Route.cut, hp]⟩

@[simp] theorem competes_nil (ps : List Pat) : competes ps [] = true := by
  simp [competes, matchRoute]

@[simp] theorem competes_nil_cons (s : Str) (ss : List Str) : competes [] (s :: ss) = false := by
  simp [competes]

@[simp] theorem competes_lit (t s : Str) (ps : List Pat) (ss : List Str) :
    competes (.lit t :: ps) (s :: ss) = (decide (t = s) && competes ps ss) := by
  by_cases h : t = s <;> simp [competes, matchRoute, h]

@[simp] theorem competes_par (n s : Str) (ps : List Pat) (ss : List Str) :
    competes (.par n :: ps) (s :: ss) = competes ps ss := by
  simp [competes, matchRoute]

theorem competes_of_match {ps : List Pat} {ss : List Str} {b : List (Str × Str)}
    (h : matchRoute ps ss = some b) : competes ps ss = true := by
  induction ss generalizing ps b with
  | nil => simp
  | cons s ss ih =>
    cases ps with
    | nil => simp [matchRoute] at h
    | cons q ps =>
      cases q with
      | lit t =>
        by_cases ht : t = s
        · simp [matchRoute, ht] at h; simp [ht, ih h]
        · simp [matchRoute, ht] at h
      | par n =>
        simp [matchRoute] at h
        obtain ⟨b', hb, _⟩ := h
        simp [ih hb]

theorem matchRoute_nil_right (ps : List Pat) : matchRoute ps [] = if ps = [] then some [] else none := by
  cases ps with
  | nil => rfl
  | cons q ps => cases q <;> simp [matchRoute]

/-- Soundness: a route ending on a candidate is a registered route matching the path with exactly
the candidate's bindings. -/
theorem cand_sound (ss : List Str) : ∀ (regs : List (Route σ)), ∀ c ∈ candidates regs ss, ∀ r ∈ c.1,
    ∃ o ∈ regs, o.method = r.method ∧ o.set = r.set ∧ matchRoute o.pats ss = some c.2 := by
  induction ss with
  | nil =>
    intro regs c hc r hr
    simp only [candidates, List.mem_singleton] at hc
    subst hc
    have := List.mem_filter.1 hr
    exact ⟨r, this.1, rfl, rfl, by simpa [matchRoute_nil_right] using this.2⟩
  | cons s ss ih =>
    intro regs c hc r hr
    rw [candidates_cons, List.mem_flatMap] at hc
    obtain ⟨b, hb, hc⟩ := hc
    cases b with
    | lit t rs =>
      have hrs := (branchInv regs).lit t rs hb
      by_cases ht : t = s
      · simp only [contrib, ht, if_true] at hc
        obtain ⟨o, ho, h1, h2, h3⟩ := ih rs c hc r hr
        rw [hrs] at ho
        obtain ⟨o', ho', g1, g2, g3⟩ := litRegs_mem ho
        exact ⟨o', ho', g2.trans h1, g3.trans h2, by simp [g1, matchRoute, ht, h3]⟩
      · simp [contrib, ht] at hc
    | par n r' =>
      simp only [contrib, List.mem_map] at hc
      obtain ⟨c', hc', rfl⟩ := hc
      obtain ⟨o, ho, h1, h2, h3⟩ := ih [r'] c' hc' r hr
      simp only [List.mem_singleton] at ho; subst ho
      obtain ⟨o', ho', g1, g2, g3⟩ := (branchInv regs).par n o hb
      exact ⟨o', ho', g2.trans h1, g3.trans h2, by simp [g1, matchRoute, h3]⟩

/-- A competing route has a candidate (which it ends on if it matches). -/
theorem cand_complete (ss : List Str) : ∀ (regs : List (Route σ)) (o : Route σ), o ∈ regs →
    competes o.pats ss = true → ∃ c ∈ candidates regs ss, ∀ b, matchRoute o.pats ss = some b →
      c.2 = b ∧ { o with pats := [] } ∈ c.1 := by
  induction ss with
  | nil =>
    intro regs o ho _
    refine ⟨_, by simp [candidates]; rfl, ?_⟩
    intro b hb
    rw [matchRoute_nil_right] at hb
    split at hb
    · rename_i hp
      simp at hb
      refine ⟨hb.symm, List.mem_filter.2 ⟨?_, by simp⟩⟩
      have : { o with pats := [] } = o := by cases o; simp_all
      rw [this]; exact ho
    · simp at hb
  | cons s ss ih =>
    intro regs o ho hc
    cases hp : o.pats with
    | nil => simp [hp] at hc
    | cons q ps =>
      cases q with
      | lit t =>
        rw [hp] at hc
        simp only [competes_lit, Bool.and_eq_true, decide_eq_true_eq] at hc
        obtain ⟨rfl, hc⟩ := hc
        obtain ⟨b, hb, hl⟩ := ((branchInv regs).litEx t).2 ⟨o, ho, by simp [hp]⟩
        cases b with
        | par n r => simp [Branch.isLit] at hl
        | lit t' rs =>
          simp only [Branch.isLit, decide_eq_true_eq] at hl; subst hl
          have hrs := (branchInv regs).lit t' rs hb
          have hm := mem_litRegs ho hp
          rw [← hrs] at hm
          obtain ⟨c, hcm, hcs⟩ := ih rs { o with pats := ps } hm hc
          refine ⟨c, ?_, ?_⟩
          · rw [candidates_cons, List.mem_flatMap]
            exact ⟨_, hb, by simpa [contrib] using hcm⟩
          · intro b hmb
            simp only [matchRoute, if_true] at hmb
            exact hcs b hmb
      | par n =>
        rw [hp] at hc
        simp only [competes_par] at hc
        have hb := (branchInv regs).parEx o ho n ps hp
        obtain ⟨c, hcm, hcs⟩ := ih [{ o with pats := ps }] { o with pats := ps } (by simp) hc
        refine ⟨(c.1, (n, s) :: c.2), ?_, ?_⟩
        · rw [candidates_cons, List.mem_flatMap]
          exact ⟨_, hb, by simp only [contrib, List.mem_map]; exact ⟨c, hcm, rfl⟩⟩
        · intro b hmb
          simp only [matchRoute, Option.map_eq_some_iff] at hmb
          obtain ⟨b', hb', rfl⟩ := hmb
          obtain ⟨h1, h2⟩ := hcs b' hb'
          exact ⟨by simp [h1], h2⟩

/-- Every candidate stems from a competing route, which ends on it if it matches the path. -/
theorem cand_origin (ss : List Str) : ∀ (regs : List (Route σ)), regs ≠ [] → ∀ c ∈ candidates regs ss,
    ∃ o ∈ regs, competes o.pats ss = true ∧
      ((matchRoute o.pats ss).isSome → { o with pats := [] } ∈ c.1) := by
  induction ss with
  | nil =>
    intro regs hne c hc
    cases regs with
    | nil => exact absurd rfl hne
    | cons o rest =>
      refine ⟨o, by simp, by simp, ?_⟩
      intro hm
      rw [matchRoute_nil_right] at hm
      simp only [candidates, List.mem_singleton] at hc
      subst hc
      split at hm
      · rename_i hp
        have : { o with pats := [] } = o := by cases o; simp_all
        exact List.mem_filter.2 ⟨by simp [this], by simp⟩
      · simp at hm
  | cons s ss ih =>
    intro regs _ c hc
    rw [candidates_cons, List.mem_flatMap] at hc
    obtain ⟨b, hb, hc⟩ := hc
    cases b with
    | lit t rs =>
      have hrs := (branchInv regs).lit t rs hb
      by_cases ht : t = s
      · simp only [contrib, ht, if_true] at hc
        have hrne : rs ≠ [] := by
          obtain ⟨x, hx, hx'⟩ := ((branchInv regs).litEx t).1 ⟨_, hb, by simp [Branch.isLit]⟩
          cases hxp : x.pats with
          | nil => simp [hxp] at hx'
          | cons q ps =>
            simp [hxp] at hx'; subst hx'
            have := mem_litRegs hx hxp
            rw [← hrs] at this
            intro e; simp [e] at this
        obtain ⟨o, ho, h1, h2⟩ := ih rs hrne c hc
        rw [hrs] at ho
        obtain ⟨o', ho', g1, g2, g3⟩ := litRegs_mem ho
        refine ⟨o', ho', by simp [g1, ht, h1], ?_⟩
        intro hm
        have : ({ o' with pats := [] } : Route σ) = { o with pats := [] } := by simp [g2, g3]
        rw [this]
        exact h2 (by simpa [g1, matchRoute, ht] using hm)
      · simp [contrib, ht] at hc
    | par n r' =>
      simp only [contrib, List.mem_map] at hc
      obtain ⟨c', hc', rfl⟩ := hc
      obtain ⟨o, ho, h1, h2⟩ := ih [r'] (by simp) c' hc'
      simp only [List.mem_singleton] at ho; subst ho
      obtain ⟨o', ho', g1, g2, g3⟩ := (branchInv regs).par n o hb
      refine ⟨o', ho', by simp [g1, h1], ?_⟩
      intro hm
      have : ({ o' with pats := [] } : Route σ) = { o with pats := [] } := by simp [g2, g3]
      simp only [this]
      exact h2 (by simpa [g1, matchRoute] using hm)

theorem cand_nonempty_competes {s : Str} {ss : List Str} {regs : List (Route σ)}
    (h : candidates regs (s :: ss) ≠ []) : ∃ o ∈ regs, competes o.pats (s :: ss) = true := by
  cases regs with
  | nil => simp [candidates_nil_cons] at h
  | cons r rs =>
    cases hc : candidates (r :: rs) (s :: ss) with
    | nil => exact absurd hc h
    | cons c cs =>
      obtain ⟨o, ho, h1, _⟩ := cand_origin (s :: ss) (r :: rs) (by simp) c (by simp [hc])
      exact ⟨o, ho, h1⟩

theorem cand_single_nil_of_not_competes {ss : List Str} {r : Route σ} (h : competes r.pats ss = false) :
    candidates [r] ss = [] := by
  cases ss with
  | nil => simp at h
  | cons s ss =>
    by_cases hc : candidates [r] (s :: ss) = []
    · exact hc
    · obtain ⟨o, ho, hoc⟩ := cand_nonempty_competes hc
      simp at ho; subst ho; simp [h] at hoc

/-- Frame: a route that does not compete for a path does not change its candidates. -/
theorem cand_frame (ss : List Str) : ∀ (regs : List (Route σ)) (r : Route σ),
    competes r.pats ss = false → candidates (regs ++ [r]) ss = candidates regs ss := by
  induction ss with
  | nil => intro regs r h; simp at h
  | cons s ss ih =>
    intro regs r h
    rw [candidates_cons, candidates_cons, branches_append]
    cases hp : r.pats with
    | nil => rw [addBranch_end _ _ hp]
    | cons q ps =>
      rw [hp] at h
      cases q with
      | par n =>
        rw [addBranch_par _ _ _ _ hp]
        have : candidates [({ r with pats := ps } : Route σ)] ss = [] :=
          cand_single_nil_of_not_competes (by simpa using h)
        simp [List.flatMap_append, contrib, this]
      | lit t =>
        simp only [competes_lit, Bool.and_eq_false_iff, decide_eq_false_iff_not] at h
        by_cases hex : ∃ b ∈ branches regs, b.isLit t = true
        · obtain ⟨A, rs, B, h1, h2, h3⟩ := addBranch_lit_old (branches regs) r t ps hp hex
          rw [h3, h1]
          simp only [List.flatMap_append, List.flatMap_cons]
          congr 2
          simp only [contrib]
          by_cases ht : t = s
          · simp only [ht, if_true]
            exact ih rs _ (by rcases h with h | h; exact absurd ht h; exact h)
          · simp [ht]
        · have hn : ∀ b ∈ branches regs, b.isLit t = false := by
            intro b hb
            cases hbl : b.isLit t with
            | false => rfl
            | true => exact absurd ⟨b, hb, hbl⟩ hex
          rw [addBranch_lit_new _ _ t ps hp hn]
          simp only [List.flatMap_append, List.flatMap_cons, List.flatMap_nil, List.append_nil]
          have : contrib s ss (Branch.lit t [({ r with pats := ps } : Route σ)]) = [] := by
            simp only [contrib]
            by_cases ht : t = s
            · simp only [ht, if_true]
              exact cand_single_nil_of_not_competes (by rcases h with h | h; exact absurd ht h; exact h)
            · simp [ht]
          simp [this]

theorem cand_frame_root (regs : List (Route σ)) (r : Route σ) (h : r.pats ≠ []) :
    candidates (regs ++ [r]) [] = candidates regs [] := by
  simp [candidates, h]

theorem serve_congr {regs regs' : List (Route σ)} {m : Str} {ss : List Str}
    (h : (candidates regs ss).head? = (candidates regs' ss).head?) : serve regs m ss = serve regs' m ss := by
  unfold serve
  cases h1 : candidates regs ss <;> cases h2 : candidates regs' ss <;> simp_all

/-- Served result in terms of the first candidate. -/
theorem serve_some {regs : List (Route σ)} {m : Str} {ss : List Str} {r : Route σ} {b : List (Str × Str)}
    (h : serve regs m ss = some (r, b)) : ∃ rs, (candidates regs ss).head? = some (rs, b) ∧
      (rs.reverse.find? fun r => covers r.method m) = some r := by
  unfold serve at h
  cases hc : candidates regs ss with
  | nil => simp [hc] at h
  | cons c cs =>
    simp only [hc, Option.map_eq_some_iff] at h
    obtain ⟨x, hx, he⟩ := h
    simp only [Prod.mk.injEq] at he
    obtain ⟨rfl, rfl⟩ := he
    exact ⟨c.1, by simp, hx⟩

/-- Re-registering a route with a parameter leaves the first candidate of every path unchanged. -/
theorem cand_reregister (ss : List Str) : ∀ (regs : List (Route σ)) (o r : Route σ), o ∈ regs →
    o.pats = r.pats → (∃ n, Pat.par n ∈ r.pats) →
    (candidates (regs ++ [r]) ss).head? = (candidates regs ss).head? := by
  induction ss with
  | nil =>
    intro regs o r _ _ hn
    rw [cand_frame_root]
    obtain ⟨n, hn⟩ := hn
    intro h; simp [h] at hn
  | cons s ss ih =>
    intro regs o r ho hop hn
    rw [candidates_cons, candidates_cons, branches_append]
    cases hp : r.pats with
    | nil => obtain ⟨n, hn⟩ := hn; simp [hp] at hn
    | cons q ps =>
      cases q with
      | par n =>
        rw [addBranch_par _ _ _ _ hp, List.flatMap_append]
        cases hX : (branches regs).flatMap (contrib s ss) with
        | cons x X => simp
        | nil =>
          have hb := (branchInv regs).parEx o ho n ps (hop.trans hp)
          have h1 : contrib s ss (Branch.par n ({ o with pats := ps } : Route σ)) = [] :=
            List.flatMap_eq_nil_iff.1 hX _ hb
          simp only [contrib, List.map_eq_nil_iff] at h1
          have hnc : competes ps ss = false := by
            cases hcc : competes ps ss with
            | false => rfl
            | true =>
              obtain ⟨c, hc, _⟩ := cand_complete ss [({ o with pats := ps } : Route σ)]
                { o with pats := ps } (by simp) hcc
              rw [h1] at hc; simp at hc
          have : candidates [({ r with pats := ps } : Route σ)] ss = [] :=
            cand_single_nil_of_not_competes hnc
          simp [contrib, this]
      | lit t =>
        have hex : ∃ b ∈ branches regs, b.isLit t = true :=
          ((branchInv regs).litEx t).2 ⟨o, ho, by simp [hop, hp]⟩
        obtain ⟨A, rs, B, h1, h2, h3⟩ := addBranch_lit_old (branches regs) r t ps hp hex
        have hrs := (branchInv regs).lit t rs (by rw [h1]; simp)
        rw [h3, h1]
        simp only [List.flatMap_append, List.flatMap_cons, contrib]
        by_cases ht : t = s
        · simp only [ht, if_true]
          have := ih rs { o with pats := ps } { r with pats := ps }
            (by rw [hrs]; exact mem_litRegs ho (hop.trans hp)) rfl
            (by
              obtain ⟨n, hn⟩ := hn
              rw [hp] at hn
              simp at hn
              exact ⟨n, hn⟩)
          rw [List.head?_append, List.head?_append, List.head?_append, List.head?_append, this]
        · simp [ht]

/-- A literal registration on a path whose best candidate binds nothing joins that candidate. -/
theorem cand_literal_join (ss : List Str) : ∀ (regs : List (Route σ)) (r : Route σ) (rs : List (Route σ)),
    r.pats = ss.map Pat.lit → (candidates regs ss).head? = some (rs, []) →
    (candidates (regs ++ [r]) ss).head? = some (rs ++ [{ r with pats := [] }], []) := by
  induction ss with
  | nil =>
    intro regs r rs hp hc
    have hp' : r.pats = [] := by simpa using hp
    have : ({ r with pats := [] } : Route σ) = r := by cases r; simp_all
    simp only [candidates, List.head?_cons, Option.some.injEq, Prod.mk.injEq, and_true] at hc
    simp [candidates, hp', this, hc]
  | cons s ss ih =>
    intro regs r rs hp hc
    simp only [List.map_cons] at hp
    rw [candidates_cons] at hc
    -- the winning branch is the literal one
    have hsplit : ∃ A rs0 B, branches regs = A ++ .lit s rs0 :: B ∧ A.flatMap (contrib s ss) = [] ∧
        (candidates rs0 ss).head? = some (rs, []) := by
      have gen : ∀ bs : List (Branch σ), (bs.flatMap (contrib s ss)).head? = some (rs, []) →
          ∃ A rs0 B, bs = A ++ .lit s rs0 :: B ∧ A.flatMap (contrib s ss) = [] ∧
            (candidates rs0 ss).head? = some (rs, []) := by
        intro bs
        induction bs with
        | nil => intro h; simp at h
        | cons b bs ihb =>
          intro h
          simp only [List.flatMap_cons] at h
          cases hcb : contrib s ss b with
          | nil =>
            rw [hcb] at h
            obtain ⟨A, rs0, B, g1, g2, g3⟩ := ihb (by simpa using h)
            exact ⟨b :: A, rs0, B, by simp [g1], by simp [hcb, g2], g3⟩
          | cons x xs =>
            rw [hcb] at h
            simp only [List.cons_append, List.head?_cons, Option.some.injEq] at h
            subst h
            cases b with
            | lit t rs0 =>
              by_cases ht : t = s
              · subst ht
                simp only [contrib, if_true] at hcb
                exact ⟨[], rs0, bs, rfl, rfl, by simp [hcb]⟩
              · simp [contrib, ht] at hcb
            | par n r0 =>
              simp only [contrib] at hcb
              cases hcc : candidates [r0] ss with
              | nil => simp [hcc] at hcb
              | cons y ys => simp [hcc] at hcb
      exact gen _ hc
    obtain ⟨A, rs0, B, h1, h2, h3⟩ := hsplit
    have hn : ∀ b ∈ A, b.isLit s = false := fun b hb => (branchInv regs).uniq s A rs0 B h1 b (by simp [hb])
    have hadd : addBranch (branches regs) r = A ++ .lit s (rs0 ++ [{ r with pats := ss.map Pat.lit }]) :: B := by
      obtain ⟨A', rs', B', g1, g2, g3⟩ := addBranch_lit_old (branches regs) r s (ss.map Pat.lit) hp
        ⟨_, by rw [h1]; simp, (by simp [Branch.isLit] : (Branch.lit s rs0).isLit s = true)⟩
      have : A' = A ∧ rs' = rs0 ∧ B' = B := by
        have e := g1.symm.trans h1
        rcases List.append_eq_append_iff.1 e with ⟨C, k1, k2⟩ | ⟨C, k1, k2⟩
        · cases C with
          | nil => simp at k1 k2; exact ⟨k1.symm, k2.1, k2.2⟩
          | cons c C =>
            simp only [List.cons_append, List.cons.injEq] at k2
            have := hn c (by rw [k1]; simp)
            rw [← k2.1] at this; simp [Branch.isLit] at this
        · cases C with
          | nil => simp at k1 k2; exact ⟨k1, k2.1.symm, k2.2.symm⟩
          | cons c C =>
            simp only [List.cons_append, List.cons.injEq] at k2
            have := g2 c (by rw [k1]; simp)
            rw [← k2.1] at this; simp [Branch.isLit] at this
      obtain ⟨rfl, rfl, rfl⟩ := this
      exact g3
    rw [candidates_cons, branches_append, hadd]
    simp only [List.flatMap_append, h2, List.nil_append, List.flatMap_cons, contrib, if_true]
    rw [List.head?_append, ih rs0 { r with pats := ss.map Pat.lit } rs rfl h3]
    simp

/-- If all competitors are literal (up to the length of the path) there is at most one candidate. -/
theorem cand_literal (ss : List Str) : ∀ (regs : List (Route σ)), regs ≠ [] ∨ ss ≠ [] →
    (∀ o ∈ regs, competes o.pats ss = true → o.pats.take ss.length = ss.map Pat.lit) →
    candidates regs ss = if (∃ o ∈ regs, competes o.pats ss = true) then
      [((regs.filter fun o => o.pats = ss.map Pat.lit).map fun o => { o with pats := [] }, [])] else [] := by
  induction ss with
  | nil =>
    intro regs hne _
    have hne : regs ≠ [] := by simpa using hne
    obtain ⟨x, hx⟩ := List.exists_mem_of_ne_nil _ hne
    rw [if_pos ⟨x, hx, by simp⟩]
    simp only [candidates, List.map_nil, List.cons.injEq, Prod.mk.injEq, and_true]
    have key : ∀ l : List (Route σ), (∀ o ∈ l, o.pats = []) →
        l = l.map (fun o => ({ o with pats := [] } : Route σ)) := by
      intro l
      induction l with
      | nil => intro _; rfl
      | cons o l ihl =>
        intro h
        have h1 := h o (by simp)
        have h2 := ihl (fun x hx => h x (by simp [hx]))
        simp only [List.map_cons]
        rw [← h2]
        congr 1
        cases o with
        | mk a b c => simp only at h1; subst h1; rfl
    exact key _ (fun o ho => by simpa using (List.mem_filter.1 ho).2)
  | cons s ss ih =>
    intro regs _ hl
    have hpar : ∀ b ∈ branches regs, b.isLit s = false → contrib s ss b = [] := by
      intro b hb hbl
      cases b with
      | lit t rs =>
        have : t ≠ s := by simpa [Branch.isLit] using hbl
        simp [contrib, this]
      | par n r =>
        simp only [contrib, List.map_eq_nil_iff]
        obtain ⟨o, ho, h1, h2, h3⟩ := (branchInv regs).par n r hb
        apply cand_single_nil_of_not_competes
        cases hc : competes r.pats ss with
        | false => rfl
        | true =>
          have := hl o ho (by simp [h1, hc])
          simp [h1] at this
    rw [candidates_cons]
    by_cases hex : ∃ b ∈ branches regs, b.isLit s = true
    · obtain ⟨b, hb, hbl⟩ := hex
      cases b with
      | par n r => simp [Branch.isLit] at hbl
      | lit t rs =>
        have : t = s := by simpa [Branch.isLit] using hbl
        subst this
        obtain ⟨A, B, hAB⟩ := List.append_of_mem hb
        have hu := (branchInv regs).uniq t A rs B hAB
        have hrs := (branchInv regs).lit t rs hb
        have hA : A.flatMap (contrib t ss) = [] := by
          rw [List.flatMap_eq_nil_iff]; intro x hx
          exact hpar x (by rw [hAB]; simp [hx]) (hu x (by simp [hx]))
        have hB : B.flatMap (contrib t ss) = [] := by
          rw [List.flatMap_eq_nil_iff]; intro x hx
          exact hpar x (by rw [hAB]; simp [hx]) (hu x (by simp [hx]))
        rw [hAB]
        simp only [List.flatMap_append, hA, List.flatMap_cons, hB, contrib, if_true, List.nil_append,
          List.append_nil]
        have hrne : rs ≠ [] := by
          obtain ⟨x, hx, hx'⟩ := ((branchInv regs).litEx t).1 ⟨_, hb, by simp [Branch.isLit]⟩
          cases hxp : x.pats with
          | nil => simp [hxp] at hx'
          | cons q ps =>
            simp [hxp] at hx'; subst hx'
            have := mem_litRegs hx hxp
            rw [← hrs] at this
            intro e; simp [e] at this
        rw [ih rs (Or.inl hrne) (by
          intro o ho hoc
          rw [hrs] at ho
          obtain ⟨o', ho', g1, _, _⟩ := litRegs_mem ho
          have := hl o' ho' (by simp [g1, hoc])
          simpa [g1] using this)]
        have hiff : (∃ o ∈ rs, competes o.pats ss = true) ↔ (∃ o ∈ regs, competes o.pats (t :: ss) = true) := by
          constructor
          · rintro ⟨o, ho, hoc⟩
            rw [hrs] at ho
            obtain ⟨o', ho', g1, _, _⟩ := litRegs_mem ho
            exact ⟨o', ho', by simp [g1, hoc]⟩
          · rintro ⟨o, ho, hoc⟩
            have h1 := hl o ho hoc
            cases hop : o.pats with
            | nil => simp [hop] at hoc
            | cons q ps =>
              simp only [hop, List.length_cons, List.take_succ_cons, List.map_cons, List.cons.injEq] at h1
              obtain ⟨rfl, _⟩ := h1
              refine ⟨{ o with pats := ps }, by rw [hrs]; exact mem_litRegs ho hop, ?_⟩
              simpa [hop] using hoc
        simp only [hiff]
        have hfil : (rs.filter fun o => o.pats = ss.map Pat.lit).map (fun o => ({ o with pats := [] } : Route σ))
            = (regs.filter fun o => o.pats = (t :: ss).map Pat.lit).map fun o => { o with pats := [] } := by
          rw [hrs]
          clear hl hpar hb hAB hu hrs hA hB hrne hiff ih
          induction regs with
          | nil => rfl
          | cons o regs ihr =>
            cases hop : o.pats with
            | nil => simpa [litRegs, hop] using ihr
            | cons q ps =>
              by_cases hq : q = .lit t
              · subst hq
                by_cases hps : ps = ss.map Pat.lit
                · have := ihr
                  simp only [litRegs] at this ⊢
                  simp [hop, Route.cut, hps]
                  simpa using this
                · have := ihr
                  simp only [litRegs] at this ⊢
                  simp [hop, Route.cut, hps]
                  simpa using this
              · have := ihr
                simp only [litRegs] at this ⊢
                simp [hop, hq]
                simpa using this
        rw [hfil]
    · have : (branches regs).flatMap (contrib s ss) = [] := by
        rw [List.flatMap_eq_nil_iff]
        intro b hb
        refine hpar b hb ?_
        cases hbl : b.isLit s with
        | false => rfl
        | true => exact absurd ⟨b, hb, hbl⟩ hex
      rw [this, if_neg]
      rintro ⟨o, ho, hoc⟩
      have h1 := hl o ho hoc
      cases hop : o.pats with
      | nil => simp [hop] at hoc
      | cons q ps =>
        simp only [hop, List.length_cons, List.take_succ_cons, List.map_cons, List.cons.injEq] at h1
        exact hex (((branchInv regs).litEx s).2 ⟨o, ho, by simp [hop, h1.1]⟩)

/-- A route starting with a parameter or with a fresh literal only adds candidates at the end. -/
theorem cand_fresh_append {regs : List (Route σ)} {r : Route σ}
    (h : ∀ t, r.pats.head? = some (.lit t) → ∀ o ∈ regs, o.pats.head? ≠ some (.lit t))
    (s : Str) (ss : List Str) :
    ∃ X, candidates (regs ++ [r]) (s :: ss) = candidates regs (s :: ss) ++ X := by
  rw [candidates_cons, candidates_cons, branches_append]
  cases hp : r.pats with
  | nil => exact ⟨[], by rw [addBranch_end _ _ hp]; simp⟩
  | cons q ps =>
    cases q with
    | par n => exact ⟨_, by rw [addBranch_par _ _ _ _ hp, List.flatMap_append]⟩
    | lit t =>
      refine ⟨[Branch.lit t [({ r with pats := ps } : Route σ)]].flatMap (contrib s ss), ?_⟩
      rw [addBranch_lit_new _ _ t ps hp, List.flatMap_append]
      intro b hb
      cases hbl : b.isLit t with
      | false => rfl
      | true =>
        obtain ⟨o, ho, ho'⟩ := ((branchInv regs).litEx t).1 ⟨b, hb, hbl⟩
        exact absurd ho' (h t (by simp [hp]) o ho)

end Verif
