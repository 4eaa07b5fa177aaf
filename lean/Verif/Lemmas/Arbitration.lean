import Verif.Lemmas.RoutingSpec
/-
The order of candidates is the order of age of branches.
-/
namespace Verif
open Spec
variable {σ : Type}

abbrev IdRoute (σ : Type) := Route (Nat × σ)

/-- identity of a tagged route -/
def rid (r : IdRoute σ) : Nat := r.set.1

/-- registered in order of identity -/
def Sorted (regs : List (IdRoute σ)) : Prop := regs.Pairwise fun a b => rid a < rid b

theorem rid_inj {regs : List (IdRoute σ)} (h : Sorted regs) {a b : IdRoute σ} (ha : a ∈ regs) (hb : b ∈ regs)
    (he : rid a = rid b) : a = b := by
  induction regs with
  | nil => simp at ha
  | cons x xs ih =>
    have h' := List.pairwise_cons.1 h
    rcases List.mem_cons.1 ha with rfl | ha'
    · rcases List.mem_cons.1 hb with rfl | hb'
      · rfl
      · have := h'.1 b hb'; omega
    · rcases List.mem_cons.1 hb with rfl | hb'
      · have := h'.1 a ha'; omega
      · exact ih h'.2 ha' hb'

theorem litRegs_sorted {regs : List (IdRoute σ)} (h : Sorted regs) (t : Str) : Sorted (litRegs t regs) := by
  unfold litRegs Sorted
  rw [List.pairwise_map]
  exact List.Pairwise.filter _ h

/-- age of a branch of depth k -/
def birthId (regs : List (IdRoute σ)) (w : IdRoute σ) (k : Nat) : Nat :=
  if allLit (w.pats.take k) then
    ((regs.find? fun q => q.pats.take k = w.pats.take k).map rid).getD 0 else rid w

theorem birthId_lit (regs : List (IdRoute σ)) (w : IdRoute σ) (t : Str) (ps : List Pat)
    (h : w.pats = .lit t :: ps) (k : Nat) :
    birthId regs w (k + 1) = birthId (litRegs t regs) { w with pats := ps } k := by
  have h1 : allLit (w.pats.take (k + 1)) = allLit (ps.take k) := by simp [h, allLit]
  have h2 : ((litRegs t regs).find? fun q => q.pats.take k = ps.take k).map rid
      = (regs.find? fun q => q.pats.take (k + 1) = w.pats.take (k + 1)).map rid := by
    rw [h]
    induction regs with
    | nil => rfl
    | cons o regs ih =>
      cases hop : o.pats with
      | nil => simpa [litRegs, hop] using ih
      | cons q qs =>
        by_cases hq : q = .lit t
        · subst hq
          by_cases hqs : qs.take k = ps.take k
          · simp [litRegs, hop, Route.cut, hqs, rid]
          · simp only [litRegs] at ih
            simp [litRegs, hop, Route.cut, hqs]
            simpa [Route.cut] using ih
        · simp only [litRegs] at ih
          simp [litRegs, hop, hq]
          simpa using ih
  simp only [birthId, h1, ← h2]
  rfl

theorem birthId_par (regs : List (IdRoute σ)) (w : IdRoute σ) (n : Str) (ps : List Pat)
    (h : w.pats = .par n :: ps) (k : Nat) : birthId regs w (k + 1) = rid w := by
  simp [birthId, h, allLit]

theorem birthId_zero (regs : List (IdRoute σ)) (w o : IdRoute σ) : birthId regs w 0 = birthId regs o 0 := by
  simp [birthId, allLit]

/-- identity of a branch -/
def bid : Branch (Nat × σ) → Nat
  | .lit _ rs => (rs.head?.map rid).getD 0
  | .par _ r => rid r

theorem rid_eta (r : IdRoute σ) (ps : List Pat) : rid { r with pats := ps } = rid r := rfl

/-- Branches are created in order of age. -/
theorem branches_sorted (regs : List (IdRoute σ)) (h : Sorted regs) :
    (branches regs).Pairwise (fun a b => bid a < bid b) ∧
      (∀ b ∈ branches regs, ∃ o ∈ regs, rid o = bid b) ∧
      (∀ t rs, Branch.lit t rs ∈ branches regs → rs ≠ []) := by
  have key : ∀ (l pre : List (IdRoute σ)) (bs : List (Branch (Nat × σ))), Sorted (pre ++ l) →
      bs.Pairwise (fun a b => bid a < bid b) → (∀ b ∈ bs, ∃ o ∈ pre, rid o = bid b) →
      (∀ t rs, Branch.lit t rs ∈ bs → rs ≠ []) →
      (l.foldl addBranch bs).Pairwise (fun a b => bid a < bid b) ∧
        (∀ b ∈ l.foldl addBranch bs, ∃ o ∈ pre ++ l, rid o = bid b) ∧
        (∀ t rs, Branch.lit t rs ∈ l.foldl addBranch bs → rs ≠ []) := by
    intro l
    induction l with
    | nil => intro pre bs _ h1 h2 h3; exact ⟨h1, by simpa using h2, h3⟩
    | cons r l ih =>
      intro pre bs hs h1 h2 h3
      have hs' : Sorted ((pre ++ [r]) ++ l) := by simpa using hs
      have hlt : ∀ o ∈ pre, rid o < rid r := by
        intro o ho
        have := List.pairwise_append.1 hs
        exact this.2.2 o ho r (by simp)
      have happ : ∀ nb : Branch (Nat × σ), bid nb = rid r → (∀ t rs, nb = .lit t rs → rs ≠ []) →
          (bs ++ [nb]).Pairwise (fun a b => bid a < bid b) ∧ (∀ b ∈ bs ++ [nb], ∃ o ∈ pre ++ [r], rid o = bid b) ∧
          (∀ t rs, Branch.lit t rs ∈ bs ++ [nb] → rs ≠ []) := by
        intro nb hnb hne
        refine ⟨?_, ?_, ?_⟩
        · rw [List.pairwise_append]
          refine ⟨h1, by simp, ?_⟩
          intro a ha b hb
          simp only [List.mem_singleton] at hb; subst hb
          obtain ⟨o, ho, hoe⟩ := h2 a ha
          have := hlt o ho; omega
        · intro b hb
          rcases List.mem_append.1 hb with hb | hb
          · obtain ⟨o, ho, hoe⟩ := h2 b hb; exact ⟨o, by simp [ho], hoe⟩
          · simp only [List.mem_singleton] at hb; subst hb
            exact ⟨r, by simp, hnb.symm⟩
        · intro t rs hb
          rcases List.mem_append.1 hb with hb | hb
          · exact h3 t rs hb
          · simp only [List.mem_singleton] at hb; exact hne t rs hb.symm
      have step : (addBranch bs r).Pairwise (fun a b => bid a < bid b) ∧
          (∀ b ∈ addBranch bs r, ∃ o ∈ pre ++ [r], rid o = bid b) ∧
          (∀ t rs, Branch.lit t rs ∈ addBranch bs r → rs ≠ []) := by
        cases hp : r.pats with
        | nil =>
          rw [addBranch_end _ _ hp]
          refine ⟨h1, ?_, h3⟩
          intro b hb; obtain ⟨o, ho, hoe⟩ := h2 b hb; exact ⟨o, by simp [ho], hoe⟩
        | cons q ps =>
          cases q with
          | par n =>
            rw [addBranch_par _ _ _ _ hp]
            exact happ _ rfl (by simp)
          | lit t =>
            by_cases hex : ∃ b ∈ bs, b.isLit t = true
            · obtain ⟨A, rs, B, g1, g2, g3⟩ := addBranch_lit_old bs r t ps hp hex
              have hrs : rs ≠ [] := h3 t rs (by rw [g1]; simp)
              have hbe : bid (Branch.lit t (rs ++ [{ r with pats := ps }])) = bid (Branch.lit t rs) := by
                cases rs with
                | nil => exact absurd rfl hrs
                | cons x xs => rfl
              rw [g3]
              refine ⟨?_, ?_, ?_⟩
              · have hm : (A ++ Branch.lit t (rs ++ [{ r with pats := ps }]) :: B).map bid = bs.map bid := by
                  rw [g1]; simp [hbe]
                have := List.pairwise_map.2 h1
                rw [← hm] at this
                exact List.pairwise_map.1 this
              · intro b hb
                have : ∃ b' ∈ bs, bid b' = bid b := by
                  rw [g1]
                  rcases List.mem_append.1 hb with hb | hb
                  · exact ⟨b, by simp [hb], rfl⟩
                  · rcases List.mem_cons.1 hb with hb | hb
                    · subst hb; exact ⟨_, by simp, hbe.symm⟩
                    · exact ⟨b, by simp [hb], rfl⟩
                obtain ⟨b', hb', he⟩ := this
                obtain ⟨o, ho, hoe⟩ := h2 b' hb'
                exact ⟨o, by simp [ho], hoe.trans he⟩
              · intro t' rs' hb
                rcases List.mem_append.1 hb with hb | hb
                · exact h3 t' rs' (by rw [g1]; simp [hb])
                · rcases List.mem_cons.1 hb with hb | hb
                  · simp only [Branch.lit.injEq] at hb; rw [hb.2]; simp
                  · exact h3 t' rs' (by rw [g1]; simp [hb])
            · have hn : ∀ b ∈ bs, b.isLit t = false := by
                intro b hb
                cases hbl : b.isLit t with
                | false => rfl
                | true => exact absurd ⟨b, hb, hbl⟩ hex
              rw [addBranch_lit_new bs r t ps hp hn]
              exact happ _ rfl (by intro t' rs' e; simp only [Branch.lit.injEq] at e; rw [← e.2]; simp)
      have := ih (pre ++ [r]) (addBranch bs r) hs' step.1 step.2.1 step.2.2
      simpa using this
  have := key regs [] [] (by simpa using h) (by simp) (by simp) (by simp)
  simpa [branches] using this

/-- same branches -/
def sameId (regs : List (IdRoute σ)) (n : Nat) (w o : IdRoute σ) : Prop :=
  ∀ k ≤ n, birthId regs w k = birthId regs o k

def olderId (regs : List (IdRoute σ)) (n : Nat) (w o : IdRoute σ) : Prop :=
  ∃ k ≤ n, birthId regs w k < birthId regs o k ∧ ∀ l < k, birthId regs w l = birthId regs o l

/-- The first depth at which ages differ decides. -/
theorem olderId_one {regs : List (IdRoute σ)} {n : Nat} {w o : IdRoute σ}
    (h : birthId regs w 1 < birthId regs o 1) : olderId regs (n + 1) w o :=
  ⟨1, by omega, h, fun l hl => by
    have : l = 0 := by omega
    subst this; exact birthId_zero _ _ _⟩

theorem not_sameId_of_one {regs : List (IdRoute σ)} {n : Nat} {w o : IdRoute σ}
    (h : birthId regs w 1 < birthId regs o 1) : ¬ sameId regs (n + 1) w o := by
  intro hs; have := hs 1 (by omega); omega

theorem birthId_one_lit {regs : List (IdRoute σ)} {w : IdRoute σ} {t : Str} {ps : List Pat}
    (h : w.pats = .lit t :: ps) {rs : List (IdRoute σ)} (hb : Branch.lit t rs ∈ branches regs) :
    birthId regs w 1 = bid (Branch.lit t rs) := by
  have hrs := (branchInv regs).lit t rs hb
  rw [birthId_lit regs w t ps h 0, ← hrs]
  simp [birthId, allLit, bid]
  cases rs <;> simp

/-- The winning candidate, characterised. -/
theorem cand_winner (ss : List Str) : ∀ (regs : List (IdRoute σ)), regs ≠ [] → Sorted regs →
    ∀ c, (candidates regs ss).head? = some c →
    ∃ w ∈ regs, competes w.pats ss = true ∧
      (∀ o ∈ regs, competes o.pats ss = true → olderId regs ss.length w o ∨ sameId regs ss.length w o) ∧
      (∀ o ∈ regs, { o with pats := [] } ∈ c.1 ↔
        ((matchRoute o.pats ss).isSome ∧ sameId regs ss.length w o)) ∧
      Sorted c.1 := by
  induction ss with
  | nil =>
    intro regs hne hs c hc
    obtain ⟨w, hw⟩ := List.exists_mem_of_ne_nil _ hne
    simp only [candidates, List.head?_cons, Option.some.injEq] at hc
    subst hc
    have hz : ∀ a b : IdRoute σ, sameId regs 0 a b := by
      intro a b k hk
      have : k = 0 := by omega
      subst this; exact birthId_zero _ _ _
    refine ⟨w, hw, by simp, fun o _ _ => Or.inr (hz _ _), ?_, hs.filter _⟩
    intro o ho
    have hz' : sameId regs ([] : List Str).length w o := hz w o
    simp only [List.mem_filter, decide_true, and_true, matchRoute_nil_right, hz']
    constructor
    · intro hm
      have := rid_inj hs hm ho rfl
      have : o.pats = [] := by rw [← this]
      simp [this]
    · intro h
      split at h
      · rename_i hp
        have : { o with pats := [] } = o := by
          cases o with
          | mk a b d => simp only at hp; subst hp; rfl
        rw [this]; exact ho
      · simp at h
  | cons s ss ih =>
    intro regs _ hs c hc
    obtain ⟨bsort, bmem, bne⟩ := branches_sorted regs hs
    rw [candidates_cons] at hc
    -- the branch that wins
    have hsplit : ∃ A b B, branches regs = A ++ b :: B ∧ A.flatMap (contrib s ss) = [] ∧
        (contrib s ss b).head? = some c := by
      have gen : ∀ bs : List (Branch (Nat × σ)), (bs.flatMap (contrib s ss)).head? = some c →
          ∃ A b B, bs = A ++ b :: B ∧ A.flatMap (contrib s ss) = [] ∧ (contrib s ss b).head? = some c := by
        intro bs
        induction bs with
        | nil => intro h; simp at h
        | cons b bs ihb =>
          intro h
          simp only [List.flatMap_cons] at h
          cases hcb : contrib s ss b with
          | nil =>
            rw [hcb] at h
            obtain ⟨A, b0, B, g1, g2, g3⟩ := ihb (by simpa using h)
            exact ⟨b :: A, b0, B, by simp [g1], by simp [hcb, g2], g3⟩
          | cons x xs =>
            rw [hcb] at h
            exact ⟨[], b, bs, rfl, rfl, by simpa [hcb] using h⟩
      exact gen _ hc
    obtain ⟨A, b, B, hAB, hA, hb⟩ := hsplit
    have hbm : b ∈ branches regs := by rw [hAB]; simp
    -- any branch with candidates, other than b, is younger
    have younger : ∀ b' ∈ branches regs, contrib s ss b' ≠ [] → b' = b ∨ bid b < bid b' := by
      intro b' hb' hne'
      rw [hAB] at hb'
      rcases List.mem_append.1 hb' with h | h
      · exact absurd (List.flatMap_eq_nil_iff.1 hA b' h) hne'
      · rcases List.mem_cons.1 h with h | h
        · exact Or.inl h
        · rw [hAB] at bsort
          have := (List.pairwise_append.1 bsort).2.1
          exact Or.inr ((List.pairwise_cons.1 this).1 b' h)
    -- branch of a competing route
    have parContrib : ∀ o ∈ regs, ∀ n ps, o.pats = .par n :: ps → competes o.pats (s :: ss) = true →
        contrib s ss (Branch.par n { o with pats := ps }) ≠ [] := by
      intro o ho n ps hop hco
      rw [hop, competes_par] at hco
      obtain ⟨c', hc', _⟩ := cand_complete ss [{ o with pats := ps }] { o with pats := ps } (by simp) hco
      intro he
      simp only [contrib, List.map_eq_nil_iff] at he
      rw [he] at hc'; simp at hc'
    have litContrib : ∀ o ∈ regs, ∀ t ps, o.pats = .lit t :: ps → competes o.pats (s :: ss) = true →
        t = s ∧ ∃ rs, Branch.lit s rs ∈ branches regs ∧ contrib s ss (Branch.lit s rs) ≠ [] := by
      intro o ho t ps hop hco
      rw [hop, competes_lit] at hco
      simp only [Bool.and_eq_true, decide_eq_true_eq] at hco
      obtain ⟨rfl, hco⟩ := hco
      refine ⟨rfl, ?_⟩
      obtain ⟨b', hb', hl⟩ := ((branchInv regs).litEx t).2 ⟨o, ho, by simp [hop]⟩
      cases b' with
      | par n r => simp [Branch.isLit] at hl
      | lit t' rs =>
        simp only [Branch.isLit, decide_eq_true_eq] at hl; subst hl
        refine ⟨rs, hb', ?_⟩
        have hrs := (branchInv regs).lit t' rs hb'
        obtain ⟨c', hc', _⟩ := cand_complete ss rs { o with pats := ps }
          (by rw [hrs]; exact mem_litRegs ho hop) hco
        intro he
        simp only [contrib, if_true] at he
        rw [he] at hc'; simp at hc'
    cases b with
    | lit t rs =>
      by_cases ht : t = s
      case neg => simp [contrib, ht] at hb
      subst ht
      simp only [contrib, if_true] at hb
      have hrs := (branchInv regs).lit t rs hbm
      obtain ⟨w', hw', hcw, hord, hmem, hsc⟩ := ih rs (bne t rs hbm) (by rw [hrs]; exact litRegs_sorted hs t) c hb
      rw [hrs] at hw'
      obtain ⟨w, hw, g1, g2, g3⟩ := litRegs_mem hw'
      have hwe : w' = { w with pats := w'.pats } := by
        cases w'; simp_all
      have shift : ∀ k, birthId regs w (k + 1) = birthId rs w' k := by
        intro k; rw [birthId_lit regs w t w'.pats g1, ← hrs, ← hwe]
      have shiftO : ∀ (o : IdRoute σ) ps, o.pats = .lit t :: ps → ∀ k,
          birthId regs o (k + 1) = birthId rs { o with pats := ps } k := by
        intro o ps ho k; rw [birthId_lit regs o t ps ho, ← hrs]
      have sameShift : ∀ (o : IdRoute σ) ps, o.pats = .lit t :: ps →
          (sameId regs (ss.length + 1) w o ↔ sameId rs ss.length w' { o with pats := ps }) := by
        intro o ps ho
        constructor
        · intro h k hk
          have := h (k + 1) (by omega)
          rwa [shift, shiftO o ps ho] at this
        · intro h k hk
          cases k with
          | zero => exact birthId_zero _ _ _
          | succ k => rw [shift, shiftO o ps ho]; exact h k (by omega)
      have parOlder : ∀ o ∈ regs, ∀ n ps, o.pats = .par n :: ps → competes o.pats (t :: ss) = true →
          birthId regs w 1 < birthId regs o 1 := by
        intro o ho n ps hop hco
        have hbo := (branchInv regs).parEx o ho n ps hop
        rw [birthId_one_lit g1 hbm, birthId_par regs o n ps hop]
        rcases younger _ hbo (parContrib o ho n ps hop hco) with h | h
        · simp at h
        · exact h
      refine ⟨w, hw, by simp [g1, hcw], ?_, ?_, hsc⟩
      · intro o ho hco
        cases hop : o.pats with
        | nil => simp [hop] at hco
        | cons q ps =>
          cases q with
          | par n => exact Or.inl (olderId_one (parOlder o ho n ps hop hco))
          | lit t' =>
            have hco' := hco
            rw [hop] at hco'
            simp only [competes_lit, Bool.and_eq_true, decide_eq_true_eq] at hco'
            obtain ⟨rfl, hco'⟩ := hco'
            have hm : { o with pats := ps } ∈ rs := by rw [hrs]; exact mem_litRegs ho hop
            rcases hord _ hm hco' with ⟨k, hk, hlt, heq⟩ | h
            · left
              refine ⟨k + 1, by simp only [List.length_cons]; omega, ?_, ?_⟩
              · rw [shift, shiftO o ps hop]; exact hlt
              · intro l hl
                cases l with
                | zero => exact birthId_zero _ _ _
                | succ l => rw [shift, shiftO o ps hop]; exact heq l (by omega)
            · right
              simp only [List.length_cons]
              exact (sameShift o ps hop).2 h
      · intro o ho
        constructor
        · intro hmo
          obtain ⟨o', ho', e1, e2, e3⟩ := cand_sound ss rs c (by
            cases hcs : candidates rs ss with
            | nil => simp [hcs] at hb
            | cons x xs => simp [hcs] at hb; subst hb; simp) _ hmo
          have ho2 := ho'
          rw [hrs] at ho'
          obtain ⟨o'', ho'', k1, k2, k3⟩ := litRegs_mem ho'
          have : o'' = o := rid_inj hs ho'' ho (by
            simp only [rid]; rw [k3]; simp only [] at e2; rw [e2])
          subst this
          refine ⟨by simp [k1, matchRoute, e3], ?_⟩
          simp only [List.length_cons]
          rw [sameShift o'' o'.pats k1]
          have hoe : o' = { o'' with pats := o'.pats } := by
            rw [k2, k3]
          rw [← hoe]
          refine ((hmem o' ho2).1 ?_).2
          have : ({ o' with pats := [] } : IdRoute σ) = { o'' with pats := [] } := by
            rw [hoe]
          rw [this]; exact hmo
        · rintro ⟨hmo, hsame⟩
          have hco : competes o.pats (t :: ss) = true := by
            obtain ⟨b', hb'⟩ := Option.isSome_iff_exists.1 hmo
            exact competes_of_match hb'
          cases hop : o.pats with
          | nil => simp [hop] at hco
          | cons q ps =>
            cases q with
            | par n => exact absurd hsame (not_sameId_of_one (parOlder o ho n ps hop hco))
            | lit t' =>
              rw [hop] at hmo
              by_cases htt : t' = t
              case neg => simp [matchRoute, htt] at hmo
              subst htt
              have hm : { o with pats := ps } ∈ rs := by rw [hrs]; exact mem_litRegs ho hop
              refine (hmem _ hm).2 ⟨by simpa [matchRoute] using hmo, ?_⟩
              exact (sameShift o ps hop).1 hsame
    | par n r' =>
      simp only [contrib] at hb
      obtain ⟨w, hw, g1, g2, g3⟩ := (branchInv regs).par n r' hbm
      have hre : r' = { w with pats := r'.pats } := by cases r'; simp_all
      have hrid : rid r' = rid w := by rw [hre]; rfl
      cases hcs : candidates [r'] ss with
      | nil => simp [hcs] at hb
      | cons c' cs' =>
        simp only [hcs, List.map_cons, List.head?_cons, Option.some.injEq] at hb
        subst hb
        have hcomp : competes r'.pats ss = true := by
          obtain ⟨o, ho, hco, _⟩ := cand_origin ss [r'] (by simp) c' (by simp [hcs])
          simp at ho; subst ho; exact hco
        obtain ⟨w', hw', hcw, hord, hmem, hsc⟩ := ih [r'] (by simp) (List.pairwise_singleton _ _) c' (by simp [hcs])
        simp only [List.mem_singleton] at hw'; subst hw'
        have hbw : ∀ k, birthId regs w (k + 1) = rid w := fun k => birthId_par regs w n w'.pats g1 k
        have other : ∀ o ∈ regs, o ≠ w → competes o.pats (s :: ss) = true → birthId regs w 1 < birthId regs o 1 := by
          intro o ho hne hco
          rw [hbw 0]
          cases hop : o.pats with
          | nil => simp [hop] at hco
          | cons q ps =>
            cases q with
            | par n' =>
              rw [birthId_par regs o n' ps hop]
              have hbo := (branchInv regs).parEx o ho n' ps hop
              rcases younger _ hbo (parContrib o ho n' ps hop hco) with h | h
              · simp only [Branch.par.injEq] at h
                refine absurd (rid_inj hs ho hw ?_) hne
                rw [← hrid, ← h.2]; rfl
              · rw [← hrid]; exact h
            | lit t =>
              obtain ⟨rfl, rs, hbr, hcr⟩ := litContrib o ho t ps hop hco
              rw [birthId_one_lit hop hbr]
              rcases younger _ hbr hcr with h | h
              · simp at h
              · rw [← hrid]; exact h
        refine ⟨w, hw, by simp [g1, hcomp], ?_, ?_, hsc⟩
        · intro o ho hco
          by_cases hne : o = w
          · subst hne; exact Or.inr (fun _ _ => rfl)
          · exact Or.inl (olderId_one (other o ho hne hco))
        · intro o ho
          constructor
          · intro hmo
            obtain ⟨o', ho', e1, e2, e3⟩ := cand_sound ss [w'] c' (by simp [hcs]) _ hmo
            simp only [List.mem_singleton] at ho'; subst ho'
            have : o = w := rid_inj hs ho hw (by
              rw [← hrid]; simp only [rid]; rw [e2])
            subst this
            exact ⟨by simp [g1, matchRoute, e3], fun _ _ => rfl⟩
          · rintro ⟨hmo, hsame⟩
            have hco : competes o.pats (s :: ss) = true := by
              obtain ⟨b', hb'⟩ := Option.isSome_iff_exists.1 hmo
              exact competes_of_match hb'
            by_cases hne : o = w
            · subst hne
              have := (hmem w' (by simp)).2 ⟨by simpa [g1, matchRoute] using hmo, fun _ _ => rfl⟩
              have he : ({ w' with pats := [] } : IdRoute σ) = { o with pats := [] } := by rw [hre]
              rw [he] at this; exact this
            · exact absurd hsame (not_sameId_of_one (other o ho hne hco))

/-! ### Tagging a history with positions -/

/-- forget the tag -/
def untag (r : IdRoute σ) : Route σ := ⟨r.pats, r.method, r.set.2⟩

def Spec.Branch.untag : Branch (Nat × σ) → Branch σ
  | .lit t rs => .lit t (rs.map Verif.untag)
  | .par n r => .par n (Verif.untag r)

theorem addBranch_untag (bs : List (Branch (Nat × σ))) (r : IdRoute σ) :
    addBranch (bs.map Branch.untag) (untag r) = (addBranch bs r).map Branch.untag := by
  induction bs with
  | nil =>
    cases hp : r.pats with
    | nil => simp [addBranch, untag, hp]
    | cons q ps => cases q <;> simp [addBranch, untag, hp, Branch.untag]
  | cons b bs ih =>
    cases b with
    | par n r' => simp [addBranch, Branch.untag, ih]
    | lit t rs =>
      cases hp : r.pats with
      | nil => simpa [addBranch, untag, hp, Branch.untag] using ih
      | cons q ps =>
        cases q with
        | par n => simpa [addBranch, untag, hp, Branch.untag] using ih
        | lit t' =>
          by_cases ht : t = t'
          · simp [addBranch, untag, hp, Branch.untag, ht]
          · simpa [addBranch, untag, hp, Branch.untag, ht] using ih

theorem branches_untag (regs : List (IdRoute σ)) :
    branches (regs.map untag) = (branches regs).map Branch.untag := by
  have key : ∀ (l : List (IdRoute σ)) (bs : List (Branch (Nat × σ))),
      (l.map untag).foldl addBranch (bs.map Branch.untag) = (l.foldl addBranch bs).map Branch.untag := by
    intro l
    induction l with
    | nil => intro bs; rfl
    | cons r l ih => intro bs; simp only [List.map_cons, List.foldl_cons, addBranch_untag, ih]
  simpa [branches] using key regs []

theorem candidates_untag (ss : List Str) : ∀ regs : List (IdRoute σ),
    candidates (regs.map untag) ss = (candidates regs ss).map fun c => (c.1.map untag, c.2) := by
  induction ss with
  | nil =>
    intro regs
    simp only [candidates, List.filter_map, List.map_cons, List.map_nil]
    rfl
  | cons s ss ih =>
    intro regs
    rw [candidates_cons, candidates_cons, branches_untag, List.flatMap_map, List.map_flatMap]
    congr 1
    funext b
    cases b with
    | lit t rs => by_cases ht : t = s <;> simp [Branch.untag, contrib, ht, ih]
    | par n r =>
      have := ih [r]
      simp only [List.map_cons, List.map_nil] at this
      simp [Branch.untag, contrib, this, Function.comp_def]

/-- routes tagged with their positions, counting from `k` -/
def tagFrom (k : Nat) : List (Route σ) → List (IdRoute σ)
  | [] => []
  | r :: rs => ⟨r.pats, r.method, (k, r.set)⟩ :: tagFrom (k + 1) rs

theorem tag_untag (k : Nat) (l : List (Route σ)) : (tagFrom k l).map untag = l := by
  induction l generalizing k with
  | nil => rfl
  | cons r l ih => simp [tagFrom, untag, ih]

theorem tag_mem (k : Nat) (l : List (Route σ)) (x : IdRoute σ) :
    x ∈ tagFrom k l ↔ ∃ i r, l[i]? = some r ∧ x = ⟨r.pats, r.method, (k + i, r.set)⟩ := by
  induction l generalizing k with
  | nil => simp [tagFrom]
  | cons a l ih =>
    simp only [tagFrom, List.mem_cons, ih]
    constructor
    · rintro (rfl | ⟨i, r, h, rfl⟩)
      · exact ⟨0, a, by simp, by simp⟩
      · exact ⟨i + 1, r, by simpa using h, by simp; omega⟩
    · rintro ⟨i, r, h, rfl⟩
      cases i with
      | zero => simp at h; subst h; exact Or.inl (by simp)
      | succ i => exact Or.inr ⟨i, r, by simpa using h, by simp; omega⟩

theorem tag_sorted (k : Nat) (l : List (Route σ)) : Sorted (tagFrom k l) := by
  induction l generalizing k with
  | nil => exact List.Pairwise.nil
  | cons r l ih =>
    refine List.pairwise_cons.2 ⟨?_, ih (k + 1)⟩
    intro x hx
    obtain ⟨i, r', _, rfl⟩ := (tag_mem (k + 1) l x).1 hx
    simp only [rid]; omega

theorem tag_find (k : Nat) (l : List (Route σ)) (p : List Pat → Bool) (h : ∃ r ∈ l, p r.pats = true) :
    ((tagFrom k l).find? fun q => p q.pats).map rid = some (k + (l.map (·.pats)).findIdx p) := by
  induction l generalizing k with
  | nil => simp at h
  | cons r l ih =>
    by_cases hp : p r.pats = true
    · simp [tagFrom, hp, rid, List.findIdx_cons]
    · have : ∃ r ∈ l, p r.pats = true := by
        obtain ⟨x, hx, hxp⟩ := h
        rcases List.mem_cons.1 hx with rfl | hx
        · exact absurd hxp hp
        · exact ⟨x, hx, hxp⟩
      simp only [tagFrom, List.find?_cons, hp]
      rw [ih (k + 1) this]
      simp [List.findIdx_cons, hp]; omega

theorem birth_tag (l : List (Route σ)) (i : Nat) (r : Route σ) (h : l[i]? = some r) (k : Nat) :
    birthId (tagFrom 0 l) ⟨r.pats, r.method, (i, r.set)⟩ k = birth (l.map (·.pats)) i k := by
  have h1 : (l.map (·.pats))[i]? = some r.pats := by simp [h]
  simp only [birthId, birth, h1]
  split
  · have := tag_find 0 l (fun q => decide (q.take k = r.pats.take k)) ⟨r, List.mem_of_getElem? h, by simp⟩
    simp only [Nat.zero_add] at this
    rw [this]; rfl
  · rfl

end Verif
