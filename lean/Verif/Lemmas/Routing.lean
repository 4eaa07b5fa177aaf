import Verif.Lemmas.TreeAdd
/-
Facts about the routing specification itself (candidates of lists of routes).
-/
namespace Verif
open Spec
variable {σ : Type}

/-- contribution of a branch to the candidates -/
def contrib (s : Str) (ss : List Str) : Branch σ → List (List (Route σ) × List (Str × Str))
  | .lit t rs => if t = s then candidates rs ss else []
  | .par n r => (candidates [r] ss).map fun c => (c.1, (n, s) :: c.2)

theorem candidates_cons (regs : List (Route σ)) (s : Str) (ss : List Str) :
    candidates regs (s :: ss) = (branches regs).flatMap (contrib s ss) := by
  simp only [candidates]
  congr 1

@[simp] theorem branches_nil : branches ([] : List (Route σ)) = [] := rfl

theorem candidates_nil_cons (s : Str) (ss : List Str) :
    candidates ([] : List (Route σ)) (s :: ss) = [] := by
  simp [candidates]

/-- A route with its first segment removed. -/
def Spec.Route.cut (r : Route σ) : Route σ := { r with pats := r.pats.tail }

/-- addBranch, by cases on the first pattern. -/
theorem addBranch_end (bs : List (Branch σ)) (r : Route σ) (h : r.pats = []) : addBranch bs r = bs := by
  induction bs with
  | nil => simp [addBranch, h]
  | cons b bs ih => cases b <;> simp [addBranch, h, ih]

theorem addBranch_par (bs : List (Branch σ)) (r : Route σ) (n : Str) (ps : List Pat)
    (h : r.pats = .par n :: ps) : addBranch bs r = bs ++ [.par n { r with pats := ps }] := by
  induction bs with
  | nil => simp [addBranch, h]
  | cons b bs ih => cases b <;> simp [addBranch, h, ih]

/-- Is the branch the literal branch for `t`? -/
def Spec.Branch.isLit (t : Str) : Branch σ → Bool
  | .lit t' _ => t' = t
  | .par _ _ => false

theorem addBranch_lit_new (bs : List (Branch σ)) (r : Route σ) (t : Str) (ps : List Pat)
    (h : r.pats = .lit t :: ps) (hn : ∀ b ∈ bs, b.isLit t = false) :
    addBranch bs r = bs ++ [.lit t [{ r with pats := ps }]] := by
  induction bs with
  | nil => simp [addBranch, h]
  | cons b bs ih =>
    have ih' := ih (fun b hb => hn b (by simp [hb]))
    have hb := hn b (by simp)
    cases b with
    | lit t' rs =>
      have : t' ≠ t := by simpa [Branch.isLit] using hb
      simp [addBranch, h, this, ih']
    | par n r' => simp [addBranch, ih']

theorem addBranch_lit_old (bs : List (Branch σ)) (r : Route σ) (t : Str) (ps : List Pat)
    (h : r.pats = .lit t :: ps) (ho : ∃ b ∈ bs, b.isLit t = true) :
    ∃ A rs B, bs = A ++ .lit t rs :: B ∧ (∀ b ∈ A, b.isLit t = false) ∧
      addBranch bs r = A ++ .lit t (rs ++ [{ r with pats := ps }]) :: B := by
  induction bs with
  | nil => simp at ho
  | cons b bs ih =>
    cases b with
    | lit t' rs =>
      by_cases ht : t' = t
      · subst ht
        exact ⟨[], rs, bs, rfl, by simp, by simp [addBranch, h]⟩
      · have : ∃ b ∈ bs, b.isLit t = true := by
          obtain ⟨b, hb, hl⟩ := ho
          rcases List.mem_cons.1 hb with rfl | hb
          · simp [Branch.isLit, ht] at hl
          · exact ⟨b, hb, hl⟩
        obtain ⟨A, rs', B, h1, h2, h3⟩ := ih this
        refine ⟨.lit t' rs :: A, rs', B, by simp [h1], ?_, ?_⟩
        · intro b hb
          rcases List.mem_cons.1 hb with rfl | hb
          · simp [Branch.isLit, ht]
          · exact h2 b hb
        · simp [addBranch, h, ht, h3]
    | par n r' =>
      have : ∃ b ∈ bs, b.isLit t = true := by
        obtain ⟨b, hb, hl⟩ := ho
        rcases List.mem_cons.1 hb with rfl | hb
        · simp [Branch.isLit] at hl
        · exact ⟨b, hb, hl⟩
      obtain ⟨A, rs', B, h1, h2, h3⟩ := ih this
      refine ⟨.par n r' :: A, rs', B, by simp [h1], ?_, ?_⟩
      · intro b hb
        rcases List.mem_cons.1 hb with rfl | hb
        · simp [Branch.isLit]
        · exact h2 b hb
      · simp [addBranch, h3]

/-- The routes of `regs` continuing with literal `t`, cut. -/
def litRegs (t : Str) (regs : List (Route σ)) : List (Route σ) :=
  (regs.filter fun r => r.pats.head? = some (.lit t)).map Route.cut

theorem litRegs_append (t : Str) (a b : List (Route σ)) :
    litRegs t (a ++ b) = litRegs t a ++ litRegs t b := by simp [litRegs]

theorem litRegs_single_eq (t : Str) (r : Route σ) (ps : List Pat) (h : r.pats = .lit t :: ps) :
    litRegs t [r] = [{ r with pats := ps }] := by simp [litRegs, h, Route.cut]

theorem litRegs_single_ne (t : Str) (r : Route σ) (h : r.pats.head? ≠ some (.lit t)) :
    litRegs t [r] = [] := by simp [litRegs, h]

/-- Characterisation of the branches: (1) a literal branch holds exactly the routes continuing with
that text; (2) a literal branch exists iff such a route exists; (3) at most one per text;
(4) parameter branches come from routes. -/
structure BranchInv (regs : List (Route σ)) (bs : List (Branch σ)) : Prop where
  lit : ∀ t rs, Branch.lit t rs ∈ bs → rs = litRegs t regs
  litEx : ∀ t, (∃ b ∈ bs, b.isLit t = true) ↔ ∃ r ∈ regs, r.pats.head? = some (.lit t)
  par : ∀ n r', Branch.par n r' ∈ bs →
    ∃ r ∈ regs, r.pats = .par n :: r'.pats ∧ r.method = r'.method ∧ r.set = r'.set
  parEx : ∀ r ∈ regs, ∀ n ps, r.pats = .par n :: ps → Branch.par n { r with pats := ps } ∈ bs
  uniq : ∀ t A rs B, bs = A ++ .lit t rs :: B → ∀ b ∈ A ++ B, b.isLit t = false

theorem branchInv_step (regs : List (Route σ)) (bs : List (Branch σ)) (r : Route σ)
    (h : BranchInv regs bs) : BranchInv (regs ++ [r]) (addBranch bs r) := by
  cases hp : r.pats with
  | nil =>
    rw [addBranch_end _ _ hp]
    refine ⟨?_, ?_, ?_, ?_, h.uniq⟩
    · intro t rs hb
      rw [litRegs_append, litRegs_single_ne t r (by simp [hp]), List.append_nil]; exact h.lit t rs hb
    · intro t; rw [h.litEx]; simp [hp, or_and_right, exists_or]
    · intro n r' hb; obtain ⟨x, hx, hx'⟩ := h.par n r' hb; exact ⟨x, by simp [hx], hx'⟩
    · intro x hx n ps hxp
      rcases List.mem_append.1 hx with hx | hx
      · exact h.parEx x hx n ps hxp
      · simp at hx; subst hx; simp [hp] at hxp
  | cons q ps =>
    cases q with
    | par n =>
      rw [addBranch_par _ _ _ _ hp]
      refine ⟨?_, ?_, ?_, ?_, ?_⟩
      · intro t rs hb
        rw [litRegs_append, litRegs_single_ne t r (by simp [hp]), List.append_nil]
        exact h.lit t rs (by simpa using hb)
      · intro t
        have := h.litEx t
        constructor
        · rintro ⟨b, hb, hl⟩
          have hb' : b ∈ bs := by
            rcases List.mem_append.1 hb with hb | hb
            · exact hb
            · simp at hb; subst hb; simp [Branch.isLit] at hl
          obtain ⟨x, hx, hx'⟩ := this.1 ⟨b, hb', hl⟩
          exact ⟨x, by simp [hx], hx'⟩
        · rintro ⟨x, hx, hx'⟩
          have hx2 : x ∈ regs := by
            rcases List.mem_append.1 hx with hx | hx
            · exact hx
            · simp at hx; subst hx; simp [hp] at hx'
          obtain ⟨b, hb, hl⟩ := this.2 ⟨x, hx2, hx'⟩
          exact ⟨b, by simp [hb], hl⟩
      · intro n' r' hb
        rcases List.mem_append.1 hb with hb | hb
        · obtain ⟨x, hx, hx'⟩ := h.par n' r' hb; exact ⟨x, by simp [hx], hx'⟩
        · simp at hb
          obtain ⟨rfl, rfl⟩ := hb
          exact ⟨r, by simp, by simp [hp]⟩
      · intro x hx n' ps' hxp
        rcases List.mem_append.1 hx with hx | hx
        · exact List.mem_append_left _ (h.parEx x hx n' ps' hxp)
        · simp at hx; subst hx
          rw [hp] at hxp
          simp only [List.cons.injEq, Pat.par.injEq] at hxp
          obtain ⟨rfl, rfl⟩ := hxp
          simp
      · intro t A rs B heq b hb
        rcases List.append_eq_append_iff.1 heq with ⟨C, h1, h2⟩ | ⟨C, h1, h2⟩
        · cases C with
          | nil => simp at h2
          | cons c C => simp at h2
        · cases C with
          | nil => simp at h2
          | cons c C =>
            simp only [List.cons_append, List.cons.injEq] at h2
            obtain ⟨rfl, h2⟩ := h2
            rcases List.mem_append.1 hb with hb | hb
            · exact h.uniq t A rs C h1 b (by simp [hb])
            · rw [h2] at hb
              rcases List.mem_append.1 hb with hb | hb
              · exact h.uniq t A rs C h1 b (by simp [hb])
              · simp at hb; subst hb; rfl
    | lit t0 =>
      by_cases hex : ∃ b ∈ bs, b.isLit t0 = true
      · obtain ⟨A, rs, B, h1, h2, h3⟩ := addBranch_lit_old bs r t0 ps hp hex
        have hB : ∀ b ∈ B, b.isLit t0 = false := fun b hb => h.uniq t0 A rs B h1 b (by simp [hb])
        rw [h3]
        refine ⟨?_, ?_, ?_, ?_, ?_⟩
        · intro t rs' hb
          by_cases ht : t = t0
          · subst ht
            rcases List.mem_append.1 hb with hb | hb
            · have := h2 _ hb; simp [Branch.isLit] at this
            · rcases List.mem_cons.1 hb with hb | hb
              · simp only [Branch.lit.injEq, true_and] at hb
                subst hb
                rw [litRegs_append, litRegs_single_eq t r ps hp,
                  h.lit t rs (by rw [h1]; simp)]
              · have := hB _ hb; simp [Branch.isLit] at this
          · rw [litRegs_append, litRegs_single_ne t r (by simp [hp]; exact fun e => ht e.symm), List.append_nil]
            refine h.lit t rs' ?_
            rw [h1]
            rcases List.mem_append.1 hb with hb | hb
            · simp [hb]
            · rcases List.mem_cons.1 hb with hb | hb
              · simp at hb; exact absurd hb.1 ht
              · simp [hb]
        · intro t
          have h0 := h.litEx t
          constructor
          · rintro ⟨b, hb, hl⟩
            by_cases ht : t = t0
            · subst ht; exact ⟨r, by simp, by simp [hp]⟩
            · have hb' : b ∈ bs := by
                rw [h1]
                rcases List.mem_append.1 hb with hb | hb
                · simp [hb]
                · rcases List.mem_cons.1 hb with hb | hb
                  · subst hb; simp [Branch.isLit] at hl; exact absurd hl.symm ht
                  · simp [hb]
              obtain ⟨x, hx, hx'⟩ := h0.1 ⟨b, hb', hl⟩
              exact ⟨x, by simp [hx], hx'⟩
          · rintro ⟨x, hx, hx'⟩
            by_cases ht : t = t0
            · subst ht
              exact ⟨.lit t (rs ++ [{ r with pats := ps }]), by simp, by simp [Branch.isLit]⟩
            · have hx2 : x ∈ regs := by
                rcases List.mem_append.1 hx with hx | hx
                · exact hx
                · simp at hx; subst hx; simp [hp] at hx'; exact absurd hx'.symm ht
              obtain ⟨b, hb, hl⟩ := h0.2 ⟨x, hx2, hx'⟩
              rw [h1] at hb
              refine ⟨b, ?_, hl⟩
              rcases List.mem_append.1 hb with hb | hb
              · simp [hb]
              · rcases List.mem_cons.1 hb with hb | hb
                · subst hb; simp [Branch.isLit] at hl; exact absurd hl.symm ht
                · simp [hb]
        · intro n r' hb
          have hb' : Branch.par n r' ∈ bs := by
            rw [h1]; simpa using hb
          obtain ⟨x, hx, hx'⟩ := h.par n r' hb'; exact ⟨x, by simp [hx], hx'⟩
        · intro x hx n ps' hxp
          rcases List.mem_append.1 hx with hx | hx
          · have := h.parEx x hx n ps' hxp
            rw [h1] at this; simpa using this
          · simp at hx; subst hx; simp [hp] at hxp
        · intro t A' rs' B' heq b hb
          -- compare with the uniqueness in `bs` through the shape of the list
          have key : ∀ (L : List (Branch σ)), L = A ++ Branch.lit t0 (rs ++ [{ r with pats := ps }]) :: B →
              L = A' ++ Branch.lit t rs' :: B' → ∃ A'' rs'' B'', bs = A'' ++ .lit t rs'' :: B'' ∧
                (∀ b ∈ A' ++ B', b.isLit t = true → ∃ b' ∈ A'' ++ B'', b'.isLit t = true) := by
            intro L e1 e2
            have e3 := e1.symm.trans e2
            rcases List.append_eq_append_iff.1 e3 with ⟨C, g1, g2⟩ | ⟨C, g1, g2⟩
            · cases C with
              | nil =>
                simp only [List.nil_append, List.cons.injEq, Branch.lit.injEq] at g2
                obtain ⟨⟨rfl, _⟩, rfl⟩ := g2
                simp only [List.append_nil] at g1; subst g1
                exact ⟨A', rs, B, h1, fun b hb hl => ⟨b, hb, hl⟩⟩
              | cons c C =>
                simp only [List.cons_append, List.cons.injEq] at g2
                obtain ⟨rfl, rfl⟩ := g2
                subst g1
                refine ⟨A ++ Branch.lit t0 rs :: C, rs', B', by simpa using h1, ?_⟩
                intro b hb hl
                simp only [List.append_assoc, List.mem_append, List.cons_append, List.mem_cons] at hb
                rcases hb with hb | hb | hb | hb
                · exact ⟨b, by simp [hb], hl⟩
                · subst hb; exact ⟨.lit t0 rs, by simp, hl⟩
                · exact ⟨b, by simp [hb], hl⟩
                · exact ⟨b, by simp [hb], hl⟩
            · cases C with
              | nil =>
                simp only [List.nil_append, List.cons.injEq, Branch.lit.injEq] at g2
                obtain ⟨⟨rfl, _⟩, rfl⟩ := g2
                simp only [List.append_nil] at g1; subst g1
                exact ⟨A, rs, B', h1, fun b hb hl => ⟨b, hb, hl⟩⟩
              | cons c C =>
                simp only [List.cons_append, List.cons.injEq] at g2
                obtain ⟨rfl, rfl⟩ := g2
                subst g1
                refine ⟨A', rs', C ++ Branch.lit t0 rs :: B, by simpa using h1, ?_⟩
                intro b hb hl
                simp only [List.mem_append, List.mem_cons] at hb
                rcases hb with hb | hb | hb | hb
                · exact ⟨b, by simp [hb], hl⟩
                · exact ⟨b, by simp [hb], hl⟩
                · subst hb; exact ⟨.lit t0 rs, by simp, hl⟩
                · exact ⟨b, by simp [hb], hl⟩
          obtain ⟨A'', rs'', B'', g1, g2⟩ := key _ rfl heq
          by_cases hl : b.isLit t = true
          · obtain ⟨b', hb', hl'⟩ := g2 b hb hl
            have := h.uniq t A'' rs'' B'' g1 b' hb'
            simp [hl'] at this
          · simpa using hl
      · have hn : ∀ b ∈ bs, b.isLit t0 = false := by
          intro b hb
          cases hbl : b.isLit t0 with
          | false => rfl
          | true => exact absurd ⟨b, hb, hbl⟩ hex
        rw [addBranch_lit_new bs r t0 ps hp hn]
        have hreg : ∀ x ∈ regs, x.pats.head? ≠ some (.lit t0) := by
          intro x hx hx'; exact hex ((h.litEx t0).2 ⟨x, hx, hx'⟩)
        have hlr : litRegs t0 regs = [] := by
          simp only [litRegs, List.map_eq_nil_iff, List.filter_eq_nil_iff]
          intro x hx; simpa using hreg x hx
        refine ⟨?_, ?_, ?_, ?_, ?_⟩
        · intro t rs hb
          rcases List.mem_append.1 hb with hb | hb
          · have ht : t ≠ t0 := by
              intro e; have := hn (Branch.lit t rs) hb; simp [Branch.isLit, e] at this
            rw [litRegs_append, litRegs_single_ne t r (by simp [hp]; exact fun e => ht e.symm), List.append_nil]
            exact h.lit t rs hb
          · simp at hb
            obtain ⟨rfl, rfl⟩ := hb
            rw [litRegs_append, hlr, litRegs_single_eq t r ps hp]; rfl
        · intro t
          have h0 := h.litEx t
          constructor
          · rintro ⟨b, hb, hl⟩
            rcases List.mem_append.1 hb with hb | hb
            · obtain ⟨x, hx, hx'⟩ := h0.1 ⟨b, hb, hl⟩
              exact ⟨x, by simp [hx], hx'⟩
            · simp at hb; subst hb
              simp [Branch.isLit] at hl; subst hl
              exact ⟨r, by simp, by simp [hp]⟩
          · rintro ⟨x, hx, hx'⟩
            rcases List.mem_append.1 hx with hx | hx
            · obtain ⟨b, hb, hl⟩ := h0.2 ⟨x, hx, hx'⟩
              exact ⟨b, by simp [hb], hl⟩
            · simp at hx; subst hx
              simp [hp] at hx'; subst hx'
              exact ⟨_, List.mem_append_right _ (List.mem_singleton.2 rfl), by simp [Branch.isLit]⟩
        · intro n r' hb
          have hb' : Branch.par n r' ∈ bs := by simpa using hb
          obtain ⟨x, hx, hx'⟩ := h.par n r' hb'; exact ⟨x, by simp [hx], hx'⟩
        · intro x hx n ps' hxp
          rcases List.mem_append.1 hx with hx | hx
          · exact List.mem_append_left _ (h.parEx x hx n ps' hxp)
          · simp at hx; subst hx; simp [hp] at hxp
        · intro t A rs B heq b hb
          rcases List.append_eq_append_iff.1 heq with ⟨C, h1, h2⟩ | ⟨C, h1, h2⟩
          · cases C with
            | nil =>
              simp only [List.nil_append, List.cons.injEq, Branch.lit.injEq] at h2
              obtain ⟨⟨rfl, _⟩, h3⟩ := h2
              simp only [List.append_nil] at h1
              subst h1
              rw [← h3] at hb
              exact hn b (by simpa using hb)
            | cons c C => simp at h2
          · cases C with
            | nil =>
              simp only [List.nil_append, List.cons.injEq, Branch.lit.injEq] at h2
              obtain ⟨⟨rfl, _⟩, h3⟩ := h2
              simp only [List.append_nil] at h1
              subst h1
              rw [h3] at hb
              exact hn b (by simpa using hb)
            | cons c C =>
              simp only [List.cons_append, List.cons.injEq] at h2
              obtain ⟨rfl, h2⟩ := h2
              rw [h2] at hb
              simp only [List.mem_append, List.mem_singleton] at hb
              rcases hb with hb | hb | hb
              · exact h.uniq t A rs C h1 b (by simp [hb])
              · exact h.uniq t A rs C h1 b (by simp [hb])
              · subst hb
                have h5 : Branch.lit t rs ∈ bs := by rw [h1]; simp
                have h6 := hn _ h5
                simp [Branch.isLit] at h6 ⊢
                exact fun e => h6 e.symm

theorem branchInv (regs : List (Route σ)) : BranchInv regs (branches regs) := by
  have key : ∀ (l : List (Route σ)) (regs : List (Route σ)) (bs : List (Branch σ)),
      BranchInv regs bs → BranchInv (regs ++ l) (l.foldl addBranch bs) := by
    intro l
    induction l with
    | nil => intro regs bs h; simpa using h
    | cons r l ih =>
      intro regs bs h
      have := ih (regs ++ [r]) (addBranch bs r) (branchInv_step regs bs r h)
      simpa using this
  have := key regs [] [] ⟨by simp, by simp, by simp, by simp, by simp⟩
  simpa [branches] using this

end Verif
