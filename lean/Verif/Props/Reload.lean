import Verif.Spec.Reload
import Verif.Props.Order
import Verif.Props.Table
/-
C136: running the set-up of the routes again.
-/
namespace Verif
open Spec
variable {σ : Type}

/-- The routes that are the literal segments of the path, cut at the end of it. -/
def Spec.ending (regs : List (Route σ)) (ss : List Str) : List (Route σ) :=
  (regs.filter fun o => decide (o.pats = ss.map Pat.lit)).map fun o => { o with pats := [] }

theorem ending_append (a b : List (Route σ)) (ss : List Str) : ending (a ++ b) ss = ending a ss ++ ending b ss := by
  simp [ending]

theorem ending_nil_cut {r : Route σ} (h : r.pats = []) : ({ r with pats := [] } : Route σ) = r := by cases r; simp_all

theorem ending_root (regs : List (Route σ)) : ending regs [] = regs.filter fun r => r.pats = [] := by
  induction regs with
  | nil => rfl
  | cons r regs ih =>
    unfold ending at ih ⊢
    by_cases h : r.pats = []
    · simp only [List.map_nil] at ih ⊢
      rw [List.filter_cons_of_pos (by simp [h]), List.map_cons, ih, ending_nil_cut h]
    · simp only [List.map_nil] at ih ⊢
      rw [List.filter_cons_of_neg (by simp [h]), ih]

theorem ending_litRegs (regs : List (Route σ)) (s : Str) (ss : List Str) : ending (litRegs s regs) ss = ending regs (s :: ss) := by
  induction regs with
  | nil => rfl
  | cons r regs ih =>
    have e1 : r :: regs = [r] ++ regs := rfl
    have e2 : litRegs s ([r] ++ regs) = litRegs s [r] ++ litRegs s regs := by rw [litRegs_append]
    rw [e1, e2, ending_append, ending_append, ih]
    congr 1
    cases hp : r.pats with
    | nil => simp [litRegs, ending, hp]
    | cons q ps =>
      cases q with
      | par n => simp [litRegs, ending, hp]
      | lit t =>
        by_cases ht : t = s
        · subst ht
          by_cases h2 : ps = ss.map Pat.lit
          · simp [litRegs, ending, hp, Route.cut, h2]
          · simp [litRegs, ending, hp, Route.cut, h2]
        · simp [litRegs, ending, hp, ht]

/-- What a branch other than the literal branch for the segment contributes binds a parameter. -/
theorem contrib_binds {s : Str} {ss : List Str} {b : Branch σ} (h : b.isLit s = false) : ∀ c ∈ contrib s ss b, c.2 ≠ [] := by
  cases b with
  | lit t rs =>
    have : ¬ t = s := by simpa [Branch.isLit] using h
    simp [contrib, this]
  | par n r =>
    intro c hc
    simp only [contrib, List.mem_map] at hc
    obtain ⟨x, -, rfl⟩ := hc
    simp

theorem flat_binds {s : Str} {ss : List Str} {bs : List (Branch σ)} (h : ∀ b ∈ bs, b.isLit s = false) :
    ∀ c ∈ bs.flatMap (contrib s ss), c.2 ≠ [] := by
  intro c hc
  obtain ⟨b, hb, hc⟩ := List.mem_flatMap.1 hc
  exact contrib_binds (h b hb) c hc

/-- A first candidate that binds nothing consists of all the routes that are the literal path. -/
theorem head_ending (ss : List Str) : ∀ (regs rs : List (Route σ)), (candidates regs ss).head? = some (rs, []) →
    rs = ending regs ss := by
  induction ss with
  | nil =>
    intro regs rs h
    simp only [candidates, List.head?_cons, Option.some.injEq, Prod.mk.injEq, and_true] at h
    rw [ending_root, h]
  | cons s ss ih =>
    intro regs rs h
    rw [candidates_cons] at h
    by_cases hex : ∃ b ∈ branches regs, b.isLit s = true
    · obtain ⟨b, hb, hl⟩ := hex
      obtain ⟨A, B, hAB⟩ := List.append_of_mem hb
      cases b with
      | par n r => simp [Branch.isLit] at hl
      | lit t rs0 =>
        have ht : t = s := by simpa [Branch.isLit] using hl
        subst ht
        have hn := (branchInv regs).uniq t A rs0 B hAB
        rw [hAB, List.flatMap_append, List.flatMap_cons, List.head?_append, List.head?_append] at h
        have hA := flat_binds (s := t) (ss := ss) (bs := A) (fun b hb => hn b (by simp [hb]))
        have hB := flat_binds (s := t) (ss := ss) (bs := B) (fun b hb => hn b (by simp [hb]))
        cases h1 : (A.flatMap (contrib t ss)).head? with
        | some c =>
          rw [h1] at h
          simp only [Option.some_or, Option.some.injEq] at h
          exact absurd (by rw [h]) (hA c (List.mem_of_head? h1))
        | none =>
          rw [h1] at h
          simp only [Option.none_or, contrib, if_true] at h
          cases h2 : (candidates rs0 ss).head? with
          | some c =>
            rw [h2] at h
            simp only [Option.some_or, Option.some.injEq] at h
            subst h
            rw [ih rs0 rs h2, (branchInv regs).lit t rs0 (by rw [hAB]; simp), ending_litRegs]
          | none =>
            rw [h2] at h
            simp only [Option.none_or] at h
            exact absurd rfl (hB _ (List.mem_of_head? h))
    · have hn : ∀ b ∈ branches regs, b.isLit s = false := by
        intro b hb
        cases hbl : b.isLit s with
        | false => rfl
        | true => exact absurd ⟨b, hb, hbl⟩ hex
      exact absurd rfl (flat_binds hn _ (List.mem_of_head? h))

/-- Registering a route once more: the first candidate of a path stays, and if it binds nothing the registration joins it, if it is the path. -/
theorem cand_again (ss : List Str) : ∀ (regs : List (Route σ)) (o r : Route σ), o ∈ regs → o.pats = r.pats →
    (candidates (regs ++ [r]) ss).head? = (candidates regs ss).head?.map fun c =>
      if c.2 = [] then (c.1 ++ ending [r] ss, []) else c := by
  induction ss with
  | nil =>
    intro regs o r _ _
    simp only [candidates, List.head?_cons, Option.map_some, if_true, List.filter_append, ending_root]
  | cons s ss ih =>
    intro regs o r ho hop
    have same : ending [r] (s :: ss) = [] → (candidates (regs ++ [r]) (s :: ss)).head? = (candidates regs (s :: ss)).head? →
        (candidates (regs ++ [r]) (s :: ss)).head? = (candidates regs (s :: ss)).head?.map fun c =>
          if c.2 = [] then (c.1 ++ ending [r] (s :: ss), []) else c := by
      intro h1 h2
      rw [h1, h2]
      cases (candidates regs (s :: ss)).head? with
      | none => rfl
      | some c =>
        rcases c with ⟨rs, b⟩
        by_cases hb : b = []
        · simp [hb]
        · simp [hb]
    cases hp : r.pats with
    | nil =>
      refine same (by simp [ending, hp]) ?_
      rw [candidates_cons, candidates_cons, branches_append, addBranch_end _ _ hp]
    | cons q ps =>
      cases q with
      | par n =>
        exact same (by simp [ending, hp]) (cand_reregister (s :: ss) regs o r ho hop ⟨n, by simp [hp]⟩)
      | lit t =>
        have hex : ∃ b ∈ branches regs, b.isLit t = true :=
          ((branchInv regs).litEx t).2 ⟨o, ho, by simp [hop, hp]⟩
        obtain ⟨A, rs, B, h1, h2, h3⟩ := addBranch_lit_old (branches regs) r t ps hp hex
        have hrs := (branchInv regs).lit t rs (by rw [h1]; simp)
        have hn := (branchInv regs).uniq t A rs B h1
        by_cases ht : t = s
        · subst ht
          have hih := ih rs { o with pats := ps } { r with pats := ps } (by rw [hrs]; exact mem_litRegs ho (hop.trans hp)) rfl
          have he : ending [({ r with pats := ps } : Route σ)] ss = ending [r] (t :: ss) := by
            rw [← ending_litRegs]
            simp [litRegs, hp, Route.cut]
          rw [he] at hih
          have hA := flat_binds (s := t) (ss := ss) (bs := A) (fun b hb => hn b (by simp [hb]))
          have hB := flat_binds (s := t) (ss := ss) (bs := B) (fun b hb => hn b (by simp [hb]))
          rw [candidates_cons, candidates_cons, branches_append, h3, h1]
          simp only [List.flatMap_append, List.flatMap_cons, contrib, if_true]
          rw [List.head?_append, List.head?_append, List.head?_append, List.head?_append, hih]
          cases g1 : (A.flatMap (contrib t ss)).head? with
          | some c => simp [hA c (List.mem_of_head? g1)]
          | none =>
            cases g2 : (candidates rs ss).head? with
            | some c => simp
            | none =>
              cases g3 : (B.flatMap (contrib t ss)).head? with
              | none => simp
              | some c => simp [hB c (List.mem_of_head? g3)]
        · refine same (by simp [ending, hp, ht]) ?_
          rw [candidates_cons, candidates_cons, branches_append, h3, h1]
          simp [contrib, ht]

/-- Any number of registrations of known routes. -/
theorem cand_known (ss : List Str) (regs : List (Route σ)) : ∀ (again : List (Route σ)),
    (∀ r ∈ again, ∃ o ∈ regs, o.pats = r.pats) →
    (candidates (regs ++ again) ss).head? = (candidates regs ss).head?.map fun c =>
      if c.2 = [] then (c.1 ++ ending again ss, []) else c := by
  intro again
  induction again generalizing regs with
  | nil =>
    intro _
    rw [List.append_nil]
    cases (candidates regs ss).head? with
    | none => rfl
    | some c =>
      rcases c with ⟨rs, b⟩
      by_cases hb : b = []
      · simp [hb, ending]
      · simp [hb]
  | cons r again ih =>
    intro h
    obtain ⟨o, ho, hop⟩ := h r (by simp)
    have e : regs ++ r :: again = (regs ++ [r]) ++ again := by simp
    rw [e, ih (regs ++ [r]) fun x hx => by
      obtain ⟨y, hy, e⟩ := h x (by simp [hx])
      exact ⟨y, by simp [hy], e⟩]
    rw [cand_again ss regs o r ho hop]
    have e2 : ending (r :: again) ss = ending [r] ss ++ ending again ss := ending_append [r] again ss
    rw [e2]
    cases (candidates regs ss).head? with
    | none => rfl
    | some c =>
      rcases c with ⟨rs, b⟩
      by_cases hb : b = []
      · simp [hb]
      · simp [hb]

theorem sameRoutes_known {a b : List (Reg σ)} (h : sameRoutes a b) {r : Reg σ} (hr : r ∈ b) : known a r := by
  have : (r.method, segs r.route) ∈ a.map fun r => (r.method, segs r.route) := by rw [h]; exact List.mem_map_of_mem hr
  obtain ⟨o, ho, e⟩ := List.mem_map.1 this
  simp only [Prod.mk.injEq] at e
  exact ⟨o, ho, e.1, e.2⟩

theorem sameRoutes_unit {a b : List (Reg σ)} (h : sameRoutes a b) :
    (a.map Reg.toRoute).map (Route.mapSet fun _ => ()) = (b.map Reg.toRoute).map (Route.mapSet fun _ => ()) := by
  have e : ∀ l : List (Reg σ), (l.map Reg.toRoute).map (Route.mapSet fun _ => ()) =
      (l.map fun r => (r.method, segs r.route)).map fun x => (⟨x.2.map segPat, x.1, ()⟩ : Route Unit) := by
    intro l
    rw [List.map_map, List.map_map]
    exact List.map_congr_left fun r _ => rfl
  rw [e, e, h]

theorem mem_ending {l : List (Route σ)} {ss : List Str} {x : Route σ} (h : x ∈ ending l ss) :
    ∃ o ∈ l, o.pats = ss.map Pat.lit ∧ o.method = x.method := by
  simp only [ending, List.mem_map, List.mem_filter, decide_eq_true_eq] at h
  obtain ⟨o, ⟨h1, h2⟩, rfl⟩ := h
  exact ⟨o, h1, h2, rfl⟩

theorem ending_mem {l : List (Route σ)} {ss : List Str} {o : Route σ} (h : o ∈ l) (hp : o.pats = ss.map Pat.lit) :
    ({ o with pats := [] } : Route σ) ∈ ending l ss := by
  simp only [ending, List.mem_map, List.mem_filter, decide_eq_true_eq]
  exact ⟨o, ⟨h, hp⟩, rfl⟩

/-- **C136.**  Running the set-up again.  A table `hist` is registered, then any registrations of routes and methods it has (`between`: earlier
repetitions, parts of it), then the whole table again with whatever handler sets.  A lookup that bound no parameter is answered as by the last table
alone, every other lookup as by the first table alone. -/
theorem C136_reload (hist between last : List (Reg σ)) (hclean : ∀ r ∈ hist, Clean r) (hb : ∀ r ∈ between, known hist r)
    (hl : sameRoutes hist last) (m : Method) (path : Str) (buf buf1 buf2 : Args) :
    ∃ first, treeFind (treeOf hist) m path buf1 = .ret first ∧
      treeFind (treeOf (hist ++ between ++ last)) m path buf =
        if first.args = [] then treeFind (treeOf last) m path buf2 else .ret first := by
  have hk : ∀ r ∈ between ++ last, known hist r := by
    intro r hr
    rcases List.mem_append.1 hr with h | h
    · exact hb r h
    · exact sameRoutes_known hl h
  have cleanK : ∀ r, known hist r → Clean r := by
    rintro r ⟨o, ho, -, e⟩
    have := hclean o ho
    unfold Clean at this ⊢
    rwa [e] at this
  have hcl : ∀ r ∈ last, Clean r := fun r hr => cleanK r (hk r (by simp [hr]))
  have hca : ∀ r ∈ hist ++ between ++ last, Clean r := by
    intro r hr
    rw [List.append_assoc] at hr
    rcases List.mem_append.1 hr with h | h
    · exact hclean r h
    · exact cleanK r (hk r h)
  refine ⟨_, find_clean hclean m path buf1, ?_⟩
  rw [find_clean hca, find_clean hcl]
  have key := cand_known (segs path) (hist.map Reg.toRoute) ((between ++ last).map Reg.toRoute) (by
    intro r hr
    obtain ⟨x, hx, rfl⟩ := List.mem_map.1 hr
    obtain ⟨o, ho, -, e⟩ := hk x hx
    exact ⟨o.toRoute, List.mem_map_of_mem ho, by simp only [Reg.toRoute, e]⟩)
  rw [← List.map_append, ← List.append_assoc] at key
  -- the two tables have the same candidates, but for the sets
  have hu := sameRoutes_unit hl
  have hc := candidates_mapSet (fun _ : σ => ()) (segs path) (hist.map Reg.toRoute)
  rw [hu, candidates_mapSet] at hc
  have hh : ((candidates (last.map Reg.toRoute) (segs path)).head?.map fun c => c.2) =
      (candidates (hist.map Reg.toRoute) (segs path)).head?.map fun c => c.2 := by
    have := congrArg (fun l => (List.head? l).map fun c => c.2) hc
    simpa [List.head?_map, Option.map_map, Function.comp_def] using this
  cases h1 : candidates (hist.map Reg.toRoute) (segs path) with
  | nil =>
    rw [h1] at key hh
    simp only [List.head?_nil, Option.map_none, Option.map_eq_none_iff, List.head?_eq_none_iff] at key hh
    simp only [serve, h1, key, hh, specResult, FindResult.notFound, if_true]
  | cons c cs =>
    rw [h1] at key hh
    simp only [List.head?_cons, Option.map_some] at key hh
    cases h2 : candidates (last.map Reg.toRoute) (segs path) with
    | nil => rw [h2] at hh; simp at hh
    | cons d ds =>
      rw [h2] at hh
      simp only [List.head?_cons, Option.map_some, Option.some.injEq] at hh
      cases h3 : candidates ((hist ++ between ++ last).map Reg.toRoute) (segs path) with
      | nil => rw [h3] at key; simp at key
      | cons e es =>
        rw [h3] at key
        simp only [List.head?_cons, Option.some.injEq] at key
        simp only [serve, h1, h2, h3]
        rcases c with ⟨rs, b⟩
        rcases d with ⟨rs', b'⟩
        simp only at hh
        subst hh
        by_cases hbe : b' = []
        · subst hbe
          simp only [if_true] at key
          subst key
          have e1 := head_ending (segs path) _ rs (by rw [h1]; rfl)
          have e2 := head_ending (segs path) _ rs' (by rw [h2]; rfl)
          simp only [List.reverse_append]
          have hargs : (specResult ((rs.reverse.find? fun r => covers r.method m).map fun r => (r, ([] : List (Str × Str))))).args = [] := by
            cases (rs.reverse.find? fun r => covers r.method m) <;> rfl
          rw [if_pos hargs]
          congr 3
          rw [List.map_append, ending_append, List.reverse_append, List.append_assoc, List.find?_append, ← e2]
          cases h5 : rs'.reverse.find? fun r => covers r.method m with
          | some r => rfl
          | none =>
            rw [Option.none_or, List.find?_eq_none]
            intro x hx hcov
            -- the route is in the last table too
            have hkn : ∃ o ∈ hist.map Reg.toRoute, o.pats = (segs path).map Pat.lit ∧ o.method = x.method := by
              rcases List.mem_append.1 hx with h | h
              · obtain ⟨o, ho, p1, p2⟩ := mem_ending (List.mem_reverse.1 h)
                obtain ⟨r, hr, rfl⟩ := List.mem_map.1 ho
                obtain ⟨o', ho', q1, q2⟩ := hb r hr
                exact ⟨o'.toRoute, List.mem_map_of_mem ho', by rw [← p1]; simp only [Reg.toRoute, q2], by
                  rw [← p2]; simp only [Reg.toRoute, q1]⟩
              · rw [e1] at h
                exact mem_ending (List.mem_reverse.1 h)
            obtain ⟨o, ho, p1, p2⟩ := hkn
            have : o.mapSet (fun _ => ()) ∈ (last.map Reg.toRoute).map (Route.mapSet fun _ => ()) := by
              rw [← hu]; exact List.mem_map_of_mem ho
            obtain ⟨o', ho', q⟩ := List.mem_map.1 this
            have q1 : o'.pats = o.pats := congrArg (Route.pats (σ := Unit)) q
            have q2 : o'.method = o.method := congrArg (Route.method (σ := Unit)) q
            have hin := ending_mem (ss := segs path) ho' (q1.trans p1)
            rw [← e2] at hin
            have := List.find?_eq_none.1 h5 _ (List.mem_reverse.2 hin)
            simp only [q2, p2] at this
            exact this hcov
        · simp only [hbe, if_false] at key
          subst key
          cases h5 : rs.reverse.find? fun r => covers r.method m with
          | some r =>
            simp only [Option.map_some, specResult, hbe, if_false]
          | none =>
            simp only [Option.map_none, specResult, FindResult.notFound, if_true]
            -- neither table covers the method
            have hc1 := List.head?_eq_some_iff.2 ⟨_, h1⟩
            rw [h1, h2] at hc
            simp only [List.map_cons, List.cons.injEq, Prod.mk.injEq] at hc
            have : rs'.reverse.find? (fun r => covers r.method m) = none := by
              rw [List.find?_eq_none] at h5 ⊢
              intro x hx hcov
              have : x.mapSet (fun _ => ()) ∈ rs.map (Route.mapSet fun _ => ()) := by
                rw [← hc.1.1]; exact List.mem_map_of_mem (List.mem_reverse.1 hx)
              obtain ⟨y, hy, e⟩ := List.mem_map.1 this
              have e' : y.method = x.method := congrArg (Route.method (σ := Unit)) e
              exact h5 y (List.mem_reverse.2 hy) (by rw [e']; exact hcov)
            rw [this]
            rfl

/-- C136, the set-up run once more as it was: no lookup changes. -/
theorem C136_twice (hist : List (Reg σ)) (hclean : ∀ r ∈ hist, Clean r) (m : Method) (path : Str) (buf buf' : Args) :
    treeFind (treeOf (hist ++ hist)) m path buf = treeFind (treeOf hist) m path buf' := by
  obtain ⟨first, h1, h2⟩ := C136_reload hist [] hist hclean (by simp) rfl m path buf buf' buf'
  rw [List.append_nil] at h2
  rw [h2, h1]
  split <;> rfl

/-- C136, any registrations of routes and methods of the table with handler sets of their own (a reload that stopped half-way, other versions): a
lookup that binds a parameter, and every lookup that fails, is answered as before. -/
theorem C136_parameters (hist more : List (Reg σ)) (hclean : ∀ r ∈ hist, Clean r) (hb : ∀ r ∈ more, known hist r)
    (m : Method) (path : Str) (buf buf' : Args) (res : FindResult σ) (h : treeFind (treeOf hist) m path buf' = .ret res)
    (hp : res.args ≠ [] ∨ res.found = false) : treeFind (treeOf (hist ++ more)) m path buf = .ret res := by
  -- register the table itself at the end of both
  have cleanK : ∀ r, known hist r → Clean r := by
    rintro r ⟨o, ho, -, e⟩
    have := hclean o ho
    unfold Clean at this ⊢
    rwa [e] at this
  have hca : ∀ r ∈ hist ++ more, Clean r := by
    intro r hr
    rcases List.mem_append.1 hr with h | h
    · exact hclean r h
    · exact cleanK r (hb r h)
  have key := cand_known (segs path) (hist.map Reg.toRoute) (more.map Reg.toRoute) (by
    intro r hr
    obtain ⟨x, hx, rfl⟩ := List.mem_map.1 hr
    obtain ⟨o, ho, -, e⟩ := hb x hx
    exact ⟨o.toRoute, List.mem_map_of_mem ho, by simp only [Reg.toRoute, e]⟩)
  rw [← List.map_append] at key
  rw [find_clean hclean] at h
  rw [find_clean hca, ← h]
  have h' := Outcome.ret.inj h
  subst h'
  congr 2
  cases h1 : candidates (hist.map Reg.toRoute) (segs path) with
  | nil =>
    rw [h1] at key
    simp only [List.head?_nil, Option.map_none, List.head?_eq_none_iff] at key
    simp only [serve, h1, key]
  | cons c cs =>
    rw [h1] at key
    cases h3 : candidates ((hist ++ more).map Reg.toRoute) (segs path) with
    | nil => rw [h3] at key; simp at key
    | cons e es =>
      rw [h3] at key
      simp only [List.head?_cons, Option.map_some, Option.some.injEq] at key
      rcases c with ⟨rs, b⟩
      simp only [serve, h1, h3] at hp ⊢
      by_cases hbe : b = []
      · subst hbe
        simp only [if_true] at key
        subst key
        have e1 := head_ending (segs path) _ rs (by rw [h1]; rfl)
        cases h5 : rs.reverse.find? fun r => covers r.method m with
        | some r => rw [h5] at hp; simp [specResult] at hp
        | none =>
          simp only [List.reverse_append, List.find?_append, h5, Option.or_none]
          have : (ending (more.map Reg.toRoute) (segs path)).reverse.find? (fun r => covers r.method m) = none := by
            rw [List.find?_eq_none] at h5 ⊢
            intro x hx hcov
            obtain ⟨o, ho, p1, p2⟩ := mem_ending (List.mem_reverse.1 hx)
            obtain ⟨r, hr, rfl⟩ := List.mem_map.1 ho
            obtain ⟨o', ho', q1, q2⟩ := hb r hr
            have hin := ending_mem (ss := segs path) (List.mem_map_of_mem (f := Reg.toRoute) ho')
              (by rw [← p1]; simp only [Reg.toRoute, q2])
            rw [← e1] at hin
            refine h5 _ (List.mem_reverse.2 hin) ?_
            rw [← hcov, ← p2]
            simp only [Reg.toRoute, q1]
          rw [this]
      · simp only [hbe, if_false] at key
        subst key
        rfl

/-- C136, at the level of requests: a server on which the set-up of the routes was run again, as it was, answers every request the same. -/
theorem C136_requests {υ ρ : Type} [DecidableEq ρ] (hist : List (Reg σ)) (hclean : ∀ r ∈ hist, Clean r) (u : Str → Str)
    (env : Env υ) (rxMatch : ρ → Str → Bool) (visit : GoMap ρ (Option σ) → List (ρ × Option σ)) (srv : Srv υ σ ρ) (ba : BaseAuth) (req : Req)
    (resp : Resp) (store : Args → υ) (buf buf' : Args) (clock : Nat) :
    serveHTTP u env rxMatch visit { srv with tree := treeOf (hist ++ hist) } ba req resp store buf clock =
      serveHTTP u env rxMatch visit { srv with tree := treeOf hist } ba req resp store buf' clock := by
  have hr : ∀ resp, runHTTP env rxMatch visit { srv with tree := treeOf (hist ++ hist) } req.method req.path resp store buf clock =
      runHTTP env rxMatch visit { srv with tree := treeOf hist } req.method req.path resp store buf' clock := by
    intro resp
    unfold runHTTP serverFind
    simp only [C136_twice hist hclean req.method req.path buf buf']
  unfold serveHTTP
  simp only [hr]

/-- A table, and the same table with new handler sets. -/
def reloadTable : List (Reg Nat) :=
  [⟨b!"GET", b!"/", 0⟩, ⟨b!"GETPOST", b!"/a/b", 1⟩, ⟨b!"GET", b!"/a/:id", 2⟩, ⟨b!"GET", b!"/:x/b", 3⟩, ⟨b!"POST", b!"/a/b", 4⟩]

def reloadTable' : List (Reg Nat) := reloadTable.map fun r => { r with set := r.set + 10 }

/-- After a reload the routes without parameters have the new handlers, the routes with parameters the old ones. -/
example : (∀ r ∈ reloadTable, Clean r) ∧ sameRoutes reloadTable reloadTable' ∧
    (∀ r ∈ reloadTable'.take 3, known reloadTable r) ∧
    treeFind (treeOf (reloadTable ++ reloadTable'.take 3 ++ reloadTable')) b!"POST" b!"/a/b" [] = .ret ⟨some 14, true, []⟩ ∧
    treeFind (treeOf (reloadTable ++ reloadTable'.take 3 ++ reloadTable')) b!"GET" b!"/" [] = .ret ⟨some 10, true, []⟩ ∧
    treeFind (treeOf (reloadTable ++ reloadTable'.take 3 ++ reloadTable')) b!"GET" b!"/a/7" [] = .ret ⟨some 2, true, [(b!"id", b!"7")]⟩ ∧
    treeFind (treeOf (reloadTable ++ reloadTable'.take 3 ++ reloadTable')) b!"GET" b!"/q/b" [] = .ret ⟨some 3, true, [(b!"x", b!"q")]⟩ := by
  refine ⟨by decide +kernel, by unfold sameRoutes; decide +kernel, ?_, by decide +kernel, by decide +kernel, by decide +kernel, by decide +kernel⟩
  unfold known
  decide +kernel

end Verif
