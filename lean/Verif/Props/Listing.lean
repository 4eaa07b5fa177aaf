import Verif.Model.TreePrint
import Verif.Spec.Listing
import Verif.Lemmas.RoutingSpec
import Verif.Props.Routing
import Verif.Props.RegTree
/-
C95: Tree.String.
-/
namespace Verif
open Spec
variable {σ : Type}

/-- The entries of a line. -/
def entriesOf (idOf : σ → Str) (l : List (Method × Option σ)) : List (Str × Str) :=
  l.filterMap fun e => e.2.map fun s => (e.1, idOf s)

/-- The lines of a node. -/
def Node.linesAt (idOf : σ → Str) (visit : Handlers σ → List (Method × Option σ)) (d : Nat) : Node σ → List Line
  | .mk p u h cs => ⟨d, p, u, entriesOf idOf (visit h)⟩ :: listLines (d + 1) cs
where
  listLines (d : Nat) : List (Node σ) → List Line
    | [] => []
    | c :: cs => c.linesAt idOf visit d ++ listLines d cs

/-- The nodes with the way to them. -/
def Node.spines (idOf : σ → Str) (visit : Handlers σ → List (Method × Option σ)) (pre : List (Str × Str)) :
    Node σ → List (List (Str × Str) × List (Str × Str))
  | .mk p u h cs => (pre ++ [(p, u)], entriesOf idOf (visit h)) :: listSpines (pre ++ [(p, u)]) cs
where
  listSpines (pre : List (Str × Str)) : List (Node σ) → List (List (Str × Str) × List (Str × Str))
    | [] => []
    | c :: cs => c.spines idOf visit pre ++ listSpines pre cs

/-- No nil handler set. -/
def Node.full : Node σ → Prop
  | .mk _ _ h cs => (∀ e ∈ h, e.2 ≠ none) ∧ fulls cs
where
  fulls : List (Node σ) → Prop
    | [] => True
    | c :: cs => c.full ∧ fulls cs

theorem printHandlers_ret (idOf : σ → Str) (l : List (Method × Option σ)) (h : ∀ e ∈ l, e.2 ≠ none) :
    printHandlers idOf l = .ret ((entriesOf idOf l).flatMap fun e => b!"/" ++ e.1 ++ b!"[" ++ e.2 ++ b!"]") := by
  induction l with
  | nil => rfl
  | cons e t ih =>
    obtain ⟨m, s⟩ := e
    cases s with
    | none => exact absurd rfl (h (m, none) (by simp))
    | some s =>
      simp only [printHandlers, ih (fun e he => h e (by simp [he])), Outcome.bind]
      simp [entriesOf]

theorem print_lines (idOf : σ → Str) (visit : Handlers σ → List (Method × Option σ)) (hv : ∀ l, (visit l).Perm l) :
    ∀ (n : Node σ) (d : Nat), n.full →
      printNode idOf visit (List.replicate d 9) n = .ret ((n.linesAt idOf visit d).flatMap Line.text) := by
  intro n
  apply Node.rec (motive_1 := fun n => ∀ d, n.full →
      printNode idOf visit (List.replicate d 9) n = .ret ((n.linesAt idOf visit d).flatMap Line.text))
    (motive_2 := fun cs => ∀ d, Node.full.fulls cs →
      printNode.printList idOf visit (List.replicate d 9) cs = .ret ((Node.linesAt.listLines idOf visit d cs).flatMap Line.text))
  · intro p u h cs ih d hf
    obtain ⟨h1, h2⟩ := hf
    have e : List.replicate d (9 : UInt8) ++ [9] = List.replicate (d + 1) 9 := by
      rw [← List.replicate_succ']
    simp only [printNode, printHandlers_ret idOf (visit h) (fun e he => h1 e ((hv h).mem_iff.mp he)), Outcome.bind, e, ih (d + 1) h2]
    simp [Node.linesAt, Line.text]
  · intro d _; rfl
  · intro c cs ih1 ih2 d hf
    obtain ⟨h1, h2⟩ := hf
    simp only [printNode.printList, ih1 d h1, ih2 d h2, Outcome.bind]
    simp [Node.linesAt.listLines]

theorem indented_lines (idOf : σ → Str) (visit : Handlers σ → List (Method × Option σ)) :
    ∀ (n : Node σ) (above : List (Str × Str)) (d : Nat) (rest : List Line), d ≤ above.length →
      ∃ above', d < above'.length ∧ above'.take d = above.take d ∧
        indented above (n.linesAt idOf visit d ++ rest) = n.spines idOf visit (above.take d) ++ indented above' rest := by
  intro n
  apply Node.rec (motive_1 := fun n => ∀ (above : List (Str × Str)) (d : Nat) (rest : List Line), d ≤ above.length →
      ∃ above', d < above'.length ∧ above'.take d = above.take d ∧
        indented above (n.linesAt idOf visit d ++ rest) = n.spines idOf visit (above.take d) ++ indented above' rest)
    (motive_2 := fun cs => ∀ (above : List (Str × Str)) (d : Nat) (rest : List Line), d ≤ above.length →
      ∃ above', d ≤ above'.length ∧ above'.take d = above.take d ∧
        indented above (Node.linesAt.listLines idOf visit d cs ++ rest) =
          Node.spines.listSpines idOf visit (above.take d) cs ++ indented above' rest)
  · intro p u h cs ih above d rest hd
    have hlen : (above.take d ++ [(p, u)]).length = d + 1 := by simp [Nat.min_eq_left hd]
    obtain ⟨a', h1, h2, h3⟩ := ih (above.take d ++ [(p, u)]) (d + 1) rest (by omega)
    have htk : (above.take d ++ [(p, u)]).take (d + 1) = above.take d ++ [(p, u)] := List.take_of_length_le (by omega)
    rw [htk] at h2 h3
    refine ⟨a', by omega, ?_, ?_⟩
    · have := congrArg (List.take d) h2
      rw [List.take_take, Nat.min_eq_left (by omega)] at this
      rw [this, List.take_append_of_le_length (by simp [Nat.min_eq_left hd]), List.take_take, Nat.min_self]
    · simp only [Node.linesAt, List.cons_append, indented, Node.spines, h3]
  · intro above d rest hd
    exact ⟨above, hd, rfl, rfl⟩
  · intro c cs ih1 ih2 above d rest hd
    obtain ⟨a1, h1, h2, h3⟩ := ih1 above d (Node.linesAt.listLines idOf visit d cs ++ rest) hd
    obtain ⟨a2, k1, k2, k3⟩ := ih2 a1 d rest (by omega)
    refine ⟨a2, k1, k2.trans h2, ?_⟩
    simp only [Node.linesAt.listLines, Node.spines.listSpines, List.append_assoc, h3, k3, h2]

/-- The route is in the list, covers the method, and, if it has no parameter, no later one for the same segments does. -/
def Current (m : Method) (r : Route σ) : List (Route σ) → Prop
  | [] => False
  | x :: t => (x = r ∧ covers r.method m = true ∧ (allLit r.pats = true → ∀ y ∈ t, y.pats = r.pats → covers y.method m = false)) ∨
      Current m r t

theorem current_covers {m : Method} {r : Route σ} {regs : List (Route σ)} (h : Current m r regs) :
    r ∈ regs ∧ covers r.method m = true := by
  induction regs with
  | nil => cases h
  | cons x t ih =>
    rcases h with ⟨rfl, h, -⟩ | h
    · exact ⟨by simp, h⟩
    · obtain ⟨h1, h2⟩ := ih h; exact ⟨by simp [h1], h2⟩

theorem current_of_par {m : Method} {r : Route σ} {regs : List (Route σ)} (h : r ∈ regs) (hc : covers r.method m = true)
    (hl : allLit r.pats = false) : Current m r regs := by
  induction regs with
  | nil => cases h
  | cons x t ih =>
    rcases List.mem_cons.mp h with rfl | h
    · exact Or.inl ⟨rfl, hc, fun e => by rw [hl] at e; cases e⟩
    · exact Or.inr (ih h)

theorem current_lit (m : Method) (t : Str) (x : Route σ) (regs : List (Route σ)) :
    Current m x (litRegs t regs) ↔ Current m { x with pats := .lit t :: x.pats } regs := by
  induction regs with
  | nil => exact Iff.rfl
  | cons y rest ih =>
    have hall : allLit (Pat.lit t :: x.pats) = allLit x.pats := rfl
    by_cases hy : y.pats.head? = some (.lit t)
    · have e : litRegs t (y :: rest) = y.cut :: litRegs t rest := by simp [litRegs, hy]
      rw [e]
      simp only [Current, ih]
      have hyp : y.pats = .lit t :: y.cut.pats := by
        cases hp : y.pats with
        | nil => rw [hp] at hy; cases hy
        | cons q ps => rw [hp] at hy; simp at hy; simp [Route.cut, hp, hy]
      constructor
      · rintro (⟨h1, h2, h3⟩ | h)
        · refine Or.inl ⟨?_, h2, fun ha z hz hzp => ?_⟩
          · subst h1
            cases y; simp only [Route.cut] at hyp ⊢; rw [← hyp]
          · have hm := mem_litRegs hz hzp
            exact h3 (by rw [← hall]; exact ha) { z with pats := x.pats } hm rfl
        · exact Or.inr h
      · rintro (⟨h1, h2, h3⟩ | h)
        · refine Or.inl ⟨?_, h2, fun ha z hz hzp => ?_⟩
          · subst h1; rfl
          · obtain ⟨o, ho, h4, h5, -⟩ := litRegs_mem hz
            rw [← h5]
            exact h3 ha o ho (by rw [h4, hzp])
        · exact Or.inr h
    · have e : litRegs t (y :: rest) = litRegs t rest := by simp [litRegs, hy]
      rw [e, ih]
      simp only [Current]
      constructor
      · exact Or.inr
      · rintro (⟨h1, -, -⟩ | h)
        · exact absurd (by rw [h1]; rfl) hy
        · exact h

theorem current_end (m : Method) (r : Route σ) (regs : List (Route σ)) (hr : r.pats = []) :
    Current m r regs ↔ ∃ A B, regs.filter (fun x => x.pats = []) = A ++ r :: B ∧ covers r.method m = true ∧
      ∀ y ∈ B, covers y.method m = false := by
  induction regs with
  | nil =>
    constructor
    · intro h; cases h
    · rintro ⟨A, B, h, -⟩
      cases A <;> cases h
  | cons x t ih =>
    simp only [Current, ih]
    by_cases hx : x.pats = []
    · rw [List.filter_cons_of_pos (by simp [hx])]
      constructor
      · rintro (⟨h1, h2, h3⟩ | ⟨A, B, h1, h2⟩)
        · subst h1
          refine ⟨[], _, rfl, h2, fun y hy => ?_⟩
          obtain ⟨h4, h5⟩ := List.mem_filter.mp hy
          exact h3 (by rw [hr]; rfl) y h4 (by rw [hr]; simpa using h5)
        · exact ⟨x :: A, B, by rw [h1]; rfl, h2⟩
      · rintro ⟨A, B, h1, h2, h3⟩
        cases A with
        | nil =>
          cases h1
          refine Or.inl ⟨rfl, h2, fun _ y hy hyp => ?_⟩
          exact h3 y (List.mem_filter.mpr ⟨hy, by simp [hyp, hr]⟩)
        | cons a A =>
          simp only [List.cons_append, List.cons.injEq] at h1
          exact Or.inr ⟨A, B, h1.2, h2, h3⟩
    · rw [List.filter_cons_of_neg (by simp [hx])]
      constructor
      · rintro (⟨h1, -, -⟩ | h)
        · exact absurd (by rw [h1]; exact hr) hx
        · exact h
      · exact Or.inr

theorem reverse_find_last {α : Type} (p : α → Bool) (l : List α) (x : α) :
    l.reverse.find? p = some x ↔ ∃ A B, l = A ++ x :: B ∧ p x = true ∧ ∀ y ∈ B, p y = false := by
  rw [List.find?_eq_some_iff_append]
  constructor
  · rintro ⟨hp, as, bs, h, hn⟩
    refine ⟨bs.reverse, as.reverse, ?_, hp, fun y hy => ?_⟩
    · have := congrArg List.reverse h
      simpa using this
    · have := hn y (by simpa using hy)
      simpa using this
  · rintro ⟨A, B, rfl, hp, hn⟩
    refine ⟨hp, B.reverse, A.reverse, by simp, fun y hy => ?_⟩
    have := hn y (by simpa using hy)
    simp [this]

theorem handlersSet_nodup (h : Handlers σ) (k : Method) (v : Option σ) (hn : (h.map (·.1)).Nodup) : ((h.set k v).map (·.1)).Nodup := by
  unfold GoMap.set
  rw [List.map_cons, List.nodup_cons]
  constructor
  · intro hm
    obtain ⟨e, he, hk⟩ := List.mem_map.mp hm
    have := (List.mem_filter.mp he).2
    simp [hk] at this
  · exact List.Nodup.sublist (List.Sublist.map _ List.filter_sublist) hn

theorem addMethod_nodup (m : Method) (h : Handlers σ) (s : Option σ) (hn : (h.map (·.1)).Nodup) :
    ((addMethod m h s).map (·.1)).Nodup := by
  unfold addMethod
  split
  · exact handlersSet_nodup _ _ _ (handlersSet_nodup _ _ _ hn)
  · split
    · exact handlersSet_nodup _ _ _ (handlersSet_nodup _ _ _ hn)
    · exact handlersSet_nodup _ _ _ hn

theorem handlersOf_nodup (regs : List (Route σ)) : ((handlersOf regs).map (·.1)).Nodup := by
  unfold handlersOf
  have : ∀ (l : List (Route σ)) (h : Handlers σ), (h.map (·.1)).Nodup →
      ((l.foldl (fun h r => addMethod r.method h (some r.set)) h).map (·.1)).Nodup := by
    intro l
    induction l with
    | nil => intro h hn; exact hn
    | cons r l ih => intro h hn; exact ih _ (addMethod_nodup _ _ _ hn)
  exact this _ [] List.nodup_nil

theorem handlersOf_entry (regs : List (Route σ)) (m : Method) (o : Option σ) :
    (m, o) ∈ handlersOf regs ↔ ∃ r, Current m r regs ∧ r.pats = [] ∧ o = some r.set := by
  rw [GoMap.mem_iff (handlersOf_nodup regs)]
  have hg := foldl_addMethod_get m (regs.filter fun r => r.pats = []) ([] : Handlers σ)
  have hd : handlersOf regs = (regs.filter fun r => r.pats = []).foldl (fun h r => addMethod r.method h (some r.set)) [] := rfl
  rw [hd, hg]
  constructor
  · intro h
    split at h
    · rename_i r hr
      cases h
      obtain ⟨A, B, h1, h2, h3⟩ := (reverse_find_last _ _ _).mp hr
      have hrp : r.pats = [] := by
        have : r ∈ regs.filter fun r => r.pats = [] := by rw [h1]; simp
        simpa using (List.mem_filter.mp this).2
      exact ⟨r, (current_end m r regs hrp).mpr ⟨A, B, h1, h2, h3⟩, hrp, rfl⟩
    · cases h
  · rintro ⟨r, h1, h2, rfl⟩
    have := (reverse_find_last (fun r : Route σ => covers r.method m) _ r).mpr ((current_end m r regs h2).mp h1)
    rw [this]

/-- What the children of a node show. -/
def BranchShows (idOf : σ → Str) (pre : List (Str × Str)) (m id : Str) (s : List (Str × Str)) : Branch σ → Prop
  | .lit t rs => ∃ r, Current m r rs ∧ s = pre ++ [(t, [])] ++ r.pats.map Pat.shown ∧ id = idOf r.set
  | .par n r => covers r.method m = true ∧ s = pre ++ [([], n)] ++ r.pats.map Pat.shown ∧ id = idOf r.set

theorem rep_shows (idOf : σ → Str) (visit : Handlers σ → List (Method × Option σ)) (hv : ∀ l, (visit l).Perm l)
    (n : Node σ) (regs : List (Route σ)) (h : Rep n regs) : n.full ∧ ∀ (pre : List (Str × Str)) (s : List (Str × Str)) (m id : Str),
      (∃ es, (s, es) ∈ n.spines idOf visit pre ∧ (m, id) ∈ es) ↔
      ∃ r, Current m r regs ∧ s = pre ++ [(n.path, n.urlId)] ++ r.pats.map Pat.shown ∧ id = idOf r.set := by
  apply Rep.rec (motive_1 := fun n regs _ => n.full ∧ ∀ (pre : List (Str × Str)) (s : List (Str × Str)) (m id : Str),
      (∃ es, (s, es) ∈ n.spines idOf visit pre ∧ (m, id) ∈ es) ↔
      ∃ r, Current m r regs ∧ s = pre ++ [(n.path, n.urlId)] ++ r.pats.map Pat.shown ∧ id = idOf r.set)
    (motive_2 := fun cs bs _ => Node.full.fulls cs ∧ ∀ (pre : List (Str × Str)) (s : List (Str × Str)) (m id : Str),
      (∃ es, (s, es) ∈ Node.spines.listSpines idOf visit pre cs ∧ (m, id) ∈ es) ↔
      ∃ b ∈ bs, BranchShows idOf pre m id s b) ?_ ?_ ?_ ?_ h
  · intro p u hs cs regs hhs _ ih
    obtain ⟨hfull, ih⟩ := ih
    subst hhs
    have inv := branchInv regs
    refine ⟨⟨fun e he hnone => ?_, hfull⟩, fun pre s m id => ?_⟩
    · obtain ⟨k, o⟩ := e
      obtain ⟨r, -, -, h3⟩ := (handlersOf_entry regs k o).mp he
      rw [h3] at hnone; cases hnone
    · simp only [Node.spines, Node.path, Node.urlId, List.mem_cons]
      constructor
      · rintro ⟨es, h | h, hes⟩
        · cases h
          simp only [entriesOf, List.mem_filterMap, Option.map_eq_some_iff, Prod.mk.injEq] at hes
          obtain ⟨⟨k, o⟩, he, sv, h1, h2, h3⟩ := hes
          rw [(hv _).mem_iff] at he
          obtain ⟨r, h4, h5, h6⟩ := (handlersOf_entry regs k o).mp he
          simp only at h1 h2
          rw [h6] at h1; cases h1
          refine ⟨r, by rw [← h2]; exact h4, by rw [h5]; simp, h3.symm⟩
        · obtain ⟨b, hb, hsh⟩ := (ih (pre ++ [(p, u)]) s m id).mp ⟨es, h, hes⟩
          cases b with
          | lit t rs =>
            obtain ⟨r, h1, h2, h3⟩ := hsh
            rw [inv.lit t rs hb, current_lit] at h1
            exact ⟨_, h1, by rw [h2]; simp [Pat.shown], h3⟩
          | par n r =>
            obtain ⟨h1, h2, h3⟩ := hsh
            obtain ⟨o, ho, h4, h5, h6⟩ := inv.par n r hb
            exact ⟨o, current_of_par ho (by rw [h5]; exact h1) (by rw [h4]; rfl), by rw [h2, h4]; simp [Pat.shown], by rw [h6]; exact h3⟩
      · rintro ⟨r, h1, h2, h3⟩
        cases hp : r.pats with
        | nil =>
          refine ⟨_, Or.inl (by rw [h2, hp]; simp; rfl), ?_⟩
          simp only [entriesOf, List.mem_filterMap, Option.map_eq_some_iff, Prod.mk.injEq]
          refine ⟨(m, some r.set), ?_, r.set, rfl, rfl, h3.symm⟩
          rw [(hv _).mem_iff]
          exact (handlersOf_entry regs m _).mpr ⟨r, h1, hp, rfl⟩
        | cons q ps =>
          have : ∃ b ∈ branches regs, BranchShows idOf (pre ++ [(p, u)]) m id s b := by
            cases q with
            | lit t =>
              obtain ⟨b, hb, hbl⟩ := (inv.litEx t).mpr ⟨r, (current_covers h1).1, by rw [hp]; rfl⟩
              cases b with
              | par n x => cases hbl
              | lit t' rs =>
                have ht : t' = t := by simpa [Branch.isLit] using hbl
                subst ht
                refine ⟨_, hb, ⟨{ r with pats := ps }, ?_, by rw [h2, hp]; simp [Pat.shown], h3⟩⟩
                rw [inv.lit t' rs hb, current_lit]
                have : ({ r with pats := Pat.lit t' :: ps } : Route σ) = r := by cases r; simp only at hp; rw [hp]
                simp only [this]; exact h1
            | par n =>
              exact ⟨_, inv.parEx r (current_covers h1).1 n ps hp, (current_covers h1).2, by rw [h2, hp]; simp [Pat.shown], h3⟩
          obtain ⟨es, he, hes⟩ := (ih (pre ++ [(p, u)]) s m id).mpr this
          exact ⟨es, Or.inr he, hes⟩
  · exact ⟨trivial, fun pre s m id => by simp [Node.spines.listSpines]⟩
  · intro c cs rs bs hu _ _ ih1 ih2
    refine ⟨⟨ih1.1, ih2.1⟩, fun pre s m id => ?_⟩
    simp only [Node.spines.listSpines, List.mem_append, List.mem_cons, or_and_right, exists_or]
    rw [ih1.2 pre s m id, ih2.2 pre s m id]
    rw [hu]
    constructor
    · rintro (h | h)
      · exact Or.inl ⟨_, rfl, h⟩
      · exact Or.inr h
    · rintro (⟨b, rfl, h⟩ | h)
      · exact Or.inl h
      · exact Or.inr h
  · intro c cs r bs hp _ _ ih1 ih2
    refine ⟨⟨ih1.1, ih2.1⟩, fun pre s m id => ?_⟩
    simp only [Node.spines.listSpines, List.mem_append, List.mem_cons, or_and_right, exists_or]
    rw [ih1.2 pre s m id, ih2.2 pre s m id]
    simp only [BranchShows, hp]
    have : ∀ x : Route σ, Current m x [r] ↔ x = r ∧ covers x.method m = true := by
      intro x
      simp only [Current, List.not_mem_nil, false_imp_iff, imp_true_iff, and_true, or_false]
      constructor
      · rintro ⟨h1, h2⟩; exact ⟨h1.symm, h2⟩
      · rintro ⟨h1, h2⟩; exact ⟨h1.symm, h2⟩
    simp only [this, and_assoc, exists_eq_left]

/-- C95.  The listing of the tree, read with its indentation, shows exactly the registered routes: an entry for a method and
an id stands at the place of a route exactly if a registration of that route covers the method and has that id, and (for
routes without parameters, whose lines are shared) no later registration of the same route covers the method. -/
theorem C95_listing (idOf : σ → Str) (visit : Handlers σ → List (Method × Option σ)) (hv : ∀ l, (visit l).Perm l)
    (hist : List (Reg σ)) (hclean : (∀ r ∈ hist, Clean r) ∨ ∀ r ∈ hist, Literal r) :
    ∃ lines : List Line, treeString idOf visit (treeOf hist) = .ret (lines.flatMap Line.text) ∧
      ∀ (place : List (Str × Str)) (m id : Str),
        (∃ es, (place, es) ∈ indented [] lines ∧ (m, id) ∈ es) ↔
        ∃ (i : Nat) (r : Reg σ), hist[i]? = some r ∧ place = shownRoute (routePats r) ∧ id = idOf r.set ∧ covers r.method m = true ∧
          (allLit (routePats r) = true → ∀ (j : Nat) (r' : Reg σ), i < j → hist[j]? = some r' → routePats r' = routePats r →
            covers r'.method m = false) := by
  have hrep : Rep (treeOf hist) (hist.map Reg.toRoute) := by
    rcases hclean with h | h
    · exact treeOf_rep false hist (fun r hr s hs => h r hr s hs)
    · exact treeOf_rep true hist (fun r hr s hs => h r hr s hs)
  obtain ⟨hf, hs⟩ := rep_shows idOf visit hv _ _ hrep
  refine ⟨(treeOf hist).linesAt idOf visit 0, print_lines idOf visit hv _ 0 hf, fun place m id => ?_⟩
  obtain ⟨above, -, -, he⟩ := indented_lines idOf visit (treeOf hist) [] 0 [] (Nat.le_refl 0)
  rw [List.append_nil] at he
  rw [he]
  simp only [indented, List.append_nil, List.take_nil, List.take_zero]
  rw [hs [] place m id]
  obtain ⟨t1, t2⟩ := treeOf_top hist
  rw [t1, t2]
  have key : ∀ (l : List (Reg σ)) (x : Route σ), Current m x (l.map Reg.toRoute) ↔
      ∃ (i : Nat) (r : Reg σ), l[i]? = some r ∧ x = r.toRoute ∧ covers r.method m = true ∧
          (allLit (routePats r) = true → ∀ (j : Nat) (r' : Reg σ), i < j → l[j]? = some r' → routePats r' = routePats r →
            covers r'.method m = false) := by
    intro l x
    induction l with
    | nil => constructor
             · intro h; cases h
             · rintro ⟨i, r, h, -⟩; simp at h
    | cons y l ih =>
      simp only [List.map_cons, Current, ih]
      constructor
      · rintro (⟨h1, h2, h3⟩ | ⟨i, r, h1, h2, h3, h4⟩)
        · refine ⟨0, y, rfl, h1.symm, by rw [← h1] at h2; exact h2, fun ha j r' hj hr' hp => ?_⟩
          cases j with
          | zero => omega
          | succ j =>
            rw [List.getElem?_cons_succ] at hr'
            exact h3 (by rw [← h1]; exact ha) r'.toRoute (List.mem_map.mpr ⟨r', List.mem_of_getElem? hr', rfl⟩) (by rw [← h1]; exact hp)
        · refine ⟨i + 1, r, by simpa using h1, h2, h3, fun ha j r' hj hr' hp => ?_⟩
          cases j with
          | zero => omega
          | succ j => exact h4 ha j r' (by omega) (by simpa using hr') hp
      · rintro ⟨i, r, h1, h2, h3, h4⟩
        cases i with
        | zero =>
          simp only [List.getElem?_cons_zero, Option.some.injEq] at h1
          subst h1
          refine Or.inl ⟨h2.symm, by rw [h2]; exact h3, fun ha z hz hzp => ?_⟩
          obtain ⟨r', hr', rfl⟩ := List.mem_map.mp hz
          obtain ⟨j, hj⟩ := List.mem_iff_getElem?.mp hr'
          exact h4 (by rw [h2] at ha; exact ha) (j + 1) r' (by omega) (by simpa using hj) (by rw [h2] at hzp; exact hzp)
        | succ i =>
          refine Or.inr ⟨i, r, by simpa using h1, h2, h3, fun ha j r' hj hr' hp => ?_⟩
          exact h4 ha (j + 1) r' (by omega) (by simpa using hr') hp
  simp only [key]
  constructor
  · rintro ⟨x, ⟨i, r, h1, h2, h3, h4⟩, h5, h6⟩
    subst h2
    exact ⟨i, r, h1, h5, h6, h3, h4⟩
  · rintro ⟨i, r, h1, h2, h3, h4, h5⟩
    exact ⟨r.toRoute, ⟨i, r, h1, rfl, h4, h5⟩, h2, h3⟩

/-- Two routes, one of them with a parameter. -/
example : treeString (fun n : Nat => if n = 1 then b!"one" else b!"two") id
    (treeOf [⟨b!"GETPOST", b!"/a", 1⟩, ⟨b!"GET", b!"/a/:id", 2⟩]) =
    .ret (b!"Path: /, UrlId:  => " ++ [10, 9] ++ b!"Path: a, UrlId:  => /GET[one]/POST[one]" ++ [10, 9, 9] ++
      b!"Path: , UrlId: id => /GET[two]" ++ [10]) := by decide +kernel

/-! A nil set, which `Tree.Add` accepts. -/

theorem printHandlers_panic (idOf : σ → Str) (l : List (Method × Option σ)) (h : ∃ e ∈ l, e.2 = none) :
    printHandlers idOf l = .panic := by
  induction l with
  | nil => obtain ⟨e, he, -⟩ := h; cases he
  | cons x t ih =>
    obtain ⟨m, s⟩ := x
    cases s with
    | none => rfl
    | some s =>
      obtain ⟨e, he, hn⟩ := h
      rcases List.mem_cons.mp he with rfl | he
      · cases hn
      · simp only [printHandlers, ih ⟨e, he, hn⟩, Outcome.bind]

/-- Somewhere in the tree there is a nil handler set. -/
def Node.hasNil : Node σ → Prop
  | .mk _ _ h cs => (∃ e ∈ h, e.2 = none) ∨ anyNil cs
where
  anyNil : List (Node σ) → Prop
    | [] => False
    | c :: cs => c.hasNil ∨ anyNil cs

theorem anyNil_iff (cs : List (Node σ)) : Node.hasNil.anyNil cs ↔ ∃ c ∈ cs, c.hasNil := by
  induction cs with
  | nil => simp [Node.hasNil.anyNil]
  | cons c cs ih => simp [Node.hasNil.anyNil, ih]

theorem print_panic (idOf : σ → Str) (visit : Handlers σ → List (Method × Option σ)) (hv : ∀ l, (visit l).Perm l) :
    ∀ (n : Node σ) (tab : Str), (n.hasNil → printNode idOf visit tab n = .panic) ∧
      (printNode idOf visit tab n = .panic ∨ ∃ s, printNode idOf visit tab n = .ret s) := by
  have hh : ∀ l : List (Method × Option σ), printHandlers idOf l = .panic ∨ ∃ s, printHandlers idOf l = .ret s := by
    intro l
    by_cases h : ∃ e ∈ l, e.2 = none
    · exact Or.inl (printHandlers_panic idOf l h)
    · exact Or.inr ⟨_, printHandlers_ret idOf l (fun e he hn => h ⟨e, he, hn⟩)⟩
  intro n
  apply Node.rec (motive_1 := fun n => ∀ tab, (n.hasNil → printNode idOf visit tab n = .panic) ∧
      (printNode idOf visit tab n = .panic ∨ ∃ s, printNode idOf visit tab n = .ret s))
    (motive_2 := fun cs => ∀ tab, (Node.hasNil.anyNil cs → printNode.printList idOf visit tab cs = .panic) ∧
      (printNode.printList idOf visit tab cs = .panic ∨ ∃ s, printNode.printList idOf visit tab cs = .ret s))
  · intro p u h cs ih tab
    obtain ⟨i1, i2⟩ := ih (tab ++ [9])
    constructor
    · rintro (⟨e, he, hn⟩ | hc)
      · simp only [printNode, printHandlers_panic idOf (visit h) ⟨e, (hv h).mem_iff.mpr he, hn⟩, Outcome.bind]
      · rcases hh (visit h) with h1 | ⟨s, h1⟩
        · simp only [printNode, h1, Outcome.bind]
        · simp only [printNode, h1, Outcome.bind, i1 hc]
    · rcases hh (visit h) with h1 | ⟨s, h1⟩
      · exact Or.inl (by simp only [printNode, h1, Outcome.bind])
      · rcases i2 with h2 | ⟨s2, h2⟩
        · exact Or.inl (by simp only [printNode, h1, Outcome.bind, h2])
        · exact Or.inr ⟨_, by simp only [printNode, h1, Outcome.bind, h2]; rfl⟩
  · intro tab; exact ⟨fun h => (h : False).elim, Or.inr ⟨[], rfl⟩⟩
  · intro c cs ih1 ih2 tab
    obtain ⟨i1, i2⟩ := ih1 tab
    obtain ⟨k1, k2⟩ := ih2 tab
    constructor
    · rintro (h | h)
      · simp only [printNode.printList, i1 h, Outcome.bind]
      · rcases i2 with h1 | ⟨s, h1⟩
        · simp only [printNode.printList, h1, Outcome.bind]
        · simp only [printNode.printList, h1, k1 h, Outcome.bind]
    · rcases i2 with h1 | ⟨s, h1⟩
      · exact Or.inl (by simp only [printNode.printList, h1, Outcome.bind])
      · rcases k2 with h2 | ⟨s2, h2⟩
        · exact Or.inl (by simp only [printNode.printList, h1, h2, Outcome.bind])
        · exact Or.inr ⟨_, by simp only [printNode.printList, h1, h2, Outcome.bind]; rfl⟩

theorem addMethod_nil (m : Method) (h : Handlers σ) : ∃ e ∈ addMethod m h none, e.2 = none := by
  unfold addMethod
  split
  · exact ⟨(mGet, none), by simp [GoMap.set], rfl⟩
  · split
    · exact ⟨(mHead, none), by simp [GoMap.set], rfl⟩
    · exact ⟨(m, none), by simp [GoMap.set], rfl⟩

theorem newChain_nil (m : Method) (p : Str) (ps : List Str) : (newChain (σ := σ) m none p ps).hasNil := by
  induction ps generalizing p with
  | nil => exact Or.inl (addMethod_nil m [])
  | cons q qs ih => exact Or.inr (Or.inl (ih q))

theorem addRec_nil (m : Method) (p : Str) (ps : List Str) (n : Node σ) : (addRec m none p ps n).hasNil := by
  induction ps generalizing p n with
  | nil =>
    obtain ⟨np, nu, nh, nc⟩ := n
    simp only [addRec]
    split
    · exact Or.inr ((anyNil_iff _).mpr ⟨_, by simp, newChain_nil m p []⟩)
    · rename_i hne
      obtain ⟨j, hj⟩ := List.exists_mem_of_length_pos (Nat.pos_of_ne_zero hne)
      have hlt : j < nc.length := by
        unfold nextNodes at hj
        split at hj
        · simpa using hj
        · split at hj
          · rename_i i hi
            simp only [List.mem_singleton] at hj
            subst hj
            exact (List.findIdx?_eq_some_iff_getElem.mp hi).1
          · cases hj
      refine Or.inr ((anyNil_iff _).mpr ⟨_, List.mem_mapIdx.mpr ⟨j, hlt, rfl⟩, ?_⟩)
      rw [if_pos hj]
      exact Or.inl (addMethod_nil m _)
  | cons q qs ih =>
    obtain ⟨np, nu, nh, nc⟩ := n
    simp only [addRec]
    split
    · exact Or.inr ((anyNil_iff _).mpr ⟨_, by simp, newChain_nil m p (q :: qs)⟩)
    · rename_i hne
      obtain ⟨j, hj⟩ := List.exists_mem_of_length_pos (Nat.pos_of_ne_zero hne)
      have hlt : j < nc.length := by
        unfold nextNodes at hj
        split at hj
        · simpa using hj
        · split at hj
          · rename_i i hi
            simp only [List.mem_singleton] at hj
            subst hj
            exact (List.findIdx?_eq_some_iff_getElem.mp hi).1
          · cases hj
      refine Or.inr ((anyNil_iff _).mpr ⟨_, List.mem_mapIdx.mpr ⟨j, hlt, rfl⟩, ?_⟩)
      rw [if_pos hj]
      exact ih q _

/-- C95, nil: right after a nil handler set was registered with `Tree.Add`, whatever the tree and the route, printing the
tree panics. -/
theorem C95_nil (idOf : σ → Str) (visit : Handlers σ → List (Method × Option σ)) (hv : ∀ l, (visit l).Perm l)
    (t : Node σ) (m : Method) (route : Str) : treeString idOf visit (treeAdd t m route none) = .panic := by
  refine (print_panic idOf visit hv _ []).1 ?_
  unfold treeAdd
  split
  · exact addRec_nil m _ _ t
  · exact Or.inl (addMethod_nil m _)

end Verif
