import Verif.Lemmas.TreeAdd
import Verif.Spec.Every
/-
The tree of EVERY list of registrations represents it, in the sense of Spec/Every.
-/
namespace Verif
open Spec
variable {σ : Type}

/-- The handler map of the registrations that end at a node. -/
def rowHandlers (rows : List (Row σ)) : Handlers σ :=
  (rows.filter fun r => decide (r.segs = [])).foldl (fun h r => addMethod r.method h (some r.set)) []

mutual
/-- A node represents the registrations passing through it (cut at the node); `urlId` tells whether it is a parameter. -/
inductive Reps : Node σ → List (Row σ) → Prop
  | mk (p u : Str) (hs : Handlers σ) (cs : List (Node σ)) (rows : List (Row σ)) :
      hs = rowHandlers rows → RepsL cs (forks (decide (u ≠ [])) rows) → Reps (.mk p u hs cs) rows
/-- Child nodes represent the ways to continue. -/
inductive RepsL : List (Node σ) → List (Fork σ) → Prop
  | nil : RepsL [] []
  | cons (c : Node σ) (cs : List (Node σ)) (f : Fork σ) (fs : List (Fork σ)) :
      c.path = f.text → c.urlId = f.name → Reps c f.rows → RepsL cs fs → RepsL (c :: cs) (f :: fs)
end

theorem getUrlID_seg (s : Str) : getUrlID s = (segText s, segName s) := by
  unfold segText segName
  by_cases h : s.head? = some 58
  · rw [if_pos h, if_pos h, getUrlID_colon h]
  · rw [if_neg h, if_neg h, getUrlID_lit h]

theorem forks_append (below : Bool) (rows : List (Row σ)) (r : Row σ) : forks below (rows ++ [r]) = fork below (forks below rows) r := by
  simp [forks, List.foldl_append]

theorem rowHandlers_append (rows : List (Row σ)) (r : Row σ) :
    rowHandlers (rows ++ [r]) = if r.segs = [] then addMethod r.method (rowHandlers rows) (some r.set) else rowHandlers rows := by
  unfold rowHandlers
  by_cases h : r.segs = [] <;> simp [List.filter_append, h, List.foldl_append]

/-- A fresh chain represents a fresh way. -/
theorem newChain_reps (m : Method) (s : σ) : ∀ (ps : List Str) (p : Str),
    Reps (newChain m (some s) p ps) [⟨ps, m, s⟩] ∧ (newChain m (some s) p ps).path = segText p ∧
      (newChain m (some s) p ps).urlId = segName p := by
  intro ps
  induction ps with
  | nil =>
    intro p
    simp only [newChain, getUrlID_seg]
    refine ⟨Reps.mk _ _ _ _ _ (by simp [rowHandlers]) ?_, rfl, rfl⟩
    simpa [forks, fork] using RepsL.nil
  | cons q qs ih =>
    intro p
    obtain ⟨h1, h2, h3⟩ := ih q
    simp only [newChain, getUrlID_seg]
    refine ⟨Reps.mk _ _ _ _ _ (by simp [rowHandlers]) ?_, rfl, rfl⟩
    have : forks (decide (segName p ≠ [])) [(⟨q :: qs, m, s⟩ : Row σ)] = [⟨segText q, segName q, [⟨qs, m, s⟩]⟩] := by
      simp [forks, fork, forkFirst]
    rw [this]
    exact RepsL.cons _ _ _ _ h2 h3 h1 RepsL.nil

/-- The change of a child that a registration makes. -/
def descend (m : Method) (set : Option σ) : List Str → Node σ → Node σ
  | [], c => .mk c.path c.urlId (addMethod m c.handlers set) c.children
  | q :: qs, c => addRec m set q qs c

theorem descend_path (m : Method) (set : Option σ) (ps : List Str) (c : Node σ) :
    (descend m set ps c).path = c.path ∧ (descend m set ps c).urlId = c.urlId := by
  cases ps with
  | nil => exact ⟨rfl, rfl⟩
  | cons q qs => obtain ⟨h1, h2, -⟩ := addRec_path m set q qs c; exact ⟨h1, h2⟩

/-- `_add` below a parameter with children changes all of them. -/
theorem addRec_wild (m : Method) (set : Option σ) (p : Str) (ps : List Str) (np nu : Str) (nh : Handlers σ) (nc : List (Node σ))
    (hu : nu ≠ []) (hc : nc ≠ []) :
    addRec m set p ps (.mk np nu nh nc) = .mk np nu nh (nc.map (descend m set ps)) := by
  have hl : (List.range nc.length).length ≠ 0 := by
    rw [List.length_range]; intro h; exact hc (List.length_eq_zero_iff.1 h)
  have hm : ∀ f : Node σ → Node σ, (nc.mapIdx fun j c => if j ∈ List.range nc.length then f c else c) = nc.map f := by
    intro f
    apply List.ext_getElem
    · simp
    · intro i h1 h2
      simp only [List.getElem_mapIdx, List.getElem_map, List.mem_range]
      rw [if_pos (by simpa using h1)]
  cases ps with
  | nil =>
    simp only [addRec, nextNodes, hu, ne_eq, not_false_eq_true, if_true, hl, if_false]
    congr 1
    rw [hm (fun c => .mk c.path c.urlId (addMethod m c.handlers set) c.children)]
    rfl
  | cons q qs =>
    simp only [addRec, nextNodes, hu, ne_eq, not_false_eq_true, if_true, hl, if_false]
    congr 1
    rw [hm (addRec m set q qs)]
    rfl

theorem addRec_wild_nil (m : Method) (set : Option σ) (p : Str) (ps : List Str) (np nu : Str) (nh : Handlers σ) (hu : nu ≠ []) :
    addRec m set p ps (.mk np nu nh []) = .mk np nu nh [newChain m set p ps] := by
  cases ps <;> simp [addRec, nextNodes, hu]

theorem insChild_reps (p : Str) (f : Node σ → Node σ) (new : Node σ) (r : Row σ)
    (hnew : Reps new [r] ∧ new.path = segText p ∧ new.urlId = segName p)
    (hf : ∀ c rows, Reps c rows → (f c).path = c.path ∧ (f c).urlId = c.urlId ∧ Reps (f c) (rows ++ [r])) :
    ∀ (fs : List (Fork σ)) (cs : List (Node σ)), RepsL cs fs → RepsL (insChild p f new cs) (forkFirst p r fs) := by
  intro fs
  induction fs with
  | nil =>
    intro cs h
    cases h
    exact RepsL.cons _ _ _ _ hnew.2.1 hnew.2.2 hnew.1 RepsL.nil
  | cons g fs ih =>
    intro cs h
    cases h with
    | cons c cs _ _ h1 h2 h3 h4 =>
      simp only [insChild, forkFirst]
      by_cases hp : g.text = p
      · rw [if_pos hp, if_pos (h1.trans hp)]
        obtain ⟨k1, k2, k3⟩ := hf c _ h3
        exact RepsL.cons _ _ _ _ (k1.trans h1) (k2.trans h2) k3 h4
      · rw [if_neg hp, if_neg (by rw [h1]; exact hp)]
        exact RepsL.cons _ _ _ _ h1 h2 h3 (ih cs h4)

theorem map_reps (f : Node σ → Node σ) (r : Row σ)
    (hf : ∀ c rows, Reps c rows → (f c).path = c.path ∧ (f c).urlId = c.urlId ∧ Reps (f c) (rows ++ [r])) :
    ∀ (fs : List (Fork σ)) (cs : List (Node σ)), RepsL cs fs → RepsL (cs.map f) (fs.map (Fork.take r)) := by
  intro fs
  induction fs with
  | nil => intro cs h; cases h; exact RepsL.nil
  | cons g fs ih =>
    intro cs h
    cases h with
    | cons c cs _ _ h1 h2 h3 h4 =>
      obtain ⟨k1, k2, k3⟩ := hf c _ h3
      exact RepsL.cons _ _ _ _ (k1.trans h1) (k2.trans h2) k3 (ih cs h4)

/-- One more registration below a node. -/
theorem descend_reps (m : Method) (s : σ) : ∀ (ps : List Str) (c : Node σ) (rows : List (Row σ)), Reps c rows →
    Reps (descend m (some s) ps c) (rows ++ [⟨ps, m, s⟩]) := by
  intro ps
  induction ps with
  | nil =>
    intro c rows h
    cases h with
    | mk p u hs cs _ h1 h2 =>
      refine Reps.mk _ _ _ _ _ ?_ ?_
      · simp [rowHandlers_append, h1, Node.handlers]
      · rw [forks_append]
        have e : fork (decide (u ≠ [])) (forks (decide (u ≠ [])) rows) ⟨[], m, s⟩ = forks (decide (u ≠ [])) rows := rfl
        exact e ▸ h2
  | cons q qs ih =>
    intro c rows h
    have hf : ∀ c rows, Reps c rows → (descend m (some s) qs c).path = c.path ∧ (descend m (some s) qs c).urlId = c.urlId ∧
        Reps (descend m (some s) qs c) (rows ++ [⟨qs, m, s⟩]) := fun c rows h =>
      ⟨(descend_path _ _ _ _).1, (descend_path _ _ _ _).2, ih c rows h⟩
    cases h with
    | mk p u hs cs _ h1 h2 =>
      simp only [descend]
      by_cases hu : u = []
      · subst hu
        rw [addRec_eq_insChild]
        refine Reps.mk _ _ _ _ _ (by simp [rowHandlers_append, h1]) ?_
        rw [forks_append]
        simp only [fork, ne_eq, not_true_eq_false, decide_false, Bool.false_eq_true, false_and, if_false]
        have := insChild_reps q (descend m (some s) qs) (newChain m (some s) q qs) ⟨qs, m, s⟩ (newChain_reps m s qs q) hf _ _ h2
        simp only [ne_eq, not_true_eq_false, decide_false] at this
        cases qs <;> exact this
      · cases hcs : cs with
        | nil =>
          subst hcs
          rw [addRec_wild_nil _ _ _ _ _ _ _ hu]
          refine Reps.mk _ _ _ _ _ (by simp [rowHandlers_append, h1]) ?_
          rw [forks_append]
          have he : forks (decide (u ≠ [])) rows = [] := by
            generalize forks (decide (u ≠ [])) rows = fs at h2
            cases h2
            rfl
          rw [he]
          simp only [fork, ne_eq, not_true_eq_false, and_false, if_false, forkFirst]
          obtain ⟨k1, k2, k3⟩ := newChain_reps m s qs q
          exact RepsL.cons _ _ _ _ k2 k3 k1 RepsL.nil
        | cons x xs =>
          rw [addRec_wild _ _ _ _ _ _ _ _ hu (by simp)]
          refine Reps.mk _ _ _ _ _ (by simp [rowHandlers_append, h1]) ?_
          rw [forks_append]
          subst hcs
          have hne : forks (decide (u ≠ [])) rows ≠ [] := by
            intro h
            rw [h] at h2
            cases h2
          have : fork (decide (u ≠ [])) (forks (decide (u ≠ [])) rows) ⟨q :: qs, m, s⟩ =
              (forks (decide (u ≠ [])) rows).map (Fork.take ⟨qs, m, s⟩) := by
            simp only [fork]
            rw [if_pos ⟨by simp [hu], hne⟩]
          rw [this]
          exact map_reps _ _ hf _ _ h2

/-- A registration as a row. -/
def Reg.toRow (r : Reg σ) : Row σ := ⟨segs r.route, r.method, r.set⟩

theorem treeAdd_descend (t : Node σ) (m : Method) (route : Str) (set : Option σ) :
    treeAdd t m route set = descend m set (segs route) t := by
  simp only [treeAdd, splitPath_eq]
  cases segs route <;> rfl

/-- The tree of every list of registrations represents it. -/
theorem treeOf_reps (hist : List (Reg σ)) : Reps (treeOf hist) (hist.map Reg.toRow) := by
  have : ∀ (hist : List (Reg σ)) (t : Node σ) (rows : List (Row σ)), Reps t rows →
      Reps (hist.foldl (fun t r => treeAdd t r.method r.route (some r.set)) t) (rows ++ hist.map Reg.toRow) := by
    intro hist
    induction hist with
    | nil => intro t rows h; simpa using h
    | cons r hist ih =>
      intro t rows h
      simp only [List.foldl_cons, List.map_cons]
      rw [treeAdd_descend]
      have := ih _ _ (descend_reps r.method r.set (segs r.route) t rows h)
      simpa [Reg.toRow] using this
  exact this hist newTree [] (Reps.mk _ _ _ _ _ rfl (by simpa [forks] using RepsL.nil))

/-! ### Candidates -/

theorem forks_cands {ss : List Str} (s : Str)
    (ih : ∀ (n : Node σ) (rows : List (Row σ)) (args : Args), Reps n rows →
      candsAt ss n args = (choices (decide (n.urlId ≠ [])) rows ss).map fun c => (rowHandlers c.1, args ++ c.2)) (args : Args) :
    ∀ (fs : List (Fork σ)) (cs : List (Node σ)), RepsL cs fs →
      ((cs.filter fun c => c.path = s ∨ c.urlId ≠ []).flatMap fun c => candsAt ss c (bindSeg c s args)) =
      (fs.flatMap fun f =>
        if f.name = [] then if f.text = s then choices false f.rows ss else []
        else (choices true f.rows ss).map fun c => (c.1, (f.name, s) :: c.2)).map fun c => (rowHandlers c.1, args ++ c.2) := by
  intro fs
  induction fs with
  | nil => intro cs h; cases h; simp
  | cons f fs ihf =>
    intro cs h
    cases h with
    | cons c cs _ _ h1 h2 h3 h4 =>
      have ih' := ihf cs h4
      simp only [List.flatMap_cons, List.map_append]
      rw [← ih']
      by_cases hu : f.name = []
      · rw [if_pos hu]
        by_cases hp : f.text = s
        · rw [List.filter_cons_of_pos (by simp [h1, hp]), List.flatMap_cons, if_pos hp]
          congr 1
          rw [ih c _ _ h3]
          simp [bindSeg, h2, hu]
        · rw [List.filter_cons_of_neg (by simp [h1, h2, hp, hu]), if_neg hp]
          simp
      · rw [if_neg hu, List.filter_cons_of_pos (by simp [h2, hu]), List.flatMap_cons]
        congr 1
        rw [ih c _ _ h3]
        simp [bindSeg, h2, hu, List.map_map, Function.comp_def]

theorem candsAt_reps (ss : List Str) : ∀ (n : Node σ) (rows : List (Row σ)) (args : Args), Reps n rows →
    candsAt ss n args = (choices (decide (n.urlId ≠ [])) rows ss).map fun c => (rowHandlers c.1, args ++ c.2) := by
  induction ss with
  | nil =>
    intro n rows args h
    cases h with
    | mk p u hs cs _ h1 h2 =>
      simp only [candsAt, choices, List.map_cons, List.map_nil, List.append_nil, Node.handlers, h1]
      simp [rowHandlers, List.filter_filter]
  | cons s ss ih =>
    intro n rows args h
    cases h with
    | mk p u hs cs _ h1 h2 =>
      simp only [candsAt, choices, Node.children, Node.urlId]
      exact forks_cands s ih args _ _ h2

theorem choices_ended (ss : List Str) : ∀ (below : Bool) (rows : List (Row σ)), ∀ c ∈ choices below rows ss, ∀ r ∈ c.1, r.segs = [] := by
  induction ss with
  | nil =>
    intro below rows c hc r hr
    simp only [choices, List.mem_singleton] at hc
    subst hc
    simpa using (List.mem_filter.1 hr).2
  | cons s ss ih =>
    intro below rows c hc r hr
    simp only [choices, List.mem_flatMap] at hc
    obtain ⟨f, -, hf⟩ := hc
    split at hf
    · split at hf
      · exact ih _ _ c hf r hr
      · simp at hf
    · simp only [List.mem_map] at hf
      obtain ⟨c', hc', rfl⟩ := hf
      exact ih _ _ c' hc' r hr

theorem foldl_addRow_get (m : Method) (rs : List (Row σ)) : ∀ h : Handlers σ,
    (rs.foldl (fun h r => addMethod r.method h (some r.set)) h).get? m =
      match rs.reverse.find? fun r => covers r.method m with
      | some r => some (some r.set)
      | none => h.get? m := by
  induction rs with
  | nil => intro h; simp
  | cons r rs ih =>
    intro h
    simp only [List.foldl_cons, List.reverse_cons, List.find?_append]
    rw [ih]
    cases hf : rs.reverse.find? (fun r => covers r.method m) with
    | some r' => simp
    | none =>
      simp only [Option.none_or, List.find?_cons, List.find?_nil, addMethod_get]
      by_cases hc : covers r.method m <;> simp [hc]

theorem rowHandlers_get {rs : List (Row σ)} (h : ∀ r ∈ rs, r.segs = []) (m : Method) :
    (rowHandlers rs).get? m = (rs.reverse.find? fun r => covers r.method m).map fun r => some r.set := by
  have : rs.filter (fun r => decide (r.segs = [])) = rs := by
    rw [List.filter_eq_self]; intro r hr; simp [h r hr]
  simp only [rowHandlers, this, foldl_addRow_get]
  cases rs.reverse.find? (fun r => covers r.method m) <;> simp

/-- The answer of the specification as a result of `Find`. -/
def rowResult (o : Option (Row σ × List (Str × Str))) : FindResult σ :=
  match o with
  | some (r, b) => ⟨some r.set, true, b⟩
  | none => .notFound []

/-- `Find` on the tree of every list of registrations is the specification. -/
theorem treeFind_every (hist : List (Reg σ)) (m : Method) (path : Str) (inArgs : Args) :
    treeFind (treeOf hist) m path inArgs = .ret (rowResult (serveEvery (hist.map Reg.toRow) m (segs path))) := by
  have hrep := treeOf_reps hist
  obtain ⟨htp, htu⟩ := treeOf_top hist
  have key : ∀ l : List (List (Row σ) × List (Str × Str)), (∀ c ∈ l, ∀ r ∈ c.1, r.segs = []) →
      decideFirst m [] (l.map fun c => (rowHandlers c.1, [] ++ c.2)) =
        rowResult (match l with
          | [] => none
          | (rs, b) :: _ => (rs.reverse.find? fun r => covers r.method m).map fun r => (r, b)) := by
    intro l hl
    cases l with
    | nil => rfl
    | cons c l =>
      obtain ⟨rs, b⟩ := c
      simp only [List.map_cons, decideFirst, List.nil_append]
      rw [rowHandlers_get (hl (rs, b) (by simp))]
      cases rs.reverse.find? (fun r => covers r.method m) <;> simp [rowResult]
  have hb : decide ((treeOf hist).urlId ≠ []) = false := by simp [htu]
  rw [treeFind_eq]
  congr 1
  by_cases hs : segs path = []
  · simp only [hs, if_true]
    have h1 := candsAt_reps [] (treeOf hist) _ [] hrep
    rw [hb] at h1
    simp only [candsAt] at h1
    rw [h1, key _ (choices_ended _ _ _)]
    rfl
  · simp only [hs, if_false, htp, not_true_eq_false, ne_eq, and_false]
    have h0 : bindSeg (treeOf hist) [47] [] = [] := by simp [bindSeg, htu]
    rw [h0, candsAt_reps (segs path) (treeOf hist) _ [] hrep, hb, key _ (choices_ended _ _ _)]
    rfl

end Verif
