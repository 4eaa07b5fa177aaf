import Verif.Lemmas.TreeFind
import Verif.Spec.Routing
/-
The tree built by `Add` represents the list of registered routes (for routes whose segments are
well-formed), and its candidates are those of the specification.
-/
namespace Verif
open Spec
variable {σ : Type}

/-- The handler map of the routes that end at a node. -/
def handlersOf (regs : List (Route σ)) : Handlers σ :=
  (regs.filter fun r => r.pats = []).foldl (fun h r => addMethod r.method h (some r.set)) []

mutual
/-- A node represents the routes passing through it (cut at the node). -/
inductive Rep : Node σ → List (Route σ) → Prop
  | mk (p u : Str) (hs : Handlers σ) (cs : List (Node σ)) (regs : List (Route σ)) :
      hs = handlersOf regs → RepL cs (branches regs) → Rep (.mk p u hs cs) regs
/-- Child nodes represent branches. -/
inductive RepL : List (Node σ) → List (Branch σ) → Prop
  | nil : RepL [] []
  | lit (c : Node σ) (cs : List (Node σ)) (rs : List (Route σ)) (bs : List (Branch σ)) :
      c.urlId = [] → Rep c rs → RepL cs bs → RepL (c :: cs) (.lit c.path rs :: bs)
  | par (c : Node σ) (cs : List (Node σ)) (r : Route σ) (bs : List (Branch σ)) :
      c.path = [] → Rep c [r] → RepL cs bs → RepL (c :: cs) (.par c.urlId r :: bs)
end

/-- Well-formed segment. `e = true`: literal-only tables (empty segments allowed); `e = false`:
parameters allowed, but no empty and no colon-only segments. -/
def WFSeg (e : Bool) (s : Str) : Prop :=
  if e then s.head? ≠ some 58 else s.dropWhile (· == 58) ≠ []

/-- The same for patterns. -/
def WFPat (e : Bool) : Pat → Prop
  | .lit t => t.head? ≠ some 58 ∧ (e = false → t ≠ [])
  | .par n => e = false ∧ n ≠ []

def WFRegs (e : Bool) (regs : List (Route σ)) : Prop := ∀ r ∈ regs, ∀ q ∈ r.pats, WFPat e q

def WFBranch (e : Bool) : Branch σ → Prop
  | .lit t rs => WFPat e (.lit t) ∧ WFRegs e rs
  | .par n r => WFPat e (.par n) ∧ WFRegs e [r]

theorem segPat_colon {s : Str} (h : s.head? = some 58) :
    segPat s = .par (s.dropWhile (· == 58)) := by
  cases s with
  | nil => simp at h
  | cons x xs => simp only [List.head?_cons, Option.some.injEq] at h; subst h; rfl

theorem segPat_lit {s : Str} (h : s.head? ≠ some 58) : segPat s = .lit s := by
  cases s with
  | nil => rfl
  | cons x xs =>
    simp only [List.head?_cons, ne_eq, Option.some.injEq] at h
    unfold segPat
    split
    · rename_i h'; simp at h'; exact absurd h'.1 h
    · rfl

theorem getUrlID_colon {s : Str} (h : s.head? = some 58) :
    getUrlID s = ([], s.dropWhile (· == 58)) := by
  cases s with
  | nil => simp at h
  | cons x xs =>
    simp only [List.head?_cons, Option.some.injEq] at h; subst h
    simp [getUrlID, hasPrefix, List.isPrefixOf, trimLeftByte]

theorem getUrlID_lit {s : Str} (h : s.head? ≠ some 58) : getUrlID s = (s, []) := by
  cases s with
  | nil => rfl
  | cons x xs =>
    simp only [List.head?_cons, ne_eq, Option.some.injEq] at h
    simp [getUrlID, hasPrefix, List.isPrefixOf, Ne.symm h]

theorem segPat_wf {e : Bool} {s : Str} (h : WFSeg e s) : WFPat e (segPat s) := by
  cases e with
  | true =>
    simp only [WFSeg, if_true] at h
    rw [segPat_lit h]; exact ⟨h, by simp⟩
  | false =>
    simp only [WFSeg, Bool.false_eq_true, if_false] at h
    by_cases hc : s.head? = some 58
    · rw [segPat_colon hc]; exact ⟨rfl, h⟩
    · rw [segPat_lit hc]
      refine ⟨hc, fun _ h' => h ?_⟩
      subst h'; rfl

theorem wfSeg_ne_nil {s : Str} (h : WFSeg false s) : s ≠ [] := by
  rintro rfl; exact h rfl

theorem addBranch_wf {e : Bool} (bs : List (Branch σ)) (r : Route σ)
    (hb : ∀ b ∈ bs, WFBranch e b) (hr : ∀ q ∈ r.pats, WFPat e q) :
    ∀ b ∈ addBranch bs r, WFBranch e b := by
  induction bs with
  | nil =>
    intro b hb'
    simp only [addBranch] at hb'
    split at hb'
    · simp at hb'
    · rename_i t ps h
      simp only [List.mem_singleton] at hb'; subst hb'
      exact ⟨hr _ (by simp [h]), by intro r' hr' q hq; simp at hr'; subst hr'; exact hr _ (by simp_all)⟩
    · rename_i t ps h
      simp only [List.mem_singleton] at hb'; subst hb'
      exact ⟨hr _ (by simp [h]), by intro r' hr' q hq; simp at hr'; subst hr'; exact hr _ (by simp_all)⟩
  | cons x bs ih =>
    have ih' := ih (fun b h => hb b (by simp [h]))
    intro b hb'
    cases x with
    | lit t rs =>
      have hx := hb (.lit t rs) (by simp)
      simp only [addBranch] at hb'
      split at hb'
      · rename_i t' ps h
        split at hb'
        · rcases List.mem_cons.1 hb' with rfl | hb'
          · refine ⟨hx.1, ?_⟩
            intro r' hr' q hq
            rcases List.mem_append.1 hr' with hr' | hr'
            · exact hx.2 r' hr' q hq
            · simp at hr'; subst hr'; exact hr _ (by simp_all)
          · exact hb b (by simp [hb'])
        · rcases List.mem_cons.1 hb' with rfl | hb'
          · exact hx
          · exact ih' b hb'
      · rcases List.mem_cons.1 hb' with rfl | hb'
        · exact hx
        · exact ih' b hb'
    | par n r' =>
      have hx := hb (.par n r') (by simp)
      simp only [addBranch] at hb'
      rcases List.mem_cons.1 hb' with rfl | hb'
      · exact hx
      · exact ih' b hb'

theorem branches_append (regs : List (Route σ)) (r : Route σ) :
    branches (regs ++ [r]) = addBranch (branches regs) r := by
  simp [branches, List.foldl_append]

theorem foldl_addBranch_wf {e : Bool} (regs : List (Route σ)) :
    ∀ (bs : List (Branch σ)), (∀ b ∈ bs, WFBranch e b) → WFRegs e regs →
      ∀ b ∈ regs.foldl addBranch bs, WFBranch e b := by
  induction regs with
  | nil => intro bs hb _; simpa using hb
  | cons r regs ih =>
    intro bs hb hr
    simp only [List.foldl_cons]
    exact ih _ (addBranch_wf bs r hb (hr r (by simp))) (fun r' h => hr r' (by simp [h]))

theorem branches_wf {e : Bool} {regs : List (Route σ)} (h : WFRegs e regs) :
    ∀ b ∈ branches regs, WFBranch e b :=
  foldl_addBranch_wf regs [] (by simp) h

theorem handlersOf_append (regs : List (Route σ)) (r : Route σ) :
    handlersOf (regs ++ [r]) =
      if r.pats = [] then addMethod r.method (handlersOf regs) (some r.set) else handlersOf regs := by
  unfold handlersOf
  by_cases h : r.pats = [] <;> simp [List.filter_append, h, List.foldl_append]

/-- Fresh chains represent fresh branches. -/
theorem newChain_rep (e : Bool) (m : Method) (s : σ) :
    ∀ (ps : List Str) (p : Str), WFSeg e p → (∀ q ∈ ps, WFSeg e q) →
      RepL [newChain m (some s) p ps] (addBranch [] ⟨(p :: ps).map segPat, m, s⟩) := by
  intro ps
  induction ps with
  | nil =>
    intro p hp _
    have hrep : ∀ a b : Str, Rep (Node.mk a b (addMethod m [] (some s)) []) [⟨[], m, s⟩] := by
      intro a b
      refine Rep.mk a b _ _ _ ?_ ?_
      · simp [handlersOf]
      · simpa [branches, addBranch] using RepL.nil
    by_cases hc : p.head? = some 58
    · simp only [newChain, getUrlID_colon hc, List.map_cons, List.map_nil, segPat_colon hc,
        addBranch]
      exact RepL.par _ [] _ [] rfl (hrep _ _) RepL.nil
    · simp only [newChain, getUrlID_lit hc, List.map_cons, List.map_nil, segPat_lit hc, addBranch]
      exact RepL.lit (.mk p [] (addMethod m [] (some s)) []) [] _ [] rfl (hrep _ _) RepL.nil
  | cons q qs ih =>
    intro p hp hps
    have ihq := ih q (hps q (by simp)) (fun x hx => hps x (by simp [hx]))
    have hrep : ∀ a b : Str, Rep (Node.mk a b [] [newChain m (some s) q qs])
        [⟨(q :: qs).map segPat, m, s⟩] := by
      intro a b
      refine Rep.mk a b _ _ _ ?_ ?_
      · simp [handlersOf]
      · simpa [branches] using ihq
    by_cases hc : p.head? = some 58
    · simp only [newChain, getUrlID_colon hc, List.map_cons, segPat_colon hc, addBranch]
      exact RepL.par _ [] _ [] rfl (by simpa using hrep _ _) RepL.nil
    · simp only [newChain, getUrlID_lit hc, List.map_cons, segPat_lit hc, addBranch]
      exact RepL.lit (.mk p [] [] [newChain m (some s) q qs]) [] _ [] rfl (by simpa using hrep _ _)
        RepL.nil

/-- Update the first child whose path is `p`, or append `new`. -/
def insChild (p : Str) (f : Node σ → Node σ) (new : Node σ) : List (Node σ) → List (Node σ)
  | [] => [new]
  | c :: cs => if c.path = p then f c :: cs else c :: insChild p f new cs

theorem mapIdx_none (cs : List (Node σ)) (f : Node σ → Node σ) (k j : Nat) (h : j < k) :
    cs.mapIdx (fun i c => if i + k ∈ [j] then f c else c) = cs := by
  induction cs generalizing k with
  | nil => rfl
  | cons c cs ih =>
    simp only [List.mapIdx_cons]
    rw [if_neg (by simp; omega)]
    have h2 : (fun i (c : Node σ) => if i + 1 + k ∈ [j] then f c else c)
        = (fun i c => if i + (k + 1) ∈ [j] then f c else c) := by
      funext i c; rw [Nat.add_assoc, Nat.add_comm 1 k]
    rw [h2, ih (k + 1) (by omega)]

theorem mapIdx_insChild (p : Str) (f : Node σ → Node σ) (new : Node σ) (cs : List (Node σ)) :
    (match cs.findIdx? (fun c => c.path = p) with
      | some j => cs.mapIdx (fun i c => if i ∈ [j] then f c else c)
      | none => cs ++ [new]) = insChild p f new cs := by
  induction cs with
  | nil => simp [insChild]
  | cons c cs ih =>
    by_cases h : c.path = p
    · have h1 : (c :: cs).findIdx? (fun c => c.path = p) = some 0 := by
        simp [List.findIdx?_cons, h]
      rw [h1]
      simp only [List.mapIdx_cons, insChild, h, if_true, List.mem_singleton]
      congr 1
      have := mapIdx_none cs f 1 0 (by omega)
      simpa using this
    · have h1 : (c :: cs).findIdx? (fun c => c.path = p)
          = (cs.findIdx? (fun c => c.path = p)).map (· + 1) := by
        simp [List.findIdx?_cons, h]
      rw [h1]
      simp only [insChild, h, if_false]
      rw [← ih]
      cases cs.findIdx? (fun c => c.path = p) with
      | none => simp
      | some j => simp [List.mapIdx_cons]

theorem addRec_eq_insChild (m : Method) (set : Option σ) (p : Str) (ps : List Str)
    (np : Str) (nh : Handlers σ) (nc : List (Node σ)) :
    addRec m set p ps (.mk np [] nh nc) = .mk np [] nh (insChild p
      (match ps with
        | [] => fun c => .mk c.path c.urlId (addMethod m c.handlers set) c.children
        | q :: qs => addRec m set q qs)
      (newChain m set p ps) nc) := by
  rw [← mapIdx_insChild]
  cases ps with
  | nil =>
    simp only [addRec, nextNodes, ne_eq, not_true_eq_false, if_false]
    cases nc.findIdx? (fun c => c.path = p) <;> simp
  | cons q qs =>
    simp only [addRec, nextNodes, ne_eq, not_true_eq_false, if_false]
    cases nc.findIdx? (fun c => c.path = p) <;> simp

/-- Inserting below a list of children represents adding a branch. -/
theorem insChild_rep (e : Bool) (m : Method) (s : σ) (p : Str) (ps : List Str)
    (hp : WFSeg e p) (f : Node σ → Node σ) (new : Node σ)
    (hnew : RepL [new] (addBranch [] ⟨(p :: ps).map segPat, m, s⟩))
    (hf : ∀ c rs, c.urlId = [] → Rep c rs → WFRegs e rs →
      (f c).path = c.path ∧ (f c).urlId = [] ∧ Rep (f c) (rs ++ [⟨ps.map segPat, m, s⟩])) :
    ∀ (bs : List (Branch σ)) (cs : List (Node σ)), RepL cs bs → (∀ b ∈ bs, WFBranch e b) →
      RepL (insChild p f new cs) (addBranch bs ⟨(p :: ps).map segPat, m, s⟩) := by
  intro bs
  induction bs with
  | nil =>
    intro cs hrep hwf
    cases hrep
    simpa [insChild] using hnew
  | cons b bs ih =>
    intro cs hrep hwf
    cases hrep with
    | lit c cs rs bs hu hc hcs =>
      have hb := hwf _ (List.mem_cons_self)
      have ih' := ih cs hcs (fun b h => hwf b (by simp [h]))
      simp only [insChild]
      by_cases hcol : p.head? = some 58
      · have hne : c.path ≠ p := by intro h; exact hb.1.1 (by rw [h]; exact hcol)
        rw [if_neg hne]
        have : addBranch (Branch.lit c.path rs :: bs) ⟨(p :: ps).map segPat, m, s⟩
            = Branch.lit c.path rs :: addBranch bs ⟨(p :: ps).map segPat, m, s⟩ := by
          simp [addBranch, segPat_colon hcol]
        rw [this]
        exact RepL.lit c _ rs _ hu hc ih'
      · by_cases hpe : c.path = p
        · rw [if_pos hpe]
          have : addBranch (Branch.lit c.path rs :: bs) ⟨(p :: ps).map segPat, m, s⟩
              = Branch.lit c.path (rs ++ [⟨ps.map segPat, m, s⟩]) :: bs := by
            simp [addBranch, segPat_lit hcol, hpe]
          rw [this]
          obtain ⟨h1, h2, h3⟩ := hf c rs hu hc hb.2
          rw [← h1]
          exact RepL.lit (f c) cs _ bs h2 h3 hcs
        · rw [if_neg hpe]
          have : addBranch (Branch.lit c.path rs :: bs) ⟨(p :: ps).map segPat, m, s⟩
              = Branch.lit c.path rs :: addBranch bs ⟨(p :: ps).map segPat, m, s⟩ := by
            simp [addBranch, segPat_lit hcol, hpe]
          rw [this]
          exact RepL.lit c _ rs _ hu hc ih'
    | par c cs r bs hpath hc hcs =>
      have hb := hwf _ (List.mem_cons_self)
      have ih' := ih cs hcs (fun b h => hwf b (by simp [h]))
      have he : e = false := hb.1.1
      have hne : c.path ≠ p := by
        subst he
        intro h; exact wfSeg_ne_nil hp (by rw [← h]; exact hpath)
      simp only [insChild, if_neg hne]
      have : addBranch (Branch.par c.urlId r :: bs) ⟨(p :: ps).map segPat, m, s⟩
          = Branch.par c.urlId r :: addBranch bs ⟨(p :: ps).map segPat, m, s⟩ := by
        simp [addBranch]
      rw [this]
      exact RepL.par c _ r _ hpath hc ih'

theorem addRec_path (m : Method) (set : Option σ) (p : Str) (ps : List Str) (n : Node σ) :
    (addRec m set p ps n).path = n.path ∧ (addRec m set p ps n).urlId = n.urlId
      ∧ (addRec m set p ps n).handlers = n.handlers := by
  obtain ⟨np, nu, nh, nc⟩ := n
  cases ps <;> (simp only [addRec]; split <;> exact ⟨rfl, rfl, rfl⟩)

/-- `_add` on a node represents registering one more route there. -/
theorem addRec_rep (e : Bool) (m : Method) (s : σ) :
    ∀ (ps : List Str) (p : Str) (n : Node σ) (regs : List (Route σ)),
      WFSeg e p → (∀ q ∈ ps, WFSeg e q) → n.urlId = [] → Rep n regs → WFRegs e regs →
      Rep (addRec m (some s) p ps n) (regs ++ [⟨(p :: ps).map segPat, m, s⟩]) := by
  intro ps
  induction ps with
  | nil =>
    intro p n regs hp _ hu hrep hwf
    cases hrep with
    | mk np nu nh nc _ hh hc =>
      simp only [Node.urlId] at hu; subst hu
      rw [addRec_eq_insChild]
      refine Rep.mk _ _ _ _ _ ?_ ?_
      · simp [handlersOf_append, hh]
      · rw [branches_append]
        refine insChild_rep e m s p [] hp _ _ (newChain_rep e m s [] p hp (by simp)) ?_ _ _ hc
          (branches_wf hwf)
        intro c rs hcu hcr _
        refine ⟨rfl, hcu, ?_⟩
        cases hcr with
        | mk a b hs ch _ h1 h2 =>
          refine Rep.mk _ _ _ _ _ ?_ ?_
          · simp [handlersOf_append, h1, Node.handlers]
          · have : branches (rs ++ [⟨[], m, s⟩]) = branches rs := by
              rw [branches_append]
              generalize branches rs = bs
              induction bs with
              | nil => rfl
              | cons x bs ih => cases x <;> simp [addBranch, ih]
            simpa [this, Node.children] using h2
  | cons q qs ih =>
    intro p n regs hp hps hu hrep hwf
    cases hrep with
    | mk np nu nh nc _ hh hc =>
      simp only [Node.urlId] at hu; subst hu
      rw [addRec_eq_insChild]
      refine Rep.mk _ _ _ _ _ ?_ ?_
      · simp [handlersOf_append, hh]
      · rw [branches_append]
        refine insChild_rep e m s p (q :: qs) hp _ _ (newChain_rep e m s (q :: qs) p hp hps) ?_ _ _ hc
          (branches_wf hwf)
        intro c rs hcu hcr hrs
        obtain ⟨h1, h2, _⟩ := addRec_path m (some s) q qs c
        exact ⟨h1, by rw [h2]; exact hcu,
          ih q c rs (hps q (by simp)) (fun x hx => hps x (by simp [hx])) hcu hcr hrs⟩

/-- The route registered by a call of `Add`. -/
def Reg.toRoute (r : Reg σ) : Route σ := ⟨(segs r.route).map segPat, r.method, r.set⟩

/-- Well-formed registration. -/
def WFReg (e : Bool) (r : Reg σ) : Prop := ∀ s ∈ segs r.route, WFSeg e s

theorem toRoute_wf {e : Bool} {r : Reg σ} (h : WFReg e r) : ∀ q ∈ r.toRoute.pats, WFPat e q := by
  intro q hq
  simp only [Reg.toRoute, List.mem_map] at hq
  obtain ⟨s, hs, rfl⟩ := hq
  exact segPat_wf (h s hs)

theorem treeAdd_rep (e : Bool) (t : Node σ) (regs : List (Route σ)) (r : Reg σ)
    (hu : t.urlId = []) (hrep : Rep t regs) (hwf : WFRegs e regs) (hr : WFReg e r) :
    Rep (treeAdd t r.method r.route (some r.set)) (regs ++ [r.toRoute]) := by
  simp only [treeAdd, splitPath_eq]
  cases hs : segs r.route with
  | nil =>
    cases hrep with
    | mk a b hs' ch _ h1 h2 =>
      refine Rep.mk _ _ _ _ _ ?_ ?_
      · simp [handlersOf_append, h1, Node.handlers, Reg.toRoute, hs]
      · rw [branches_append]
        have : ∀ bs : List (Branch σ), addBranch bs r.toRoute = bs := by
          intro bs
          induction bs with
          | nil => simp [addBranch, Reg.toRoute, hs]
          | cons x bs ih => cases x <;> simp [addBranch, Reg.toRoute, hs] <;> simpa [Reg.toRoute, hs] using ih
        simpa [this, Node.children] using h2
  | cons p ps =>
    have hr' : ∀ q ∈ p :: ps, WFSeg e q := by intro q hq; exact hr q (by rw [hs]; exact hq)
    have := addRec_rep e r.method r.set ps p t regs (hr' p (by simp)) (fun q hq => hr' q (by simp [hq]))
      hu hrep hwf
    simpa [Reg.toRoute, hs] using this

theorem treeAdd_top (t : Node σ) (m : Method) (route : Str) (set : Option σ) :
    (treeAdd t m route set).path = t.path ∧ (treeAdd t m route set).urlId = t.urlId := by
  simp only [treeAdd]
  split
  · exact ⟨(addRec_path _ _ _ _ _).1, (addRec_path _ _ _ _ _).2.1⟩
  · exact ⟨rfl, rfl⟩

theorem treeOf_append (hist : List (Reg σ)) (r : Reg σ) :
    treeOf (hist ++ [r]) = treeAdd (treeOf hist) r.method r.route (some r.set) := by
  simp [treeOf, List.foldl_append]

theorem foldl_top (hist : List (Reg σ)) : ∀ t : Node σ,
    (hist.foldl (fun t r => treeAdd t r.method r.route (some r.set)) t).path = t.path ∧
    (hist.foldl (fun t r => treeAdd t r.method r.route (some r.set)) t).urlId = t.urlId := by
  induction hist with
  | nil => intro t; exact ⟨rfl, rfl⟩
  | cons r hist ih =>
    intro t
    simp only [List.foldl_cons]
    obtain ⟨h1, h2⟩ := ih (treeAdd t r.method r.route (some r.set))
    obtain ⟨h3, h4⟩ := treeAdd_top t r.method r.route (some r.set)
    exact ⟨h1.trans h3, h2.trans h4⟩

theorem treeOf_top (hist : List (Reg σ)) : (treeOf hist).path = [47] ∧ (treeOf hist).urlId = [] :=
  foldl_top hist newTree

theorem foldl_rep (e : Bool) (hist : List (Reg σ)) : ∀ (t : Node σ) (regs : List (Route σ)),
    t.urlId = [] → Rep t regs → WFRegs e regs → (∀ r ∈ hist, WFReg e r) →
    Rep (hist.foldl (fun t r => treeAdd t r.method r.route (some r.set)) t)
      (regs ++ hist.map Reg.toRoute) := by
  induction hist with
  | nil => intro t regs _ h _ _; simpa using h
  | cons r hist ih =>
    intro t regs hu hrep hwf hh
    simp only [List.foldl_cons, List.map_cons]
    have hr := hh r (by simp)
    have := ih (treeAdd t r.method r.route (some r.set)) (regs ++ [r.toRoute])
      ((treeAdd_top _ _ _ _).2.trans hu) (treeAdd_rep e t regs r hu hrep hwf hr)
      (by
        intro r' hr'
        rcases List.mem_append.1 hr' with h | h
        · exact hwf r' h
        · simp at h; subst h; exact toRoute_wf hr)
      (fun x hx => hh x (by simp [hx]))
    simpa using this

/-- The tree of a well-formed history represents it. -/
theorem treeOf_rep (e : Bool) (hist : List (Reg σ)) (h : ∀ r ∈ hist, WFReg e r) :
    Rep (treeOf hist) (hist.map Reg.toRoute) := by
  have := foldl_rep e hist newTree [] rfl
    (Rep.mk _ _ _ _ _ rfl (by simpa [branches] using RepL.nil)) (by intro r hr; simp at hr) h
  simpa [treeOf] using this

/-! ### Candidates of a represented tree -/

theorem branch_cands {ss : List Str} (s : Str)
    (ih : ∀ (n : Node σ) (regs : List (Route σ)) (args : Args), Rep n regs → WFRegs false regs ∨ WFRegs true regs →
      candsAt ss n args = (candidates regs ss).map fun c => (handlersOf c.1, args ++ c.2)) (args : Args)
    (e : Bool) :
    ∀ (bs : List (Branch σ)) (cs : List (Node σ)), RepL cs bs → (∀ b ∈ bs, WFBranch e b) →
      ((cs.filter fun c => c.path = s ∨ c.urlId ≠ []).flatMap fun c => candsAt ss c (bindSeg c s args))
      = (bs.flatMap fun
          | .lit t rs => if t = s then candidates rs ss else []
          | .par n r => (candidates [r] ss).map fun c => (c.1, (n, s) :: c.2)).map
            fun c => (handlersOf c.1, args ++ c.2) := by
  intro bs
  induction bs with
  | nil => intro cs h _; cases h; simp
  | cons b bs ihb =>
    intro cs h hwf
    have wf' : ∀ {rs : List (Route σ)}, WFRegs e rs → WFRegs false rs ∨ WFRegs true rs := by
      intro rs h; cases e; exact Or.inl h; exact Or.inr h
    cases h with
    | lit c cs rs bs hu hc hcs =>
      have hb := hwf _ (List.mem_cons_self)
      have ih' := ihb cs hcs (fun b h => hwf b (by simp [h]))
      simp only [List.flatMap_cons, List.map_append]
      rw [← ih']
      by_cases hp : c.path = s
      · rw [List.filter_cons_of_pos (by simp [hp])]
        simp only [List.flatMap_cons, hp, if_true]
        rw [ih c rs _ hc (wf' hb.2)]
        simp [bindSeg, hu]
      · rw [List.filter_cons_of_neg (by simp [hp, hu])]
        simp [hp]
    | par c cs r bs hp hc hcs =>
      have hb := hwf _ (List.mem_cons_self)
      have ih' := ihb cs hcs (fun b h => hwf b (by simp [h]))
      have hu : c.urlId ≠ [] := hb.1.2
      simp only [List.flatMap_cons, List.map_append]
      rw [← ih']
      rw [List.filter_cons_of_pos (by simp [hu])]
      simp only [List.flatMap_cons]
      rw [ih c [r] _ hc (wf' hb.2)]
      simp [bindSeg, hu, List.map_map, Function.comp_def]

theorem candsAt_rep (ss : List Str) : ∀ (n : Node σ) (regs : List (Route σ)) (args : Args),
    Rep n regs → WFRegs false regs ∨ WFRegs true regs →
    candsAt ss n args = (candidates regs ss).map fun c => (handlersOf c.1, args ++ c.2) := by
  induction ss with
  | nil =>
    intro n regs args h _
    cases h with
    | mk a b hs ch _ h1 h2 =>
      simp only [candsAt, candidates, List.map_cons, List.map_nil, List.append_nil, Node.handlers, h1]
      simp [handlersOf, List.filter_filter]
  | cons s ss ih =>
    intro n regs args h hwf
    cases h with
    | mk a b hs ch _ h1 h2 =>
      simp only [candsAt, candidates, Node.children]
      rcases hwf with hwf | hwf
      · exact branch_cands s ih args false _ _ h2 (branches_wf hwf)
      · exact branch_cands s ih args true _ _ h2 (branches_wf hwf)

/-! ### Handler maps -/

theorem addMethod_get (m m' : Method) (h : Handlers σ) (s : Option σ) :
    (addMethod m h s).get? m' = if covers m m' then some s else h.get? m' := by
  have e1 : mGetPost = b!"GETPOST" := rfl
  have e2 : mGetHead = b!"GETHEAD" := rfl
  unfold addMethod covers
  rw [e1, e2]
  by_cases h1 : m = b!"GETPOST"
  · simp only [h1, if_true, GoMap.get?_set]
    by_cases h3 : m' = mGet
    · simp [h3, mGet]
    · by_cases h4 : m' = mPost
      · simp [h4, mPost]
      · have h3' : m' ≠ b!"GET" := h3
        have h4' : m' ≠ b!"POST" := h4
        simp [h3, h4, h3', h4']
  · simp only [h1, if_false]
    by_cases h2 : m = b!"GETHEAD"
    · simp only [h2, if_true, GoMap.get?_set]
      by_cases h3 : m' = mHead
      · simp [h3, mHead]
      · by_cases h4 : m' = mGet
        · simp [h4, mGet]
        · have h3' : m' ≠ b!"HEAD" := h3
          have h4' : m' ≠ b!"GET" := h4
          simp [h3, h4, h3', h4']
    · simp only [h2, if_false, GoMap.get?_set]
      by_cases h3 : m' = m <;> simp [h3]

theorem foldl_addMethod_get (m : Method) (rs : List (Route σ)) : ∀ h : Handlers σ,
    (rs.foldl (fun h r => addMethod r.method h (some r.set)) h).get? m =
      match rs.reverse.find? fun r => covers r.method m with
      | some r => some (some r.set)
      | none => h.get? m := by
  induction rs with
  | nil => intro h; simp
  | cons r rs ih =>
    intro h
    simp only [List.foldl_cons, List.reverse_cons, List.find?_append]
    rw [ih]
    cases hf : rs.reverse.find? (fun r => covers r.method m) with
    | some r' => simp
    | none =>
      simp only [Option.none_or, List.find?_cons, List.find?_nil, addMethod_get]
      by_cases hc : covers r.method m <;> simp [hc]

theorem candidates_terminal (ss : List Str) : ∀ (regs : List (Route σ)),
    ∀ c ∈ candidates regs ss, ∀ r ∈ c.1, r.pats = [] := by
  induction ss with
  | nil =>
    intro regs c hc r hr
    simp only [candidates, List.mem_singleton] at hc
    subst hc
    simpa using (List.mem_filter.1 hr).2
  | cons s ss ih =>
    intro regs c hc r hr
    simp only [candidates, List.mem_flatMap] at hc
    obtain ⟨b, _, hb⟩ := hc
    cases b with
    | lit t rs =>
      by_cases ht : t = s
      · simp only [ht, if_true] at hb; exact ih rs c hb r hr
      · simp [ht] at hb
    | par n r' =>
      simp only [List.mem_map] at hb
      obtain ⟨c', hc', rfl⟩ := hb
      exact ih [r'] c' hc' r hr

theorem handlersOf_get {rs : List (Route σ)} (h : ∀ r ∈ rs, r.pats = []) (m : Method) :
    (handlersOf rs).get? m = (rs.reverse.find? fun r => covers r.method m).map fun r => some r.set := by
  have : rs.filter (fun r => r.pats = []) = rs := by
    rw [List.filter_eq_self]; intro r hr; simp [h r hr]
  simp only [handlersOf, this, foldl_addMethod_get]
  cases rs.reverse.find? (fun r => covers r.method m) <;> simp

/-- Result corresponding to the specification's answer. -/
def specResult (o : Option (Route σ × List (Str × Str))) : FindResult σ :=
  match o with
  | some (r, b) => ⟨some r.set, true, b⟩
  | none => .notFound []

/-- `Find` on the tree of a well-formed history is the specification. -/
theorem treeFind_spec (e : Bool) (hist : List (Reg σ)) (hwf : ∀ r ∈ hist, WFReg e r) (m : Method)
    (path : Str) (inArgs : Args) :
    treeFind (treeOf hist) m path inArgs =
      .ret (specResult (serve (hist.map Reg.toRoute) m (segs path))) := by
  have hrep := treeOf_rep e hist hwf
  have hwf' : WFRegs false (hist.map Reg.toRoute) ∨ WFRegs true (hist.map Reg.toRoute) := by
    have : WFRegs e (hist.map Reg.toRoute) := by
      intro r hr
      simp only [List.mem_map] at hr
      obtain ⟨x, hx, rfl⟩ := hr
      exact toRoute_wf (hwf x hx)
    cases e; exact Or.inl this; exact Or.inr this
  obtain ⟨htp, htu⟩ := treeOf_top hist
  have key : ∀ l : List (List (Route σ) × List (Str × Str)),
      (∀ c ∈ l, ∀ r ∈ c.1, r.pats = []) →
      decideFirst m [] (l.map fun c => (handlersOf c.1, [] ++ c.2)) =
        specResult (match l with
          | [] => none
          | (rs, b) :: _ => (rs.reverse.find? fun r => covers r.method m).map fun r => (r, b)) := by
    intro l hl
    cases l with
    | nil => rfl
    | cons c l =>
      obtain ⟨rs, b⟩ := c
      simp only [List.map_cons, decideFirst, List.nil_append]
      rw [handlersOf_get (hl (rs, b) (by simp))]
      cases rs.reverse.find? (fun r => covers r.method m) <;> simp [specResult]
  rw [treeFind_eq]
  congr 1
  by_cases hs : segs path = []
  · simp only [hs, if_true]
    have h1 := candsAt_rep [] (treeOf hist) _ [] hrep hwf'
    simp only [candsAt] at h1
    rw [h1, key _ (candidates_terminal _ _)]
    rfl
  · simp only [hs, if_false, htp, not_true_eq_false, ne_eq, and_false]
    have hb : bindSeg (treeOf hist) [47] [] = [] := by simp [bindSeg, htu]
    rw [hb, candsAt_rep (segs path) (treeOf hist) _ [] hrep hwf', key _ (candidates_terminal _ _)]
    rfl

end Verif
