import Verif.Lemmas.NodePath
/-
Registering a route again, in ANY tree that comes from a history: the branch of the route is already there, so the order
of the full-depth nodes a lookup considers does not change.
-/
namespace Verif
open Spec
variable {σ : Type}

/-- The nodes for the segments `ps` are below `n`. -/
def Trail : List Str → Node σ → Prop
  | [], _ => True
  | p :: ps, n => ∃ c ∈ n.children, (c.path, c.urlId) = getUrlID p ∧ Trail ps c

/-- The route `ps` has been registered below `n`: along its literal prefix the nodes `_add` goes through exist, and from
its first parameter on there is some branch of this shape. -/
def Ready : List Str → Node σ → Prop
  | [], _ => True
  | p :: ps, n =>
    if p.head? = some 58 then ∃ c ∈ n.children, c.urlId ≠ [] ∧ Trail ps c
    else ∃ c, n.children.find? (fun c => decide (c.path = p)) = some c ∧ Ready ps c

/-- What `_add` may have done to a node below the one it was called for. -/
def Grown (c c' : Node σ) : Prop :=
  c'.path = c.path ∧ c'.urlId = c.urlId ∧ (c'.children = c.children ∨ ∃ m s q qs, c' = addRec m s q qs c)

/-- What `_add` may have done to a list of children. -/
inductive GrownL : List (Node σ) → List (Node σ) → Prop
  | nil (extra : List (Node σ)) : GrownL [] extra
  | cons {c c' : Node σ} {cs cs' : List (Node σ)} : Grown c c' → GrownL cs cs' → GrownL (c :: cs) (c' :: cs')

theorem Grown.refl (c : Node σ) : Grown c c := ⟨rfl, rfl, Or.inl rfl⟩

theorem GrownL.append (cs extra : List (Node σ)) : GrownL cs (cs ++ extra) := by
  induction cs with
  | nil => exact GrownL.nil _
  | cons c cs ih => exact GrownL.cons (Grown.refl c) ih

theorem GrownL.mapIdx (cs : List (Node σ)) : ∀ (g : Nat → Node σ → Node σ), (∀ j c, Grown c (g j c)) → GrownL cs (cs.mapIdx g) := by
  induction cs with
  | nil => intro g _; exact GrownL.nil _
  | cons c cs ih =>
    intro g hg
    rw [List.mapIdx_cons]
    exact GrownL.cons (hg 0 c) (ih _ fun j d => hg (j + 1) d)

theorem addRec_grown (m : Method) (s : Option σ) (p : Str) (ps : List Str) (n : Node σ) :
    GrownL n.children (addRec m s p ps n).children := by
  obtain ⟨np, nu, nh, nc⟩ := n
  cases ps with
  | nil =>
    simp only [addRec]
    split
    · exact GrownL.append nc _
    · refine GrownL.mapIdx nc _ ?_
      intro j c
      split
      · exact ⟨rfl, rfl, Or.inl rfl⟩
      · exact Grown.refl c
  | cons q qs =>
    simp only [addRec]
    split
    · exact GrownL.append nc _
    · refine GrownL.mapIdx nc _ ?_
      intro j c
      split
      · exact ⟨(addRec_names _ _ _ _ _).1, (addRec_names _ _ _ _ _).2, Or.inr ⟨m, s, q, qs, rfl⟩⟩
      · exact Grown.refl c

theorem GrownL.mem {cs cs' : List (Node σ)} (h : GrownL cs cs') : ∀ c ∈ cs, ∃ c' ∈ cs', Grown c c' := by
  induction h with
  | nil => intro c hc; simp at hc
  | cons hg _ ih =>
    intro c hc
    rcases List.mem_cons.1 hc with rfl | hc
    · exact ⟨_, by simp, hg⟩
    · obtain ⟨c', h1, h2⟩ := ih c hc
      exact ⟨c', by simp [h1], h2⟩

theorem GrownL.find {cs cs' : List (Node σ)} (h : GrownL cs cs') (p : Str) : ∀ c,
    cs.find? (fun c => decide (c.path = p)) = some c →
    ∃ c', cs'.find? (fun c => decide (c.path = p)) = some c' ∧ Grown c c' := by
  induction h with
  | nil => intro c hc; simp at hc
  | @cons d d' cs cs' hg _ ih =>
    intro c hc
    rw [List.find?_cons] at hc ⊢
    rw [hg.1]
    by_cases hd : d.path = p
    · rw [decide_eq_true hd] at hc ⊢
      simp only [Option.some.injEq] at hc
      subst hc
      exact ⟨d', rfl, hg⟩
    · rw [decide_eq_false hd] at hc ⊢
      exact ih c hc

theorem trail_children {n n' : Node σ} (h : n'.children = n.children) (ps : List Str) (ht : Trail ps n) : Trail ps n' := by
  cases ps with
  | nil => trivial
  | cons p ps => simp only [Trail, h] at ht ⊢; exact ht

theorem ready_children {n n' : Node σ} (h : n'.children = n.children) (ps : List Str) (ht : Ready ps n) : Ready ps n' := by
  cases ps with
  | nil => trivial
  | cons p ps => simp only [Ready, h] at ht ⊢; exact ht

theorem trail_addRec (ps : List Str) : ∀ (n : Node σ) (m : Method) (s : Option σ) (q : Str) (qs : List Str),
    Trail ps n → Trail ps (addRec m s q qs n) := by
  induction ps with
  | nil => intros; trivial
  | cons p ps ih =>
    intro n m s q qs ht
    obtain ⟨c, hc, hn, ht⟩ := ht
    obtain ⟨c', hc', g1, g2, g3⟩ := (addRec_grown m s q qs n).mem c hc
    refine ⟨c', hc', by rw [g1, g2]; exact hn, ?_⟩
    rcases g3 with g3 | ⟨m', s', q', qs', rfl⟩
    · exact trail_children g3 ps ht
    · exact ih _ _ _ _ _ ht

theorem trail_grown {c c' : Node σ} (h : Grown c c') (ps : List Str) (ht : Trail ps c) : Trail ps c' := by
  rcases h.2.2 with h | ⟨m', s', q', qs', rfl⟩
  · exact trail_children h ps ht
  · exact trail_addRec _ _ _ _ _ _ ht

theorem ready_addRec (ps : List Str) : ∀ (n : Node σ) (m : Method) (s : Option σ) (q : Str) (qs : List Str),
    Ready ps n → Ready ps (addRec m s q qs n) := by
  induction ps with
  | nil => intros; trivial
  | cons p ps ih =>
    intro n m s q qs ht
    have hg := addRec_grown m s q qs n
    simp only [Ready] at ht ⊢
    split at ht
    · rename_i hp
      rw [if_pos hp]
      obtain ⟨c, hc, hu, ht⟩ := ht
      obtain ⟨c', hc', g⟩ := hg.mem c hc
      exact ⟨c', hc', by rw [g.2.1]; exact hu, trail_grown g ps ht⟩
    · rename_i hp
      rw [if_neg hp]
      obtain ⟨c, hc, ht⟩ := ht
      obtain ⟨c', hc', g⟩ := hg.find p c hc
      refine ⟨c', hc', ?_⟩
      rcases g.2.2 with g3 | ⟨m', s', q', qs', rfl⟩
      · exact ready_children g3 ps ht
      · exact ih _ _ _ _ _ ht

theorem trail_newChain (m : Method) (s : Option σ) (ps : List Str) : ∀ p, Trail ps (newChain m s p ps) := by
  induction ps with
  | nil => intros; trivial
  | cons q qs ih =>
    intro p
    exact ⟨newChain m s q qs, by simp [newChain, Node.children], newChain_path m s q qs, ih q⟩

theorem colon_name {p : Str} (hp : p.head? = some 58) (hwf : WFSeg false p) : (getUrlID p).2 ≠ [] := by
  rw [getUrlID_colon hp]
  simpa [WFSeg] using hwf

theorem ready_newChain (m : Method) (s : Option σ) (ps : List Str) : ∀ p, (∀ q ∈ ps, WFSeg false q) →
    Ready ps (newChain m s p ps) := by
  induction ps with
  | nil => intros; trivial
  | cons q qs ih =>
    intro p hwf
    have hn := newChain_path m s q qs
    simp only [Ready]
    by_cases hq : q.head? = some 58
    · rw [if_pos hq]
      refine ⟨newChain m s q qs, by simp [newChain, Node.children], ?_, trail_newChain m s qs q⟩
      rw [show (newChain m s q qs).urlId = (getUrlID q).2 from congrArg Prod.snd hn]
      exact colon_name hq (hwf q (by simp))
    · rw [if_neg hq]
      refine ⟨newChain m s q qs, ?_, ih q fun x hx => hwf x (by simp [hx])⟩
      have : (newChain m s q qs).path = q := by
        rw [show (newChain m s q qs).path = (getUrlID q).1 from congrArg Prod.fst hn, getUrlID_lit hq]
      simp [newChain, Node.children, this]

theorem named_not_colon {n : Node σ} (h : NamedT n) {p : Str} (hp : p.head? = some 58) : ∀ c ∈ n.children, c.path ≠ p := by
  intro c hc e
  cases n with
  | mk a b d l =>
    obtain ⟨q, hq⟩ := h _ _ (HAt.child a b d l c [] hc (HAt.top c)) (c.path, c.urlId) (by simp)
    by_cases hcol : q.head? = some 58
    · rw [getUrlID_colon hcol] at hq
      simp only [Prod.mk.injEq] at hq
      rw [← e, hq.1] at hp; cases hp
    · rw [getUrlID_lit hcol] at hq
      simp only [Prod.mk.injEq] at hq
      rw [← e, hq.1] at hp; exact hcol hp

theorem insChild_append (p : Str) (f : Node σ → Node σ) (new : Node σ) : ∀ cs : List (Node σ), (∀ c ∈ cs, c.path ≠ p) →
    insChild p f new cs = cs ++ [new] := by
  intro cs
  induction cs with
  | nil => intro _; rfl
  | cons c cs ih =>
    intro h
    simp only [insChild]
    rw [if_neg (h c (by simp)), ih fun d hd => h d (by simp [hd])]
    rfl

/-- `find?` splits the list. -/
theorem insChild_found (p : Str) (f : Node σ → Node σ) (new : Node σ) : ∀ (cs : List (Node σ)) (c : Node σ),
    cs.find? (fun c => decide (c.path = p)) = some c →
    ∃ A B, cs = A ++ c :: B ∧ insChild p f new cs = A ++ f c :: B ∧ c.path = p ∧ ∀ d ∈ A, d.path ≠ p := by
  intro cs
  induction cs with
  | nil => intro c hc; simp at hc
  | cons d cs ih =>
    intro c hc
    rw [List.find?_cons] at hc
    by_cases hd : d.path = p
    · rw [decide_eq_true hd] at hc
      simp only [Option.some.injEq] at hc
      subst hc
      exact ⟨[], cs, rfl, by simp [insChild, hd], hd, by simp⟩
    · rw [decide_eq_false hd] at hc
      obtain ⟨A, B, h1, h2, h3, h4⟩ := ih c hc
      refine ⟨d :: A, B, by simp [h1], by simp [insChild, hd, h2], h3, ?_⟩
      intro x hx
      rcases List.mem_cons.1 hx with rfl | hx
      · exact hd
      · exact h4 x hx

theorem find_none_ne (p : Str) : ∀ cs : List (Node σ), cs.find? (fun c => decide (c.path = p)) = none → ∀ c ∈ cs, c.path ≠ p := by
  intro cs h c hc e
  have := List.find?_eq_none.1 h c hc
  simp [e] at this

/-- After `_add` the route is there. -/
theorem ready_added (m : Method) (s : Option σ) (ps : List Str) : ∀ (p : Str) (n : Node σ), n.urlId = [] → NamedT n →
    (∀ q ∈ p :: ps, WFSeg false q) → Ready (p :: ps) (addRec m s p ps n) := by
  induction ps with
  | nil =>
    intro p n hu hn hwf
    obtain ⟨np, nu, nh, nc⟩ := n
    simp only [Node.urlId] at hu; subst hu
    rw [addRec_eq_insChild, Ready]
    dsimp only
    rw [show (Node.mk np [] nh (insChild p (fun c => Node.mk c.path c.urlId (addMethod m c.handlers s) c.children)
      (newChain m s p []) nc)).children = insChild p (fun c => Node.mk c.path c.urlId (addMethod m c.handlers s) c.children)
      (newChain m s p []) nc from rfl]
    have hnm := newChain_path m s p []
    by_cases hp : p.head? = some 58
    · rw [if_pos hp, insChild_append _ _ _ nc (named_not_colon hn hp)]
      refine ⟨newChain m s p [], by simp, ?_, trivial⟩
      rw [show (newChain m s p []).urlId = (getUrlID p).2 from congrArg Prod.snd hnm]
      exact colon_name hp (hwf p (by simp))
    · rw [if_neg hp]
      cases hf : nc.find? (fun c => decide (c.path = p)) with
      | none =>
        rw [insChild_append _ _ _ nc (find_none_ne p nc hf)]
        refine ⟨newChain m s p [], ?_, trivial⟩
        rw [List.find?_append, hf]
        have : (newChain m s p []).path = p := by
          rw [show (newChain m s p []).path = (getUrlID p).1 from congrArg Prod.fst hnm, getUrlID_lit hp]
        simp [this]
      | some c =>
        obtain ⟨A, B, h1, h2, h3, h4⟩ := insChild_found p (fun c => .mk c.path c.urlId (addMethod m c.handlers s) c.children)
          (newChain m s p []) nc c hf
        rw [h2]
        refine ⟨.mk c.path c.urlId (addMethod m c.handlers s) c.children, ?_, trivial⟩
        rw [List.find?_append, List.find?_eq_none.2 (by simpa using h4)]
        rw [List.find?_cons, show (Node.mk c.path c.urlId (addMethod m c.handlers s) c.children).path = c.path from rfl, h3]
        simp
  | cons q qs ih =>
    intro p n hu hn hwf
    obtain ⟨np, nu, nh, nc⟩ := n
    simp only [Node.urlId] at hu; subst hu
    rw [addRec_eq_insChild]
    rw [Ready]
    simp only [Node.children]
    have hnm := newChain_path m s p (q :: qs)
    by_cases hp : p.head? = some 58
    · rw [if_pos hp, insChild_append _ _ _ nc (named_not_colon hn hp)]
      refine ⟨newChain m s p (q :: qs), by simp, ?_, trail_newChain m s (q :: qs) p⟩
      rw [show (newChain m s p (q :: qs)).urlId = (getUrlID p).2 from congrArg Prod.snd hnm]
      exact colon_name hp (hwf p (by simp))
    · rw [if_neg hp]
      cases hf : nc.find? (fun c => decide (c.path = p)) with
      | none =>
        rw [insChild_append _ _ _ nc (find_none_ne p nc hf)]
        refine ⟨newChain m s p (q :: qs), ?_, ready_newChain m s (q :: qs) p fun x hx => hwf x (by simp [List.mem_cons.1 hx])⟩
        rw [List.find?_append, hf]
        have : (newChain m s p (q :: qs)).path = p := by
          rw [show (newChain m s p (q :: qs)).path = (getUrlID p).1 from congrArg Prod.fst hnm, getUrlID_lit hp]
        simp [this]
      | some c =>
        obtain ⟨A, B, h1, h2, h3, h4⟩ := insChild_found p (addRec m s q qs) (newChain m s p (q :: qs)) nc c hf
        rw [h2]
        have hc : c ∈ nc := by rw [h1]; simp
        refine ⟨addRec m s q qs c, ?_, ih q c ?_ (hn.child hc) fun x hx => hwf x (by simp [List.mem_cons.1 hx])⟩
        · rw [List.find?_append, List.find?_eq_none.2 (by simpa using h4)]
          simp [(addRec_names m s q qs c).1, h3]
        · exact (hn.lit (c := c) hc (by rw [h3]; exact hwf p (by simp))).1

/-! ### Candidates -/

/-- The two lists of full-depth nodes give the same answer to a lookup of method `m`. -/
def Like (m : Method) (l l' : List (Handlers σ × Args)) : Prop :=
  l.head?.map (fun x => (x.1.get? m, x.2)) = l'.head?.map (fun x => (x.1.get? m, x.2))

theorem Like.refl (m : Method) (l : List (Handlers σ × Args)) : Like m l l := rfl

theorem Like.append {m : Method} {a a' b b' : List (Handlers σ × Args)} (h : Like m a a') (h' : Like m b b') :
    Like m (a ++ b) (a' ++ b') := by
  unfold Like at *
  cases a <;> cases a' <;> simp_all

theorem Like.decide {m : Method} {l l' : List (Handlers σ × Args)} (h : Like m l l') (io : Args) :
    decideFirst m io l = decideFirst m io l' := by
  unfold Like at h
  cases l with
  | nil => cases l' with
    | nil => rfl
    | cons y l' => simp at h
  | cons x l => cases l' with
    | nil => simp at h
    | cons y l' =>
      simp only [List.head?_cons, Option.map_some, Option.some.injEq, Prod.mk.injEq] at h
      obtain ⟨h1, h2⟩ := h
      simp only [decideFirst, h1, h2]

theorem childCands_append (s : Str) (ss : List Str) (a : Args) (A B : List (Node σ)) :
    childCands s ss a (A ++ B) = childCands s ss a A ++ childCands s ss a B := by
  simp [childCands, List.filter_append, List.flatMap_append]

theorem childCands_mem {s : Str} {ss : List Str} {a : Args} {cs : List (Node σ)} {c : Node σ} (hc : c ∈ cs)
    (hacc : c.path = s ∨ c.urlId ≠ []) (hne : ∀ b, candsAt ss c b ≠ []) : childCands s ss a cs ≠ [] := by
  intro h
  unfold childCands at h
  rw [List.flatMap_eq_nil_iff] at h
  exact hne _ (h c (List.mem_filter.2 ⟨hc, by simpa using hacc⟩))

/-- Where a fresh branch has full-depth nodes, an existing branch of the same shape has them too. -/
theorem trail_cands (m : Method) (s : Option σ) (ps : List Str) : ∀ (p : Str) (c : Node σ) (ss : List Str) (a : Args), Trail ps c →
    candsAt ss (newChain m s p ps) a ≠ [] → ∀ b, candsAt ss c b ≠ [] := by
  induction ps with
  | nil =>
    intro p c ss a _ hne b
    cases ss with
    | nil => simp [candsAt]
    | cons t ts => simp [candsAt, newChain, Node.children] at hne
  | cons q qs ih =>
    intro p c ss a ht hne b
    cases ss with
    | nil => simp [candsAt]
    | cons t ts =>
      obtain ⟨d, hd, hnm, ht⟩ := ht
      have hq := newChain_path m s q qs
      rw [← hnm, Prod.mk.injEq] at hq
      have hne : childCands t ts a [newChain m s q qs] ≠ [] := hne
      rw [childCands_cons] at hne
      by_cases hacc : (newChain m s q qs).path = t ∨ (newChain m s q qs).urlId ≠ []
      · rw [if_pos hacc] at hne
        show childCands t ts b c.children ≠ []
        refine childCands_mem hd (by rw [← hq.1, ← hq.2]; exact hacc) (ih q d ts (bindSeg (newChain m s q qs) t a) ht ?_)
        intro h0
        rw [h0] at hne
        exact hne rfl
      · rw [if_neg hacc] at hne
        exact absurd rfl hne

/-- Adding a route again changes nothing for methods it does not cover; if it contains a parameter, for no method. -/
theorem addRec_again (m m' : Method) (set : Option σ) (ps : List Str) : ∀ (p : Str) (n : Node σ), n.urlId = [] → NamedT n →
    (∀ q ∈ p :: ps, WFSeg false q) → Ready (p :: ps) n →
    ((∃ q ∈ p :: ps, q.head? = some 58) ∨ covers m m' = false) →
    ∀ ss a, Like m' (candsAt ss (addRec m set p ps n) a) (candsAt ss n a) := by
  have par : ∀ (p : Str) (ps : List Str) (np : Str) (nh : Handlers σ) (nc : List (Node σ)) (f : Node σ → Node σ),
      NamedT (.mk np [] nh nc) → p.head? = some 58 → Ready (p :: ps) (.mk np [] nh nc) →
      ∀ s ss a, Like m' (childCands s ss a (insChild p f (newChain m set p ps) nc)) (childCands s ss a nc) := by
    intro p ps np nh nc f hn hp hr s ss a
    rw [insChild_append _ _ _ nc (named_not_colon hn hp), childCands_append]
    simp only [Ready] at hr
    rw [if_pos hp] at hr
    obtain ⟨c, hc, hu, ht⟩ := hr
    cases h0 : childCands s ss a [newChain m set p ps] with
    | nil => rw [List.append_nil]; exact Like.refl _ _
    | cons y ys =>
      have hne : childCands s ss a nc ≠ [] := by
        refine childCands_mem hc (Or.inr hu) ?_
        rw [childCands_cons] at h0
        by_cases hacc : (newChain m set p ps).path = s ∨ (newChain m set p ps).urlId ≠ []
        · rw [if_pos hacc] at h0
          refine trail_cands m set ps p c ss (bindSeg (newChain m set p ps) s a) ht ?_
          intro h1
          rw [h1] at h0
          cases h0
        · rw [if_neg hacc] at h0; cases h0
      cases h1 : childCands s ss a nc with
      | nil => exact absurd h1 hne
      | cons z zs => rfl
  have at0 : ∀ (p : Str) (ps : List Str) (n : Node σ) (a : Args),
      Like m' (candsAt [] (addRec m set p ps n) a) (candsAt [] n a) := by
    intro p ps n a
    obtain ⟨np, nu, nh, nc⟩ := n
    cases ps with
    | nil => simp only [addRec]; split <;> rfl
    | cons q qs => simp only [addRec]; split <;> rfl
  have lit : ∀ (p : Str) (np : Str) (nh : Handlers σ) (nc : List (Node σ)) (f : Node σ → Node σ) (new c : Node σ),
      nc.find? (fun c => decide (c.path = p)) = some c → (f c).path = c.path → (f c).urlId = c.urlId →
      (∀ ss a, Like m' (candsAt ss (f c) a) (candsAt ss c a)) →
      ∀ s ss a, Like m' (childCands s ss a (insChild p f new nc)) (childCands s ss a nc) := by
    intro p np nh nc f new c hf g1 g2 g3 s ss a
    obtain ⟨A, B, h1, h2, -, -⟩ := insChild_found p f new nc c hf
    rw [h2]
    conv => rhs; rw [h1]
    rw [childCands_append, childCands_append, childCands_cons, childCands_cons, g1, g2]
    refine Like.append (Like.refl _ _) (Like.append ?_ (Like.refl _ _))
    have : bindSeg (f c) s a = bindSeg c s a := by unfold bindSeg; rw [g2]
    rw [this]
    split
    · exact g3 _ _
    · exact Like.refl _ _
  induction ps with
  | nil =>
    intro p n hu hn hwf hr hcond ss a
    cases ss with
    | nil => exact at0 p [] n a
    | cons s ss =>
    obtain ⟨np, nu, nh, nc⟩ := n
    simp only [Node.urlId] at hu; subst hu
    rw [addRec_eq_insChild]
    show Like m' (childCands s ss a (insChild p _ _ nc)) (childCands s ss a nc)
    by_cases hp : p.head? = some 58
    · exact par p [] np nh nc _ hn hp hr s ss a
    · have hcov : covers m m' = false := by
        rcases hcond with ⟨q, hq, hq'⟩ | h
        · simp only [List.mem_singleton] at hq; subst hq; exact absurd hq' hp
        · exact h
      rw [Ready, if_neg hp] at hr
      obtain ⟨c, hf, -⟩ := hr
      refine lit p np nh nc _ _ c hf rfl rfl ?_ s ss a
      intro ss a
      cases ss with
      | nil => simp [Like, candsAt, Node.handlers, addMethod_get, hcov]
      | cons t ts => rw [candsAt_children (n' := c) rfl]; exact Like.refl _ _
  | cons q qs ih =>
    intro p n hu hn hwf hr hcond ss a
    cases ss with
    | nil => exact at0 p (q :: qs) n a
    | cons s ss =>
    obtain ⟨np, nu, nh, nc⟩ := n
    simp only [Node.urlId] at hu; subst hu
    rw [addRec_eq_insChild]
    show Like m' (childCands s ss a (insChild p _ _ nc)) (childCands s ss a nc)
    by_cases hp : p.head? = some 58
    · exact par p (q :: qs) np nh nc _ hn hp hr s ss a
    · rw [Ready, if_neg hp] at hr
      obtain ⟨c, hf, hr⟩ := hr
      have hc : c ∈ nc := List.mem_of_find?_eq_some hf
      have hcp : c.path = p := by simpa using List.find?_some hf
      refine lit p np nh nc _ _ c hf (addRec_names _ _ _ _ _).1 (addRec_names _ _ _ _ _).2 ?_ s ss a
      refine ih q c (hn.lit (c := c) hc (by rw [hcp]; exact hwf p (by simp))).1 (hn.child hc)
        (fun x hx => hwf x (by simp [List.mem_cons.1 hx])) hr ?_
      rcases hcond with ⟨x, hx, hx'⟩ | h
      · rcases List.mem_cons.1 hx with rfl | hx
        · exact absurd hx' hp
        · exact Or.inl ⟨x, hx, hx'⟩
      · exact Or.inr h

/-- A candidate carries at least the parameters bound so far. -/
theorem candsAt_args (ss : List Str) : ∀ (n : Node σ) (a : Args), ∀ x ∈ candsAt ss n a, a.length ≤ x.2.length := by
  intro n a x hx
  obtain ⟨P, -, -, h⟩ := candsAt_HAt ss n a x hx
  rw [h]; simp

/-- A registered literal route has a candidate for its own path. -/
theorem ready_cands (ps : List Str) : ∀ (n : Node σ) (a : Args), (∀ q ∈ ps, q.head? ≠ some 58) → Ready ps n →
    candsAt ps n a ≠ [] := by
  induction ps with
  | nil => intro n a _ _; simp [candsAt]
  | cons p ps ih =>
    intro n a hl hr
    rw [Ready, if_neg (hl p (by simp))] at hr
    obtain ⟨c, hf, hr⟩ := hr
    show childCands p ps a n.children ≠ []
    exact childCands_mem (List.mem_of_find?_eq_some hf) (Or.inl (by simpa using List.find?_some hf))
      fun b => ih c b (fun q hq => hl q (by simp [hq])) hr

/-- The first candidate for the path of a literal route that is added again: a branch with a parameter, which stays, or
the node of the route, which has got the new handler. -/
theorem addRec_literal (m : Method) (set : Option σ) (ps : List Str) : ∀ (p : Str) (n : Node σ), n.urlId = [] → NamedT n →
    (∀ q ∈ p :: ps, WFSeg false q) → (∀ q ∈ p :: ps, q.head? ≠ some 58) → Ready (p :: ps) n → ∀ a,
    (∃ x, (candsAt (p :: ps) (addRec m set p ps n) a).head? = some x ∧ (candsAt (p :: ps) n a).head? = some x ∧
      a.length < x.2.length) ∨
    (∃ h, (candsAt (p :: ps) (addRec m set p ps n) a).head? = some (addMethod m h set, a) ∧
      (candsAt (p :: ps) n a).head? = some (h, a)) := by
  have key : ∀ (p : Str) (ps : List Str) (nc : List (Node σ)) (f : Node σ → Node σ) (new c : Node σ) (a : Args),
      nc.find? (fun c => decide (c.path = p)) = some c → (f c).path = c.path → (f c).urlId = c.urlId → c.urlId = [] →
      ((∃ x, (candsAt ps (f c) a).head? = some x ∧ (candsAt ps c a).head? = some x ∧ a.length < x.2.length) ∨
       (∃ h, (candsAt ps (f c) a).head? = some (addMethod m h set, a) ∧ (candsAt ps c a).head? = some (h, a))) →
      ((∃ x, (childCands p ps a (insChild p f new nc)).head? = some x ∧ (childCands p ps a nc).head? = some x ∧
        a.length < x.2.length) ∨
       (∃ h, (childCands p ps a (insChild p f new nc)).head? = some (addMethod m h set, a) ∧
        (childCands p ps a nc).head? = some (h, a))) := by
    intro p ps nc f new c a hf g1 g2 hu hcase
    obtain ⟨A, B, h1, h2, h3, h4⟩ := insChild_found p f new nc c hf
    rw [h2, h1, childCands_append, childCands_append, childCands_cons, childCands_cons, g1, g2, if_pos (Or.inl h3), if_pos (Or.inl h3)]
    have b1 : bindSeg (f c) p a = a := by unfold bindSeg; rw [g2, hu]; simp
    have b2 : bindSeg c p a = a := by unfold bindSeg; rw [hu]; simp
    rw [b1, b2]
    cases hA : childCands p ps a A with
    | cons x xs =>
      refine Or.inl ⟨x, rfl, rfl, ?_⟩
      have hx : x ∈ childCands p ps a A := by rw [hA]; simp
      unfold childCands at hx
      rw [List.mem_flatMap] at hx
      obtain ⟨d, hd, hx⟩ := hx
      rw [List.mem_filter] at hd
      have hacc : d.path = p ∨ d.urlId ≠ [] := by simpa using hd.2
      have hdu : d.urlId ≠ [] := by
        rcases hacc with h | h
        · exact absurd h (h4 d hd.1)
        · exact h
      have := candsAt_args ps d _ x hx
      unfold bindSeg at this
      rw [if_pos hdu] at this
      simp at this
      omega
    | nil =>
      simp only [List.nil_append]
      rcases hcase with ⟨x, e1, e2, e3⟩ | ⟨h, e1, e2⟩
      · exact Or.inl ⟨x, by rw [List.head?_append, e1]; rfl, by rw [List.head?_append, e2]; rfl, e3⟩
      · exact Or.inr ⟨h, by rw [List.head?_append, e1]; rfl, by rw [List.head?_append, e2]; rfl⟩
  induction ps with
  | nil =>
    intro p n hu hn hwf hl hr a
    obtain ⟨np, nu, nh, nc⟩ := n
    simp only [Node.urlId] at hu; subst hu
    rw [addRec_eq_insChild]
    rw [Ready, if_neg (hl p (by simp))] at hr
    obtain ⟨c, hf, -⟩ := hr
    have hc : c ∈ nc := List.mem_of_find?_eq_some hf
    have hcp : c.path = p := by simpa using List.find?_some hf
    exact key p [] nc _ _ c a hf rfl rfl (hn.lit (c := c) hc (by rw [hcp]; exact hwf p (by simp))).1
      (Or.inr ⟨c.handlers, rfl, rfl⟩)
  | cons q qs ih =>
    intro p n hu hn hwf hl hr a
    obtain ⟨np, nu, nh, nc⟩ := n
    simp only [Node.urlId] at hu; subst hu
    rw [addRec_eq_insChild]
    rw [Ready, if_neg (hl p (by simp))] at hr
    obtain ⟨c, hf, hr⟩ := hr
    have hc : c ∈ nc := List.mem_of_find?_eq_some hf
    have hcp : c.path = p := by simpa using List.find?_some hf
    have hcu := (hn.lit (c := c) hc (by rw [hcp]; exact hwf p (by simp))).1
    exact key p (q :: qs) nc _ _ c a hf (addRec_names _ _ _ _ _).1 (addRec_names _ _ _ _ _).2 hcu
      (ih q c hcu (hn.child hc) (fun x hx => hwf x (by simp [List.mem_cons.1 hx]))
        (fun x hx => hl x (by simp [List.mem_cons.1 hx])) hr a)

/-! ### Histories -/

theorem ready_treeAdd (ps : List Str) (t : Node σ) (m : Method) (route : Str) (s : Option σ) (h : Ready ps t) :
    Ready ps (treeAdd t m route s) := by
  unfold treeAdd
  split
  · exact ready_addRec _ _ _ _ _ _ h
  · exact ready_children (n := t) (n' := .mk t.path t.urlId (addMethod m t.handlers s) t.children) rfl ps h

/-- A registered clean route stays registered. -/
theorem ready_treeOf (hist : List (Reg σ)) (r : Reg σ) (hr : r ∈ hist) (hc : ∀ q ∈ segs r.route, WFSeg false q) : Ready (segs r.route) (treeOf hist) := by
  obtain ⟨pre, post, rfl⟩ := List.append_of_mem hr
  have h0 : Ready (segs r.route) (treeOf (pre ++ [r])) := by
    rw [treeOf_append]
    unfold treeAdd
    rw [splitPath_eq]
    cases hs : segs r.route with
    | nil => trivial
    | cons p ps =>
      exact ready_added _ _ ps p _ (treeOf_top pre).2 (treeOf_named pre)
        (by rw [← hs]; exact hc)
  have h1 : ∀ (post pre : List (Reg σ)), Ready (segs r.route) (treeOf pre) → Ready (segs r.route) (treeOf (pre ++ post)) := by
    intro post
    induction post with
    | nil => intro pre h; simpa using h
    | cons x post ih =>
      intro pre h
      have := ih (pre ++ [x]) (by rw [treeOf_append]; exact ready_treeAdd _ _ _ _ _ h)
      simpa using this
  have := h1 post _ h0
  simpa using this

/-- Registering a route again changes no lookup of a method it does not cover, and none at all if it has a parameter. -/
theorem treeAdd_again (hist : List (Reg σ)) (old new : Reg σ) (hold : old ∈ hist) (hsame : segs new.route = segs old.route)
    (hclean : ∀ q ∈ segs new.route, WFSeg false q) (m : Method) (path : Str) (buf : Args)
    (hcond : (∃ q ∈ segs new.route, q.head? = some 58) ∨ covers new.method m = false) :
    treeFind (treeOf (hist ++ [new])) m path buf = treeFind (treeOf hist) m path buf := by
  have hready := ready_treeOf hist old hold (by rw [← hsame]; exact hclean)
  rw [← hsame] at hready
  rw [treeOf_append, treeFind_eq, treeFind_eq]
  congr 1
  have htop := treeOf_top hist
  have hp := treeAdd_top (treeOf hist) new.method new.route (some new.set)
  rw [hp.1, hp.2]
  have hb : bindSeg (treeAdd (treeOf hist) new.method new.route (some new.set)) [47] [] = bindSeg (treeOf hist) [47] [] := by
    unfold bindSeg; rw [hp.2]
  rw [hb]
  cases hr : segs new.route with
  | nil =>
    rw [hr] at hcond
    have hcov : covers new.method m = false := by
      rcases hcond with ⟨q, hq, -⟩ | h
      · simp at hq
      · exact h
    have hadd : treeAdd (treeOf hist) new.method new.route (some new.set) =
        .mk (treeOf hist).path (treeOf hist).urlId (addMethod new.method (treeOf hist).handlers (some new.set))
          (treeOf hist).children := by
      unfold treeAdd; rw [splitPath_eq, hr]
    rw [hadd]
    cases hs : segs path with
    | nil =>
      rw [if_pos rfl, if_pos rfl]
      refine Like.decide ?_ []
      simp [Like, Node.handlers, addMethod_get, hcov]
    | cons s ss => rw [if_neg (List.cons_ne_nil s ss), if_neg (List.cons_ne_nil s ss), candsAt_children rfl]; rfl
  | cons p ps =>
    have hadd : treeAdd (treeOf hist) new.method new.route (some new.set) = addRec new.method (some new.set) p ps (treeOf hist) := by
      unfold treeAdd; rw [splitPath_eq, hr]
    have hwf : ∀ q ∈ p :: ps, WFSeg false q := by rw [← hr]; exact hclean
    rw [hr] at hready hcond
    have hlike := addRec_again new.method m (some new.set) ps p (treeOf hist) htop.2 (treeOf_named hist) hwf hready hcond
    rw [hadd]
    cases hs : segs path with
    | nil =>
      rw [if_pos rfl, if_pos rfl]
      exact (hlike [] []).decide []
    | cons s ss =>
      rw [if_neg (List.cons_ne_nil s ss), if_neg (List.cons_ne_nil s ss)]
      split
      · rfl
      · exact (hlike (s :: ss) _).decide []

end Verif
