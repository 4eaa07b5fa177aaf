import Verif.Lemmas.NodeInv
/-
Where in a tree a handler map sits: the list of (path, parameter name) of the nodes leading to it.  Invariants for ALL
histories, with no condition on the routes.
-/
namespace Verif
open Spec
variable {σ : Type}

/-- `h` is the handler map of the node reached from the given one through nodes with these texts and parameter names. -/
inductive HAt (h : Handlers σ) : List (Str × Str) → Node σ → Prop
  | here (p u : Str) (cs : List (Node σ)) : HAt h [] (.mk p u h cs)
  | child (p u : Str) (hs : Handlers σ) (cs : List (Node σ)) (c : Node σ) (P : List (Str × Str)) :
      c ∈ cs → HAt h P c → HAt h ((c.path, c.urlId) :: P) (.mk p u hs cs)

theorem HAt.top (n : Node σ) : HAt n.handlers [] n := by
  cases n; exact HAt.here _ _ _

/-- How the segments of a route can end up on a branch, `u` being the parameter name of the node above: from some point
on the branch was made for the segments; before, its text is the segment, or it is below a parameter. -/
inductive Graft : Str → List (Str × Str) → List Str → Prop
  | fresh (u : Str) (ps : List Str) : Graft u (ps.map getUrlID) ps
  | old (u : Str) (x : Str × Str) (P : List (Str × Str)) (p : Str) (ps : List Str) :
      ((x.1 = p ∧ u = []) ∨ u ≠ []) → Graft x.2 P ps → Graft u (x :: P) (p :: ps)

theorem newChain_path (m : Method) (s : Option σ) (p : Str) (ps : List Str) :
    ((newChain m s p ps).path, (newChain m s p ps).urlId) = getUrlID p := by
  cases ps <;> rfl

theorem newChain_HAt (m : Method) (s : Option σ) (ps : List Str) : ∀ (p : Str) (h : Handlers σ) (P : List (Str × Str)),
    HAt h P (newChain m s p ps) →
    (h = [] ∨ (h = addMethod m [] s ∧ P = ps.map getUrlID)) ∧ ∀ x ∈ P, ∃ q, x = getUrlID q := by
  induction ps with
  | nil =>
    intro p h P hh
    simp only [newChain] at hh
    cases hh with
    | here => exact ⟨Or.inr ⟨rfl, rfl⟩, by simp⟩
    | child _ _ _ _ c P hc => simp at hc
  | cons q qs ih =>
    intro p h P hh
    simp only [newChain] at hh
    cases hh with
    | here => exact ⟨Or.inl rfl, by simp⟩
    | child _ _ _ _ c P hc hin =>
      simp only [List.mem_singleton] at hc; subst hc
      obtain ⟨h1, h2⟩ := ih q h P hin
      rw [newChain_path]
      refine ⟨?_, ?_⟩
      · rcases h1 with h1 | ⟨h1, h3⟩
        · exact Or.inl h1
        · exact Or.inr ⟨h1, by rw [h3]; rfl⟩
      · intro x hx
        rcases List.mem_cons.1 hx with rfl | hx
        · exact ⟨q, rfl⟩
        · exact h2 x hx

/-- Maps after `_add`, with their places. -/
def AddedAt (m : Method) (s : Option σ) (n : Node σ) (u : Str) (ps : List Str) (h : Handlers σ) (P : List (Str × Str)) : Prop :=
  HAt h P n ∨ (h = [] ∨ ∃ h0, (HAt h0 P n ∨ h0 = []) ∧ h = addMethod m h0 s ∧ Graft u P ps)

/-- Places after `_add`: old ones, or made of segments from some point on. -/
def Places (n : Node σ) (P : List (Str × Str)) : Prop :=
  ∃ A B, P = A ++ B ∧ (∃ h, HAt h A n) ∧ ∀ x ∈ B, ∃ q, x = getUrlID q

theorem nextNodes_mem {p u : Str} {nc : List (Node σ)} {i : Nat} (hi : i < nc.length) (h : i ∈ nextNodes p u nc) :
    (nc[i].path = p ∧ u = []) ∨ u ≠ [] := by
  unfold nextNodes at h
  split at h
  · exact Or.inr (by assumption)
  · rename_i hu
    simp only [ne_eq, Classical.not_not] at hu
    split at h
    · rename_i j hj
      simp only [List.mem_singleton] at h
      subst h
      obtain ⟨h1, h2, h3⟩ := List.findIdx?_eq_some_iff_getElem.1 hj
      simp only [decide_eq_true_eq] at h2
      exact Or.inl ⟨h2, hu⟩
    · simp at h

theorem HAt.places {h : Handlers σ} {P : List (Str × Str)} {n : Node σ} (hh : HAt h P n) : Places n P :=
  ⟨P, [], by simp, ⟨h, hh⟩, by simp⟩

theorem Places.child {np nu : Str} {nh : Handlers σ} {nc : List (Node σ)} {c : Node σ} {P : List (Str × Str)} (hc : c ∈ nc)
    (h : Places c P) : Places (.mk np nu nh nc) ((c.path, c.urlId) :: P) := by
  obtain ⟨A, B, rfl, ⟨h, hA⟩, hB⟩ := h
  exact ⟨(c.path, c.urlId) :: A, B, rfl, ⟨h, HAt.child _ _ _ _ c A hc hA⟩, hB⟩

theorem Places.fresh {n : Node σ} {m : Method} {s : Option σ} {p : Str} {ps : List Str} {h : Handlers σ} {P : List (Str × Str)}
    (hh : HAt h P (newChain m s p ps)) :
    Places n (((newChain m s p ps).path, (newChain m s p ps).urlId) :: P) := by
  refine ⟨[], _, rfl, ⟨_, HAt.top n⟩, ?_⟩
  intro x hx
  rcases List.mem_cons.1 hx with rfl | hx
  · exact ⟨p, newChain_path m s p ps⟩
  · exact (newChain_HAt m s ps p h P hh).2 x hx

theorem addRec_names (m : Method) (s : Option σ) (p : Str) (ps : List Str) (n : Node σ) :
    (addRec m s p ps n).path = n.path ∧ (addRec m s p ps n).urlId = n.urlId := by
  obtain ⟨np, nu, nh, nc⟩ := n
  cases ps with
  | nil => simp only [addRec]; split <;> exact ⟨rfl, rfl⟩
  | cons q qs => simp only [addRec]; split <;> exact ⟨rfl, rfl⟩

theorem addRec_HAt (m : Method) (s : Option σ) (ps : List Str) : ∀ (p : Str) (n : Node σ) (h : Handlers σ) (P : List (Str × Str)),
    HAt h P (addRec m s p ps n) → AddedAt m s n n.urlId (p :: ps) h P ∧ Places n P := by
  have newc : ∀ (u p : Str) (ps : List Str) (n : Node σ) (h : Handlers σ) (P : List (Str × Str)), HAt h P (newChain m s p ps) →
      AddedAt m s n u (p :: ps) h (((newChain m s p ps).path, (newChain m s p ps).urlId) :: P) := by
    intro u p ps n h P hh
    rcases (newChain_HAt m s ps p h P hh).1 with hh | ⟨h1, h2⟩
    · exact Or.inr (Or.inl hh)
    · refine Or.inr (Or.inr ⟨[], Or.inr rfl, h1, ?_⟩)
      rw [newChain_path]
      rw [h2]
      exact Graft.fresh _ (p :: ps)
  induction ps with
  | nil =>
    intro p n h P hh
    obtain ⟨np, nu, nh, nc⟩ := n
    simp only [addRec] at hh
    split at hh
    · cases hh with
      | here => exact ⟨Or.inl (HAt.here _ _ _), (HAt.here np nu nc).places⟩
      | child _ _ _ _ c P hc hin =>
        rcases List.mem_append.1 hc with hc | hc
        · exact ⟨Or.inl (HAt.child _ _ _ _ c P hc hin), (HAt.child np nu nh nc c P hc hin).places⟩
        · simp only [List.mem_singleton] at hc; subst hc
          exact ⟨newc _ _ _ _ _ _ hin, Places.fresh hin⟩
    · cases hh with
      | here => exact ⟨Or.inl (HAt.here _ _ _), (HAt.here np nu nc).places⟩
      | child _ _ _ _ c P hc hin =>
        rw [List.mem_mapIdx] at hc
        obtain ⟨i, hi, rfl⟩ := hc
        have hmem : nc[i] ∈ nc := List.getElem_mem hi
        split at hin
        · rename_i hnext
          rw [if_pos hnext]
          have hx := nextNodes_mem hi hnext
          generalize nc[i] = c at hin hmem hx
          cases c with
          | mk a b d e =>
            cases hin with
            | here =>
              refine ⟨Or.inr (Or.inr ⟨d, Or.inl ?_, rfl, ?_⟩), ?_⟩
              · exact HAt.child np nu nh nc (.mk a b d e) [] hmem (HAt.here _ _ _)
              · exact Graft.old _ _ _ _ _ hx (Graft.fresh _ [])
              · exact (HAt.child np nu nh nc (.mk a b d e) [] hmem (HAt.here _ _ _)).places
            | child _ _ _ _ c' P hc' hin' =>
              have hat := HAt.child np nu nh nc (.mk a b d e) _ hmem (HAt.child a b d e c' P hc' hin')
              exact ⟨Or.inl hat, hat.places⟩
        · rename_i hnext
          rw [if_neg hnext]
          have hat := HAt.child np nu nh nc _ P hmem hin
          exact ⟨Or.inl hat, hat.places⟩
  | cons q qs ih =>
    intro p n h P hh
    obtain ⟨np, nu, nh, nc⟩ := n
    simp only [addRec] at hh
    split at hh
    · cases hh with
      | here => exact ⟨Or.inl (HAt.here _ _ _), (HAt.here np nu nc).places⟩
      | child _ _ _ _ c P hc hin =>
        rcases List.mem_append.1 hc with hc | hc
        · exact ⟨Or.inl (HAt.child _ _ _ _ c P hc hin), (HAt.child np nu nh nc c P hc hin).places⟩
        · simp only [List.mem_singleton] at hc; subst hc
          exact ⟨newc _ _ _ _ _ _ hin, Places.fresh hin⟩
    · cases hh with
      | here => exact ⟨Or.inl (HAt.here _ _ _), (HAt.here np nu nc).places⟩
      | child _ _ _ _ c P hc hin =>
        rw [List.mem_mapIdx] at hc
        obtain ⟨i, hi, rfl⟩ := hc
        have hmem : nc[i] ∈ nc := List.getElem_mem hi
        split at hin
        · rename_i hnext
          rw [if_pos hnext, (addRec_names _ _ _ _ _).1, (addRec_names _ _ _ _ _).2]
          have hx := nextNodes_mem hi hnext
          obtain ⟨h1, h2⟩ := ih q _ h P hin
          refine ⟨?_, Places.child hmem h2⟩
          rcases h1 with h1 | h1 | ⟨h0, h1, h3, h4⟩
          · exact Or.inl (HAt.child _ _ _ _ _ P hmem h1)
          · exact Or.inr (Or.inl h1)
          · refine Or.inr (Or.inr ⟨h0, ?_, h3, Graft.old _ _ _ _ _ hx h4⟩)
            rcases h1 with h1 | h1
            · exact Or.inl (HAt.child _ _ _ _ _ P hmem h1)
            · exact Or.inr h1
        · rename_i hnext
          rw [if_neg hnext]
          have hat := HAt.child np nu nh nc _ P hmem hin
          exact ⟨Or.inl hat, hat.places⟩

theorem treeAdd_HAt (t : Node σ) (ht : t.urlId = []) (m : Method) (route : Str) (s : Option σ) (h : Handlers σ)
    (P : List (Str × Str)) (hh : HAt h P (treeAdd t m route s)) : AddedAt m s t [] (segs route) h P ∧ Places t P := by
  simp only [treeAdd, splitPath_eq] at hh
  cases hs : segs route with
  | cons p ps =>
    rw [hs] at hh
    have := addRec_HAt m s ps p t h P hh
    rwa [ht] at this
  | nil =>
    rw [hs] at hh
    obtain ⟨a, b, d, e⟩ := t
    simp only at hh
    cases hh with
    | here => exact ⟨Or.inr (Or.inr ⟨d, Or.inl (HAt.here _ _ _), rfl, Graft.fresh _ []⟩), (HAt.here a b e).places⟩
    | child _ _ _ _ c P hc hin => exact ⟨Or.inl (HAt.child _ _ _ _ c P hc hin), (HAt.child a b d e c P hc hin).places⟩

/-- Every place in the tree of a history is made of segments, and every entry of the map there comes from a registration
with a covering method that can end up there. -/
theorem treeOf_places (hist : List (Reg σ)) : ∀ h P, HAt h P (treeOf hist) →
    (∀ x ∈ P, ∃ q, x = getUrlID q) ∧
    ∀ m s, h.get? m = some s → ∃ r ∈ hist, s = some r.set ∧ covers r.method m = true ∧ Graft [] P (segs r.route) := by
  have key : ∀ (hist pre : List (Reg σ)) (t : Node σ), t.urlId = [] →
      (∀ h P, HAt h P t → (∀ x ∈ P, ∃ q, x = getUrlID q) ∧ ∀ m s, h.get? m = some s →
        ∃ r ∈ pre, s = some r.set ∧ covers r.method m = true ∧ Graft [] P (segs r.route)) →
      ∀ h P, HAt h P (hist.foldl (fun t r => treeAdd t r.method r.route (some r.set)) t) →
        (∀ x ∈ P, ∃ q, x = getUrlID q) ∧ ∀ m s, h.get? m = some s →
          ∃ r ∈ pre ++ hist, s = some r.set ∧ covers r.method m = true ∧ Graft [] P (segs r.route) := by
    intro hist
    induction hist with
    | nil => intro pre t _ ht; simpa using ht
    | cons r hist ih =>
      intro pre t hu ht h P hh
      simp only [List.foldl_cons] at hh
      have := ih (pre ++ [r]) (treeAdd t r.method r.route (some r.set)) (by rw [(treeAdd_top _ _ _ _).2, hu]) (by
        intro h P hh
        obtain ⟨h1, h2⟩ := treeAdd_HAt t hu _ _ _ h P hh
        refine ⟨?_, ?_⟩
        · obtain ⟨A, B, rfl, ⟨h', hA⟩, hB⟩ := h2
          intro x hx
          rcases List.mem_append.1 hx with hx | hx
          · exact (ht _ _ hA).1 x hx
          · exact hB x hx
        · intro m s hs
          rcases h1 with hh | hh | ⟨h0, h0in, rfl, hg⟩
          · obtain ⟨x, hx, hx'⟩ := (ht h P hh).2 m s hs
            exact ⟨x, by simp [hx], hx'⟩
          · subst hh; simp [GoMap.get?] at hs
          · rw [addMethod_get] at hs
            split at hs
            · simp at hs; exact ⟨r, by simp, hs.symm, by assumption, hg⟩
            · rcases h0in with h0in | rfl
              · obtain ⟨x, hx, hx'⟩ := (ht h0 P h0in).2 m s hs
                exact ⟨x, by simp [hx], hx'⟩
              · simp [GoMap.get?] at hs) h P hh
      simpa using this
  have := key hist [] newTree rfl (by
    intro h P hh
    cases hh with
    | here => exact ⟨by simp, by intro m s hs; simp [GoMap.get?] at hs⟩
    | child _ _ _ _ c P hc => simp at hc)
  simpa [treeOf] using this

/-- The places whose nodes all accept the segments of a path. -/
inductive AcceptAll : List (Str × Str) → List Str → Prop
  | nil : AcceptAll [] []
  | cons (x : Str × Str) (P : List (Str × Str)) (s : Str) (ss : List Str) :
      (x.1 = s ∨ x.2 ≠ []) → AcceptAll P ss → AcceptAll (x :: P) (s :: ss)

/-- The bindings made on the way. -/
def bindsAt : List (Str × Str) → List Str → Args
  | x :: P, s :: ss => (if x.2 ≠ [] then [(x.2, s)] else []) ++ bindsAt P ss
  | _, _ => []

theorem candsAt_HAt (ss : List Str) : ∀ (n : Node σ) (args : Args), ∀ c ∈ candsAt ss n args,
    ∃ P, HAt c.1 P n ∧ AcceptAll P ss ∧ c.2 = args ++ bindsAt P ss := by
  induction ss with
  | nil =>
    intro n args c hc
    simp only [candsAt, List.mem_singleton] at hc; subst hc
    exact ⟨[], HAt.top n, AcceptAll.nil, by simp [bindsAt]⟩
  | cons s ss ih =>
    intro n args c hc
    simp only [candsAt, List.mem_flatMap, List.mem_filter] at hc
    obtain ⟨x, ⟨hx, hacc⟩, hc⟩ := hc
    simp only [decide_eq_true_eq] at hacc
    obtain ⟨P, h1, h2, h3⟩ := ih x _ c hc
    cases n with
    | mk a b d e =>
      refine ⟨(x.path, x.urlId) :: P, HAt.child _ _ _ _ x P hx h1, AcceptAll.cons _ _ _ _ hacc h2, ?_⟩
      rw [h3]
      simp only [bindsAt, bindSeg]
      split <;> simp

/-- What a lookup can find in the tree of a history, with the place. -/
theorem treeFind_place (hist : List (Reg σ)) (m : Method) (path : Str) (buf : Args) (res : FindResult σ)
    (h : treeFind (treeOf hist) m path buf = .ret res) (hf : res.found = true) :
    ∃ P, ∃ r ∈ hist, res.set = some r.set ∧ covers r.method m = true ∧ Graft [] P (segs r.route) ∧
      (∀ x ∈ P, ∃ q, x = getUrlID q) ∧ AcceptAll P (segs path) ∧ res.args = bindsAt P (segs path) := by
  have dec : ∀ l : List (Handlers σ × Args),
      (∀ c ∈ l, ∃ P, HAt c.1 P (treeOf hist) ∧ AcceptAll P (segs path) ∧ c.2 = bindsAt P (segs path)) →
      (decideFirst m [] l).found = true →
      ∃ P, ∃ r ∈ hist, (decideFirst m [] l).set = some r.set ∧ covers r.method m = true ∧ Graft [] P (segs r.route) ∧
        (∀ x ∈ P, ∃ q, x = getUrlID q) ∧ AcceptAll P (segs path) ∧ (decideFirst m [] l).args = bindsAt P (segs path) := by
    intro l hl hf
    cases l with
    | nil => simp [decideFirst, FindResult.notFound] at hf
    | cons c l =>
      obtain ⟨hs, a⟩ := c
      obtain ⟨P, h1, h2, h3⟩ := hl (hs, a) (by simp)
      simp only [decideFirst] at hf ⊢
      cases hg : hs.get? m with
      | none => rw [hg] at hf; simp [FindResult.notFound] at hf
      | some o =>
        cases o with
        | none => rw [hg] at hf; simp [FindResult.notFound] at hf
        | some s =>
          obtain ⟨r, hr, e1, e2, e3⟩ := (treeOf_places hist hs P h1).2 m _ hg
          exact ⟨P, r, hr, e1, e2, e3, (treeOf_places hist hs P h1).1, h2, by simpa using h3⟩
  rw [treeFind_eq] at h
  simp only [Outcome.ret.injEq] at h
  subst h
  split at hf
  · rename_i hnil
    rw [if_pos hnil] at *
    refine dec _ ?_ hf
    intro c hc
    simp only [List.mem_singleton] at hc; subst hc
    exact ⟨[], HAt.top _, by rw [hnil]; exact AcceptAll.nil, by rw [hnil]; rfl⟩
  · rename_i hnil
    rw [if_neg hnil]
    split at hf
    · simp [FindResult.notFound] at hf
    · rename_i htop
      rw [if_neg htop]
      refine dec _ ?_ hf
      intro c hc
      obtain ⟨P, h1, h2, h3⟩ := candsAt_HAt _ _ _ c hc
      have hb : bindSeg (treeOf hist) [47] [] = [] := by unfold bindSeg; rw [(treeOf_top hist).2]; rfl
      exact ⟨P, h1, h2, by rw [hb] at h3; simpa using h3⟩

theorem Graft.length {u : Str} {P : List (Str × Str)} {ps : List Str} (h : Graft u P ps) : P.length = ps.length := by
  induction h with
  | fresh => simp
  | old _ _ _ _ _ _ _ ih => simp [ih]

theorem AcceptAll.length {P : List (Str × Str)} {ss : List Str} (h : AcceptAll P ss) : P.length = ss.length := by
  induction h with
  | nil => rfl
  | cons _ _ _ _ _ _ ih => simp [ih]

/-- Up to its first empty or colon-only segment, a route ends up only on branches made for its segments. -/
theorem Graft.clean {u : Str} {P : List (Str × Str)} {ps : List Str} (h : Graft u P ps) :
    u = [] → (∀ x ∈ P, ∃ q, x = getUrlID q) → ∀ k, (∀ s ∈ ps.take k, WFSeg false s) → P.take k = (ps.take k).map getUrlID := by
  induction h with
  | fresh u ps => intro _ _ k _; rw [List.map_take]
  | old u x P p ps hx _ ih =>
    intro hu hP k hk
    cases k with
    | zero => rfl
    | succ k =>
      simp only [List.take_succ_cons, List.mem_cons, forall_eq_or_imp] at hk
      have hp : x.1 = p := by
        rcases hx with hx | hx
        · exact hx.1
        · exact absurd hu hx
      obtain ⟨q, hq⟩ := hP x (by simp)
      have hxp : x = getUrlID p ∧ x.2 = [] := by
        by_cases hc : q.head? = some 58
        · rw [getUrlID_colon hc] at hq
          rw [hq] at hp
          exact absurd hp.symm (wfSeg_ne_nil hk.1)
        · rw [getUrlID_lit hc] at hq
          rw [hq] at hp
          simp only at hp
          subst hp
          exact ⟨by rw [hq, getUrlID_lit hc], by rw [hq]⟩
      rw [List.take_succ_cons, List.take_succ_cons, List.map_cons, ← hxp.1,
        ih hxp.2 (fun x hx => hP x (by simp [hx])) k hk.2]

/-- The bindings and the match on the part of a place that was made for the segments. -/
theorem acceptAll_match (ps : List Str) : ∀ (P : List (Str × Str)) (ss : List Str) (k : Nat),
    (∀ s ∈ ps.take k, WFSeg false s) → P.length = ps.length → P.take k = (ps.take k).map getUrlID → AcceptAll P ss →
    ∃ b, matchRoute ((ps.map segPat).take k) (ss.take k) = some b ∧ b <+: bindsAt P ss ∧ (ps.length ≤ k → b = bindsAt P ss) := by
  induction ps with
  | nil =>
    intro P ss k _ hl _ hacc
    cases P with
    | cons x P => simp at hl
    | nil =>
      cases hacc
      exact ⟨[], by simp [matchRoute], by simp, fun _ => rfl⟩
  | cons p ps ih =>
    intro P ss k hk hl hP hacc
    cases hacc with
    | nil => simp at hl
    | cons x P s ss hx hacc =>
      cases k with
      | zero => exact ⟨[], by simp [matchRoute], by simp, fun h => by simp at h⟩
      | succ k =>
        simp only [List.take_succ_cons, List.mem_cons, forall_eq_or_imp] at hk
        simp only [List.take_succ_cons, List.map_cons, List.cons.injEq] at hP
        obtain ⟨b, h1, h2, h3⟩ := ih P ss k hk.2 (by simpa using hl) hP.2 hacc
        simp only [List.map_cons, List.take_succ_cons, bindsAt]
        by_cases hc : p.head? = some 58
        · rw [segPat_colon hc]
          have hne : p.dropWhile (· == 58) ≠ [] := by simpa [WFSeg] using hk.1
          rw [hP.1, getUrlID_colon hc]
          simp only [matchRoute, h1, Option.map_some]
          rw [if_pos hne]
          exact ⟨_, rfl, by simpa using h2, fun h => by rw [h3 (by simpa using h)]; rfl⟩
        · rw [segPat_lit hc]
          rw [hP.1, getUrlID_lit hc] at hx
          simp only [ne_eq, not_true, or_false] at hx
          rw [hP.1, getUrlID_lit hc]
          simp only [matchRoute, hx, if_true, h1]
          exact ⟨b, rfl, by simpa using h2, fun h => by rw [h3 (by simpa using h)]; simp⟩

theorem bindsAt_values (P : List (Str × Str)) : ∀ ss : List Str, ((bindsAt P ss).map Prod.snd).Sublist ss := by
  induction P with
  | nil => intro ss; simp [bindsAt]
  | cons x P ih =>
    intro ss
    cases ss with
    | nil => simp [bindsAt]
    | cons s ss =>
      simp only [bindsAt]
      split
      · simpa using ih ss
      · simpa using (ih ss).cons s

/-! ### Adding a clean route to an arbitrary tree -/

/-- All nodes below this one were made for segments. -/
def NamedT (n : Node σ) : Prop := ∀ h P, HAt h P n → ∀ x ∈ P, ∃ q, x = getUrlID q

theorem NamedT.child {n c : Node σ} (h : NamedT n) (hc : c ∈ n.children) : NamedT c := by
  intro hs P hat x hx
  cases n with
  | mk a b d e => exact h hs _ (HAt.child a b d e c P hc hat) x (by simp [hx])

/-- A child with a clean text is a literal node. -/
theorem NamedT.lit {n c : Node σ} (h : NamedT n) (hc : c ∈ n.children) (hp : WFSeg false c.path) :
    c.urlId = [] ∧ c.path.head? ≠ some 58 := by
  cases n with
  | mk a b d e =>
    obtain ⟨q, hq⟩ := h _ _ (HAt.child a b d e c [] hc (HAt.top c)) (c.path, c.urlId) (by simp)
    by_cases hcol : q.head? = some 58
    · rw [getUrlID_colon hcol] at hq
      simp only [Prod.mk.injEq] at hq
      exact absurd hq.1 (wfSeg_ne_nil hp)
    · rw [getUrlID_lit hcol] at hq
      simp only [Prod.mk.injEq] at hq
      exact ⟨hq.2, by rw [hq.1]; exact hcol⟩

theorem treeOf_named (hist : List (Reg σ)) : NamedT (treeOf hist) := fun h P hh => (treeOf_places hist h P hh).1

/-- The candidates contributed by the children of a node. -/
def childCands (s : Str) (ss : List Str) (args : Args) (cs : List (Node σ)) : List (Handlers σ × Args) :=
  (cs.filter fun c => c.path = s ∨ c.urlId ≠ []).flatMap fun c => candsAt ss c (bindSeg c s args)

theorem childCands_cons (s : Str) (ss : List Str) (args : Args) (c : Node σ) (cs : List (Node σ)) :
    childCands s ss args (c :: cs) =
      (if c.path = s ∨ c.urlId ≠ [] then candsAt ss c (bindSeg c s args) else []) ++ childCands s ss args cs := by
  unfold childCands
  by_cases h : c.path = s ∨ c.urlId ≠ []
  · rw [if_pos h, List.filter_cons_of_pos (by simpa using h), List.flatMap_cons]
  · rw [if_neg h, List.filter_cons_of_neg (by simpa using h), List.nil_append]

theorem insChild_frame (p s : Str) (ss : List Str) (args : Args) (f : Node σ → Node σ) (new : Node σ)
    (hnew : (new.path = s ∨ new.urlId ≠ []) → candsAt ss new (bindSeg new s args) = []) :
    ∀ cs : List (Node σ), (∀ c ∈ cs, c.path = p → c.urlId = []) →
    (∀ c ∈ cs, c.path = p → (f c).path = p ∧ (f c).urlId = [] ∧ (p = s → ∀ a, candsAt ss (f c) a = candsAt ss c a)) →
    childCands s ss args (insChild p f new cs) = childCands s ss args cs := by
  intro cs
  induction cs with
  | nil =>
    intro _ _
    simp only [insChild]
    rw [childCands_cons]
    split
    · rename_i h; rw [hnew h]; rfl
    · rfl
  | cons c cs ih =>
    intro hlit hf
    simp only [insChild]
    split
    · rename_i hc
      obtain ⟨h1, h2, h3⟩ := hf c (by simp) hc
      have h4 := hlit c (by simp) hc
      rw [childCands_cons, childCands_cons]
      congr 1
      rw [h1, h2, hc, h4]
      by_cases hps : p = s
      · have hb : bindSeg (f c) s args = bindSeg c s args := by unfold bindSeg; rw [h2, h4]
        rw [h3 hps, hb]
      · simp [hps]
    · rw [childCands_cons, childCands_cons, ih (fun c hc => hlit c (by simp [hc])) (fun c hc => hf c (by simp [hc]))]

/-- A fresh chain gives no candidate for a path no prefix of its segments matches. -/
theorem newChain_frame (m : Method) (set : Option σ) (ps : List Str) : ∀ (p : Str) (s : Str) (ss : List Str) (args : Args),
    (∀ q ∈ p :: ps, WFSeg false q) →
    (∀ k, 0 < k → matchRoute (((p :: ps).map segPat).take k) (s :: ss) = none) →
    ((newChain m set p ps).path = s ∨ (newChain m set p ps).urlId ≠ []) → candsAt ss (newChain m set p ps) args = [] := by
  have accept : ∀ (p s : Str) (ps : List Str), WFSeg false p → ((newChain m set p ps).path = s ∨ (newChain m set p ps).urlId ≠ []) →
      ∀ rs ss, (matchRoute (segPat p :: rs) (s :: ss)).isSome = (matchRoute rs ss).isSome := by
    intro p s ps hp h rs ss
    have hn := newChain_path m set p ps
    by_cases hc : p.head? = some 58
    · rw [segPat_colon hc]; simp [matchRoute]
    · rw [getUrlID_lit hc, Prod.mk.injEq] at hn
      rw [hn.1, hn.2] at h
      simp only [ne_eq, not_true, or_false] at h
      rw [segPat_lit hc]; simp [matchRoute, h]
  induction ps with
  | nil =>
    intro p s ss args hwf hno hacc
    cases ss with
    | nil =>
      have h1 := hno 1 (by omega)
      have h2 := accept p s [] (hwf p (by simp)) hacc [] []
      simp only [List.map_cons, List.map_nil, List.take_succ_cons, List.take_zero] at h1
      rw [h1] at h2
      simp [matchRoute] at h2
    | cons t ts => rfl
  | cons q qs ih =>
    intro p s ss args hwf hno hacc
    have hsome := accept p s (q :: qs) (hwf p (by simp)) hacc
    cases ss with
    | nil =>
      have h1 := hno 1 (by omega)
      have h2 := hsome [] []
      simp only [List.map_cons, List.take_succ_cons, List.take_zero] at h1
      rw [h1] at h2
      simp [matchRoute] at h2
    | cons t ts =>
      simp only [newChain, candsAt, Node.children]
      have hno' : ∀ k, 0 < k → matchRoute (((q :: qs).map segPat).take k) (t :: ts) = none := by
        intro k hk
        have h1 := hno (k + 1) (by omega)
        have h2 := hsome (((q :: qs).map segPat).take k) (t :: ts)
        rw [List.map_cons, List.take_succ_cons] at h1
        rw [h1] at h2
        simpa using h2.symm
      have := childCands_cons t ts args (newChain m set q qs) []
      unfold childCands at this
      rw [this]
      split
      · rename_i h
        rw [ih q t ts _ (fun x hx => hwf x (by simp [List.mem_cons.1 hx])) hno' h]
        rfl
      · rfl

theorem candsAt_children {n n' : Node σ} (h : n.children = n'.children) (s : Str) (ss : List Str) (a : Args) :
    candsAt (s :: ss) n a = candsAt (s :: ss) n' a := by
  simp only [candsAt, h]

theorem addRec_frame (m : Method) (set : Option σ) (ps : List Str) : ∀ (p : Str) (n : Node σ) (s : Str) (ss : List Str),
    n.urlId = [] → NamedT n → (∀ q ∈ p :: ps, WFSeg false q) →
    (∀ k, 0 < k → matchRoute (((p :: ps).map segPat).take k) (s :: ss) = none) →
    ∀ args, candsAt (s :: ss) (addRec m set p ps n) args = candsAt (s :: ss) n args := by
  have lit : ∀ (p : Str) (np : Str) (nh : Handlers σ) (nc : List (Node σ)), NamedT (.mk np [] nh nc) → WFSeg false p →
      ∀ c ∈ nc, c.path = p → c.urlId = [] ∧ segPat p = .lit p := by
    intro p np nh nc hn hp c hc hcp
    obtain ⟨h1, h2⟩ := hn.lit (c := c) hc (by rw [hcp]; exact hp)
    exact ⟨h1, segPat_lit (by rw [← hcp]; exact h2)⟩
  induction ps with
  | nil =>
    intro p n s ss hu hn hwf hno args
    obtain ⟨np, nu, nh, nc⟩ := n
    simp only [Node.urlId] at hu; subst hu
    rw [addRec_eq_insChild]
    simp only [candsAt, Node.children]
    refine insChild_frame p s ss args _ _ (newChain_frame m set [] p s ss _ hwf hno) nc
      (fun c hc hcp => (lit p np nh nc hn (hwf p (by simp)) c hc hcp).1) ?_
    intro c hc hcp
    obtain ⟨h1, h2⟩ := lit p np nh nc hn (hwf p (by simp)) c hc hcp
    refine ⟨hcp, h1, ?_⟩
    intro hps a
    cases ss with
    | nil =>
      have h3 := hno 1 (by omega)
      rw [List.map_cons, List.take_succ_cons, h2, hps] at h3
      simp [matchRoute] at h3
    | cons t ts => exact candsAt_children rfl t ts a
  | cons q qs ih =>
    intro p n s ss hu hn hwf hno args
    obtain ⟨np, nu, nh, nc⟩ := n
    simp only [Node.urlId] at hu; subst hu
    rw [addRec_eq_insChild]
    simp only [candsAt, Node.children]
    refine insChild_frame p s ss args _ _ (newChain_frame m set (q :: qs) p s ss _ hwf hno) nc
      (fun c hc hcp => (lit p np nh nc hn (hwf p (by simp)) c hc hcp).1) ?_
    intro c hc hcp
    obtain ⟨h1, h2⟩ := lit p np nh nc hn (hwf p (by simp)) c hc hcp
    refine ⟨by rw [(addRec_names _ _ _ _ _).1, hcp], by rw [(addRec_names _ _ _ _ _).2, h1], ?_⟩
    intro hps a
    cases ss with
    | nil =>
      have h3 := hno 1 (by omega)
      rw [List.map_cons, List.take_succ_cons, h2, hps] at h3
      simp [matchRoute] at h3
    | cons t ts =>
      refine ih q c t ts h1 (hn.child hc) (fun x hx => hwf x (by simp [List.mem_cons.1 hx])) ?_ a
      intro k hk
      have h3 := hno (k + 1) (by omega)
      rw [List.map_cons, List.take_succ_cons, h2, hps] at h3
      simpa [matchRoute] using h3

/-- A clean route leaves the lookup of every path that none of its prefixes matches unchanged, whatever the tree. -/
theorem treeAdd_frame (hist : List (Reg σ)) (m : Method) (route : Str) (set : Option σ)
    (hwf : ∀ q ∈ segs route, WFSeg false q) (m' : Method) (path : Str) (buf : Args)
    (hno : ∀ k, (0 < k ∨ segs route = []) → matchRoute (((segs route).map segPat).take k) (segs path) = none) :
    treeFind (treeAdd (treeOf hist) m route set) m' path buf = treeFind (treeOf hist) m' path buf := by
  have htop := treeOf_top hist
  rw [treeFind_eq, treeFind_eq]
  congr 1
  have hp : (treeAdd (treeOf hist) m route set).path = (treeOf hist).path ∧
      (treeAdd (treeOf hist) m route set).urlId = (treeOf hist).urlId := treeAdd_top _ _ _ _
  rw [hp.1, hp.2]
  have hb : bindSeg (treeAdd (treeOf hist) m route set) [47] [] = bindSeg (treeOf hist) [47] [] := by
    unfold bindSeg; rw [hp.2]
  rw [hb]
  cases hr : segs route with
  | nil =>
    rw [hr] at hno
    have hadd : (treeAdd (treeOf hist) m route set).children = (treeOf hist).children := by
      unfold treeAdd; rw [splitPath_eq, hr]; rfl
    cases hs : segs path with
    | nil =>
      have := hno 0 (Or.inr rfl)
      rw [hs] at this
      simp [matchRoute] at this
    | cons s ss =>
      rw [if_neg (List.cons_ne_nil s ss), if_neg (List.cons_ne_nil s ss), candsAt_children hadd]
  | cons p ps =>
    have hadd : treeAdd (treeOf hist) m route set = addRec m set p ps (treeOf hist) := by
      unfold treeAdd; rw [splitPath_eq, hr]
    cases hs : segs path with
    | nil =>
      rw [if_pos rfl, if_pos rfl]
      have : (treeAdd (treeOf hist) m route set).handlers = (treeOf hist).handlers := by
        rw [hadd]
        generalize treeOf hist = n
        obtain ⟨np, nu, nh, nc⟩ := n
        cases ps with
        | nil => simp only [addRec]; split <;> rfl
        | cons q qs => simp only [addRec]; split <;> rfl
      rw [this]
    | cons s ss =>
      rw [if_neg (List.cons_ne_nil s ss), if_neg (List.cons_ne_nil s ss), hadd,
        addRec_frame m set ps p (treeOf hist) s ss htop.2 (treeOf_named hist) (by rw [← hr]; exact hwf)]
      intro k hk
      have := hno k (Or.inl hk)
      rwa [hr, hs] at this

end Verif
