import Verif.Spec.Rename
import Verif.Lemmas.TreeFind
import Verif.Lemmas.TreeAdd
/-
Respelled routes make trees of the same shape.
-/
namespace Verif
open Spec
set_option linter.unusedVariables false

section
variable {α β γ δ : Type}

theorem Spec.All2.imp {R S : α → β → Prop} (h : ∀ a b, R a b → S a b) {l : List α} {l' : List β} (hl : All2 R l l') : All2 S l l' := by
  induction hl with
  | nil => exact .nil
  | cons hab _ ih => exact .cons (h _ _ hab) ih

theorem Spec.All2.length {R : α → β → Prop} {l : List α} {l' : List β} (hl : All2 R l l') : l.length = l'.length := by
  induction hl with
  | nil => rfl
  | cons _ _ ih => simp [ih]

theorem Spec.All2.append {R : α → β → Prop} {l k : List α} {l' k' : List β} (hl : All2 R l l') (hk : All2 R k k') :
    All2 R (l ++ k) (l' ++ k') := by
  induction hl with
  | nil => exact hk
  | cons hab _ ih => exact .cons hab ih

theorem Spec.All2.mapIdx {R : α → β → Prop} {S : γ → δ → Prop} {l : List α} {l' : List β} (hl : All2 R l l') :
    ∀ (g : Nat → α → γ) (g' : Nat → β → δ), (∀ i a b, R a b → S (g i a) (g' i b)) → All2 S (l.mapIdx g) (l'.mapIdx g') := by
  induction hl with
  | nil => intro g g' _; exact .nil
  | cons hab _ ih =>
    intro g g' h
    rw [List.mapIdx_cons, List.mapIdx_cons]
    exact .cons (h 0 _ _ hab) (ih _ _ fun i a b => h (i + 1) a b)

theorem Spec.All2.map_iff {R : γ → δ → Prop} (g : α → γ) (g' : β → δ) : ∀ (l : List α) (l' : List β),
    All2 R (l.map g) (l'.map g') → All2 (fun a b => R (g a) (g' b)) l l' := by
  intro l
  induction l with
  | nil => intro l' h; cases l' with
    | nil => exact .nil
    | cons => cases h
  | cons a l ih => intro l' h; cases l' with
    | nil => cases h
    | cons b l' => cases h with | cons h1 h2 => exact .cons h1 (ih l' h2)

end

variable {σ : Type}

/-- The names of the parameters of two nodes: none, or related. -/
def UrlSim (N : Str → Str → Prop) (u u' : Str) : Prop := (u = [] ↔ u' = []) ∧ (u ≠ [] → N u u')

/-- The second node is the first one respelled. -/
inductive Sim (f : Str → Str) (N : Str → Str → Prop) : Node σ → Node σ → Prop
  | mk {p p' u u' : Str} {h : Handlers σ} {cs cs' : List (Node σ)} : p' = f p → p.head? ≠ some 58 → p'.head? ≠ some 58 →
      UrlSim N u u' → All2 (Sim f N) cs cs' → Sim f N (.mk p u h cs) (.mk p' u' h cs')

/-- The same of two segments of routes. -/
def SegSim (f : Str → Str) (N : Str → Str → Prop) (s s' : Str) : Prop := Respelled f N (segPat s) (segPat s')

/-- The two cases of related segments. -/
theorem SegSim.cases {f : Str → Str} {N : Str → Str → Prop} (hN : Naming N) {s s' : Str} (h : SegSim f N s s') :
    (s.head? ≠ some 58 ∧ s'.head? ≠ some 58 ∧ s' = f s) ∨
    (s.head? = some 58 ∧ s'.head? = some 58 ∧ UrlSim N (s.dropWhile (· == 58)) (s'.dropWhile (· == 58))) := by
  unfold SegSim at h
  by_cases h1 : s.head? = some 58 <;> by_cases h2 : s'.head? = some 58
  · rw [segPat_colon h1, segPat_colon h2] at h
    cases h with | par _ _ hn => exact Or.inr ⟨h1, h2, hN _ _ hn, fun _ => hn⟩
  · rw [segPat_colon h1, segPat_lit h2] at h; cases h
  · rw [segPat_lit h1, segPat_colon h2] at h; cases h
  · rw [segPat_lit h1, segPat_lit h2] at h
    refine Or.inl ⟨h1, h2, ?_⟩
    cases h; rfl

/-- A fresh node. -/
theorem sim_fresh {f : Str → Str} {N : Str → Str → Prop} (hf : Spelling f) (hN : Naming N) {s s' : Str} (hs : SegSim f N s s') {h : Handlers σ} {cs cs' : List (Node σ)}
    (hc : All2 (Sim f N) cs cs') :
    Sim f N (.mk (getUrlID s).1 (getUrlID s).2 h cs) (.mk (getUrlID s').1 (getUrlID s').2 h cs') := by
  rcases hs.cases hN with ⟨h1, h2, h3⟩ | ⟨h1, h2, h3⟩
  · rw [getUrlID_lit h1, getUrlID_lit h2]; exact .mk h3 h1 h2 ⟨Iff.rfl, fun h => absurd rfl h⟩ hc
  · rw [getUrlID_colon h1, getUrlID_colon h2]; exact .mk hf.2.symm (by simp) (by simp) h3 hc

theorem newChain_sim {f : Str → Str} {N : Str → Str → Prop} (hf : Spelling f) (hN : Naming N) (m : Method) (set : Option σ) {ps ps' : List Str} (hps : All2 (SegSim f N) ps ps') :
    ∀ {p p' : Str}, SegSim f N p p' → Sim f N (newChain m set p ps) (newChain m set p' ps') := by
  induction hps with
  | nil => intro p p' hp; exact sim_fresh hf hN hp .nil
  | cons hq _ ih => intro p p' hp; exact sim_fresh hf hN hp (.cons (ih hq) .nil)

theorem sim_path_eq {f : Str → Str} {N : Str → Str → Prop} (hf : Spelling f) (hN : Naming N) {s s' : Str} (hs : SegSim f N s s') {c c' : Node σ} (hc : Sim f N c c') :
    c.path = s ↔ c'.path = s' := by
  cases hc with
  | @mk p p' _ _ _ _ _ hp h1 h2 _ _ =>
    simp only [Node.path]
    rcases hs.cases hN with ⟨g1, g2, g3⟩ | ⟨g1, g2, _⟩
    · subst hp g3
      exact ⟨fun h => by rw [h], fun h => hf.1 _ _ h⟩
    · exact ⟨fun h => absurd (h ▸ g1) h1, fun h => absurd (h ▸ g2) h2⟩

theorem nextNodes_sim {f : Str → Str} {N : Str → Str → Prop} (hf : Spelling f) (hN : Naming N) {s s' : Str} (hs : SegSim f N s s') {u u' : Str} (hu : u = [] ↔ u' = [])
    {cs cs' : List (Node σ)} (hc : All2 (Sim f N) cs cs') : nextNodes s u cs = nextNodes s' u' cs' := by
  have hfi : cs.findIdx? (fun c => c.path = s) = cs'.findIdx? (fun c => c.path = s') := by
    induction hc with
    | nil => rfl
    | cons hab _ ih =>
      have := sim_path_eq hf hN hs hab
      simp only [List.findIdx?_cons, ih, this]
  unfold nextNodes
  rw [hfi, hc.length]
  by_cases h : u = []
  · simp [h, hu.1 h]
  · rw [if_pos h, if_pos fun h' => h (hu.2 h')]

/-- The parts of a node that `_add` does not change, and the children. -/
theorem addRec_parts (m : Method) (set : Option σ) (p : Str) (ps : List Str) (n : Node σ) :
    (addRec m set p ps n).path = n.path ∧ (addRec m set p ps n).urlId = n.urlId ∧ (addRec m set p ps n).handlers = n.handlers := by
  obtain ⟨np, nu, nh, nc⟩ := n
  cases ps <;> simp only [addRec] <;> split <;> exact ⟨rfl, rfl, rfl⟩

theorem node_eta (n : Node σ) : n = .mk n.path n.urlId n.handlers n.children := by cases n; rfl

theorem addRec_sim {f : Str → Str} {N : Str → Str → Prop} (hf : Spelling f) (hN : Naming N) (m : Method) (set : Option σ) {ps ps' : List Str} (hps : All2 (SegSim f N) ps ps') :
    ∀ {p p' : Str}, SegSim f N p p' → ∀ {n n' : Node σ}, (n.urlId = [] ↔ n'.urlId = []) → All2 (Sim f N) n.children n'.children →
      All2 (Sim f N) (addRec m set p ps n).children (addRec m set p' ps' n').children := by
  induction hps with
  | nil =>
    intro p p' hp n n' hu hc
    obtain ⟨np, nu, nh, nc⟩ := n
    obtain ⟨np', nu', nh', nc'⟩ := n'
    simp only [Node.urlId, Node.children] at hu hc
    simp only [addRec, nextNodes_sim hf hN hp hu hc]
    split
    · exact hc.append (.cons (newChain_sim hf hN m set .nil hp) .nil)
    · refine hc.mapIdx _ _ ?_
      intro i a b hab
      split
      · cases hab with | mk h1 h2 h3 h4 h5 => exact .mk h1 h2 h3 h4 h5
      · exact hab
  | @cons q q' qs qs' hq hqs ih =>
    intro p p' hp n n' hu hc
    obtain ⟨np, nu, nh, nc⟩ := n
    obtain ⟨np', nu', nh', nc'⟩ := n'
    simp only [Node.urlId, Node.children] at hu hc
    simp only [addRec, nextNodes_sim hf hN hp hu hc]
    split
    · exact hc.append (.cons (newChain_sim hf hN m set (.cons hq hqs) hp) .nil)
    · refine hc.mapIdx _ _ ?_
      intro i a b hab
      split
      · have e := addRec_parts m set q qs a
        have e' := addRec_parts m set q' qs' b
        rw [node_eta (addRec m set q qs a), node_eta (addRec m set q' qs' b), e.1, e.2.1, e.2.2, e'.1, e'.2.1, e'.2.2]
        cases hab with
        | mk h1 h2 h3 h4 h5 => exact .mk h1 h2 h3 h4 (ih hq h4.1 h5)
      · exact hab

/-- The second tree is the first one respelled. -/
structure RootSim (f : Str → Str) (N : Str → Str → Prop) (t t' : Node σ) : Prop where
  path : t.path = [47]
  path' : t'.path = [47]
  url : t.urlId = []
  url' : t'.urlId = []
  handlers : t.handlers = t'.handlers
  children : All2 (Sim f N) t.children t'.children

theorem treeAdd_sim {f : Str → Str} {N : Str → Str → Prop} (hf : Spelling f) (hN : Naming N) {t t' : Node σ} (ht : RootSim f N t t') (m : Method) (set : Option σ) {r r' : Str}
    (hr : All2 (SegSim f N) (segs r) (segs r')) : RootSim f N (treeAdd t m r set) (treeAdd t' m r' set) := by
  unfold treeAdd
  rw [splitPath_eq, splitPath_eq]
  generalize segs r = ss at hr ⊢
  generalize segs r' = ss' at hr ⊢
  cases hr with
  | nil => exact ⟨ht.path, ht.path', ht.url, ht.url', by show addMethod m t.handlers set = addMethod m t'.handlers set; rw [ht.handlers], ht.children⟩
  | @cons q q' qs qs' hq hqs =>
    have e := addRec_parts m set q qs t
    have e' := addRec_parts m set q' qs' t'
    refine ⟨e.1.trans ht.path, e'.1.trans ht.path', e.2.1.trans ht.url, e'.2.1.trans ht.url', ?_, ?_⟩
    · show (addRec _ _ _ _ _).handlers = _; rw [e.2.2, e'.2.2, ht.handlers]
    · exact addRec_sim hf hN m set hqs hq (by rw [ht.url, ht.url']) ht.children

/-- The two registrations are the same up to spelling. -/
def SameReg (f : Str → Str) (N : Str → Str → Prop) (r r' : Reg σ) : Prop :=
  r.method = r'.method ∧ r.set = r'.set ∧ All2 (SegSim f N) (segs r.route) (segs r'.route)

theorem treeOf_sim {f : Str → Str} {N : Str → Str → Prop} (hf : Spelling f) (hN : Naming N) {hist hist' : List (Reg σ)} (h : All2 (SameReg f N) hist hist') :
    RootSim f N (treeOf hist) (treeOf hist') := by
  have key : ∀ {hist hist' : List (Reg σ)}, All2 (SameReg f N) hist hist' → ∀ {t t' : Node σ}, RootSim f N t t' →
      RootSim f N (hist.foldl (fun t r => treeAdd t r.method r.route (some r.set)) t)
        (hist'.foldl (fun t r => treeAdd t r.method r.route (some r.set)) t') := by
    intro hist hist' h
    induction h with
    | nil => intro t t' ht; exact ht
    | @cons r r' _ _ hr _ ih =>
      intro t t' ht
      simp only [List.foldl_cons]
      refine ih ?_
      rw [← hr.1, ← hr.2.1]
      exact treeAdd_sim hf hN ht _ _ hr.2.2
  exact key h ⟨rfl, rfl, rfl, rfl, rfl, .nil⟩

/-- The candidates of a lookup. -/
def CandSim (f : Str → Str) (N : Str → Str → Prop) (c c' : Handlers σ × Args) : Prop := c'.1 = c.1 ∧ SameParams f N c.2 c'.2

theorem Spec.All2.flatMap {α β γ δ : Type} {R : α → β → Prop} {S : γ → δ → Prop} {l : List α} {l' : List β} (hl : All2 R l l')
    (g : α → List γ) (g' : β → List δ) (h : ∀ a b, R a b → All2 S (g a) (g' b)) : All2 S (l.flatMap g) (l'.flatMap g') := by
  induction hl with
  | nil => exact .nil
  | cons hab _ ih => simp only [List.flatMap_cons]; exact (h _ _ hab).append ih

theorem Spec.All2.filter {α β : Type} {R : α → β → Prop} {l : List α} {l' : List β} (hl : All2 R l l')
    (p : α → Bool) (p' : β → Bool) (h : ∀ a b, R a b → p a = p' b) : All2 R (l.filter p) (l'.filter p') := by
  induction hl with
  | nil => exact .nil
  | @cons a b _ _ hab _ ih =>
    have := h _ _ hab
    by_cases hp : p a = true
    · rw [List.filter_cons_of_pos hp, List.filter_cons_of_pos (this ▸ hp)]; exact .cons hab ih
    · rw [List.filter_cons_of_neg hp, List.filter_cons_of_neg (this ▸ hp)]; exact ih

theorem candsAt_sim {f : Str → Str} {N : Str → Str → Prop} (hf : Spelling f) (hN : Naming N) (ss : List Str) : ∀ {n n' : Node σ} {a a' : Args}, n.handlers = n'.handlers →
    All2 (Sim f N) n.children n'.children → SameParams f N a a' →
    All2 (CandSim f N) (candsAt ss n a) (candsAt (ss.map f) n' a') := by
  induction ss with
  | nil => intro n n' a a' hh _ ha; exact .cons ⟨hh.symm, ha⟩ .nil
  | cons q qs ih =>
    intro n n' a a' _ hc ha
    simp only [List.map_cons, candsAt]
    refine (hc.filter _ _ ?_).flatMap _ _ ?_
    · intro c c' h
      cases h with
      | @mk p p' u u' _ _ _ h1 _ _ h4 _ =>
        subst h1
        have e1 : p = q ↔ f p = f q := ⟨fun h => by rw [h], hf.1 _ _⟩
        simp only [Node.path, Node.urlId, e1, ne_eq, h4.1]; rfl
    · intro c c' h
      cases h with
      | @mk p p' u u' _ _ _ h1 _ _ h4 h5 =>
        refine ih rfl h5 ?_
        simp only [bindSeg, Node.urlId]
        by_cases hu : u = []
        · have hu' := h4.1.1 hu
          subst hu hu'
          exact ha
        · have hu' : u' ≠ [] := fun h => hu (h4.1.2 h)
          have e : (if u ≠ [] then a ++ [(u, q)] else a) = a ++ [(u, q)] := if_pos hu
          have e' : (if u' ≠ [] then a' ++ [(u', f q)] else a') = a' ++ [(u', f q)] := if_pos hu'
          show SameParams f N (if u ≠ [] then a ++ [(u, q)] else a) (if u' ≠ [] then a' ++ [(u', f q)] else a')
          rw [e, e']
          exact All2.append ha (.cons ⟨h4.2 hu, rfl⟩ .nil)

/-- The results of two lookups. -/
def ResSim (f : Str → Str) (N : Str → Str → Prop) (r r' : FindResult σ) : Prop :=
  r'.set = r.set ∧ r'.found = r.found ∧ SameParams f N r.args r'.args

theorem decideFirst_sim {f : Str → Str} {N : Str → Str → Prop} (m : Method) {l l' : List (Handlers σ × Args)} (h : All2 (CandSim f N) l l') :
    ResSim f N (decideFirst m [] l) (decideFirst m [] l') := by
  cases h with
  | nil => exact ⟨rfl, rfl, .nil⟩
  | @cons c c' _ _ hc _ =>
    obtain ⟨h, a⟩ := c
    obtain ⟨h', a'⟩ := c'
    obtain ⟨h1, h2⟩ := hc
    simp only at h1 h2
    subst h1
    simp only [decideFirst]
    split
    · exact ⟨rfl, rfl, h2⟩
    · exact ⟨rfl, rfl, .nil⟩

theorem treeFind_sim {f : Str → Str} {N : Str → Str → Prop} (hf : Spelling f) (hN : Naming N) {t t' : Node σ} (ht : RootSim f N t t') (m : Method) {path path' : Str}
    (hp : segs path' = (segs path).map f) (buf buf' : Args) :
    ∃ r r', treeFind t m path buf = .ret r ∧ treeFind t' m path' buf' = .ret r' ∧ ResSim f N r r' := by
  refine ⟨_, _, treeFind_eq .., treeFind_eq .., ?_⟩
  rw [hp]
  generalize segs path = ss
  cases ss with
  | nil =>
    simp only [List.map_nil, if_true]
    rw [ht.handlers]
    exact decideFirst_sim m (.cons ⟨rfl, .nil⟩ .nil)
  | cons q qs =>
    rw [if_neg (List.cons_ne_nil q qs), if_neg (by simp : ¬ (q :: qs).map f = []), if_neg (fun h => h.2 ht.path), if_neg (fun h => h.2 ht.path')]
    refine decideFirst_sim m (candsAt_sim hf hN (q :: qs) ht.handlers ht.children ?_)
    simp only [bindSeg, ht.url, ht.url']; exact .nil

end Verif
