import Verif.Props.Heap
import Verif.Spec.Builders
/-
The refinement of value semantics by the heap model, for programs without clones (C34).
-/
namespace Verif
open Spec
set_option linter.unusedSectionVars false
set_option linter.unusedSimpArgs false
variable {η ρ : Type} [Inhabited η] [DecidableEq ρ]

/-- The registered addresses. -/
def registered (w : World η ρ) (a : Nat) : Prop := (∃ r ∈ w.log, r.set = a) ∨ ∃ r ∈ w.rxLog, r.set = a

/-- The abstraction relation. -/
structure Rel (nc : Bool) (w : World η ρ) (v : Values η ρ) : Prop where
  wf : WF w
  sets : ∀ j, setView w j = v.sets[j]?
  rts : ∀ r, routerView w r = v.routers[r]?
  log : w.log.map (fun r => (r.method, r.route, setHandlers w r.set)) = v.routes.map fun x => (x.1, x.2.1, some x.2.2)
  rx : w.rxLog.map (fun r => (r.method, r.rx, setHandlers w r.set)) = v.rxRoutes.map fun x => (x.1, x.2.1, some x.2.2)
  excl : ∀ (j k b b' : Nat) (s s' : HSet η), j ≠ k → w.setVars[j]? = some b → w.setVars[k]? = some b' →
    w.sets[b]? = some s → w.sets[b']? = some s' → s.before.arr ≠ s'.before.arr ∧ s.after.arr ≠ s'.after.arr
  rexcl : nc = true → ∀ (i k : Nat) (r r' : RouterRec η), w.routers[i]? = some r → w.routers[k]? = some r' →
    (i ≠ k → r.after.arr ≠ r'.after.arr) ∧ r.after.arr ≠ r'.before.arr
  sealed : ∀ a, registered w a → ∃ s u, Sealed (fun _ => True) w a s u

theorem rel_init (nc : Bool) : Rel nc (World.init : World η ρ) Values.init where
  wf := wf_init
  sets := fun j => by simp [setView, World.init, Values.init]
  rts := fun j => by simp [routerView, World.init, Values.init]
  log := rfl
  rx := rfl
  excl := by intro j k b b' s s' _ h; simp [World.init] at h
  rexcl := by intro _ i k r r' h; simp [World.init] at h
  sealed := by intro a h; simp [registered, World.init] at h

section
variable {nc : Bool} {w : World η ρ} {v : Values η ρ}

/-- A registered set shows the same after any call. -/
theorem Rel.keep (h : Rel nc w v) (grow : Nat → Nat → Nat) (o : Op η ρ) {a : Nat} (ha : registered w a) :
    setHandlers (step grow w o).1 a = setHandlers w a ∧
    ∃ s u, Sealed (fun _ => True) (step grow w o).1 a s u := by
  obtain ⟨s, u, hs⟩ := h.sealed a ha
  have hs' := hs.step grow o fun _ _ => trivial
  exact ⟨hs'.view.trans hs.view.symm, s, u, hs'⟩

/-- A call that registers nothing. -/
theorem Rel.quiet (h : Rel nc w v) (grow : Nat → Nat → Nat) (o : Op η ρ) {v' : Values η ρ}
    (h1 : (step grow w o).1.log = w.log) (h2 : (step grow w o).1.rxLog = w.rxLog)
    (e1 : v'.routes = v.routes) (e2 : v'.rxRoutes = v.rxRoutes)
    (hs : ∀ j, setView (step grow w o).1 j = v'.sets[j]?)
    (hr : ∀ r, routerView (step grow w o).1 r = v'.routers[r]?)
    (hx : ∀ (j k b b' : Nat) (s s' : HSet η), j ≠ k → (step grow w o).1.setVars[j]? = some b → (step grow w o).1.setVars[k]? = some b' →
      (step grow w o).1.sets[b]? = some s → (step grow w o).1.sets[b']? = some s' →
      s.before.arr ≠ s'.before.arr ∧ s.after.arr ≠ s'.after.arr)
    (hrx : nc = true → ∀ (i k : Nat) (r r' : RouterRec η), (step grow w o).1.routers[i]? = some r → (step grow w o).1.routers[k]? = some r' →
      (i ≠ k → r.after.arr ≠ r'.after.arr) ∧ r.after.arr ≠ r'.before.arr) :
    Rel nc (step grow w o).1 v' where
  wf := h.wf.step grow o
  sets := hs
  rts := hr
  log := by
    rw [h1, e1, ← h.log]
    exact List.map_congr_left fun r hr => by rw [(h.keep grow o (Or.inl ⟨r, hr, rfl⟩)).1]
  rx := by
    rw [h2, e2, ← h.rx]
    exact List.map_congr_left fun r hr => by rw [(h.keep grow o (Or.inr ⟨r, hr, rfl⟩)).1]
  excl := hx
  rexcl := hrx
  sealed := by
    intro a ha
    have : registered w a := by simpa only [registered, h1, h2] using ha
    exact (h.keep grow o this).2

/-- Views of sets when variables, sets and their cells are untouched. -/
theorem setView_same {w w' : World η ρ} (hwf : WF w) (h1 : w'.setVars = w.setVars)
    (h2 : ∀ b, b < w.sets.length → w'.sets[b]? = w.sets[b]?)
    (h3 : ∀ z, z.arr < w.arrs.length → cells w'.arrs z = cells w.arrs z) (j : Nat) : setView w' j = setView w j := by
  unfold setView
  rw [h1]
  cases hj : w.setVars[j]? with
  | none => rfl
  | some b =>
    have hb := hwf.vars b (List.mem_of_getElem? hj)
    simp only [Option.bind_some, setHandlers, h2 b hb]
    have hs : w.sets[b]? = some w.sets[b] := by simp [hb]
    have := hwf.sets _ (List.mem_of_getElem? hs)
    rw [hs]
    simp only [Option.map_some, h3 _ this.1.arr, h3 _ this.2.arr]

theorem routerView_same {w w' : World η ρ} (hwf : WF w) (r : Nat) (h1 : w'.routers[r]? = w.routers[r]?)
    (h3 : ∀ z, z.arr < w.arrs.length → cells w'.arrs z = cells w.arrs z) : routerView w' r = routerView w r := by
  unfold routerView
  rw [h1]
  cases hr : w.routers[r]? with
  | none => rfl
  | some rt =>
    have := hwf.rts _ (List.mem_of_getElem? hr)
    simp only [Option.map_some, h3 _ this.1.arr, h3 _ this.2.arr]

theorem excl_same {w w' : World η ρ} (h : Rel nc w v) (h1 : w'.setVars = w.setVars)
    (h2 : ∀ b, b < w.sets.length → ∀ s' : HSet η, w'.sets[b]? = some s' → ∃ s : HSet η, w.sets[b]? = some s ∧ s.before = s'.before ∧ s.after = s'.after) :
    ∀ (j k b b' : Nat) (s s' : HSet η), j ≠ k → w'.setVars[j]? = some b → w'.setVars[k]? = some b' →
    w'.sets[b]? = some s → w'.sets[b']? = some s' → s.before.arr ≠ s'.before.arr ∧ s.after.arr ≠ s'.after.arr := by
  intro j k b b' s s' hjk hb hb' hs hs'
  rw [h1] at hb hb'
  obtain ⟨t, ht, e1, e2⟩ := h2 b (h.wf.vars b (List.mem_of_getElem? hb)) s hs
  obtain ⟨t', ht', e1', e2'⟩ := h2 b' (h.wf.vars b' (List.mem_of_getElem? hb')) s' hs'
  rw [← e1, ← e2, ← e1', ← e2']
  exact h.excl j k b b' t t' hjk hb hb' ht ht'

theorem Rel.sets_length (h : Rel nc w v) : v.sets.length = w.setVars.length := by
  have h1 : ∀ j : Nat, (v.sets[j]?).isSome = (w.setVars[j]?).isSome := by
    intro j
    rw [← h.sets j]
    unfold setView
    cases hj : w.setVars[j]? with
    | none => rfl
    | some b =>
      have hb := h.wf.vars b (List.mem_of_getElem? hj)
      simp [setHandlers, hb]
  rcases Nat.lt_trichotomy v.sets.length w.setVars.length with hl | hl | hl
  · have := h1 v.sets.length; simp [hl] at this
  · exact hl
  · have := h1 w.setVars.length; simp [hl] at this

theorem Rel.rts_length (h : Rel nc w v) : v.routers.length = w.routers.length := by
  have h1 : ∀ j : Nat, (v.routers[j]?).isSome = (w.routers[j]?).isSome := by
    intro j
    rw [← h.rts j]
    simp [routerView]
  rcases Nat.lt_trichotomy v.routers.length w.routers.length with hl | hl | hl
  · have := h1 v.routers.length; simp [hl] at this
  · exact hl
  · have := h1 w.routers.length; simp [hl] at this

/-- Adding to the end of a list of variables. -/
theorem getElem?_push {α β : Type} {l : List α} {l' : List β} (hlen : l.length = l'.length) {f : Nat → Option α}
    (hf : ∀ j, j < l'.length → f j = l[j]?) {x : α} (hx : f l'.length = some x)
    (hout : ∀ j, l'.length < j → f j = none) (j : Nat) : f j = (l ++ [x])[j]? := by
  rcases Nat.lt_trichotomy j l'.length with h | h | h
  · rw [List.getElem?_append_left (by omega)]; exact hf j h
  · subst h; rw [hx, ← hlen, List.getElem?_concat_length]
  · rw [hout j h, List.getElem?_eq_none (by simp; omega)]

/-- One set is replaced (variable `j`), its arrays changed only by appending through one of its own
slices. -/
theorem setView_upd {w w' : World η ρ} (h : Rel nc w v) {j b : Nat} (hj : w.setVars[j]? = some b)
    (h1 : w'.setVars = w.setVars) (h2 : ∀ c, c ≠ b → w'.sets[c]? = w.sets[c]?) {f : HView η → HView η}
    (hb : setHandlers w' b = (setHandlers w b).map f)
    (h3 : ∀ (k c : Nat) (s : HSet η), k ≠ j → w.setVars[k]? = some c → w.sets[c]? = some s →
      cells w'.arrs s.before = cells w.arrs s.before ∧ cells w'.arrs s.after = cells w.arrs s.after) (k : Nat) :
    setView w' k = (upd v.sets j f)[k]? := by
  unfold upd
  rw [List.getElem?_modify]
  simp only [Option.map_eq_map, ← h.sets k]
  unfold setView
  rw [h1]
  by_cases e : j = k
  · subst e
    simp only [hj, Option.bind_some, if_true, hb]
  · cases hk : w.setVars[k]? with
    | none => rfl
    | some c =>
      have hc : c ≠ b := by
        intro ec; subst ec
        have h5 := (List.getElem?_eq_some_iff.1 hj).1
        exact e ((List.getElem?_inj h5 h.wf.nodup).1 (hj.trans hk.symm))
      simp only [Option.bind_some, setHandlers, h2 c hc, if_neg e]
      cases hs : w.sets[c]? with
      | none => rfl
      | some s =>
        have := h3 k c s (fun e' => e e'.symm) hk hs
        simp only [Option.map_some, this.1, this.2]

end

/-- Tactic-free helper: `upd` of a missing variable. -/
theorem upd_none {α : Type} {l : List α} {i : Nat} {f : α → α} (h : l[i]? = none) : upd l i f = l := by
  unfold upd
  apply List.ext_getElem?
  intro k
  rw [List.getElem?_modify]
  by_cases e : i = k
  · subst e; simp [h]
  · simp [e]

theorem setVars_none {nc : Bool} {w : World η ρ} {v : Values η ρ} (h : Rel nc w v) {j : Nat} :
    w.setVars[j]? = none → v.sets[j]? = none := by
  intro hj
  rw [← h.sets j]; simp [setView, hj]

theorem routers_none {nc : Bool} {w : World η ρ} {v : Values η ρ} (h : Rel nc w v) {j : Nat} :
    w.routers[j]? = none → v.routers[j]? = none := by
  intro hj
  rw [← h.rts j]; simp [routerView, hj]

theorem modify_eq_set {α : Type} {l : List α} {i : Nat} {x : α} (f : α → α) (h : l[i]? = some x) :
    l.modify i f = l.set i (f x) := by
  have hlt := (List.getElem?_eq_some_iff.1 h).1
  have hx := (List.getElem?_eq_some_iff.1 h).2
  apply List.ext_getElem?
  intro k
  rw [List.getElem?_modify, List.getElem?_set]
  by_cases e : i = k
  · subst e; simp [hlt, hx]
  · simp [e]

/-- One router is replaced. -/
theorem routerView_upd {nc : Bool} {w w' : World η ρ} {v : Values η ρ} (h : Rel nc w v) {r : Nat} {rt rt' : RouterRec η}
    (hr : w.routers[r]? = some rt) (h1 : w'.routers = w.routers.set r rt') {f : RView η → RView η}
    (hf : (⟨cells w'.arrs rt'.before, cells w'.arrs rt'.after, rt'.last⟩ : RView η) =
      f ⟨cells w.arrs rt.before, cells w.arrs rt.after, rt.last⟩)
    (h3 : ∀ (k : Nat) (q : RouterRec η), k ≠ r → w.routers[k]? = some q →
      cells w'.arrs q.before = cells w.arrs q.before ∧ cells w'.arrs q.after = cells w.arrs q.after) (k : Nat) :
    routerView w' k = (upd v.routers r f)[k]? := by
  have hlt := (List.getElem?_eq_some_iff.1 hr).1
  unfold upd
  rw [List.getElem?_modify]
  simp only [Option.map_eq_map, ← h.rts k]
  unfold routerView
  rw [h1, List.getElem?_set]
  by_cases e : r = k
  · subst e
    simp only [if_true, hlt, hr, Option.map_some, hf]
  · simp only [if_neg e]
    cases hk : w.routers[k]? with
    | none => rfl
    | some q =>
      have := h3 k q (fun e' => e e'.symm) hk
      simp only [Option.map_some, this.1, this.2]

theorem Rel.step {nc : Bool} {w : World η ρ} {v : Values η ρ} (h : Rel nc w v) (grow : Nat → Nat → Nat) (o : Op η ρ)
    (hp : plain o = true) (hnc : nc = true → isRClone o = false) (hnl : nc = false → isLastAfter o = false) :
    Rel nc (step grow w o).1 (vstep rxMethods v o) := by
  have hwf := h.wf
  have noop : ∀ o : Op η ρ, (Verif.step grow w o).1 = w → ∀ v', v' = v → Rel nc (Verif.step grow w o).1 v' := by
    intro o h1 v' h2; rw [h1, h2]; exact h
  have pushcells : ∀ l z, z.arr < w.arrs.length → cells (w.arrs ++ [l]) z = cells w.arrs z :=
    fun l z hz => cells_push _ _ _ hz
  have setsArr : ∀ {b : Nat} {s : HSet η}, w.sets[b]? = some s → s.before.arr < w.arrs.length ∧ s.after.arr < w.arrs.length :=
    fun hb => ⟨(hwf.sets _ (List.mem_of_getElem? hb)).1.arr, (hwf.sets _ (List.mem_of_getElem? hb)).2.arr⟩
  have rtsArr : ∀ {b : Nat} {s : RouterRec η}, w.routers[b]? = some s → s.before.arr < w.arrs.length ∧ s.after.arr < w.arrs.length :=
    fun hb => ⟨(hwf.rts _ (List.mem_of_getElem? hb)).1.arr, (hwf.rts _ (List.mem_of_getElem? hb)).2.arr⟩
  -- appending to one of the slices of a held set
  have appendSet : ∀ (o : Op η ρ) (j b : Nat) (s s' : HSet η) (x : Slice) (xs tmp : List η) (f : HView η → HView η),
      w.setVars[j]? = some b → w.sets[b]? = some s → (x = s.before ∧ s'.after = s.after ∧ s'.before = (appendSlice grow (w.arrs ++ [tmp]) x xs).2
        ∨ x = s.after ∧ s'.before = s.before ∧ s'.after = (appendSlice grow (w.arrs ++ [tmp]) x xs).2) →
      (⟨cells (appendSlice grow (w.arrs ++ [tmp]) x xs).1 s'.before, cells (appendSlice grow (w.arrs ++ [tmp]) x xs).1 s'.after, s'.last, s'.handler⟩ : HView η)
        = f ⟨cells w.arrs s.before, cells w.arrs s.after, s.last, s.handler⟩ →
      (Verif.step grow w o).1 = { w with arrs := (appendSlice grow (w.arrs ++ [tmp]) x xs).1, sets := w.sets.set b s' } →
      Rel nc (Verif.step grow w o).1 { v with sets := upd v.sets j f } := by
    intro o j b s s' x xs tmp f hj hb hx hf hst
    have hblt := (List.getElem?_eq_some_iff.1 hb).1
    have hbm := List.mem_of_getElem? hb
    have other : ∀ z : Slice, z.arr < w.arrs.length → z.arr ≠ x.arr →
        cells (appendSlice grow (w.arrs ++ [tmp]) x xs).1 z = cells w.arrs z := by
      intro z hz hne
      rw [cells_append_other grow _ _ _ _ (by simp; omega) (fun e => absurd e.symm hne), pushcells _ _ hz]
    have sepX : ∀ (k c : Nat) (t : HSet η), k ≠ j → w.setVars[k]? = some c → w.sets[c]? = some t →
        t.before.arr ≠ x.arr ∧ t.after.arr ≠ x.arr := by
      intro k c t hk hc ht
      have he := h.excl k j c b t s hk hc hj ht hb
      have htm := List.mem_of_getElem? ht
      rcases hx with ⟨rfl, _⟩ | ⟨rfl, _⟩
      · exact ⟨he.1, fun e => hwf.sepBA s hbm t htm e.symm⟩
      · exact ⟨hwf.sepBA t htm s hbm, he.2⟩
    have xarr : x.arr < w.arrs.length := by
      rcases hx with ⟨rfl, _⟩ | ⟨rfl, _⟩
      · exact (setsArr hb).1
      · exact (setsArr hb).2
    refine h.quiet grow o (by rw [hst]) (by rw [hst]) rfl rfl ?_ ?_ ?_ ?_
    · intro k
      rw [hst]
      refine setView_upd (w' := { w with arrs := (appendSlice grow (w.arrs ++ [tmp]) x xs).1, sets := w.sets.set b s' }) h hj rfl ?_ ?_ ?_ k
      · intro c hc; simp only [List.getElem?_set, if_neg (fun e => hc e.symm : ¬ b = c)]
      · simp only [setHandlers, List.getElem?_set, if_true, hblt, hb, Option.map_some, hf]
      · intro k c t hk hc ht
        have := sepX k c t hk hc ht
        exact ⟨other _ (setsArr ht).1 this.1, other _ (setsArr ht).2 this.2⟩
    · intro r
      rw [hst, ← h.rts r]
      unfold routerView
      simp only
      cases hr : w.routers[r]? with
      | none => rfl
      | some rt =>
        have hs := hwf.sepR s hbm rt (List.mem_of_getElem? hr)
        have h1 : rt.before.arr ≠ x.arr ∧ rt.after.arr ≠ x.arr := by
          rcases hx with ⟨rfl, _⟩ | ⟨rfl, _⟩
          · exact ⟨hs.1.1, hs.2.1⟩
          · exact ⟨hs.1.2, hs.2.2⟩
        simp only [Option.map_some, other _ (rtsArr hr).1 h1.1, other _ (rtsArr hr).2 h1.2]
    · intro j1 k1 b1 b2 s1 s2 hjk hb1 hb2 hs1 hs2
      rw [hst] at hb1 hb2 hs1 hs2
      simp only at hb1 hb2 hs1 hs2
      have inj : ∀ k c, w.setVars[k]? = some c → c = b → k = j := by
        intro k c hk hc
        subst hc
        exact ((List.getElem?_inj (List.getElem?_eq_some_iff.1 hk).1 hwf.nodup).1 (hk.trans hj.symm))
      have fresh : ∀ (c : Nat) (t : HSet η), w.sets[c]? = some t →
          (∀ k, w.setVars[k]? = some c → k ≠ j → s'.before.arr ≠ t.before.arr ∧ s'.after.arr ≠ t.after.arr) := by
        intro c t ht k hk hkj
        have he := h.excl j k b c s t (fun e => hkj e.symm) hj hk hb ht
        rcases hx with ⟨rfl, e1, e2⟩ | ⟨rfl, e1, e2⟩
        · refine ⟨?_, by rw [e1]; exact he.2⟩
          rw [e2]
          rcases append_arr grow (w.arrs ++ [tmp]) s.before xs with e | e
          · rw [e]; exact he.1
          · rw [e]; have := (setsArr ht).1; simp; omega
        · refine ⟨by rw [e1]; exact he.1, ?_⟩
          rw [e2]
          rcases append_arr grow (w.arrs ++ [tmp]) s.after xs with e | e
          · rw [e]; exact he.2
          · rw [e]; have := (setsArr ht).2; simp; omega
      rw [List.getElem?_set] at hs1 hs2
      by_cases e1 : b = b1
      · by_cases e2 : b = b2
        · exact absurd ((inj _ _ hb1 e1.symm).trans (inj _ _ hb2 e2.symm).symm) hjk
        · simp only [e1.symm, if_true, hblt, Option.some.injEq] at hs1
          simp only [if_neg e2] at hs2
          subst hs1
          exact fresh b2 s2 hs2 k1 hb2 (fun e => e2 (by subst e; rw [hj] at hb2; exact Option.some.inj hb2))
      · by_cases e2 : b = b2
        · simp only [e2.symm, if_true, hblt, Option.some.injEq] at hs2
          simp only [if_neg e1] at hs1
          subst hs2
          have := fresh b1 s1 hs1 j1 hb1 (fun e => e1 (by subst e; rw [hj] at hb1; exact Option.some.inj hb1))
          exact ⟨fun e => this.1 e.symm, fun e => this.2 e.symm⟩
        · simp only [if_neg e1] at hs1
          simp only [if_neg e2] at hs2
          exact h.excl j1 k1 b1 b2 s1 s2 hjk hb1 hb2 hs1 hs2
    · intro hn
      rw [hst]
      exact h.rexcl hn
  -- changing a held set without touching its slices
  have modSet : ∀ (o : Op η ρ) (j b : Nat) (g : HSet η → HSet η) (f : HView η → HView η),
      w.setVars[j]? = some b → (∀ s, (g s).before = s.before ∧ (g s).after = s.after) →
      (∀ s A, (⟨cells A (g s).before, cells A (g s).after, (g s).last, (g s).handler⟩ : HView η)
        = f ⟨cells A s.before, cells A s.after, s.last, s.handler⟩) →
      (Verif.step grow w o).1 = { w with sets := w.sets.modify b g } →
      Rel nc (Verif.step grow w o).1 { v with sets := upd v.sets j f } := by
    intro o j b g f hj hg hf hst
    refine h.quiet grow o (by rw [hst]) (by rw [hst]) rfl rfl ?_ ?_ ?_ ?_
    · intro k
      rw [hst]
      refine setView_upd (w' := { w with sets := w.sets.modify b g }) h hj rfl ?_ ?_ ?_ k
      · intro c hc; rw [List.getElem?_modify]; simp [show ¬ b = c from fun e => hc e.symm]
      · simp only [setHandlers, List.getElem?_modify, if_true, Option.map_eq_map, Option.map_map]
        cases w.sets[b]? with
        | none => rfl
        | some s => simp only [Option.map_some, Function.comp, hf]
      · intro k c t _ _ _; exact ⟨rfl, rfl⟩
    · intro r; rw [hst, ← h.rts r]; rfl
    · rw [hst]
      refine excl_same h rfl ?_
      intro c hc s' hs'
      simp only [List.getElem?_modify, Option.map_eq_map, Option.map_eq_some_iff] at hs'
      obtain ⟨s, hs, rfl⟩ := hs'
      refine ⟨s, hs, ?_⟩
      split
      · exact ⟨(hg s).1.symm, (hg s).2.symm⟩
      · exact ⟨rfl, rfl⟩
    · intro hn; rw [hst]; exact h.rexcl hn
  -- replacing a router; the arrays keep all cells of the other routers and all sets
  have setRt : ∀ (o : Op η ρ) (r : Nat) (rt rt' : RouterRec η) (A : Arrs η) (f : RView η → RView η),
      w.routers[r]? = some rt →
      (⟨cells A rt'.before, cells A rt'.after, rt'.last⟩ : RView η) = f ⟨cells w.arrs rt.before, cells w.arrs rt.after, rt.last⟩ →
      (∀ z : Slice, z.arr < w.arrs.length → (∀ s ∈ w.sets, z.arr = s.before.arr ∨ z.arr = s.after.arr → cells A z = cells w.arrs z)) →
      (∀ (k : Nat) (q : RouterRec η), k ≠ r → w.routers[k]? = some q →
        cells A q.before = cells w.arrs q.before ∧ cells A q.after = cells w.arrs q.after) →
      (nc = true → (rt'.after.arr = rt.after.arr ∨ w.arrs.length ≤ rt'.after.arr) ∧
        (rt'.before.arr = rt.before.arr ∨ w.arrs.length ≤ rt'.before.arr) ∧ rt'.after.arr ≠ rt'.before.arr) →
      (Verif.step grow w o).1 = { w with arrs := A, routers := w.routers.set r rt' } →
      Rel nc (Verif.step grow w o).1 { v with routers := upd v.routers r f } := by
    intro o r rt rt' A f hr hf hsets hoth hnc' hst
    have hlt := (List.getElem?_eq_some_iff.1 hr).1
    refine h.quiet grow o (by rw [hst]) (by rw [hst]) rfl rfl ?_ ?_ ?_ ?_
    · intro k
      rw [hst, ← h.sets k]
      unfold setView
      simp only
      cases hk : w.setVars[k]? with
      | none => rfl
      | some b =>
        simp only [Option.bind_some, setHandlers]
        cases hb : w.sets[b]? with
        | none => rfl
        | some s =>
          have hm := List.mem_of_getElem? hb
          simp only [Option.map_some, hsets _ (setsArr hb).1 s hm (Or.inl rfl), hsets _ (setsArr hb).2 s hm (Or.inr rfl)]
    · intro k
      rw [hst]
      exact routerView_upd h hr rfl hf hoth k
    · rw [hst]
      exact excl_same h rfl fun b _ s hs => ⟨s, hs, rfl, rfl⟩
    · intro hn i k q q' hi hk
      rw [hst] at hi hk
      simp only [List.getElem?_set] at hi hk
      obtain ⟨ha, hb, hc⟩ := hnc' hn
      by_cases e1 : r = i
      · subst e1
        simp only [if_true, hlt, Option.some.injEq] at hi
        subst hi
        by_cases e2 : r = k
        · subst e2
          simp only [if_true, hlt, Option.some.injEq] at hk
          subst hk
          exact ⟨fun e => absurd rfl e, hc⟩
        · simp only [if_neg e2] at hk
          have := h.rexcl hn r k rt q' hr hk
          have hq := rtsArr hk
          rcases ha with ha | ha
          · rw [ha]; exact ⟨fun _ => this.1 e2, this.2⟩
          · exact ⟨fun _ => by omega, by omega⟩
      · simp only [if_neg e1] at hi
        have hq := rtsArr hi
        by_cases e2 : r = k
        · subst e2
          simp only [if_true, hlt, Option.some.injEq] at hk
          subst hk
          have := h.rexcl hn i r q rt hi hr
          constructor
          · intro _
            rcases ha with ha | ha
            · rw [ha]; exact this.1 (fun e => e1 e.symm)
            · omega
          · rcases hb with hb | hb
            · rw [hb]; exact this.2
            · omega
        · simp only [if_neg e2] at hk
          exact h.rexcl hn i k q q' hi hk
  -- registering in the tree
  have regTree : ∀ (o : Op η ρ) (w1 : World η ρ) (a : Nat) (m : Method) (route : Str) (u : HView η) (s : HSet η),
      (Verif.step grow w o).1 = (opTreeAdd w1 m route a).1 → w1.log = w.log → w1.rxLog = w.rxLog → w1.setVars = w.setVars →
      w1.routers = w.routers → (∀ b, b < w.sets.length → w1.sets[b]? = w.sets[b]?) →
      (∀ z, z.arr < w.arrs.length → cells w1.arrs z = cells w.arrs z) →
      Sealed (fun _ => True) w1 a s u →
      Rel nc (Verif.step grow w o).1 { v with routes := v.routes ++ [(m, route, u)] } := by
    intro o w1 a m route u s hst hl hrl hsv hrt hse hce hseal
    have hview : setHandlers (Verif.step grow w o).1 a = some u := by
      rw [hst]; exact (hseal.opTreeAdd m route a).view
    refine ⟨hwf.step grow o, ?_, ?_, ?_, ?_, ?_, ?_, ?_⟩
    · intro j; rw [hst, ← h.sets j]; exact setView_same hwf hsv hse hce j
    · intro r
      rw [hst, ← h.rts r]
      exact routerView_same hwf r (by simp only [opTreeAdd]; rw [hrt]) hce
    · have e : (Verif.step grow w o).1.log = w.log ++ [⟨m, route, a⟩] := by rw [hst]; simp [opTreeAdd, hl]
      rw [e, List.map_append, List.map_append, ← h.log]
      congr 1
      · exact List.map_congr_left fun r hr => by rw [(h.keep grow o (Or.inl ⟨r, hr, rfl⟩)).1]
      · simp [hview]
    · have e : (Verif.step grow w o).1.rxLog = w.rxLog := by rw [hst]; simp [opTreeAdd, hrl]
      rw [e, ← h.rx]
      exact List.map_congr_left fun r hr => by rw [(h.keep grow o (Or.inr ⟨r, hr, rfl⟩)).1]
    · rw [hst]
      exact excl_same h hsv fun b hb s hs => ⟨s, by rw [← hse b hb]; exact hs, rfl, rfl⟩
    · intro hn; rw [hst]; simp only [opTreeAdd]; rw [hrt]; exact h.rexcl hn
    · intro c hc
      by_cases e : c = a
      · subst e; rw [hst]; exact ⟨s, u, hseal.opTreeAdd m route c⟩
      · have : registered w c := by
          rcases hc with ⟨r, hr, he⟩ | ⟨r, hr, he⟩
          · rw [hst] at hr
            simp only [opTreeAdd, hl, List.mem_append, List.mem_singleton] at hr
            rcases hr with hr | rfl
            · exact Or.inl ⟨r, hr, he⟩
            · exact absurd he.symm e
          · rw [hst] at hr
            simp only [opTreeAdd, hrl] at hr
            exact Or.inr ⟨r, hr, he⟩
        exact (h.keep grow o this).2
  -- registering an expression
  have regRx : ∀ (o : Op η ρ) (w1 : World η ρ) (a : Nat) (m : Method) (rx : ρ) (u : HView η) (s : HSet η),
      (Verif.step grow w o).1 = (opRegAdd w1 m rx a).1 → w1.log = w.log → w1.rxLog = w.rxLog → w1.setVars = w.setVars →
      w1.routers = w.routers → w1.regs = w.regs → (∀ b, b < w.sets.length → w1.sets[b]? = w.sets[b]?) →
      (∀ z, z.arr < w.arrs.length → cells w1.arrs z = cells w.arrs z) →
      Sealed (fun _ => True) w1 a s u →
      Rel nc (Verif.step grow w o).1 (v.rxRoute rxMethods m rx (some u)) := by
    intro o w1 a m rx u s hst hl hrl hsv hrt hrg hse hce hseal
    have hC := C15_unsupported_method w.rxLog m rx a
    rw [← hwf.regs, ← hrg] at hC
    have hview : setHandlers (Verif.step grow w o).1 a = some u := by
      rw [hst]; exact (hseal.opRegAdd m rx a).view
    have hfr : (opRegAdd w1 m rx a).1.setVars = w1.setVars ∧ (opRegAdd w1 m rx a).1.sets = w1.sets ∧
        (opRegAdd w1 m rx a).1.arrs = w1.arrs ∧ (opRegAdd w1 m rx a).1.routers = w1.routers ∧
        (opRegAdd w1 m rx a).1.log = w1.log := by
      unfold opRegAdd; split <;> exact ⟨rfl, rfl, rfl, rfl, rfl⟩
    have hrx : (opRegAdd w1 m rx a).1.rxLog = if m ∈ rxMethods then w.rxLog ++ [⟨m, rx, a⟩] else w.rxLog := by
      unfold opRegAdd
      by_cases hm : m ∈ rxMethods
      · have := hC.1.1 hm
        split
        · rename_i he; rw [he] at this; simp at this
        · simp [hm, hrl]
      · rw [hC.2 hm]; simp [hm, hrl]
    obtain ⟨f1, f2, f3, f4, f5⟩ := hfr
    have hs' : ∀ j, setView (Verif.step grow w o).1 j = v.sets[j]? := by
      intro j; rw [hst, ← h.sets j]
      exact setView_same hwf (f1.trans hsv) (fun b hb => by rw [f2]; exact hse b hb) (fun z hz => by rw [f3]; exact hce z hz) j
    have hr' : ∀ r, routerView (Verif.step grow w o).1 r = v.routers[r]? := by
      intro r; rw [hst, ← h.rts r]
      exact routerView_same hwf r (by rw [f4, hrt]) (fun z hz => by rw [f3]; exact hce z hz)
    have hx' : ∀ (j k b b' : Nat) (s s' : HSet η), j ≠ k → (Verif.step grow w o).1.setVars[j]? = some b → (Verif.step grow w o).1.setVars[k]? = some b' →
      (Verif.step grow w o).1.sets[b]? = some s → (Verif.step grow w o).1.sets[b']? = some s' →
      s.before.arr ≠ s'.before.arr ∧ s.after.arr ≠ s'.after.arr := by
      rw [hst]
      exact excl_same h (f1.trans hsv) fun b hb s hs => ⟨s, by rw [← hse b hb, ← f2]; exact hs, rfl, rfl⟩
    have hrx' : nc = true → ∀ (i k : Nat) (r r' : RouterRec η), (Verif.step grow w o).1.routers[i]? = some r → (Verif.step grow w o).1.routers[k]? = some r' →
      (i ≠ k → r.after.arr ≠ r'.after.arr) ∧ r.after.arr ≠ r'.before.arr := by
      intro hn; rw [hst, f4, hrt]; exact h.rexcl hn
    by_cases hm : m ∈ rxMethods
    · rw [if_pos hm] at hrx
      simp only [Values.rxRoute, hm, if_true]
      refine ⟨hwf.step grow o, hs', hr', ?_, ?_, hx', hrx', ?_⟩
      · have e : (Verif.step grow w o).1.log = w.log := by rw [hst, f5, hl]
        rw [e, ← h.log]
        exact List.map_congr_left fun r hr => by rw [(h.keep grow o (Or.inl ⟨r, hr, rfl⟩)).1]
      · have e : (Verif.step grow w o).1.rxLog = w.rxLog ++ [⟨m, rx, a⟩] := by rw [hst, hrx]
        rw [e, List.map_append, List.map_append, ← h.rx]
        congr 1
        · exact List.map_congr_left fun r hr => by rw [(h.keep grow o (Or.inr ⟨r, hr, rfl⟩)).1]
        · simp [hview]
      · intro c hc
        by_cases e : c = a
        · subst e; rw [hst]; exact ⟨s, u, hseal.opRegAdd m rx c⟩
        · have : registered w c := by
            rcases hc with ⟨r, hr, he⟩ | ⟨r, hr, he⟩
            · rw [hst, f5, hl] at hr
              exact Or.inl ⟨r, hr, he⟩
            · rw [hst, hrx] at hr
              simp only [List.mem_append, List.mem_singleton] at hr
              rcases hr with hr | rfl
              · exact Or.inr ⟨r, hr, he⟩
              · exact absurd he.symm e
          exact (h.keep grow o this).2
    · rw [if_neg hm] at hrx
      simp only [Values.rxRoute, hm, if_false]
      exact h.quiet grow o (by rw [hst, f5, hl]) (by rw [hst, hrx]) rfl rfl hs' hr' hx' hrx'
  -- copying a set for Server.Add
  have copySeal : ∀ (j b : Nat) (x : Option η), w.setVars[j]? = some b → ∃ w1 a s u, opCopySet w (some j) x = some (w1, a) ∧
      v.sets[j]? = some u ∧ Sealed (fun _ => True) w1 a s { u with main := x } ∧ w1.log = w.log ∧ w1.rxLog = w.rxLog ∧
      w1.setVars = w.setVars ∧ w1.routers = w.routers ∧ w1.regs = w.regs ∧
      (∀ b, b < w.sets.length → w1.sets[b]? = w.sets[b]?) ∧ w1.arrs = w.arrs := by
    intro j b x hj
    have hex : ∃ w' a, opCopySet w (some j) x = some (w', a) := by simp [opCopySet, hj]
    obtain ⟨w1, a, he⟩ := hex
    have hb := hwf.vars b (List.mem_of_getElem? hj)
    have hsome : ∃ u, setView w j = some u := by simp [setView, hj, setHandlers, hb]
    obtain ⟨u, hu⟩ := hsome
    obtain ⟨s, hs⟩ := copy_sealed hwf hu he (fun _ => True) (by
      intro k c s addr s' _ hc hs ha hs'
      rw [hj] at ha
      simp only [Option.some.injEq] at ha
      subst ha
      by_cases e : k = j
      · subst e
        rw [hj] at hc
        simp only [Option.some.injEq] at hc
        subst hc
        rw [hs] at hs'
        simp only [Option.some.injEq] at hs'
        subst hs'
        exact ⟨fun _ => Nat.le_refl _, fun _ => Nat.le_refl _⟩
      · have := h.excl k j c b s s' e hc hj hs hs'
        exact ⟨fun e => absurd e this.1, fun e => absurd e this.2⟩)
    obtain ⟨_, i, ad, s0, _, _, _, rfl⟩ := opCopySet_frame hwf he
    refine ⟨_, a, s, u, he, by rw [← h.sets j]; exact hu, hs, rfl, rfl, rfl, rfl, rfl, ?_, rfl⟩
    intro b hb
    simp [List.getElem?_append_left hb]
  have addCase : ∀ (o : Op η ρ) (m : Method) (route : Str) (x : Option η) (j : Nat),
      Verif.step grow w o = opAdd w m route x (some j) →
      Rel nc (Verif.step grow w o).1 (v.route m route ((v.sets[j]?).map fun u => { u with main := x })) := by
    intro o m route x j hst
    cases hj : w.setVars[j]? with
    | none =>
      refine noop o ?_ _ ?_
      · rw [hst]; simp [opAdd, opCopySet, hj]
      · rw [setVars_none h hj]; rfl
    | some b =>
      obtain ⟨w1, a, s, u, he, hu, hs, e1, e2, e3, e4, e5, e6, e7⟩ := copySeal j b x hj
      rw [hu]
      exact regTree o w1 a m route _ s (by rw [hst]; simp [opAdd, he]) e1 e2 e3 e4 e6 (fun z _ => by rw [e7]) hs
  cases o with
  | newSet =>
    refine h.quiet grow _ rfl rfl rfl rfl ?_ ?_ ?_ (fun hn => h.rexcl hn)
    · intro j
      refine getElem?_push (l' := w.setVars) h.sets_length (f := fun j => setView (Verif.step grow w .newSet).1 j) ?_ ?_ ?_ j
      · intro k hk
        simp only [← h.sets k]
        have hb : w.setVars[k]? = some w.setVars[k] := by simp [hk]
        have hlt := hwf.vars _ (List.mem_of_getElem? hb)
        have hs : w.sets[w.setVars[k]]? = some w.sets[w.setVars[k]] := by simp [hlt]
        have ha := setsArr hs
        simp only [Verif.step, opNewSet, allocSlice, setView, setHandlers, List.getElem?_append_left hk, hb, Option.bind_some,
          List.getElem?_append_left hlt, hs, Option.map_some]
        rw [cells_push _ _ _ (by simp; omega), cells_push _ _ _ ha.1, cells_push _ _ _ (by simp; omega), cells_push _ _ _ ha.2]
      · simp [Verif.step, opNewSet, allocSlice, setView, setHandlers, cells]
      · intro k hk
        have : (w.setVars ++ [w.sets.length])[k]? = none := List.getElem?_eq_none (by simp; omega)
        simp [Verif.step, opNewSet, setView, this]
    · intro r
      show _ = v.routers[r]?
      rw [← h.rts r]
      refine routerView_same hwf r rfl ?_
      intro z hz
      simp only [Verif.step, opNewSet, allocSlice]
      rw [cells_push _ _ _ (by simp; omega), cells_push _ _ _ hz]
    · intro j1 k1 b1 b2 s1 s2 hjk hb1 hb2 hs1 hs2
      simp only [Verif.step, opNewSet, allocSlice] at hb1 hb2 hs1 hs2
      have get : ∀ (k b : Nat) (s : HSet η), (w.setVars ++ [w.sets.length])[k]? = some b →
          (w.sets ++ [(⟨⟨w.arrs.length, 0, 0, 0⟩, ⟨w.arrs.length + 1, 0, 0, 0⟩, none, none⟩ : HSet η)])[b]? = some s →
          (k < w.setVars.length ∧ w.setVars[k]? = some b ∧ w.sets[b]? = some s) ∨
          (k = w.setVars.length ∧ s.before.arr = w.arrs.length ∧ s.after.arr = w.arrs.length + 1) := by
        intro k b s hk hb
        by_cases hlt : k < w.setVars.length
        · left
          rw [List.getElem?_append_left hlt] at hk
          rw [List.getElem?_append_left (hwf.vars b (List.mem_of_getElem? hk))] at hb
          exact ⟨hlt, hk, hb⟩
        · right
          have hl2 := (List.getElem?_eq_some_iff.1 hk).1
          simp only [List.length_append, List.length_singleton] at hl2
          have e : k = w.setVars.length := by omega
          subst e
          simp only [List.getElem?_concat_length, Option.some.injEq] at hk
          subst hk
          simp only [List.getElem?_concat_length, Option.some.injEq] at hb
          subst hb
          exact ⟨rfl, rfl, rfl⟩
      rcases get j1 b1 s1 hb1 (by simpa using hs1) with ⟨_, a1, a2⟩ | ⟨e1, a1, a2⟩ <;>
        rcases get k1 b2 s2 hb2 (by simpa using hs2) with ⟨_, c1, c2⟩ | ⟨e2, c1, c2⟩
      · exact h.excl j1 k1 b1 b2 s1 s2 hjk a1 c1 a2 c2
      · have := setsArr a2; rw [c1, c2]; exact ⟨by omega, by omega⟩
      · have := setsArr c2; rw [a1, a2]; exact ⟨by omega, by omega⟩
      · exact absurd (e1.trans e2.symm) hjk
  | setBefore j arg =>
    cases arg with
    | spread i => simp [plain] at hp
    | lit xs =>
      cases hj : w.setVars[j]? with
      | none =>
        refine noop _ (by simp [Verif.step, hj]) _ ?_
        simp only [vstep]
        rw [upd_none (setVars_none h hj)]
      | some b =>
        have hb := hwf.vars b (List.mem_of_getElem? hj)
        have hs : w.sets[b]? = some w.sets[b] := by simp [hb]
        have hal := allocSlice_spec w.arrs xs
        have hsw := swf_push xs (hwf.sets _ (List.mem_of_getElem? hs)).1
        have hspec := appendSlice_spec grow (w.arrs ++ [xs]) w.sets[b].before xs hsw
        refine appendSet (.setBefore j (.lit xs)) j b w.sets[b]
          { w.sets[b] with before := (appendSlice grow (w.arrs ++ [xs]) w.sets[b].before xs).2 } w.sets[b].before xs xs _ hj hs
          (Or.inl ⟨rfl, rfl, rfl⟩) ?_ ?_
        · simp only [hspec.2, pushcells _ _ (setsArr hs).1]
          rw [cells_append_other grow _ _ _ _ (by have := (setsArr hs).2; simp; omega)
            (fun e => absurd e (hwf.sepBA _ (List.mem_of_getElem? hs) _ (List.mem_of_getElem? hs))),
            pushcells _ _ (setsArr hs).2]
        · have e1 : cells (w.arrs ++ [xs]) (allocSlice w.arrs xs).2 = xs := hal.2.2.2
          simp only [Verif.step, hj, evalArg, opBefore]
          simp only [show (allocSlice w.arrs xs).1 = w.arrs ++ [xs] from rfl, e1, hs]
  | setAfter j arg =>
    cases arg with
    | spread i => simp [plain] at hp
    | lit xs =>
      cases hj : w.setVars[j]? with
      | none =>
        refine noop _ (by simp [Verif.step, hj]) _ ?_
        simp only [vstep]
        rw [upd_none (setVars_none h hj)]
      | some b =>
        have hb := hwf.vars b (List.mem_of_getElem? hj)
        have hs : w.sets[b]? = some w.sets[b] := by simp [hb]
        have hal := allocSlice_spec w.arrs xs
        have hsw := swf_push xs (hwf.sets _ (List.mem_of_getElem? hs)).2
        have hspec := appendSlice_spec grow (w.arrs ++ [xs]) w.sets[b].after xs hsw
        refine appendSet (.setAfter j (.lit xs)) j b w.sets[b]
          { w.sets[b] with after := (appendSlice grow (w.arrs ++ [xs]) w.sets[b].after xs).2 } w.sets[b].after xs xs _ hj hs
          (Or.inr ⟨rfl, rfl, rfl⟩) ?_ ?_
        · simp only [hspec.2, pushcells _ _ (setsArr hs).2]
          rw [cells_append_other grow _ _ _ _ (by have := (setsArr hs).1; simp; omega)
            (fun e => absurd e.symm (hwf.sepBA _ (List.mem_of_getElem? hs) _ (List.mem_of_getElem? hs))),
            pushcells _ _ (setsArr hs).1]
        · have e1 : cells (w.arrs ++ [xs]) (allocSlice w.arrs xs).2 = xs := hal.2.2.2
          simp only [Verif.step, hj, evalArg, opAfter]
          simp only [show (allocSlice w.arrs xs).1 = w.arrs ++ [xs] from rfl, e1, hs]
  | setLast j x =>
    cases hj : w.setVars[j]? with
    | none =>
      refine noop _ (by simp [Verif.step, hj]) _ ?_
      simp only [vstep]
      rw [upd_none (setVars_none h hj)]
    | some b =>
      exact modSet (.setLast j x) j b (fun s => { s with last := x }) _ hj (fun _ => ⟨rfl, rfl⟩) (fun _ _ => rfl)
        (by simp only [Verif.step, hj, opLast])
  | setUse j x =>
    cases hj : w.setVars[j]? with
    | none =>
      refine noop _ (by simp [Verif.step, hj]) _ ?_
      simp only [vstep]
      rw [upd_none (setVars_none h hj)]
    | some b =>
      exact modSet (.setUse j x) j b (fun s => { s with handler := x }) _ hj (fun _ => ⟨rfl, rfl⟩) (fun _ _ => rfl)
        (by simp only [Verif.step, hj, opUse])
  | setClone j => simp [plain] at hp
  | newRouter =>
    have hcell : ∀ z : Slice, z.arr < w.arrs.length → cells (w.arrs ++ [[]] ++ [[]]) z = cells w.arrs z := by
      intro z hz
      rw [cells_push _ _ _ (by simp; omega), cells_push _ _ _ hz]
    refine h.quiet grow _ rfl rfl rfl rfl ?_ ?_ ?_ ?_
    · intro j
      show _ = v.sets[j]?
      rw [← h.sets j]
      exact setView_same (w' := (Verif.step grow w .newRouter).1) hwf rfl (fun _ _ => rfl) (fun z hz => hcell z hz) j
    · intro j
      refine getElem?_push (l' := w.routers) h.rts_length (f := fun j => routerView (Verif.step grow w .newRouter).1 j) ?_ ?_ ?_ j
      · intro k hk
        simp only [← h.rts k]
        refine routerView_same hwf k ?_ (fun z hz => hcell z hz)
        simp [Verif.step, List.getElem?_append_left hk]
      · simp [Verif.step, allocSlice, routerView, cells]
      · intro k hk
        simp only [Verif.step, routerView, Option.map_eq_none_iff]
        exact List.getElem?_eq_none (by simp; omega)
    · exact excl_same h rfl fun b _ s hs => ⟨s, hs, rfl, rfl⟩
    · intro hn i k q q' hi hk
      simp only [Verif.step, allocSlice] at hi hk
      have get : ∀ (k : Nat) (q : RouterRec η), (w.routers ++ [(⟨⟨w.arrs.length, 0, 0, 0⟩, ⟨w.arrs.length + 1, 0, 0, 0⟩, none⟩ : RouterRec η)])[k]? = some q →
          (w.routers[k]? = some q) ∨ (k = w.routers.length ∧ q.before.arr = w.arrs.length ∧ q.after.arr = w.arrs.length + 1) := by
        intro k q hk
        by_cases hlt : k < w.routers.length
        · left; rw [List.getElem?_append_left hlt] at hk; exact hk
        · right
          have hl2 := (List.getElem?_eq_some_iff.1 hk).1
          simp only [List.length_append, List.length_singleton] at hl2
          have e : k = w.routers.length := by omega
          subst e
          simp only [List.getElem?_concat_length, Option.some.injEq] at hk
          subst hk
          exact ⟨rfl, rfl, rfl⟩
      rcases get i q (by simpa using hi) with a1 | ⟨e1, a1, a2⟩ <;> rcases get k q' (by simpa using hk) with c1 | ⟨e2, c1, c2⟩
      · exact h.rexcl hn i k q q' a1 c1
      · have := rtsArr a1; rw [c1, c2]; exact ⟨fun _ => by omega, by omega⟩
      · have := rtsArr c1; rw [a2]; exact ⟨fun _ => by omega, by omega⟩
      · rw [a2, c1]; exact ⟨fun e => absurd (e1.trans e2.symm) e, by omega⟩
  | rFirst r x =>
    cases hr : w.routers[r]? with
    | none =>
      refine noop _ (by simp [Verif.step, hr]) _ ?_
      simp only [vstep]
      rw [upd_none (routers_none h hr)]
    | some rt =>
      have ha := rtsArr hr
      have hal := allocSlice_spec w.arrs [x]
      have hsw : SWF (w.arrs ++ [[x]]) (allocSlice w.arrs [x]).2 := hal.2.2.1
      have hspec := appendSlice_spec grow (w.arrs ++ [[x]]) (allocSlice w.arrs [x]).2 (cells (w.arrs ++ [[x]]) rt.before) hsw
      have hc0 : cells (w.arrs ++ [[x]]) (allocSlice w.arrs [x]).2 = [x] := hal.2.2.2
      have other : ∀ z : Slice, z.arr < w.arrs.length →
          cells (appendSlice grow (w.arrs ++ [[x]]) (allocSlice w.arrs [x]).2 (cells (w.arrs ++ [[x]]) rt.before)).1 z = cells w.arrs z := by
        intro z hz
        rw [cells_append_other grow _ _ _ _ (by simp; omega) (fun e => by simp [allocSlice] at e; omega), pushcells _ _ hz]
      have arrb : w.arrs.length ≤ (appendSlice grow (w.arrs ++ [[x]]) (allocSlice w.arrs [x]).2 (cells (w.arrs ++ [[x]]) rt.before)).2.arr := by
        rcases append_arr grow (w.arrs ++ [[x]]) (allocSlice w.arrs [x]).2 (cells (w.arrs ++ [[x]]) rt.before) with e | e <;> rw [e] <;> simp [allocSlice]
      refine setRt (.rFirst r x) r rt
        { rt with before := (appendSlice grow (w.arrs ++ [[x]]) (allocSlice w.arrs [x]).2 (cells (w.arrs ++ [[x]]) rt.before)).2 }
        (appendSlice grow (w.arrs ++ [[x]]) (allocSlice w.arrs [x]).2 (cells (w.arrs ++ [[x]]) rt.before)).1 _ hr ?_ ?_ ?_ ?_ ?_
      · simp only
        rw [hspec.2, hc0, other _ ha.2, pushcells _ _ ha.1]
        rfl
      · intro z hz _ _ _; exact other z hz
      · intro k q _ hk; exact ⟨other _ (rtsArr hk).1, other _ (rtsArr hk).2⟩
      · intro _; exact ⟨Or.inl rfl, Or.inr arrb, by simp only; omega⟩
      · simp only [Verif.step, hr]; rfl
  | rBefore r arg =>
    cases arg with
    | spread i => simp [plain] at hp
    | lit xs =>
      cases hr : w.routers[r]? with
      | none =>
        refine noop _ (by simp [Verif.step, hr]) _ ?_
        simp only [vstep]
        rw [upd_none (routers_none h hr)]
      | some rt =>
        have ha := rtsArr hr
        have hc0 : cells (w.arrs ++ [xs]) (allocSlice w.arrs xs).2 = xs := (allocSlice_spec w.arrs xs).2.2.2
        refine setRt (.rBefore r (.lit xs)) r rt { rt with before := (allocSlice w.arrs xs).2 } (w.arrs ++ [xs]) _ hr ?_ ?_ ?_ ?_ ?_
        · simp only [hc0, pushcells _ _ ha.2]
        · intro z hz _ _ _; exact pushcells _ z hz
        · intro k q _ hk; exact ⟨pushcells _ _ (rtsArr hk).1, pushcells _ _ (rtsArr hk).2⟩
        · intro _; exact ⟨Or.inl rfl, Or.inr (by simp [allocSlice]), by simp [allocSlice]; omega⟩
        · simp only [Verif.step, hr, evalArg]; rfl
  | rAfter r arg =>
    cases arg with
    | spread i => simp [plain] at hp
    | lit xs =>
      cases hr : w.routers[r]? with
      | none =>
        refine noop _ (by simp [Verif.step, hr]) _ ?_
        simp only [vstep]
        rw [upd_none (routers_none h hr)]
      | some rt =>
        have ha := rtsArr hr
        have hc0 : cells (w.arrs ++ [xs]) (allocSlice w.arrs xs).2 = xs := (allocSlice_spec w.arrs xs).2.2.2
        refine setRt (.rAfter r (.lit xs)) r rt { rt with after := (allocSlice w.arrs xs).2 } (w.arrs ++ [xs]) _ hr ?_ ?_ ?_ ?_ ?_
        · simp only [hc0, pushcells _ _ ha.1]
        · intro z hz _ _ _; exact pushcells _ z hz
        · intro k q _ hk; exact ⟨pushcells _ _ (rtsArr hk).1, pushcells _ _ (rtsArr hk).2⟩
        · intro _; exact ⟨Or.inr (by simp [allocSlice]), Or.inl rfl, by simp [allocSlice]; omega⟩
        · simp only [Verif.step, hr, evalArg]; rfl
  | rLastAfter r x =>
    cases hnc' : nc with
    | false => have := hnl hnc'; simp [isLastAfter] at this
    | true =>
      subst hnc'
      cases hr : w.routers[r]? with
      | none =>
        refine noop _ (by simp [Verif.step, hr]) _ ?_
        simp only [vstep]
        rw [upd_none (routers_none h hr)]
      | some rt =>
        have ha := rtsArr hr
        have hrm := List.mem_of_getElem? hr
        have hspec := appendSlice_spec grow w.arrs rt.after [x] (hwf.rts rt hrm).2
        have other : ∀ z : Slice, z.arr < w.arrs.length → z.arr ≠ rt.after.arr →
            cells (appendSlice grow w.arrs rt.after [x]).1 z = cells w.arrs z :=
          fun z hz hne => cells_append_other grow _ _ _ _ hz (fun e => absurd e.symm hne)
        have hself := (h.rexcl rfl r r rt rt hr hr).2
        refine setRt (.rLastAfter r x) r rt { rt with after := (appendSlice grow w.arrs rt.after [x]).2 }
          (appendSlice grow w.arrs rt.after [x]).1 _ hr ?_ ?_ ?_ ?_ ?_
        · simp only [hspec.2, other _ ha.1 (fun e => hself e.symm)]
        · intro z hz s hs hzs
          refine other z hz ?_
          have := (hwf.sepR s hs rt hrm).2
          rcases hzs with e | e
          · rw [e]; exact fun e' => this.1 e'.symm
          · rw [e]; exact fun e' => this.2 e'.symm
        · intro k q hk hq
          have := h.rexcl rfl r k rt q hr hq
          exact ⟨other _ (rtsArr hq).1 (fun e => this.2 e.symm), other _ (rtsArr hq).2 (fun e => this.1 (fun e' => hk e'.symm) e.symm)⟩
        · intro _
          rcases append_arr grow w.arrs rt.after [x] with e | e
          · exact ⟨Or.inl e, Or.inl rfl, by simp only; rw [e]; exact hself⟩
          · exact ⟨Or.inr (by simp only; omega), Or.inl rfl, by simp only; omega⟩
        · simp only [Verif.step, hr]
  | rLast r x =>
    cases hr : w.routers[r]? with
    | none =>
      refine noop _ (by simp [Verif.step, hr]) _ ?_
      simp only [vstep]
      rw [upd_none (routers_none h hr)]
    | some rt =>
      refine setRt (.rLast r x) r rt { rt with last := x } w.arrs _ hr rfl (fun _ _ _ _ _ => rfl) (fun _ _ _ _ => ⟨rfl, rfl⟩) ?_ ?_
      · intro hn; exact ⟨Or.inl rfl, Or.inl rfl, (h.rexcl hn r r rt rt hr hr).2⟩
      · simp only [Verif.step, hr]
  | rUse r m route x =>
    cases hr : w.routers[r]? with
    | none =>
      refine noop _ (by simp [Verif.step, hr]) _ ?_
      simp only [vstep, routers_none h hr]; rfl
    | some rt =>
      have hrm := List.mem_of_getElem? hr
      obtain ⟨s, A, e, e2, _, _, _, _, _, _, _, _, hold⟩ := opSnapshot_spec hwf grow hrm x
      obtain ⟨s', hs'⟩ := snapshot_sealed hwf grow hrm x
      have hv : v.routers[r]? = some ⟨cells w.arrs rt.before, cells w.arrs rt.after, rt.last⟩ := by
        rw [← h.rts r]; simp [routerView, hr]
      simp only [vstep, hv, Option.map_some, Values.route]
      refine regTree (.rUse r m route x) (opSnapshot grow w rt x).1 w.sets.length m route _ s' ?_ ?_ ?_ ?_ ?_ ?_ ?_ hs'
      · simp only [Verif.step, hr, e2]
      · rw [e]
      · rw [e]
      · rw [e]
      · rw [e]
      · intro b hb; rw [e]; simp [List.getElem?_append_left hb]
      · intro z hz; rw [e]; exact hold z hz
  | rUseReg r m rx x =>
    cases hr : w.routers[r]? with
    | none =>
      refine noop _ (by simp [Verif.step, hr]) _ ?_
      simp only [vstep, routers_none h hr]; rfl
    | some rt =>
      have hrm := List.mem_of_getElem? hr
      obtain ⟨s, A, e, e2, _, _, _, _, _, _, _, _, hold⟩ := opSnapshot_spec hwf grow hrm x
      obtain ⟨s', hs'⟩ := snapshot_sealed hwf grow hrm x
      have hv : v.routers[r]? = some ⟨cells w.arrs rt.before, cells w.arrs rt.after, rt.last⟩ := by
        rw [← h.rts r]; simp [routerView, hr]
      simp only [vstep, hv, Option.map_some]
      refine regRx (.rUseReg r m rx x) (opSnapshot grow w rt x).1 w.sets.length m rx _ s' ?_ ?_ ?_ ?_ ?_ ?_ ?_ ?_ hs'
      · simp only [Verif.step, hr, e2]
      · rw [e]
      · rw [e]
      · rw [e]
      · rw [e]
      · rw [e]
      · intro b hb; rw [e]; simp [List.getElem?_append_left hb]
      · intro z hz; rw [e]; exact hold z hz
  | rClone r =>
    cases hnc' : nc with
    | true => have := hnc hnc'; simp [isRClone] at this
    | false =>
      subst hnc'
      cases hr : w.routers[r]? with
      | none =>
        refine noop _ (by simp [Verif.step, hr]) _ ?_
        simp only [vstep, routers_none h hr]
      | some rt =>
        have hv : v.routers[r]? = some ⟨cells w.arrs rt.before, cells w.arrs rt.after, rt.last⟩ := by
          rw [← h.rts r]; simp [routerView, hr]
        have hst : (Verif.step grow w (.rClone r)).1 = { w with routers := w.routers ++ [rt] } := by
          simp only [Verif.step, hr]
        simp only [vstep, hv]
        refine h.quiet grow (.rClone r) (by rw [hst]) (by rw [hst]) rfl rfl ?_ ?_ ?_ (fun hn => absurd hn (by simp))
        · intro j; rw [hst, ← h.sets j]; rfl
        · intro j
          rw [hst]
          refine getElem?_push (l' := w.routers) h.rts_length (f := fun j => routerView { w with routers := w.routers ++ [rt] } j) ?_ ?_ ?_ j
          · intro k hk
            simp only [← h.rts k, routerView, List.getElem?_append_left hk]
          · simp [routerView]
          · intro k hk
            simp only [routerView, Option.map_eq_none_iff]
            exact List.getElem?_eq_none (by simp; omega)
        · rw [hst]; exact excl_same h rfl fun b _ s hs => ⟨s, hs, rfl, rfl⟩
  | rGetBefore r => simp [plain] at hp
  | rGetAfter r => simp [plain] at hp
  | sAdd m route x set =>
    cases set with
    | none => exact noop _ rfl _ rfl
    | some j => exact addCase (.sAdd m route x (some j)) m route x j rfl
  | sAddReg m rx x set =>
    cases set with
    | none => exact noop _ rfl _ rfl
    | some j =>
      cases hj : w.setVars[j]? with
      | none =>
        refine noop _ (by simp [Verif.step, opAddReg, opCopySet, hj]) _ ?_
        simp only [vstep, setVars_none h hj]; rfl
      | some b =>
        obtain ⟨w1, a, s, u, he, hu, hs, e1, e2, e3, e4, e5, e6, e7⟩ := copySeal j b x hj
        simp only [vstep, hu, Option.map_some]
        exact regRx (.sAddReg m rx x (some j)) w1 a m rx _ s (by simp [Verif.step, opAddReg, he]) e1 e2 e3 e4 e5 e6
          (fun z _ => by rw [e7]) hs
  | sConv m route x sets =>
    cases sets with
    | nil => exact noop _ rfl _ rfl
    | cons s rest =>
      cases s with
      | none => exact noop _ rfl _ rfl
      | some j => exact addCase (.sConv m route x (some j :: rest)) m route x j rfl
  | mkSlice xs n => simp [plain] at hp
  | slSet i k x => simp [plain] at hp
  | slAppend i xs => simp [plain] at hp
  | slSub i lo hi mx => simp [plain] at hp

/-- The refinement for whole programs. -/
theorem rel_run (nc : Bool) (grow : Nat → Nat → Nat) (ops : List (Op η ρ)) (hp : ∀ o ∈ ops, plain o = true)
    (hnc : nc = true → ∀ o ∈ ops, isRClone o = false) (hnl : nc = false → ∀ o ∈ ops, isLastAfter o = false) :
    Rel nc (progState grow ops) (vrun rxMethods ops) := by
  have key : ∀ (ops : List (Op η ρ)) (w : World η ρ) (v : Values η ρ), Rel nc w v → (∀ o ∈ ops, plain o = true) →
      (nc = true → ∀ o ∈ ops, isRClone o = false) → (nc = false → ∀ o ∈ ops, isLastAfter o = false) →
      Rel nc (runOps grow w ops) (ops.foldl (vstep rxMethods) v) := by
    intro ops
    induction ops with
    | nil => intro w v h _ _ _; exact h
    | cons o ops ih =>
      intro w v h hp hnc hnl
      exact ih _ _ (h.step grow o (hp o (by simp)) (fun e => hnc e o (by simp)) (fun e => hnl e o (by simp)))
        (fun o' ho' => hp o' (by simp [ho'])) (fun e o' ho' => hnc e o' (by simp [ho'])) (fun e o' ho' => hnl e o' (by simp [ho']))
  exact key ops _ _ (rel_init nc) hp hnc hnl

end Verif
