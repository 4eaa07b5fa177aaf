import Verif.Props.Builders
import Verif.Spec.Alias
/-
C33 and C35, exactly: which calls change the handlers of a registered route, or of another router.
-/
set_option linter.unusedSectionVars false
namespace Verif
open Spec
variable {η ρ : Type} [Inhabited η] [DecidableEq ρ]

theorem cells_eq_iff (A B : Arrs η) (z : Slice) :
    cells B z = cells A z ↔ ∀ p, z.off ≤ p → p < z.off + z.len → ((B[z.arr]?).getD [])[p]? = ((A[z.arr]?).getD [])[p]? := by
  constructor
  · intro h p h1 h2
    have := congrArg (fun l => l[p - z.off]?) h
    simp only [cells, List.getElem?_take, List.getElem?_drop, if_pos (show p - z.off < z.len by omega),
      show z.off + (p - z.off) = p by omega] at this
    exact this
  · intro h
    exact take_drop_ext h

/-- An append changes a list exactly if it overwrites. -/
theorem append_changes (grow : Nat → Nat → Nat) (A : Arrs η) (s z : Slice) (xs : List η) (hz : SWF A z) :
    cells (appendSlice grow A s xs).1 z ≠ cells A z ↔ Overwrites A s xs z := by
  have hcap := hz.cap
  have hlen := hz.len
  rcases appendSlice_slice grow A s xs with ⟨hle, -, h1⟩ | ⟨hle, -, -, -, l, h1⟩
  · rw [h1]
    by_cases ha : z.arr = s.arr
    · have hlt := hz.arr
      obtain ⟨l, hl⟩ : ∃ l, A[s.arr]? = some l := ⟨A[s.arr]'(by omega), by simp [← ha, hlt]⟩
      have hl' : A[z.arr]? = some l := by rw [ha]; exact hl
      rw [ne_eq, cells_eq_iff]
      have hm : (A.modify s.arr fun l => writeAt l (s.off + s.len) xs)[z.arr]? = some (writeAt l (s.off + s.len) xs) := by
        rw [List.getElem?_modify, hl']; simp [ha]
      rw [hm, hl']
      simp only [Option.getD_some]
      rw [hl'] at hcap
      simp only [Option.getD_some] at hcap
      constructor
      · intro h
        simp only [Classical.not_forall] at h
        obtain ⟨p, h2, h3, h4⟩ := h
        rw [writeAt_getElem?] at h4
        have hp : l[p]? = some (l[p]'(by omega)) := by simp
        rw [hp] at h4
        simp only [Option.map_some, Option.some.injEq] at h4
        by_cases h5 : s.off + s.len ≤ p
        · rw [if_pos h5] at h4
          cases hx : xs[p - (s.off + s.len)]? with
          | none => rw [hx] at h4; exact absurd rfl h4
          | some x =>
            rw [hx] at h4
            refine ⟨hle, p - (s.off + s.len), x, hx, ⟨ha, by omega, by omega⟩, ?_⟩
            rw [hl, Option.bind_some, show s.off + s.len + (p - (s.off + s.len)) = p by omega, hp]
            simp only [Option.getD_some] at h4
            simp only [ne_eq, Option.some.injEq]
            exact fun e => h4 e.symm
        · rw [if_neg h5] at h4; exact absurd rfl h4
      · rintro ⟨-, i, x, hx, ⟨-, h2, h3⟩, h4⟩ h
        have := h _ h2 h3
        rw [writeAt_getElem?] at this
        rw [hl, Option.bind_some] at h4
        have hp : l[s.off + s.len + i]? = some (l[s.off + s.len + i]'(by omega)) := by simp
        rw [hp] at this h4
        simp only [Option.map_some, show s.off + s.len ≤ s.off + s.len + i by omega, if_true,
          show s.off + s.len + i - (s.off + s.len) = i by omega, hx, Option.getD_some] at this
        exact h4 this.symm
    · rw [cells_modify_ne _ _ _ _ ha]
      simp only [ne_eq, not_true_eq_false, false_iff]
      rintro ⟨-, i, x, -, ⟨h, -⟩, -⟩
      exact ha h
  · rw [h1, cells_push _ _ _ hz.arr]
    simp only [ne_eq, not_true_eq_false, false_iff]
    exact fun h => hle h.1

theorem overwrites_push {A : Arrs η} {s z : Slice} {l : List η} (xs : List η) (hs : s.arr < A.length) :
    Overwrites (A ++ [l]) s xs z ↔ Overwrites A s xs z := by
  unfold Overwrites
  rw [List.getElem?_append_left hs]

/-- **C35** (exactly).  After any program, `LastAfter(x)` on router `r` changes what another router has configured exactly if it overwrites: the
after-list of `r` has room, and its next cell is in use by the other router, for a handler other than `x`. -/
theorem C35_exact (grow : Nat → Nat → Nat) (ops : List (Op η ρ)) (r k : Nat) (x : η) (hk : k ≠ r) (rt q : RouterRec η)
    (hr : (progState grow ops).routers[r]? = some rt) (hq : (progState grow ops).routers[k]? = some q) :
    let w := progState grow ops
    routerView (step grow w (.rLastAfter r x)).1 k ≠ routerView w k ↔
      Overwrites w.arrs rt.after [x] q.before ∨ Overwrites w.arrs rt.after [x] q.after := by
  intro w
  have h : WF w := progState_wf grow ops
  have hkr : ¬ r = k := fun e => hk e.symm
  have hq' := h.rts q (List.mem_of_getElem? hq)
  have e1 : routerView (step grow w (.rLastAfter r x)).1 k =
      some ⟨cells (appendSlice grow w.arrs rt.after [x]).1 q.before, cells (appendSlice grow w.arrs rt.after [x]).1 q.after, q.last⟩ := by
    simp only [step, show w.routers[r]? = some rt from hr, routerView, List.getElem?_set, if_neg hkr, show w.routers[k]? = some q from hq, Option.map_some]
  have e2 : routerView w k = some ⟨cells w.arrs q.before, cells w.arrs q.after, q.last⟩ := by
    simp only [routerView, show w.routers[k]? = some q from hq, Option.map_some]
  rw [e1, e2, ← append_changes grow w.arrs rt.after q.before [x] hq'.1, ← append_changes grow w.arrs rt.after q.after [x] hq'.2]
  simp only [ne_eq, Option.some.injEq, RView.mk.injEq, and_true, Classical.not_and_iff_not_or_not]

/-- A router with room behind its handlers, its clone, and a handler appended to the router: `LastAfter` on the clone overwrites it. -/
example :
    let ops : List (Op Nat Nat) := [.newRouter, .rLastAfter 0 1, .rLastAfter 0 2, .rLastAfter 0 3, .rClone 0, .rLastAfter 0 4]
    let w := progState (fun c _ => 2 * c) ops
    ∃ rt q, w.routers[1]? = some rt ∧ w.routers[0]? = some q ∧ Overwrites w.arrs rt.after [5] q.after ∧ ¬ Overwrites w.arrs rt.after [4] q.after := by
  refine ⟨_, _, rfl, rfl, ⟨by decide, 0, 5, rfl, ⟨by decide, by decide, by decide⟩, by decide⟩, ?_⟩
  rintro ⟨-, i, x, hx, -, h⟩
  match i with
  | 0 => cases hx; exact h (by decide)
  | i + 1 => cases hx

theorem argHandlers_eval {w : World η ρ} {arg : Arg η} {w' : World η ρ} {x : Slice} (he : evalArg w arg = some (w', x)) :
    argHandlers w arg = some (cells w'.arrs x) := by
  cases arg with
  | lit xs =>
    simp only [evalArg, allocSlice, Option.some.injEq, Prod.mk.injEq] at he
    obtain ⟨rfl, rfl⟩ := he
    simp [argHandlers, cells]
  | spread v =>
    simp only [evalArg, Option.map_eq_some_iff, Prod.mk.injEq] at he
    obtain ⟨s, hs, rfl, rfl⟩ := he
    simp [argHandlers, hs]

theorem argHandlers_none {w : World η ρ} {arg : Arg η} (he : evalArg w arg = none) : argHandlers w arg = none := by
  cases arg with
  | lit xs => cases he
  | spread v =>
    simp only [evalArg, Option.map_eq_none_iff] at he
    simp [argHandlers, he]

theorem evalArg_same {w : World η ρ} {arg : Arg η} {w' : World η ρ} {x : Slice} (he : evalArg w arg = some (w', x)) :
    w'.sets = w.sets ∧ (w'.arrs = w.arrs ∨ ∃ l, w'.arrs = w.arrs ++ [l]) := by
  cases arg with
  | lit xs =>
    simp only [evalArg, allocSlice, Option.some.injEq, Prod.mk.injEq] at he
    obtain ⟨rfl, rfl⟩ := he
    exact ⟨rfl, .inr ⟨xs, rfl⟩⟩
  | spread v =>
    simp only [evalArg, Option.map_eq_some_iff, Prod.mk.injEq] at he
    obtain ⟨s, hs, rfl, rfl⟩ := he
    exact ⟨rfl, .inl rfl⟩

theorem wf_sealed {w : World η ρ} (h : WF w) {a : Nat} {s : HSet η} (hs : w.sets[a]? = some s) (ha : a ∉ w.setVars) :
    Sealed (fun _ => False) w a s ⟨cells w.arrs s.before, cells w.arrs s.after, s.last, s.handler⟩ :=
  { here := hs, vBefore := rfl, vAfter := rfl, vLast := rfl, vMain := rfl
    bArr := (h.sets s (List.mem_of_getElem? hs)).1.arr, aArr := (h.sets s (List.mem_of_getElem? hs)).2.arr
    notVar := fun _ hb e => ha (e ▸ hb), vars := h.vars
    held := fun _ _ _ hP => hP.elim
    rts := fun r hr => h.sepR s (List.mem_of_getElem? hs) r hr
    sls := fun x hx => h.sepS s (List.mem_of_getElem? hs) x hx }

/-- One append to a set changes another set. -/
theorem spoil_append (grow : Nat → Nat → Nat) {w : World η ρ} (h : WF w) {a addr : Nat} {s t : HSet η} (hs : w.sets[a]? = some s) (ht : w.sets[addr]? = some t)
    (hne : addr ≠ a) {arg : Arg η} {w' : World η ρ} {x : Slice} (he : evalArg w arg = some (w', x)) :
    (setHandlers (opBefore grow w' addr (cells w'.arrs x)) a ≠ setHandlers w a ↔ Overwrites w.arrs t.before (cells w'.arrs x) s.before) ∧
    (setHandlers (opAfter grow w' addr (cells w'.arrs x)) a ≠ setHandlers w a ↔ Overwrites w.arrs t.after (cells w'.arrs x) s.after) := by
  obtain ⟨e1, e2⟩ := evalArg_same he
  have wfs := h.sets s (List.mem_of_getElem? hs)
  have wft := h.sets t (List.mem_of_getElem? ht)
  have hs' : w'.sets[a]? = some s := by rw [e1]; exact hs
  have ht' : w'.sets[addr]? = some t := by rw [e1]; exact ht
  have cellsEq : ∀ z, z.arr < w.arrs.length → cells w'.arrs z = cells w.arrs z := by
    intro z hz
    rcases e2 with e | ⟨l, e⟩ <;> rw [e]
    exact cells_push _ _ _ hz
  have swf : ∀ {z}, SWF w.arrs z → SWF w'.arrs z := by
    intro z hz
    rcases e2 with e | ⟨l, e⟩ <;> rw [e]
    · exact hz
    · exact swf_push l hz
  have over : ∀ u z, u.arr < w.arrs.length → (Overwrites w'.arrs u (cells w'.arrs x) z ↔ Overwrites w.arrs u (cells w'.arrs x) z) := by
    intro u z hu
    rcases e2 with e | ⟨l, e⟩
    · rw [e]
    · generalize cells w'.arrs x = xs
      rw [e]; exact overwrites_push xs hu
  have hset : ∀ y : HSet η, (w'.sets.set addr y)[a]? = some s := fun y => by rw [List.getElem?_set_ne hne]; exact hs'
  have h0 : setHandlers w a = some ⟨cells w.arrs s.before, cells w.arrs s.after, s.last, s.handler⟩ := by simp [setHandlers, hs]
  have sep1 : t.before.arr ≠ s.after.arr := h.sepBA t (List.mem_of_getElem? ht) s (List.mem_of_getElem? hs)
  have sep2 : t.after.arr ≠ s.before.arr := fun e => h.sepBA s (List.mem_of_getElem? hs) t (List.mem_of_getElem? ht) e.symm
  have no1 : ¬ Overwrites w.arrs t.before (cells w'.arrs x) s.after := by rintro ⟨-, i, y, -, ⟨k, -⟩, -⟩; exact sep1 k.symm
  have no2 : ¬ Overwrites w.arrs t.after (cells w'.arrs x) s.before := by rintro ⟨-, i, y, -, ⟨k, -⟩, -⟩; exact sep2 k.symm
  have lenB := (swf wfs.1)
  constructor
  · have e : setHandlers (opBefore grow w' addr (cells w'.arrs x)) a =
        some ⟨cells (appendSlice grow w'.arrs t.before (cells w'.arrs x)).1 s.before, cells (appendSlice grow w'.arrs t.before (cells w'.arrs x)).1 s.after,
          s.last, s.handler⟩ := by
      simp only [opBefore, ht', setHandlers, hset, Option.map_some]
    have k1 := append_changes grow w'.arrs t.before s.before (cells w'.arrs x) (swf wfs.1)
    have k2 := append_changes grow w'.arrs t.before s.after (cells w'.arrs x) (swf wfs.2)
    rw [over _ _ wft.1.arr, cellsEq _ wfs.1.arr] at k1
    rw [over _ _ wft.1.arr, cellsEq _ wfs.2.arr] at k2
    rw [e, h0, ← k1]
    have k3 : cells (appendSlice grow w'.arrs t.before (cells w'.arrs x)).1 s.after = cells w.arrs s.after := Classical.byContradiction fun c => no1 (k2.1 c)
    simp [k3]
  · have e : setHandlers (opAfter grow w' addr (cells w'.arrs x)) a =
        some ⟨cells (appendSlice grow w'.arrs t.after (cells w'.arrs x)).1 s.before, cells (appendSlice grow w'.arrs t.after (cells w'.arrs x)).1 s.after,
          s.last, s.handler⟩ := by
      simp only [opAfter, ht', setHandlers, hset, Option.map_some]
    have k1 := append_changes grow w'.arrs t.after s.before (cells w'.arrs x) (swf wfs.1)
    have k2 := append_changes grow w'.arrs t.after s.after (cells w'.arrs x) (swf wfs.2)
    rw [over _ _ wft.2.arr, cellsEq _ wfs.1.arr] at k1
    rw [over _ _ wft.2.arr, cellsEq _ wfs.2.arr] at k2
    rw [e, h0, ← k2]
    have k3 : cells (appendSlice grow w'.arrs t.after (cells w'.arrs x)).1 s.before = cells w.arrs s.before := Classical.byContradiction fun c => no2 (k1.1 c)
    simp [k3]

/-- **C33** (exactly).  After any program, for the handlers of any registered route (with a path or a regular expression) and any call the program
may make next: the call changes them exactly if it is `Before` or `After` on a set of the program and overwrites (`Spoils`). Nothing else does:
no other call on sets, on routers, on the server, and nothing done to slices. -/
theorem C33_exact (grow : Nat → Nat → Nat) (ops : List (Op η ρ)) (a : Nat)
    (ha : a ∈ (progState grow ops).log.map (·.set) ∨ a ∈ (progState grow ops).rxLog.map (·.set)) (o : Op η ρ) :
    let w := progState grow ops
    setHandlers (step grow w o).1 a ≠ setHandlers w a ↔ ∃ s, w.sets[a]? = some s ∧ Spoils w s o := by
  intro w
  have h : WF w := progState_wf grow ops
  have reg : a < w.sets.length ∧ a ∉ w.setVars := by
    rcases ha with ha | ha
    · obtain ⟨r, hr, rfl⟩ := List.mem_map.1 ha; exact h.logOk r hr
    · obtain ⟨r, hr, rfl⟩ := List.mem_map.1 ha; exact h.rxLogOk r hr
  obtain ⟨s, hs⟩ : ∃ s, w.sets[a]? = some s := ⟨w.sets[a], by simp [reg.1]⟩
  have sealed := wf_sealed h hs reg.2
  have h0 : setHandlers w a = some ⟨cells w.arrs s.before, cells w.arrs s.after, s.last, s.handler⟩ := by simp [setHandlers, hs]
  have quiet : ∀ o : Op η ρ, o.setVar? = none → ¬ setHandlers (step grow w o).1 a ≠ setHandlers w a := by
    intro o ho hne
    have := (sealed.step grow o (fun j hj => by rw [ho] at hj; cases hj)).view
    exact hne (by rw [this, h0])
  have none_ : ∀ {o : Op η ρ}, o.setVar? = none → (∀ s, ¬ Spoils w s o) →
      (setHandlers (step grow w o).1 a ≠ setHandlers w a ↔ ∃ s, w.sets[a]? = some s ∧ Spoils w s o) :=
    fun ho hn => ⟨fun k => (quiet _ ho k).elim, fun ⟨s, _, k⟩ => (hn s k).elim⟩
  cases o
  case setBefore j arg =>
    simp only [step]
    cases hj : w.setVars[j]? with
    | none =>
      simp only [ne_eq, not_true_eq_false, false_iff]
      rintro ⟨s, -, addr, t, xs, h1, -⟩
      rw [hj] at h1; cases h1
    | some addr =>
      have hne : addr ≠ a := fun e => reg.2 (e ▸ List.mem_of_getElem? hj)
      have haddr := h.vars addr (List.mem_of_getElem? hj)
      obtain ⟨t, ht⟩ : ∃ t, w.sets[addr]? = some t := ⟨w.sets[addr], by simp [haddr]⟩
      cases he : evalArg w arg with
      | none =>
        simp only [ne_eq, not_true_eq_false, false_iff]
        rintro ⟨s, -, addr, t, xs, -, -, h3, -⟩
        rw [argHandlers_none he] at h3; cases h3
      | some p =>
        obtain ⟨w', x⟩ := p
        simp only
        rw [(spoil_append grow h hs ht hne he).1]
        have hx := argHandlers_eval he
        constructor
        · exact fun k => ⟨s, hs, addr, t, _, hj, ht, hx, k⟩
        · rintro ⟨s', hs'', addr', t', xs, h1, h2, h3, h4⟩
          rw [hj] at h1; cases h1
          rw [ht] at h2; cases h2
          rw [hx] at h3; cases h3
          rw [hs] at hs''; cases hs''
          exact h4
  case setAfter j arg =>
    simp only [step]
    cases hj : w.setVars[j]? with
    | none =>
      simp only [ne_eq, not_true_eq_false, false_iff]
      rintro ⟨s, -, addr, t, xs, h1, -⟩
      rw [hj] at h1; cases h1
    | some addr =>
      have hne : addr ≠ a := fun e => reg.2 (e ▸ List.mem_of_getElem? hj)
      have haddr := h.vars addr (List.mem_of_getElem? hj)
      obtain ⟨t, ht⟩ : ∃ t, w.sets[addr]? = some t := ⟨w.sets[addr], by simp [haddr]⟩
      cases he : evalArg w arg with
      | none =>
        simp only [ne_eq, not_true_eq_false, false_iff]
        rintro ⟨s, -, addr, t, xs, -, -, h3, -⟩
        rw [argHandlers_none he] at h3; cases h3
      | some p =>
        obtain ⟨w', x⟩ := p
        simp only
        rw [(spoil_append grow h hs ht hne he).2]
        have hx := argHandlers_eval he
        constructor
        · exact fun k => ⟨s, hs, addr, t, _, hj, ht, hx, k⟩
        · rintro ⟨s', hs'', addr', t', xs, h1, h2, h3, h4⟩
          rw [hj] at h1; cases h1
          rw [ht] at h2; cases h2
          rw [hx] at h3; cases h3
          rw [hs] at hs''; cases hs''
          exact h4
  case setClone j =>
    refine ⟨fun k => (k ?_).elim, fun ⟨_, _, k⟩ => k.elim⟩
    simp only [step]
    cases hj : w.setVars[j]? with
    | none => rfl
    | some addr =>
      simp only [opClone]
      cases w.sets[addr]? with
      | none => rfl
      | some t => simp only [setHandlers, List.getElem?_append_left reg.1]
  all_goals exact none_ rfl fun _ k => k

/-- The clone made before the last append shares its array with the registered route: `Before` on it spoils the route, on the set itself does not. -/
example :
    let ops : List (Op Nat Nat) := [.newSet, .setBefore 0 (.lit [1]), .setBefore 0 (.lit [2]),
      .setBefore 0 (.lit [3]), .setClone 0, .setBefore 0 (.lit [4]), .sAdd b!"GET" b!"/" (some 7) (some 0)]
    let w := progState (fun c _ => 2 * c) ops
    2 ∈ w.log.map (·.set) ∧ (∃ s, w.sets[2]? = some s ∧ Spoils w s (.setBefore 1 (.lit [5]))) ∧
      ¬ ∃ s, w.sets[2]? = some s ∧ Spoils w s (.setBefore 0 (.lit [5])) := by
  refine ⟨by decide +kernel, ⟨_, rfl, _, _, _, rfl, rfl, rfl, by decide, 0, 5, rfl, ⟨by decide, by decide, by decide⟩, by decide⟩, ?_⟩
  rintro ⟨s, hs, addr, t, xs, h1, h2, h3, -, i, x, -, ⟨-, -, h4⟩, -⟩
  cases hs; cases h1; cases h2
  exact absurd h4 (by simp)

end Verif
