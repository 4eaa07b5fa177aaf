import Verif.Spec.Logger
/-
C47-C50: the logger.
-/
namespace Verif
open Spec

/-! ### C48: level names -/

theorem Spells.map_lower {s w : Str} (h : Spells s w) (hw : ∀ c ∈ w, ¬(65 ≤ c ∧ c ≤ 90)) : s.map lowerByte = w := by
  induction h with
  | nil => rfl
  | same c _ ih =>
    rw [List.map_cons, ih fun x hx => hw x (List.mem_cons_of_mem _ hx)]
    have := hw c (List.mem_cons_self ..)
    simp [lowerByte, this]
  | upper c h1 h2 _ ih =>
    rw [List.map_cons, ih fun x hx => hw x (List.mem_cons_of_mem _ hx)]
    simp [lowerByte, h1, h2]

theorem spells_map_lower (s : Str) : Spells s (s.map lowerByte) := by
  induction s with
  | nil => exact .nil
  | cons c s ih =>
    rw [List.map_cons]
    by_cases h : 65 ≤ c ∧ c ≤ 90
    · rw [show lowerByte c = c + 32 by simp [lowerByte, h]]
      exact .upper c h.1 h.2 ih
    · rw [show lowerByte c = c by simp [lowerByte, h]]
      exact .same c ih

theorem spells_iff {s w : Str} (hw : ∀ c ∈ w, ¬(65 ≤ c ∧ c ≤ 90)) : Spells s w ↔ s.map lowerByte = w :=
  ⟨fun h => Spells.map_lower h hw, fun h => h ▸ spells_map_lower s⟩

/-- The switch of Parse. -/
theorem levelParse_ascii (u : Str → Str) (s : Str) (h : isAscii s = true) (l : Int) :
    levelParse u s = some l ↔ (l, s.map lowerByte) ∈ levelNames := by
  unfold levelParse toLower levelNames
  simp only [h, if_true]
  generalize s.map lowerByte = t
  simp only [List.mem_cons, Prod.mk.injEq, List.not_mem_nil, or_false]
  constructor
  · intro h
    repeat' split at h
    all_goals simp_all
    all_goals (try rcases ‹_ ∨ _› with h | h) <;> simp_all
  · rintro (⟨rfl, rfl⟩ | ⟨rfl, rfl⟩ | ⟨rfl, rfl⟩ | ⟨rfl, rfl⟩ | ⟨rfl, rfl⟩ | ⟨rfl, rfl⟩ | ⟨rfl, rfl⟩ | ⟨rfl, rfl⟩) <;> decide

/-- **C48.** Among ASCII strings, Parse accepts exactly the eight names in any letter case and returns their level;
everything else is an error. -/
theorem C48_parse (u : Str → Str) (s : Str) (h : isAscii s = true) (l : Int) :
    levelParse u s = some l ↔ ∃ name, (l, name) ∈ levelNames ∧ Spells s name := by
  rw [levelParse_ascii u s h l]
  have hlow : ∀ e ∈ levelNames, ∀ c ∈ e.2, ¬(65 ≤ c ∧ c ≤ 90) := by decide
  constructor
  · intro hm
    exact ⟨_, hm, spells_map_lower s⟩
  · rintro ⟨name, hm, hs⟩
    rw [Spells.map_lower hs (hlow _ hm)]; exact hm

/-- **C48.** The seven levels have names, Parse inverts them; every other integer is "unknown", which Parse rejects. -/
theorem C48_names (u : Str → Str) (l : Int) :
    (0 ≤ l ∧ l ≤ 6 → levelParse u (levelString l) = some l ∧ (l, levelString l) ∈ levelNames) ∧
    (¬(0 ≤ l ∧ l ≤ 6) → levelString l = b!"unknown" ∧ levelByte l = none) ∧ levelParse u b!"unknown" = none := by
  refine ⟨fun ⟨h1, h2⟩ => ?_, fun h => ?_, rfl⟩
  · have : l = 0 ∨ l = 1 ∨ l = 2 ∨ l = 3 ∨ l = 4 ∨ l = 5 ∨ l = 6 := by omega
    rcases this with rfl | rfl | rfl | rfl | rfl | rfl | rfl <;> exact ⟨rfl, by decide⟩
  · have hb : levelByte l = none := by
      unfold levelByte
      rw [if_neg]
      omega
    exact ⟨by simp [levelString, hb], hb⟩

example : levelParse id b!"WaRn" = some 3 ∧ levelParse id b!"warnin" = none ∧ levelString 3 = b!"warning" ∧ levelString 7 = b!"unknown" := by
  decide

section
variable {ν : Type}

/-! ### Configurations and loggers as values (C49) -/

/-- The value of a configuration. -/
def Cfg.val (c : Cfg) : CfgVal := ⟨c.level, c.writer, GoMap.get? c.keys⟩

/-- The value of a logger. -/
def LgObj.val (h : LogHeap ν) (o : LgObj ν) : LgVal ν := ⟨(h.cfgAt o.config).val, o.lg.err, GoMap.get? o.lg.fields⟩

/-- The values of everything in the heap. -/
def LogHeap.val (h : LogHeap ν) : LogVal ν := ⟨h.handles.map fun a => (h.cfgAt a).val, h.logs.map (LgObj.val h), h.out⟩

theorem get?_set_upd {κ β : Type} [DecidableEq κ] (m : GoMap κ β) (k : κ) (v : β) :
    GoMap.get? (GoMap.set m k v) = updAt (GoMap.get? m) k (some v) := by
  funext x; simp [updAt, GoMap.get?_set]

theorem get?_erase_upd {κ β : Type} [DecidableEq κ] (m : GoMap κ β) (k : κ) :
    GoMap.get? (GoMap.erase m k) = updAt (GoMap.get? m) k none := by
  funext x; simp [updAt, GoMap.get?_erase]

theorem get?_fold_set {κ β : Type} [DecidableEq κ] (l : List (κ × β)) (m : GoMap κ β) (k : κ)
    (hn : (l.map (·.1)).Nodup) :
    GoMap.get? (l.foldl (fun m e => GoMap.set m e.1 e.2) m) k = (GoMap.get? l k).or (GoMap.get? m k) := by
  induction l generalizing m with
  | nil => simp
  | cons e l ih =>
    rw [List.map_cons, List.nodup_cons] at hn
    rw [List.foldl_cons, ih _ hn.2, GoMap.get?_cons, GoMap.get?_set]
    by_cases h : e.1 = k
    · subst h
      have : GoMap.get? l e.1 = none := by
        unfold GoMap.get?
        rw [List.find?_eq_none.2]
        · rfl
        · intro x hx hx'
          exact hn.1 (List.mem_map.2 ⟨x, hx, by simpa using hx'⟩)
      simp [this]
    · have h' : ¬k = e.1 := fun h' => h h'.symm
      simp [h, h']

/-- Keys of a map stay distinct. -/
theorem nodup_set {κ β : Type} [DecidableEq κ] {m : GoMap κ β} (h : (m.map (·.1)).Nodup) (k : κ) (v : β) :
    ((GoMap.set m k v).map (·.1)).Nodup := by
  unfold GoMap.set
  rw [List.map_cons, List.nodup_cons]
  refine ⟨?_, ?_⟩
  · intro hm
    obtain ⟨e, he, h'⟩ := List.mem_map.1 hm
    have := (List.mem_filter.1 he).2
    simp [h'] at this
  · exact (List.filter_sublist.map _).nodup h

theorem nodup_erase {κ β : Type} [DecidableEq κ] {m : GoMap κ β} (h : (m.map (·.1)).Nodup) (k : κ) :
    ((GoMap.erase m k).map (·.1)).Nodup := (List.filter_sublist.map _).nodup h

theorem nodup_fold {κ β : Type} [DecidableEq κ] (l : List (κ × β)) {m : GoMap κ β} (h : (m.map (·.1)).Nodup) :
    ((l.foldl (fun m e => GoMap.set m e.1 e.2) m).map (·.1)).Nodup := by
  induction l generalizing m with
  | nil => exact h
  | cons e l ih => exact ih (nodup_set h _ _)

/-- A configuration whose key table is a map. -/
def CfgOk (c : Cfg) : Prop := (c.keys.map (·.1)).Nodup

theorem Cfg.clone_ok (c : Cfg) : CfgOk c.clone := nodup_fold c.keys (m := ([] : GoMap Str Str)) List.nodup_nil

theorem Cfg.clone_val {c : Cfg} (h : CfgOk c) : c.clone.val = c.val := by
  unfold Cfg.val Cfg.clone
  congr 1
  funext k
  rw [get?_fold_set _ _ _ h]; simp

theorem Cfg.stdKeys_ok {c : Cfg} (h : CfgOk c) (k v : Str) : CfgOk (c.stdKeys k v).1 := by
  unfold Cfg.stdKeys
  split
  · exact h
  · split
    · exact h
    · exact nodup_set h _ _

theorem Cfg.stdKeys_val (c : Cfg) (k v : Str) : (c.stdKeys k v).1.val = c.val.rename k v := by
  unfold Cfg.stdKeys CfgVal.rename
  by_cases h : k = [] ∨ v = []
  · rw [if_pos h, if_pos (by rcases h with h | h <;> simp [h])]
  · rw [if_neg h]
    rw [not_or] at h
    cases hg : GoMap.get? c.keys k with
    | none => simp [Cfg.val, hg]
    | some old => simp [Cfg.val, hg, h.1, h.2, get?_set_upd]

theorem newCfg_val : newCfg.val = defaultCfg := by
  unfold Cfg.val defaultCfg
  congr 1
  funext k
  show GoMap.get? [(kMessage, kMessage), (kError, kError), (kTimestamp, kTimestamp), (kLevel, kLevel)] k = _
  simp only [GoMap.get?_cons, List.mem_cons, List.not_mem_nil, or_false, kMessage, kError, kTimestamp, kLevel,
    GoMap.get?_nil]
  repeat' split
  all_goals simp_all
  rename_i h1 h2 h3 h4 h5
  rcases h5 with h | h | h | h
  · exact h1 h.symm
  · exact h2 h.symm
  · exact h3 h.symm
  · exact h4 h.symm

/-- The invariant: every configuration is held by at most one owner. -/
structure LogInv (h : LogHeap ν) : Prop where
  nodup : (h.handles ++ h.logs.map (·.config)).Nodup
  bound : ∀ a ∈ h.handles ++ h.logs.map (·.config), a < h.cfgs.length
  cfgs : ∀ c ∈ h.cfgs, CfgOk c
  fields : ∀ o ∈ h.logs, (o.lg.fields.map (·.1)).Nodup

theorem LogHeap.cfgAt_ok {h : LogHeap ν} (hi : LogInv h) (a : Nat) : CfgOk (h.cfgAt a) := by
  unfold LogHeap.cfgAt
  cases hc : h.cfgs[a]? with
  | none => exact (by decide : ((newCfg.keys).map (·.1)).Nodup)
  | some c => exact hi.cfgs c (List.mem_of_getElem? hc)

/-- Positions in the list of owners. -/
theorem owners_handle {h : LogHeap ν} {c a : Nat} (hc : h.handles[c]? = some a) :
    (h.handles ++ h.logs.map (·.config))[c]? = some a := by
  rw [List.getElem?_append_left (List.getElem?_eq_some_iff.1 hc).1, hc]

theorem owners_log {h : LogHeap ν} {l : Nat} {o : LgObj ν} (hl : h.logs[l]? = some o) :
    (h.handles ++ h.logs.map (·.config))[h.handles.length + l]? = some o.config := by
  rw [List.getElem?_append_right (by omega)]
  simp [hl]

theorem owners_inj {h : LogHeap ν} (hi : LogInv h) {i j a : Nat}
    (h1 : (h.handles ++ h.logs.map (·.config))[i]? = some a) (h2 : (h.handles ++ h.logs.map (·.config))[j]? = some a) : i = j :=
  (List.getElem?_inj (List.getElem?_eq_some_iff.1 h1).1 hi.nodup).1 (h1.trans h2.symm)

theorem cfgAt_modify (h : LogHeap ν) (a b : Nat) (f : Cfg → Cfg) (ha : a < h.cfgs.length) :
    LogHeap.cfgAt { h with cfgs := h.cfgs.modify a f } b = if a = b then f (h.cfgAt b) else h.cfgAt b := by
  unfold LogHeap.cfgAt
  simp only [List.getElem?_modify]
  by_cases hab : a = b
  · subst hab
    simp [List.getElem?_eq_getElem ha]
  · simp [hab]

theorem mem_modify_ok {l : List Cfg} {a : Nat} {f : Cfg → Cfg} (hl : ∀ c ∈ l, CfgOk c)
    (hf : ∀ c, CfgOk c → CfgOk (f c)) : ∀ c ∈ l.modify a f, CfgOk c := by
  intro c hc
  obtain ⟨i, hi⟩ := List.mem_iff_getElem?.1 hc
  rw [List.getElem?_modify] at hi
  cases hx : l[i]? with
  | none => simp [hx] at hi
  | some x =>
    have hxo := hl x (List.mem_of_getElem? hx)
    simp only [hx, Option.map_eq_map, Option.map_some, Option.some.injEq] at hi
    subst hi
    split
    · exact hf x hxo
    · exact hxo

theorem inv_modify {h : LogHeap ν} (hi : LogInv h) (a : Nat) {f : Cfg → Cfg} (hf : ∀ c, CfgOk c → CfgOk (f c)) :
    LogInv { h with cfgs := h.cfgs.modify a f } :=
  ⟨hi.nodup, by simpa using hi.bound, mem_modify_ok hi.cfgs hf, hi.fields⟩

theorem inv_updHandle {h : LogHeap ν} (hi : LogInv h) (c : Nat) {f : Cfg → Cfg} (hf : ∀ c, CfgOk c → CfgOk (f c)) :
    LogInv (h.updHandle c f) := by
  unfold LogHeap.updHandle
  split
  · exact hi
  · exact inv_modify hi _ hf

theorem inv_updCfg {h : LogHeap ν} (hi : LogInv h) (l : Nat) {f : Cfg → Cfg} (hf : ∀ c, CfgOk c → CfgOk (f c)) :
    LogInv (h.updCfg l f) := by
  unfold LogHeap.updCfg
  split
  · exact hi
  · exact inv_modify hi _ hf

theorem modify_none {α : Type} {l : List α} {i : Nat} (f : α → α) (h : l[i]? = none) : l.modify i f = l := by
  apply List.ext_getElem?
  intro j
  rw [List.getElem?_modify]
  by_cases hij : i = j
  · subst hij; simp [h]
  · simp [hij]

theorem val_updHandle {h : LogHeap ν} (hi : LogInv h) (c : Nat) {f : Cfg → Cfg} {g : CfgVal → CfgVal}
    (hfg : ∀ x, (f x).val = g x.val) : (h.updHandle c f).val = h.val.onCfg c g := by
  unfold LogHeap.updHandle LogVal.onCfg
  cases hc : h.handles[c]? with
  | none =>
    simp only [LogHeap.val]
    rw [modify_none _ (by simp [hc])]
  | some a =>
    have ha := hi.bound a (List.mem_of_getElem? (owners_handle hc))
    simp only [LogHeap.val]
    congr 1
    · apply List.ext_getElem?
      intro j
      simp only [List.getElem?_map, List.getElem?_modify, Option.map_eq_map, Option.map_map]
      cases hj : h.handles[j]? with
      | none => rfl
      | some b =>
        simp only [Option.map_some, Function.comp_apply, cfgAt_modify _ _ _ _ ha]
        by_cases hcj : c = j
        · subst hcj
          rw [hc] at hj
          cases hj
          simp [hfg]
        · have : a ≠ b := fun hab => hcj (owners_inj hi (owners_handle hc) (hab ▸ owners_handle hj))
          simp [hcj, this]
    · apply List.map_congr_left
      intro o ho
      obtain ⟨j, hj⟩ := List.mem_iff_getElem?.1 ho
      have : a ≠ o.config := by
        intro hab
        have := owners_inj hi (owners_handle hc) (hab ▸ owners_log hj)
        have := (List.getElem?_eq_some_iff.1 hc).1
        omega
      simp [LgObj.val, cfgAt_modify _ _ _ _ ha, this]

theorem val_updCfg {h : LogHeap ν} (hi : LogInv h) (l : Nat) {f : Cfg → Cfg} {g : CfgVal → CfgVal}
    (hfg : ∀ x, (f x).val = g x.val) : (h.updCfg l f).val = h.val.onLog l fun y => { y with cfg := g y.cfg } := by
  unfold LogHeap.updCfg LogVal.onLog
  cases hl : h.logs[l]? with
  | none =>
    simp only [LogHeap.val]
    rw [modify_none _ (by simp [hl])]
  | some o =>
    have ha := hi.bound _ (List.mem_of_getElem? (owners_log hl))
    simp only [LogHeap.val]
    congr 1
    · apply List.map_congr_left
      intro b hb
      obtain ⟨j, hj⟩ := List.mem_iff_getElem?.1 hb
      have : o.config ≠ b := by
        intro hab
        have := owners_inj hi (owners_log hl) (hab ▸ owners_handle hj)
        have := (List.getElem?_eq_some_iff.1 hj).1
        omega
      simp [cfgAt_modify _ _ _ _ ha, this]
    · apply List.ext_getElem?
      intro j
      simp only [List.getElem?_map, List.getElem?_modify, Option.map_eq_map, Option.map_map]
      cases hj : h.logs[j]? with
      | none => rfl
      | some p =>
        simp only [Option.map_some, Function.comp_apply, LgObj.val, cfgAt_modify _ _ _ _ ha]
        by_cases hlj : l = j
        · subst hlj
          rw [hl] at hj
          cases hj
          simp [hfg]
        · have : o.config ≠ p.config := by
            intro hab
            have := owners_inj hi (owners_log hl) (hab ▸ owners_log hj)
            omega
          simp [hlj, this]

theorem inv_updLg {h : LogHeap ν} (hi : LogInv h) (l : Nat) {f : Cfg → Lg ν → Lg ν × List (Nat × Str)}
    (hf : ∀ c x, (x.fields.map (·.1)).Nodup → ((f c x).1.fields.map (·.1)).Nodup) : LogInv (h.updLg l f) := by
  unfold LogHeap.updLg
  cases hl : h.logs[l]? with
  | none => exact hi
  | some o =>
    have hm : (h.logs.set l { o with lg := (f (h.cfgAt o.config) o.lg).1 }).map (·.config) = h.logs.map (·.config) := by
      apply List.ext_getElem?
      intro j
      simp only [List.getElem?_map, List.getElem?_set]
      by_cases hlj : l = j
      · subst hlj
        simp only [hl, (List.getElem?_eq_some_iff.1 hl).1, if_true, Option.map_some]
      · simp [hlj]
    refine ⟨?_, ?_, hi.cfgs, ?_⟩
    · simp only [hm]; exact hi.nodup
    · simp only [hm]; exact hi.bound
    · intro p hp
      rcases List.mem_or_eq_of_mem_set hp with hp | hp
      · exact hi.fields p hp
      · subst hp
        exact hf _ _ (hi.fields o (List.mem_of_getElem? hl))

/-- The value after a call that changes a logger's own contents. -/
theorem val_updLg {h : LogHeap ν} (l : Nat) {f : Cfg → Lg ν → Lg ν × List (Nat × Str)} {g : LgVal ν → LgVal ν}
    (hfg : ∀ (c : Cfg) (x : Lg ν), LgVal.mk c.val (f c x).1.err (GoMap.get? (f c x).1.fields) = g ⟨c.val, x.err, GoMap.get? x.fields⟩)
    (hout : ∀ c x, (f c x).2 = []) : (h.updLg l f).val = h.val.onLog l g := by
  unfold LogHeap.updLg LogVal.onLog
  cases hl : h.logs[l]? with
  | none =>
    simp only [LogHeap.val]
    rw [modify_none _ (by simp [hl])]
  | some o =>
    simp only [LogHeap.val, hout, List.append_nil]
    congr 1
    apply List.ext_getElem?
    intro j
    simp only [List.getElem?_map, List.getElem?_set, List.getElem?_modify, Option.map_eq_map, Option.map_map]
    by_cases hlj : l = j
    · subst hlj
      simp only [hl, (List.getElem?_eq_some_iff.1 hl).1, if_true, Option.map_some, Function.comp_apply, LgObj.val]
      exact congrArg some (hfg (h.cfgAt o.config) o.lg)
    · simp only [hlj, if_false, Function.comp_def, id, Option.map_id']
      rfl

/-- Adding fresh configurations leaves the old ones alone. -/
theorem cfgAt_append {h : LogHeap ν} (xs : List Cfg) {a : Nat} (ha : a < h.cfgs.length) (hs : List Nat) (ls : List (LgObj ν))
    (out : List (Nat × Str)) : LogHeap.cfgAt ⟨h.cfgs ++ xs, hs, ls, out⟩ a = h.cfgAt a := by
  unfold LogHeap.cfgAt
  rw [List.getElem?_append_left ha]

theorem cfgAt_new {h : LogHeap ν} (x : Cfg) (xs : List Cfg) (hs : List Nat) (ls : List (LgObj ν)) (out : List (Nat × Str)) :
    LogHeap.cfgAt ⟨h.cfgs ++ x :: xs, hs, ls, out⟩ h.cfgs.length = x := by
  simp [LogHeap.cfgAt]

theorem cfgAt_new2 {h : LogHeap ν} (x y : Cfg) (hs : List Nat) (ls : List (LgObj ν)) (out : List (Nat × Str)) :
    LogHeap.cfgAt ⟨h.cfgs ++ [x, y], hs, ls, out⟩ (h.cfgs.length + 1) = y := by
  simp [LogHeap.cfgAt, List.getElem?_append_right]

theorem handles_val {h : LogHeap ν} (hi : LogInv h) (xs : List Cfg) (hs : List Nat) (ls : List (LgObj ν))
    (out : List (Nat × Str)) :
    (h.handles.map fun a => (LogHeap.cfgAt ⟨h.cfgs ++ xs, hs, ls, out⟩ a).val) = h.handles.map fun a => (h.cfgAt a).val := by
  apply List.map_congr_left
  intro a ha
  rw [cfgAt_append _ (hi.bound a (List.mem_append_left _ ha))]

theorem logs_val {h : LogHeap ν} (hi : LogInv h) (xs : List Cfg) (hs : List Nat) (ls : List (LgObj ν))
    (out : List (Nat × Str)) :
    h.logs.map (LgObj.val ⟨h.cfgs ++ xs, hs, ls, out⟩) = h.logs.map (LgObj.val h) := by
  apply List.map_congr_left
  intro o ho
  unfold LgObj.val
  rw [cfgAt_append _ (hi.bound _ (List.mem_append_right _ (List.mem_map.2 ⟨o, ho, rfl⟩)))]

/-- A new configuration, handed to the user. -/
theorem step_handle {h : LogHeap ν} (hi : LogInv h) {x : Cfg} (hx : CfgOk x) :
    LogInv { h with cfgs := h.cfgs ++ [x], handles := h.handles ++ [h.cfgs.length] } ∧
    LogHeap.val { h with cfgs := h.cfgs ++ [x], handles := h.handles ++ [h.cfgs.length] } =
      { h.val with cfgs := h.val.cfgs ++ [x.val] } := by
  refine ⟨⟨?_, ?_, ?_, hi.fields⟩, ?_⟩
  · have hf : h.cfgs.length ∉ h.handles ++ h.logs.map (·.config) := fun hm => Nat.lt_irrefl _ (hi.bound _ hm)
    have : (h.handles ++ [h.cfgs.length] ++ h.logs.map (·.config)).Perm
        (h.cfgs.length :: (h.handles ++ h.logs.map (·.config))) := by
      rw [List.append_assoc, List.singleton_append]
      exact List.perm_middle
    exact this.nodup_iff.2 (List.nodup_cons.2 ⟨hf, hi.nodup⟩)
  · intro a ha
    simp only [List.length_append, List.length_cons, List.length_nil]
    simp only [List.mem_append, List.mem_singleton] at ha
    rcases ha with (ha | ha) | ha
    · have := hi.bound a (List.mem_append_left _ ha); omega
    · omega
    · have := hi.bound a (List.mem_append_right _ ha); omega
  · intro c hc
    rcases List.mem_append.1 hc with hc | hc
    · exact hi.cfgs c hc
    · rw [List.mem_singleton.1 hc]; exact hx
  · simp only [LogHeap.val, List.map_append, List.map_cons, List.map_nil, cfgAt_new]
    rw [handles_val hi, logs_val hi]

/-- A new logger with a fresh configuration. -/
theorem step_logger {h : LogHeap ν} (hi : LogInv h) {x : Cfg} (hx : CfgOk x) {g : Lg ν} (hg : (g.fields.map (·.1)).Nodup) :
    LogInv { h with cfgs := h.cfgs ++ [x], logs := h.logs ++ [⟨h.cfgs.length, g⟩] } ∧
    LogHeap.val { h with cfgs := h.cfgs ++ [x], logs := h.logs ++ [⟨h.cfgs.length, g⟩] } =
      { h.val with logs := h.val.logs ++ [⟨x.val, g.err, GoMap.get? g.fields⟩] } := by
  refine ⟨⟨?_, ?_, ?_, ?_⟩, ?_⟩
  · have hf : h.cfgs.length ∉ h.handles ++ h.logs.map (·.config) := fun hm => Nat.lt_irrefl _ (hi.bound _ hm)
    have : (h.handles ++ (h.logs ++ [(⟨h.cfgs.length, g⟩ : LgObj ν)]).map (·.config)).Perm
        (h.cfgs.length :: (h.handles ++ h.logs.map (·.config))) := by
      rw [List.map_append, ← List.append_assoc]
      exact List.perm_append_comm
    exact this.nodup_iff.2 (List.nodup_cons.2 ⟨hf, hi.nodup⟩)
  · intro a ha
    simp only [List.length_append, List.length_cons, List.length_nil]
    simp only [List.map_append, List.mem_append, List.map_cons, List.map_nil, List.mem_singleton] at ha
    rcases ha with ha | ha | ha
    · have := hi.bound a (List.mem_append_left _ ha); omega
    · have := hi.bound a (List.mem_append_right _ ha); omega
    · omega
  · intro c hc
    rcases List.mem_append.1 hc with hc | hc
    · exact hi.cfgs c hc
    · rw [List.mem_singleton.1 hc]; exact hx
  · intro o ho
    rcases List.mem_append.1 ho with ho | ho
    · exact hi.fields o ho
    · rw [List.mem_singleton.1 ho]; exact hg
  · simp only [LogHeap.val, List.map_append, List.map_cons, List.map_nil]
    rw [handles_val hi, logs_val hi]
    simp [LgObj.val, cfgAt_new]

theorem nodup_set_fresh {l : List Nat} {i a : Nat} (hn : l.Nodup) (ha : a ∉ l) : (l.set i a).Nodup := by
  induction l generalizing i with
  | nil => simp
  | cons x l ih =>
    rw [List.nodup_cons] at hn
    have hax : a ≠ x := fun h => ha (h ▸ List.mem_cons_self ..)
    have hal : a ∉ l := fun h => ha (List.mem_cons_of_mem _ h)
    cases i with
    | zero =>
      rw [List.set_cons_zero, List.nodup_cons]
      exact ⟨hal, hn.2⟩
    | succ i =>
      rw [List.set_cons_succ, List.nodup_cons]
      refine ⟨fun h => ?_, ih hn.2 hal⟩
      rcases List.mem_or_eq_of_mem_set h with h | h
      · exact hn.1 h
      · exact hax h.symm

/-- SetConfig. -/
theorem step_setConfig {h : LogHeap ν} (hi : LogInv h) {x y : Cfg} (hx : CfgOk x) (hy : CfgOk y) {l : Nat} {o : LgObj ν}
    (hl : h.logs[l]? = some o) :
    LogInv { h with cfgs := h.cfgs ++ [x, y], logs := h.logs.set l { o with config := h.cfgs.length + 1 } } ∧
    LogHeap.val { h with cfgs := h.cfgs ++ [x, y], logs := h.logs.set l { o with config := h.cfgs.length + 1 } } =
      h.val.onLog l fun z => { z with cfg := y.val } := by
  have hlt := (List.getElem?_eq_some_iff.1 hl).1
  have hm : (h.logs.set l { o with config := h.cfgs.length + 1 }).map (·.config) =
      (h.logs.map (·.config)).set l (h.cfgs.length + 1) := by
    rw [List.map_set]
  have hset : h.handles ++ (h.logs.map (·.config)).set l (h.cfgs.length + 1) =
      (h.handles ++ h.logs.map (·.config)).set (h.handles.length + l) (h.cfgs.length + 1) := by
    rw [List.set_append_right _ _ (by omega)]
    simp
  refine ⟨⟨?_, ?_, ?_, ?_⟩, ?_⟩
  · simp only [hm, hset]
    refine nodup_set_fresh hi.nodup ?_
    intro hmem
    have := hi.bound _ hmem
    omega
  · simp only [hm]
    intro a ha
    simp only [List.length_append, List.length_cons, List.length_nil]
    rcases List.mem_append.1 ha with ha | ha
    · have := hi.bound a (List.mem_append_left _ ha); omega
    · rcases List.mem_or_eq_of_mem_set ha with ha | ha
      · have := hi.bound a (List.mem_append_right _ ha); omega
      · omega
  · intro c hc
    simp only [List.mem_append, List.mem_cons, List.not_mem_nil, or_false] at hc
    rcases hc with hc | hc | hc
    · exact hi.cfgs c hc
    · rw [hc]; exact hx
    · rw [hc]; exact hy
  · intro p hp
    rcases List.mem_or_eq_of_mem_set hp with hp | hp
    · exact hi.fields p hp
    · subst hp
      exact hi.fields o (List.mem_of_getElem? hl)
  · simp only [LogHeap.val, LogVal.onLog]
    rw [handles_val hi]
    congr 1
    apply List.ext_getElem?
    intro j
    simp only [List.getElem?_map, List.getElem?_set, List.getElem?_modify, Option.map_eq_map, Option.map_map]
    by_cases hlj : l = j
    · subst hlj
      simp only [hl, hlt, if_true, Option.map_some, Function.comp_apply, LgObj.val, cfgAt_new2]
    · simp only [hlj, if_false, Function.comp_def, id]
      cases hj : h.logs[j]? with
      | none => rfl
      | some p =>
        simp only [Option.map_some, LgObj.val]
        rw [cfgAt_append _ (hi.bound _ (List.mem_append_right _ (List.mem_map.2 ⟨p, List.mem_of_getElem? hj, rfl⟩)))]

/-- Writing a record. -/
theorem val_write (enc : (Str → Option (FV ν)) → Option Str) (h : LogHeap ν) (l : Nat) (lvl : Int) (msg : Option Str) :
    (h.updLg l fun c x => match msg with
      | none => x.log enc c lvl
      | some m => x.logf enc c lvl m).val = h.val.write enc l lvl msg := by
  unfold LogHeap.updLg LogVal.write
  cases hl : h.logs[l]? with
  | none => simp [LogHeap.val, hl]
  | some o =>
    have hlt := (List.getElem?_eq_some_iff.1 hl).1
    have hv : h.val.logs[l]? = some (LgObj.val h o) := by simp [LogHeap.val, hl]
    rw [hv]
    simp only
    have hset : ∀ g : Lg ν, (h.logs.set l { o with lg := g }).map (LgObj.val h) =
        (h.logs.map (LgObj.val h)).set l ⟨(h.cfgAt o.config).val, g.err, GoMap.get? g.fields⟩ := by
      intro g
      rw [List.map_set]; rfl
    have hrec : ∀ x : Lg ν, GoMap.get? (x.record (h.cfgAt o.config)) =
        (LgVal.stamped ⟨(h.cfgAt o.config).val, x.err, GoMap.get? x.fields⟩).fields := by
      intro x
      simp only [Lg.record, get?_set_upd, LgVal.stamped]
      rfl
    have hline : ∀ x : Lg ν, jsonLine enc (x.record (h.cfgAt o.config)) =
        line enc (LgVal.stamped ⟨(h.cfgAt o.config).val, x.err, GoMap.get? x.fields⟩).fields := by
      intro x
      rw [← hrec]; rfl
    have hself : h.logs.set l o = h.logs := by
      apply List.ext_getElem?
      intro j
      rw [List.getElem?_set]
      by_cases hlj : l = j
      · subst hlj; simp only [hlt, if_true, hl]
      · simp [hlj]
    by_cases hle : lvl ≤ (h.cfgAt o.config).level
    · have hngt : ¬ lvl > (h.cfgAt o.config).level := by omega
      rw [if_pos (show lvl ≤ (LgObj.val h o).cfg.level from hle)]
      cases msg with
      | none =>
        simp only [Lg.log, if_neg hngt, LogHeap.val]
        rw [hline]
        congr 1
        rw [show ∀ hs ls out, LgObj.val (⟨h.cfgs, hs, ls, out⟩ : LogHeap ν) = LgObj.val h from fun _ _ _ => rfl, hset]
        simp only [hrec]
        rfl
      | some m =>
        simp only [Lg.logf, Lg.log, if_neg hngt, LogHeap.val]
        rw [hline, get?_set_upd]
        congr 1
        rw [show ∀ hs ls out, LgObj.val (⟨h.cfgs, hs, ls, out⟩ : LogHeap ν) = LgObj.val h from fun _ _ _ => rfl, hset]
        simp only [hrec, get?_set_upd]
        rfl
    · have hgt : lvl > (h.cfgAt o.config).level := by omega
      rw [if_neg (show ¬ lvl ≤ (LgObj.val h o).cfg.level from hle)]
      cases msg <;> simp only [Lg.log, Lg.logf, if_pos hgt, hself, List.append_nil]

theorem fields_write (enc : (Str → Option (FV ν)) → Option Str) (c : Cfg) (x : Lg ν) (lvl : Int) (msg : Option Str)
    (hx : (x.fields.map (·.1)).Nodup) :
    (((match msg with
      | none => x.log enc c lvl
      | some m => x.logf enc c lvl m : Lg ν × List (Nat × Str)).1.fields).map (·.1)).Nodup := by
  cases msg with
  | none =>
    simp only [Lg.log]
    split
    · exact hx
    · exact nodup_set (nodup_set hx _ _) _ _
  | some m =>
    simp only [Lg.logf, Lg.log]
    split
    · exact hx
    · exact nodup_set (nodup_set (nodup_set hx _ _) _ _) _ _

/-- Renaming a key of a logger. -/
theorem val_stdKeys {h : LogHeap ν} (hi : LogInv h) (l : Nat) (k v : Str) :
    LogHeap.val ((h.updLg l fun c x => (x.stdKeys (c.stdKeys k v).2 k v, [])).updCfg l fun x => (x.stdKeys k v).1) =
      h.val.onLog l fun y => y.rename k v := by
  have hf : ∀ (c : Cfg) (x : Lg ν), (x.fields.map (·.1)).Nodup → ((x.stdKeys (c.stdKeys k v).2 k v).fields.map (·.1)).Nodup := by
    intro c x hx
    unfold Lg.stdKeys
    split
    · exact hx
    · split
      · exact hx
      · split
        · exact nodup_erase (nodup_set hx _ _) _
        · exact hx
  rw [val_updCfg (inv_updLg hi l hf) l (g := fun y => y.rename k v) (fun x => Cfg.stdKeys_val x k v),
    val_updLg l (g := fun y => { y with fields := (y.rename k v).fields }) ?_ (fun _ _ => rfl)]
  · simp only [LogVal.onLog]
    congr 1
    apply List.ext_getElem?
    intro j
    simp only [List.getElem?_modify, Option.map_eq_map, Option.map_map]
    cases h.val.logs[j]? with
    | none => rfl
    | some y =>
      by_cases hlj : l = j
      · simp only [hlj, if_true, Option.map_some, Function.comp_apply, Option.some.injEq]
        unfold LgVal.rename
        by_cases h0 : k = [] ∨ v = []
        · simp only [if_pos h0, CfgVal.rename]
          rw [if_pos (by rcases h0 with h0 | h0 <;> simp [h0])]
        · simp only [if_neg h0]
          cases hk : y.cfg.keys k with
          | none => simp [CfgVal.rename, hk]
          | some old => rfl
      · simp [hlj]
  · intro c x
    simp only
    have hv : (c.stdKeys k v).2 = if k = [] ∨ v = [] then [] else (GoMap.get? c.keys k).getD [] := by
      unfold Cfg.stdKeys
      split
      · rfl
      · cases hg : GoMap.get? c.keys k <;> simp
    rw [hv]
    unfold LgVal.rename
    by_cases h0 : k = [] ∨ v = []
    · simp [if_pos h0, Lg.stdKeys]
    · simp only [if_neg h0]
      cases hg : GoMap.get? c.keys k with
      | none => simp [Cfg.val, hg, Lg.stdKeys]
      | some old =>
        simp only [Cfg.val, hg, Option.getD_some]
        unfold Lg.stdKeys
        by_cases h1 : old = []
        · simp [h1]
        · rw [if_neg h1]
          cases hfo : GoMap.get? x.fields old with
          | none => by_cases h2 : old = k <;> simp [h2]
          | some w =>
            by_cases h2 : old = k
            · simp [h2]
            · simp [h1, h2, get?_set_upd, get?_erase_upd]

theorem mergeFields_get? (f : Fields ν) (m : List (Str × FV ν)) :
    GoMap.get? (mergeFields f m) = addAll (GoMap.get? f) m := by
  unfold mergeFields addAll
  induction m generalizing f with
  | nil => rfl
  | cons e m ih =>
    rw [List.foldl_cons, List.foldl_cons, ih, get?_set_upd]

theorem mergeFields_copy {f : Fields ν} (h : (f.map (·.1)).Nodup) : GoMap.get? (mergeFields [] f) = GoMap.get? f := by
  funext k
  unfold mergeFields
  rw [get?_fold_set _ _ _ h]; simp

/-- One call, on objects and on values. -/
theorem logStep_val (enc : (Str → Option (FV ν)) → Option Str) {h : LogHeap ν} (hi : LogInv h) (op : LogOp ν) :
    LogInv (logStep enc h op) ∧ (logStep enc h op).val = logValStep enc h.val op := by
  have hcf : ∀ {c a : Nat}, h.handles[c]? = some a → h.val.cfgs[c]? = some (h.cfgAt a).val := by
    intro c a hc; simp [LogHeap.val, hc]
  have hcn : ∀ {c : Nat}, h.handles[c]? = none → h.val.cfgs[c]? = none := by
    intro c hc; simp [LogHeap.val, hc]
  have hlf : ∀ {l : Nat} {o : LgObj ν}, h.logs[l]? = some o → h.val.logs[l]? = some (LgObj.val h o) := by
    intro l o hl; simp [LogHeap.val, hl]
  have hln : ∀ {l : Nat}, h.logs[l]? = none → h.val.logs[l]? = none := by
    intro l hl; simp [LogHeap.val, hl]
  have hnew : CfgOk newCfg := (by decide : ((newCfg.keys).map (·.1)).Nodup)
  cases op with
  | newConfig =>
    refine ⟨(step_handle hi hnew).1, (step_handle hi hnew).2.trans ?_⟩
    rw [newCfg_val]; rfl
  | cfgClone c =>
    simp only [logStep, logValStep]
    cases hc : h.handles[c]? with
    | none => exact ⟨hi, by simp [hcn hc]⟩
    | some a =>
      refine ⟨(step_handle hi (Cfg.clone_ok _)).1, (step_handle hi (Cfg.clone_ok _)).2.trans ?_⟩
      rw [Cfg.clone_val (LogHeap.cfgAt_ok hi a), hcf hc]; rfl
  | cfgSetLevel c l => exact ⟨inv_updHandle hi c fun _ hx => hx, val_updHandle hi c fun _ => rfl⟩
  | cfgSetWriter c w => exact ⟨inv_updHandle hi c fun _ hx => hx, val_updHandle hi c fun _ => rfl⟩
  | cfgStdKeys c k v =>
    exact ⟨inv_updHandle hi c fun _ hx => Cfg.stdKeys_ok hx k v, val_updHandle hi c fun x => Cfg.stdKeys_val x k v⟩
  | new now =>
    have hg : ((newLg (ν := ν) now).fields.map (·.1)).Nodup := List.nodup_cons.2 ⟨List.not_mem_nil, List.nodup_nil⟩
    refine ⟨(step_logger hi hnew hg).1, (step_logger hi hnew hg).2.trans ?_⟩
    rw [newCfg_val]
    simp only [logValStep, newLg]
    congr 4
    funext k
    simp only [GoMap.get?_cons, GoMap.get?_nil, updAt, kTimestamp]
    by_cases hk : k = b!"@timestamp"
    · simp [hk]
    · rw [if_neg hk, if_neg (fun h => hk h.symm)]
  | setConfig l c =>
    simp only [logStep, logValStep]
    cases hc : h.handles[c]? with
    | none => exact ⟨hi, by simp [hcn hc]⟩
    | some a =>
      cases hl : h.logs[l]? with
      | none =>
        refine ⟨hi, ?_⟩
        rw [hcf hc]
        simp only [LogVal.onLog]
        rw [modify_none _ (hln hl)]
      | some o =>
        have := step_setConfig hi (Cfg.clone_ok (h.cfgAt a)) (Cfg.clone_ok (h.cfgAt a).clone) hl
        refine ⟨this.1, this.2.trans ?_⟩
        rw [hcf hc, Cfg.clone_val (Cfg.clone_ok _), Cfg.clone_val (LogHeap.cfgAt_ok hi a)]
  | config l =>
    simp only [logStep, logValStep]
    cases hl : h.logs[l]? with
    | none => exact ⟨hi, by simp [hln hl]⟩
    | some o =>
      refine ⟨(step_handle hi (Cfg.clone_ok _)).1, (step_handle hi (Cfg.clone_ok _)).2.trans ?_⟩
      rw [Cfg.clone_val (LogHeap.cfgAt_ok hi _), hlf hl]; rfl
  | clone l =>
    simp only [logStep, logValStep]
    cases hl : h.logs[l]? with
    | none => exact ⟨hi, by simp [hln hl]⟩
    | some o =>
      have hg : (((⟨none, mergeFields [] o.lg.fields⟩ : Lg ν)).fields.map (·.1)).Nodup :=
        nodup_fold o.lg.fields (m := ([] : GoMap Str (FV ν))) List.nodup_nil
      refine ⟨(step_logger hi (Cfg.clone_ok _) hg).1, (step_logger hi (Cfg.clone_ok _) hg).2.trans ?_⟩
      simp only
      rw [Cfg.clone_val (LogHeap.cfgAt_ok hi _), hlf hl, mergeFields_copy (hi.fields o (List.mem_of_getElem? hl))]; rfl
  | add l k v =>
    simp only [logStep, logValStep]
    refine ⟨inv_updLg hi l fun _ _ hx => (by exact nodup_set hx _ _), val_updLg l ?_ fun _ _ => rfl⟩
    intro c x
    simp only [get?_set_upd]
  | addDebug l k v =>
    simp only [logStep, logValStep]
    refine ⟨inv_updLg hi l fun c x hx => ?_, val_updLg l ?_ fun _ _ => rfl⟩
    · simp only [Lg.addDebug]
      split
      · exact nodup_set hx _ _
      · exact hx
    · intro c x
      simp only [Lg.addDebug, Cfg.val]
      by_cases h5 : (5 : Int) ≤ c.level
      · simp [h5, get?_set_upd]
      · simp [h5]
  | merge l m =>
    simp only [logStep, logValStep]
    refine ⟨inv_updLg hi l fun _ _ hx => (by exact nodup_fold m hx), val_updLg l ?_ fun _ _ => rfl⟩
    intro c x
    simp only [mergeFields_get?]
  | writer l w => exact ⟨inv_updCfg hi l fun _ hx => hx, val_updCfg hi l (g := fun y => { y with writer := w }) fun _ => rfl⟩
  | setLevel l n => exact ⟨inv_updCfg hi l fun _ hx => hx, val_updCfg hi l (g := fun y => { y with level := n }) fun _ => rfl⟩
  | stdKeys l k v =>
    refine ⟨inv_updCfg (inv_updLg hi l ?_) l fun _ hx => Cfg.stdKeys_ok hx k v, val_stdKeys hi l k v⟩
    intro c x hx
    simp only [Lg.stdKeys]
    repeat' split
    all_goals first | exact hx | exact nodup_erase (nodup_set hx _ _) _
  | error l e =>
    simp only [logStep, logValStep]
    refine ⟨inv_updLg hi l fun c x hx => ?_, val_updLg l ?_ fun _ _ => rfl⟩
    · cases e with
      | none => exact hx
      | some e => simp only [Lg.error]; split <;> exact hx
    · intro c x
      cases e with
      | none => rfl
      | some e =>
        simp only [Lg.error, LgVal.attach]
        cases x.err <;> rfl
  | log l lvl => exact ⟨inv_updLg hi l fun c x hx => fields_write enc c x lvl none hx, val_write enc h l lvl none⟩
  | logf l lvl msg => exact ⟨inv_updLg hi l fun c x hx => fields_write enc c x lvl (some msg) hx, val_write enc h l lvl (some msg)⟩

theorem logRun_val (enc : (Str → Option (FV ν)) → Option Str) (ops : List (LogOp ν)) :
    LogInv (logRun enc ops) ∧ (logRun enc ops).val = logVals enc ops := by
  have : ∀ (h : LogHeap ν), LogInv h → ∀ ops : List (LogOp ν), LogInv (ops.foldl (logStep enc) h) ∧
      (ops.foldl (logStep enc) h).val = ops.foldl (logValStep enc) h.val := by
    intro h hi ops
    induction ops generalizing h with
    | nil => exact ⟨hi, rfl⟩
    | cons op ops ih =>
      have := logStep_val enc hi op
      rw [List.foldl_cons, List.foldl_cons, ← this.2]
      exact ih _ this.1
  exact this ⟨[], [], [], []⟩ ⟨List.nodup_nil, by simp, by simp, by simp⟩ ops

/-- **C49.** After any history of calls, what every configuration and every logger the user holds contains, and what
was written, is what it would be if each of them were a separate value: no level, writer, key table or field is shared. -/
theorem C49_values (enc : (Str → Option (FV ν)) → Option Str) (ops : List (LogOp ν)) :
    (logRun enc ops).val = logVals enc ops := (logRun_val enc ops).2

theorem logVals_snoc (enc : (Str → Option (FV ν)) → Option Str) (ops : List (LogOp ν)) (op : LogOp ν) :
    logVals enc (ops ++ [op]) = logValStep enc (logVals enc ops) op := by
  simp [logVals]

theorem getElem?_modify_ne {α : Type} (l : List α) (f : α → α) {i j : Nat} (h : i ≠ j) : (l.modify i f)[j]? = l[j]? := by
  rw [List.getElem?_modify]; simp [h]

theorem getElem?_append_some {α : Type} {l m : List α} {j : Nat} {x : α} (h : l[j]? = some x) : (l ++ m)[j]? = some x := by
  rw [List.getElem?_append_left (List.getElem?_eq_some_iff.1 h).1, h]

theorem write_logs_ne (enc : (Str → Option (FV ν)) → Option Str) (v : LogVal ν) {i j : Nat} (lvl : Int) (msg : Option Str)
    (h : i ≠ j) : (v.write enc i lvl msg).logs[j]? = v.logs[j]? := by
  unfold LogVal.write
  split
  · rfl
  · split
    · exact List.getElem?_set_ne h
    · rfl

theorem write_cfgs (enc : (Str → Option (FV ν)) → Option Str) (v : LogVal ν) (i : Nat) (lvl : Int) (msg : Option Str) :
    (v.write enc i lvl msg).cfgs = v.cfgs := by
  unfold LogVal.write
  split
  · rfl
  · split <;> rfl

/-- **C49.** A call changes no logger but the one it is made on, and no configuration but the one it is made on: in
particular calls on a configuration never change a logger, whoever got it from where. -/
theorem C49_isolated (enc : (Str → Option (FV ν)) → Option Str) (ops : List (LogOp ν)) (op : LogOp ν) :
    (∀ (j : Nat) (x : LgVal ν), (logRun enc ops).val.logs[j]? = some x → actsOnLogger op ≠ some j →
      (logRun enc (ops ++ [op])).val.logs[j]? = some x) ∧
    (∀ (j : Nat) (x : CfgVal), (logRun enc ops).val.cfgs[j]? = some x → actsOnConfig op ≠ some j →
      (logRun enc (ops ++ [op])).val.cfgs[j]? = some x) := by
  rw [C49_values, C49_values, logVals_snoc]
  generalize logVals enc ops = v
  constructor
  · intro j x hx hj
    cases op with
    | newConfig | cfgClone | cfgSetLevel | cfgSetWriter | cfgStdKeys | config => exact hx
    | new now => exact getElem?_append_some hx
    | clone l => exact getElem?_append_some hx
    | setConfig l c =>
      simp only [logValStep]
      split
      · exact hx
      · exact (getElem?_modify_ne _ _ (fun h => hj (congrArg some h))).trans hx
    | log l lvl => exact (write_logs_ne enc v lvl none (fun h => hj (congrArg some h))).trans hx
    | logf l lvl msg => exact (write_logs_ne enc v lvl (some msg) (fun h => hj (congrArg some h))).trans hx
    | add | addDebug | merge | writer | setLevel | stdKeys | error =>
      exact (getElem?_modify_ne _ _ (fun h => hj (congrArg some h))).trans hx
  · intro j x hx hj
    cases op with
    | newConfig => exact getElem?_append_some hx
    | cfgClone | config => exact getElem?_append_some hx
    | cfgSetLevel | cfgSetWriter | cfgStdKeys => exact (getElem?_modify_ne _ _ (fun h => hj (congrArg some h))).trans hx
    | setConfig l c =>
      simp only [logValStep]
      split <;> exact hx
    | log l lvl => exact (congrArg (·[j]?) (write_cfgs enc v l lvl none)).trans hx
    | logf l lvl msg => exact (congrArg (·[j]?) (write_cfgs enc v l lvl (some msg))).trans hx
    | new | clone | add | addDebug | merge | writer | setLevel | stdKeys | error => exact hx

/-- The level a logger filters with. -/
def levelOf (h : LogHeap ν) (l : Nat) : Option Int := (h.val.logs[l]?).map fun x => x.cfg.level

/-- **C49.** The two loggers' fields after one of them is extended, and the level of a logger whose configuration
was given, read back and then changed. -/
example :
    let r := logRun (ν := Unit) (fun _ => none)
      [.new b!"t", .newConfig, .setConfig 0 0, .cfgSetLevel 0 1, .config 0, .cfgSetLevel 1 2, .clone 0, .setLevel 1 3,
        .add 1 b!"k" (.str b!"v"), .cfgStdKeys 1 b!"@level" b!"lvl"]
    levelOf r 0 = some 5 ∧ levelOf r 1 = some 3 ∧ (r.val.cfgs.map (·.level)) = [1, 2] ∧
      (r.val.logs.map fun x => x.fields b!"k") = [none, some (.str b!"v")] ∧
      (r.val.logs.map fun x => x.cfg.key b!"@level") = [b!"@level", b!"@level"] := by decide +kernel

/-! ### C47: the filter -/

/-- **C47.** Whatever happened before, a message of level `lvl` given to a logger is written iff `lvl` is at most
the logger's level, as exactly one line to the logger's writer. -/
theorem C47_filter (enc : (Str → Option (FV ν)) → Option Str) (ops : List (LogOp ν)) (l : Nat) (lvl : Int) (msg : Str)
    (x : LgVal ν) (hx : (logVals enc ops).logs[l]? = some x) :
    (∃ text, (logRun enc (ops ++ [.logf l lvl msg])).out =
      (logRun enc ops).out ++ if lvl ≤ x.cfg.level then [(x.cfg.writer, text)] else []) ∧
    (∃ text, (logRun enc (ops ++ [.log l lvl])).out =
      (logRun enc ops).out ++ if lvl ≤ x.cfg.level then [(x.cfg.writer, text)] else []) := by
  have ho : ∀ o, (logRun enc o).out = (logVals enc o).out := fun o => congrArg LogVal.out (C49_values enc o)
  simp only [ho, logVals_snoc, logValStep, LogVal.write, hx]
  by_cases h : lvl ≤ x.cfg.level
  · simp only [if_pos h]
    exact ⟨⟨_, rfl⟩, ⟨_, rfl⟩⟩
  · simp [if_neg h]

/-- The calls that log. -/
def logs : LogOp ν → Bool
  | .log _ _ | .logf _ _ _ => true
  | _ => false

/-- **C47.** No other call writes anything. -/
theorem C47_only (enc : (Str → Option (FV ν)) → Option Str) (ops : List (LogOp ν)) (op : LogOp ν) (h : logs op = false) :
    (logRun enc (ops ++ [op])).out = (logRun enc ops).out := by
  have ho : ∀ o, (logRun enc o).out = (logVals enc o).out := fun o => congrArg LogVal.out (C49_values enc o)
  simp only [ho, logVals_snoc]
  cases op with
  | log | logf => cases h
  | setConfig l c => simp only [logValStep]; split <;> rfl
  | newConfig | cfgClone | cfgSetLevel | cfgSetWriter | cfgStdKeys | config | new | clone | add | addDebug | merge | writer
    | setLevel | stdKeys | error => rfl

/-- The name of the level each printf-like method is documented to log at. -/
def LogFn.documented : LogFn → Str
  | .tracef => b!"trace"
  | .printf => b!"info"
  | .infof => b!"info"
  | .debugf => b!"debug"
  | .warnf => b!"warning"
  | .panicf => b!"panic"
  | .errorf => b!"error"
  | .fatalf => b!"fatal"

/-- **C47.** Each printf-like method logs at the level of its name. -/
theorem C47_methods (f : LogFn) : levelString f.level = f.documented := by cases f <;> rfl

/-- **C47.** The Debugf of a server or a context writes one line iff the configured level is debug or trace, to the
configured writer, and the line holds the message. -/
theorem C47_debugf (enc : (Str → Option (FV ν)) → Option Str) (c : Cfg) (hc : (c.keys.map (·.1)).Nodup) (now msg : Str) :
    (c.level < 5 → debugf enc c now msg = []) ∧
    (5 ≤ c.level → debugf enc c now msg = [(c.writer, line enc
      (LgVal.stamped ⟨c.val, none, updAt (updAt (fun _ => none) b!"@timestamp" (some (.str now))) b!"message" (some (.str msg))⟩).fields)]) := by
  unfold debugf
  refine ⟨fun h => if_neg (by omega), fun h => ?_⟩
  rw [if_pos h]
  have hcv : c.clone.clone.val = c.val := by
    rw [Cfg.clone_val (Cfg.clone_ok _), Cfg.clone_val hc]
  have hl : c.clone.clone.level = c.level := rfl
  have hw : c.clone.clone.writer = c.writer := rfl
  have hn : ¬ (5 : Int) > c.clone.clone.level := by rw [hl]; omega
  simp only [Lg.logf, Lg.log, if_neg hn, hw]
  congr 2
  have hrec : ∀ x : Lg ν, jsonLine enc (x.record c.clone.clone) =
      line enc (LgVal.stamped ⟨c.clone.clone.val, x.err, GoMap.get? x.fields⟩).fields := by
    intro x
    simp only [jsonLine, Lg.record, get?_set_upd, LgVal.stamped]
    rfl
  rw [hrec, hcv]
  simp only [newLg, get?_set_upd]
  congr 5
  funext k
  simp only [GoMap.get?_cons, GoMap.get?_nil, updAt, kTimestamp]
  by_cases hk : k = b!"@timestamp"
  · simp [hk]
  · rw [if_neg hk, if_neg (fun h => hk h.symm)]

/-- **C47.** At level info, an info message and an error message are written and a debug message is not. -/
example :
    (logRun (ν := Unit) (fun f => match f b!"message" with | some (.str s) => some s | _ => none)
      [.new b!"t", .setLevel 0 4, .logf 0 4 b!"a", .logf 0 5 b!"b", .logf 0 2 b!"c", .writer 0 7, .logf 0 0 b!"d"]).out =
    [(0, b!"a\n"), (0, b!"c\n"), (7, b!"d\n")] := by decide +kernel

/-! ### C50: the record -/

/-- **C50.** The exact record of a written message: the error's text (or "") under the error key, the name of the
*configured* level under the level key, the message under "message" and the logger's own fields. -/
theorem C50_record (enc : (Str → Option (FV ν)) → Option Str) (ops : List (LogOp ν)) (l : Nat) (lvl : Int) (msg : Str)
    (x : LgVal ν) (hx : (logVals enc ops).logs[l]? = some x) (hle : lvl ≤ x.cfg.level) :
    ∃ rec : Str → Option (FV ν),
      (logRun enc (ops ++ [.logf l lvl msg])).out = (logRun enc ops).out ++ [(x.cfg.writer, line enc rec)] ∧
      ((logRun enc (ops ++ [.logf l lvl msg])).val.logs[l]?).map (·.fields) = some rec ∧
      ∀ k, rec k =
        if k = x.cfg.key b!"error.message" then some (.str (x.err.getD []))
        else if k = x.cfg.key b!"@level" then some (.str (levelString x.cfg.level))
        else if k = b!"message" then some (.str msg)
        else x.fields k := by
  have ho : ∀ o, (logRun enc o).out = (logVals enc o).out := fun o => congrArg LogVal.out (C49_values enc o)
  rw [C49_values]
  simp only [ho, logVals_snoc, logValStep, LogVal.write, hx, if_pos hle]
  refine ⟨_, rfl, ?_, fun k => ?_⟩
  · rw [List.getElem?_set_self (List.getElem?_eq_some_iff.1 hx).1]; rfl
  · simp only [LgVal.stamped, updAt]

/-- **C50.** For a message whose level is the configured level, and a logger whose three keys are different, the
record carries the message's own level under the level key and the message under "message". -/
theorem C50_record_partial (enc : (Str → Option (FV ν)) → Option Str) (ops : List (LogOp ν)) (l : Nat) (msg : Str)
    (x : LgVal ν) (hx : (logVals enc ops).logs[l]? = some x) (h1 : x.cfg.key b!"@level" ≠ x.cfg.key b!"error.message")
    (h2 : x.cfg.key b!"@level" ≠ b!"message") (h3 : x.cfg.key b!"error.message" ≠ b!"message") :
    ∃ rec : Str → Option (FV ν),
      (logRun enc (ops ++ [.logf l x.cfg.level msg])).out = (logRun enc ops).out ++ [(x.cfg.writer, line enc rec)] ∧
      rec (x.cfg.key b!"@level") = some (.str (levelString x.cfg.level)) ∧
      rec b!"message" = some (.str msg) ∧
      rec (x.cfg.key b!"error.message") = some (.str (x.err.getD [])) := by
  obtain ⟨rec, ho, -, hr⟩ := C50_record enc ops l x.cfg.level msg x hx (Int.le_refl _)
  refine ⟨rec, ho, ?_, ?_, ?_⟩
  · rw [hr, if_neg h1, if_pos rfl]
  · rw [hr, if_neg h3.symm, if_neg h2.symm, if_pos rfl]
  · rw [hr, if_pos rfl]

end

/-- **C50, violated.** A logger at the default level writes an info message with the level "debug"; and after
`MessageKey("msg")` the message is still under "message", while "msg" holds the (empty) error text. -/
theorem C50_violated :
    (logRun (ν := Unit) (fun f => match f b!"@level" with | some (.str s) => some s | _ => none)
      [.new b!"t", .logf 0 4 b!"hello"]).out = [(0, b!"debug\n")] ∧
    (logRun (ν := Unit) (fun f => match f b!"msg", f b!"message" with | some (.str s), some (.str t) => some (s ++ b!"|" ++ t) | _, _ => none)
      [.new b!"t", .stdKeys 0 kError b!"msg", .logf 0 5 b!"hello"]).out = [(0, b!"|hello\n")] := by decide +kernel

/-- **C50.** A logger with renamed keys and two errors. -/
example :
    let r := logRun (ν := Unit) (fun _ => some [])
      [.new b!"t", .stdKeys 0 kLevel b!"lvl", .stdKeys 0 kError b!"err", .error 0 (some b!"e1"), .error 0 (some b!"e2"), .logf 0 5 b!"m"]
    (r.val.logs.map fun x => (x.fields b!"lvl", x.fields b!"err", x.fields b!"message", x.fields b!"@level")) =
      [(some (.str b!"debug"), some (.str b!"e2: e1"), some (.str b!"m"), none)] := by decide +kernel

end Verif
