import Verif.Spec.Lost
import Verif.Props.Logger
/-
C139: records that are lost because a field of their logger has no JSON.
-/
namespace Verif
open Spec
variable {ν : Type}

theorem out_val (enc : (Str → Option (FV ν)) → Option Str) (ops : List (LogOp ν)) : (logRun enc ops).out = (logVals enc ops).out :=
  congrArg LogVal.out (C49_values enc ops)

theorem backwards {α : Type} {P : List α → Prop} (nil : P []) (snoc : ∀ x l, P x → P (x ++ [l])) (x : List α) : P x := by
  have key : ∀ y : List α, P y.reverse := by
    intro y
    induction y with
    | nil => exact nil
    | cons a y ih => rw [List.reverse_cons]; exact snoc _ _ ih
  rw [← List.reverse_reverse x]
  exact key _

theorem line_nil {enc : (Str → Option (FV ν)) → Option Str} (f : Str → Option (FV ν)) : line enc f = [] ↔ enc f = none := by
  unfold line
  split
  · rename_i h; simp [h]
  · rename_i s h; simp [h]

theorem line_end {enc : (Str → Option (FV ν)) → Option Str} (f : Str → Option (FV ν)) (h : line enc f ≠ []) : ∃ s, line enc f = s ++ [10] := by
  unfold line at h ⊢
  split
  · rename_i h'; rw [h'] at h; exact absurd rfl h
  · exact ⟨_, rfl⟩

/-- What a record holds besides the logger's own fields has JSON. -/
theorem stamped_bad (ok : ν → Bool) (x : LgVal ν) :
    (∃ k v, x.stamped.fields k = some (.val v) ∧ ok v = false) ↔
      ∃ k v, x.fields k = some (.val v) ∧ ok v = false ∧ k ≠ x.cfg.key b!"@level" ∧ k ≠ x.cfg.key b!"error.message" := by
  simp only [LgVal.stamped, updAt]
  constructor
  · rintro ⟨k, v, h1, h2⟩
    by_cases a : k = x.cfg.key b!"error.message"
    · rw [if_pos a] at h1; cases h1
    · rw [if_neg a] at h1
      by_cases b : k = x.cfg.key b!"@level"
      · rw [if_pos b] at h1; cases h1
      · rw [if_neg b] at h1; exact ⟨k, v, h1, h2, b, a⟩
  · rintro ⟨k, v, h1, h2, b, a⟩
    exact ⟨k, v, by rw [if_neg a, if_neg b]; exact h1, h2⟩

/-- C139, exactly.  A call at an allowed level writes a line, or nothing at all; it is nothing iff the logger holds, under a key that the record does
not use itself, a value without JSON - whoever put it there, and however long ago. -/
theorem C139_exact (ok : ν → Bool) (enc : (Str → Option (FV ν)) → Option Str) (he : FailsOn ok enc) (ops : List (LogOp ν)) (l : Nat) (lvl : Int)
    (msg : Str) (x : LgVal ν) (hx : (logVals enc ops).logs[l]? = some x) (hle : lvl ≤ x.cfg.level) :
    ∃ text, (logRun enc (ops ++ [.logf l lvl msg])).out = (logRun enc ops).out ++ [(x.cfg.writer, text)] ∧
      (text = [] ↔ ∃ k v, x.fields k = some (.val v) ∧ ok v = false ∧ k ≠ b!"message" ∧ k ≠ x.cfg.key b!"@level" ∧
        k ≠ x.cfg.key b!"error.message") ∧
      (text ≠ [] → ∃ s, text = s ++ [10]) := by
  simp only [out_val, logVals_snoc, logValStep, LogVal.write, hx, if_pos hle]
  refine ⟨_, rfl, ?_, line_end _⟩
  rw [line_nil, he, stamped_bad]
  simp only [updAt]
  constructor
  · rintro ⟨k, v, h1, h2, h3, h4⟩
    by_cases hm : k = b!"message"
    · rw [if_pos hm] at h1; cases h1
    · rw [if_neg hm] at h1; exact ⟨k, v, h1, h2, hm, h3, h4⟩
  · rintro ⟨k, v, h1, h2, hm, h3, h4⟩
    exact ⟨k, v, by rw [if_neg hm]; exact h1, h2, h3, h4⟩

theorem addAll_unnamed (k : Str) : ∀ (m : List (Str × FV ν)) (f : Str → Option (FV ν)), k ∉ m.map (·.1) → addAll f m k = f k := by
  intro m
  induction m with
  | nil => intro f _; rfl
  | cons e m ih =>
    intro f h
    simp only [List.map_cons, List.mem_cons, not_or] at h
    show addAll (updAt f e.1 (some e.2)) m k = f k
    rw [ih _ h.2]
    exact if_neg h.1

/-- A call that does not replace the field leaves it. -/
theorem kept_step (enc : (Str → Option (FV ν)) → Option Str) (ops : List (LogOp ν)) (op : LogOp ν) (l : Nat) (k : Str) (w : FV ν) (x : LgVal ν)
    (hx : (logVals enc ops).logs[l]? = some x) (hk : x.fields k = some w) (hr : ¬ Replaces x l k op) :
    ∃ x', (logVals enc (ops ++ [op])).logs[l]? = some x' ∧ x'.fields k = some w := by
  by_cases ha : actsOnLogger op = some l
  · have hget : ∀ f : LgVal ν → LgVal ν, ((logVals enc ops).onLog l f).logs[l]? = some (f x) := by
      intro f
      simp only [LogVal.onLog, List.getElem?_modify, hx]
      simp
    rw [logVals_snoc]
    cases op with
    | newConfig | cfgClone | cfgSetLevel | cfgSetWriter | cfgStdKeys | config | new | clone => cases ha
    | setConfig l' c =>
      cases ha
      simp only [logValStep]
      split
      · exact ⟨x, hx, hk⟩
      · exact ⟨_, hget _, hk⟩
    | add l' k' v =>
      cases ha
      refine ⟨_, hget _, ?_⟩
      have : k ≠ k' := fun h => hr ⟨rfl, h.symm⟩
      simp only [updAt, if_neg this, hk]
    | addDebug l' k' v =>
      cases ha
      refine ⟨_, hget _, ?_⟩
      have : k ≠ k' := fun h => hr ⟨rfl, h.symm⟩
      split
      · simp only [updAt, if_neg this, hk]
      · exact hk
    | merge l' m =>
      cases ha
      refine ⟨_, hget _, ?_⟩
      show addAll x.fields m k = _
      rw [addAll_unnamed k m x.fields fun h => hr ⟨rfl, h⟩]
      exact hk
    | writer l' n => cases ha; exact ⟨_, hget _, hk⟩
    | setLevel l' n => cases ha; exact ⟨_, hget _, hk⟩
    | stdKeys l' key name =>
      cases ha
      refine ⟨_, hget _, ?_⟩
      have h1 : k ≠ name := fun h => hr ⟨rfl, Or.inl h.symm⟩
      unfold LgVal.rename
      split
      · exact hk
      · split
        · exact hk
        · rename_i old hold
          have h2 : k ≠ old := fun h => hr ⟨rfl, Or.inr (by rw [hold, h])⟩
          show (if old = [] ∨ old = key then x.fields else _) k = _
          split
          · exact hk
          · cases hf : x.fields old with
            | none => exact hk
            | some w' => simp only [updAt, if_neg h1, if_neg h2, hk]
    | error l' e =>
      cases ha
      refine ⟨_, hget _, ?_⟩
      unfold LgVal.attach
      cases e <;> exact hk
    | log l' lvl =>
      cases ha
      have h1 : k ≠ x.cfg.key b!"@level" := fun h => hr ⟨rfl, Or.inl h⟩
      have h2 : k ≠ x.cfg.key b!"error.message" := fun h => hr ⟨rfl, Or.inr h⟩
      simp only [logValStep, LogVal.write, hx]
      split
      · refine ⟨_, List.getElem?_set_self (List.getElem?_eq_some_iff.1 hx).1, ?_⟩
        simp only [LgVal.stamped, updAt, if_neg h1, if_neg h2, hk]
      · exact ⟨x, hx, hk⟩
    | logf l' lvl msg =>
      cases ha
      have h1 : k ≠ x.cfg.key b!"@level" := fun h => hr ⟨rfl, Or.inl h⟩
      have h2 : k ≠ x.cfg.key b!"error.message" := fun h => hr ⟨rfl, Or.inr (Or.inl h)⟩
      have h3 : k ≠ b!"message" := fun h => hr ⟨rfl, Or.inr (Or.inr h)⟩
      simp only [logValStep, LogVal.write, hx]
      split
      · refine ⟨_, List.getElem?_set_self (List.getElem?_eq_some_iff.1 hx).1, ?_⟩
        simp only [LgVal.stamped, updAt, if_neg h1, if_neg h2, if_neg h3, hk]
      · exact ⟨x, hx, hk⟩
  · refine ⟨x, ?_, hk⟩
    have h := (C49_isolated enc ops op).1 l x (by rw [C49_values]; exact hx) ha
    rwa [C49_values] at h

/-- C139, for good.  As long as no call replaces the field, however many calls there are, on this logger and on others, the field stays in the
logger. -/
theorem C139_stays (enc : (Str → Option (FV ν)) → Option Str) (ops : List (LogOp ν)) (l : Nat) (k : Str) (w : FV ν) (x : LgVal ν)
    (hx : (logVals enc ops).logs[l]? = some x) (hk : x.fields k = some w) : ∀ more : List (LogOp ν),
    (∀ pre op post y, more = pre ++ op :: post → (logVals enc (ops ++ pre)).logs[l]? = some y → ¬ Replaces y l k op) →
    ∃ y, (logVals enc (ops ++ more)).logs[l]? = some y ∧ y.fields k = some w := by
  intro more
  induction more using backwards with
  | nil => intro _; exact ⟨x, by rw [List.append_nil]; exact hx, hk⟩
  | snoc more op ih =>
    intro h
    obtain ⟨y, hy, hyk⟩ := ih fun pre o post z e hz => h pre o (post ++ [op]) z (by rw [e]; simp) hz
    have := kept_step enc (ops ++ more) op l k w y hy hyk (h more op [] y rfl hy)
    rwa [List.append_assoc] at this

/-- C139, silence.  From the moment a logger holds a value without JSON, until a call replaces it, nothing the logger is told is written. -/
theorem C139_silent (ok : ν → Bool) (enc : (Str → Option (FV ν)) → Option Str) (he : FailsOn ok enc) (ops : List (LogOp ν)) (l : Nat) (k : Str)
    (v : ν) (hv : ok v = false) (x : LgVal ν) (hx : (logVals enc ops).logs[l]? = some x) (hk : x.fields k = some (.val v)) (more : List (LogOp ν))
    (hkeep : ∀ pre op post y, more = pre ++ op :: post → (logVals enc (ops ++ pre)).logs[l]? = some y → ¬ Replaces y l k op)
    (pre post : List (LogOp ν)) (op : LogOp ν) (hm : more = pre ++ op :: post) (lvl : Int) (hop : recordOf l op = some lvl) :
    ∃ y, (logVals enc (ops ++ pre)).logs[l]? = some y ∧
      (logRun enc (ops ++ pre ++ [op])).out = (logRun enc (ops ++ pre)).out ++ if lvl ≤ y.cfg.level then [(y.cfg.writer, [])] else [] := by
  obtain ⟨y, hy, hyk⟩ := C139_stays enc ops l k (.val v) x hx hk pre fun p o q z e hz => hkeep p o (q ++ op :: post) z (by rw [hm, e]; simp) hz
  have hrep := hkeep pre op post y hm hy
  refine ⟨y, hy, ?_⟩
  cases op with
  | log l' n =>
    simp only [recordOf] at hop
    split at hop
    · rename_i e; subst e; cases hop
      simp only [out_val, logVals_snoc, logValStep, LogVal.write, hy]
      split
      · have : line enc y.stamped.fields = [] := by
          rw [line_nil, he, stamped_bad]
          exact ⟨k, v, hyk, hv, fun h => hrep ⟨rfl, Or.inl h⟩, fun h => hrep ⟨rfl, Or.inr h⟩⟩
        rw [this]
      · simp
    · cases hop
  | logf l' n msg =>
    simp only [recordOf] at hop
    split at hop
    · rename_i e; subst e; cases hop
      by_cases hle : lvl ≤ y.cfg.level
      · obtain ⟨text, h1, h2, -⟩ := C139_exact ok enc he (ops ++ pre) l' lvl msg y hy hle
        rw [if_pos hle, h1, h2.2 ⟨k, v, hyk, hv, fun h => hrep ⟨rfl, Or.inr (Or.inr h)⟩, fun h => hrep ⟨rfl, Or.inl h⟩,
          fun h => hrep ⟨rfl, Or.inr (Or.inl h)⟩⟩]
      · simp only [out_val, logVals_snoc, logValStep, LogVal.write, hy, if_neg hle, List.append_nil]
    · cases hop
  | _ => cases hop

/-- C139, clones: a clone holds the fields of its original, so it is as silent. -/
theorem C139_clone (enc : (Str → Option (FV ν)) → Option Str) (ops : List (LogOp ν)) (l : Nat) (x : LgVal ν)
    (hx : (logVals enc ops).logs[l]? = some x) :
    (logVals enc (ops ++ [.clone l])).logs[(logVals enc ops).logs.length]? = some { x with err := none } := by
  rw [logVals_snoc]
  simp [logValStep, hx]

/-- Every field of every logger has JSON. -/
def AllFine (ok : ν → Bool) (v : LogVal ν) : Prop :=
  (∀ x ∈ v.logs, ∀ k w, x.fields k = some w → FV.Fine ok w) ∧ ∀ e ∈ v.out, ∃ s, e.2 = s ++ [10]

theorem fine_upd {ok : ν → Bool} {f : Str → Option (FV ν)} (h : ∀ k w, f k = some w → FV.Fine ok w) (a : Str) (b : Option (FV ν))
    (hb : ∀ w, b = some w → FV.Fine ok w) : ∀ k w, updAt f a b k = some w → FV.Fine ok w := by
  intro k w e
  unfold updAt at e
  split at e
  · exact hb w e
  · exact h k w e

theorem fine_addAll {ok : ν → Bool} : ∀ (m : List (Str × FV ν)) {f : Str → Option (FV ν)}, (∀ k w, f k = some w → FV.Fine ok w) →
    (∀ e ∈ m, FV.Fine ok e.2) → ∀ k w, addAll f m k = some w → FV.Fine ok w := by
  intro m
  induction m with
  | nil => intro f h _; exact h
  | cons e m ih =>
    intro f h hm
    exact ih (fine_upd h e.1 (some e.2) fun w hw => by cases hw; exact hm e (List.mem_cons_self ..)) fun x hx => hm x (List.mem_cons_of_mem _ hx)

theorem fine_stamped {ok : ν → Bool} {x : LgVal ν} (h : ∀ k w, x.fields k = some w → FV.Fine ok w) :
    ∀ k w, x.stamped.fields k = some w → FV.Fine ok w :=
  fine_upd (fine_upd h _ _ fun w hw => by cases hw; trivial) _ _ fun w hw => by cases hw; trivial

theorem fine_onLog {ok : ν → Bool} {v : LogVal ν} (h : AllFine ok v) (l : Nat) (f : LgVal ν → LgVal ν)
    (hf : ∀ x, (∀ k w, x.fields k = some w → FV.Fine ok w) → ∀ k w, (f x).fields k = some w → FV.Fine ok w) : AllFine ok (v.onLog l f) := by
  refine ⟨?_, h.2⟩
  intro x hx
  obtain ⟨i, hi⟩ := List.mem_iff_getElem?.1 hx
  simp only [LogVal.onLog, List.getElem?_modify, Option.map_eq_map, Option.map_eq_some_iff] at hi
  obtain ⟨y, hy, rfl⟩ := hi
  have hy' := h.1 y (List.mem_of_getElem? hy)
  split
  · exact hf y hy'
  · exact hy'

theorem fine_write {ok : ν → Bool} {enc : (Str → Option (FV ν)) → Option Str} (he : FailsOn ok enc) {v : LogVal ν} (h : AllFine ok v) (l : Nat) (lvl : Int)
    (msg : Option Str) : AllFine ok (v.write enc l lvl msg) := by
  unfold LogVal.write
  split
  · exact h
  · rename_i x hx
    split
    · have hl := h.1 x (List.mem_of_getElem? hx)
      have h1 : ∀ k w, (match msg with
          | none => x
          | some m => { x with fields := updAt x.fields b!"message" (some (.str m)) } : LgVal ν).stamped.fields k = some w → FV.Fine ok w := by
        cases msg with
        | none => exact fine_stamped hl
        | some m => exact fine_stamped (x := { x with fields := updAt x.fields b!"message" (some (.str m)) }) (fine_upd hl _ _ fun w hw => by cases hw; trivial)
      refine ⟨?_, ?_⟩
      · intro y hy
        rcases List.mem_or_eq_of_mem_set hy with hy | rfl
        · exact h.1 y hy
        · exact h1
      · intro e hmem
        rcases List.mem_append.1 hmem with hmem | hmem
        · exact h.2 e hmem
        · rw [List.mem_singleton] at hmem
          subst hmem
          refine line_end _ fun hn => ?_
          rw [line_nil, he] at hn
          obtain ⟨k, w, k1, k2⟩ := hn
          have := h1 k _ k1
          simp only [FV.Fine, k2] at this
          cases this
    · exact h

/-- C139, for programs that give their loggers only fields that have JSON: whatever the calls, everything written is whole lines. -/
theorem C139_written_partial (ok : ν → Bool) (enc : (Str → Option (FV ν)) → Option Str) (he : FailsOn ok enc) (ops : List (LogOp ν))
    (h : ∀ op ∈ ops, OpFine ok op) : ∀ e ∈ (logRun enc ops).out, ∃ s, e.2 = s ++ [10] := by
  rw [out_val]
  suffices H : AllFine ok (logVals enc ops) from H.2
  induction ops using backwards with
  | nil => exact ⟨fun x hx => by simp [logVals] at hx, fun e h' => by simp [logVals] at h'⟩
  | snoc ops op ih =>
    have hv := ih fun o ho => h o (List.mem_append_left _ ho)
    have hop := h op (by simp)
    rw [logVals_snoc]
    generalize logVals enc ops = v at hv
    cases op with
    | newConfig | cfgClone | cfgSetLevel | cfgSetWriter | cfgStdKeys | config => exact hv
    | new now =>
      refine ⟨?_, hv.2⟩
      intro x hx
      rcases List.mem_append.1 hx with hx | hx
      · exact hv.1 x hx
      · rw [List.mem_singleton] at hx
        subst hx
        exact fine_upd (fun k w e => by cases e) _ _ fun w hw => by cases hw; trivial
    | clone l =>
      refine ⟨?_, hv.2⟩
      intro x hx
      rcases List.mem_append.1 hx with hx | hx
      · exact hv.1 x hx
      · simp only [Option.mem_toList, Option.map_eq_some_iff] at hx
        obtain ⟨y, hy, rfl⟩ := hx
        exact hv.1 y (List.mem_of_getElem? hy)
    | setConfig l c =>
      simp only [logValStep]
      split
      · exact hv
      · exact fine_onLog hv l _ fun x hx => hx
    | add l k w => exact fine_onLog hv l _ fun x hx => fine_upd hx _ _ fun w' hw => by cases hw; exact hop
    | addDebug l k w =>
      refine fine_onLog hv l _ fun x hx => ?_
      split
      · exact fine_upd hx _ _ fun w' hw => by cases hw; exact hop
      · exact hx
    | merge l m => exact fine_onLog hv l _ fun x hx => fine_addAll m hx hop
    | writer l n => exact fine_onLog hv l _ fun x hx => hx
    | setLevel l n => exact fine_onLog hv l _ fun x hx => hx
    | stdKeys l key name =>
      refine fine_onLog hv l _ fun x hx => ?_
      unfold LgVal.rename
      split
      · exact hx
      · split
        · exact hx
        · rename_i old hold
          simp only
          split
          · exact hx
          · cases hf : x.fields old with
            | none => exact hx
            | some w0 => exact fine_upd (fine_upd hx _ _ fun w' e => by cases e; exact hx _ _ hf) _ _ fun w' e => by cases e
    | error l e =>
      refine fine_onLog hv l _ fun x hx => ?_
      unfold LgVal.attach
      cases e <;> exact hx
    | log l lvl => exact fine_write he hv l lvl none
    | logf l lvl msg => exact fine_write he hv l lvl (some msg)

/-- All fields of a logger have JSON. -/
def LgFine (ok : ν → Bool) (x : LgVal ν) : Prop := ∀ k w, x.fields k = some w → FV.Fine ok w

/-- A logger whose fields have JSON, after a call that gives it only such fields. -/
theorem own_step (ok : ν → Bool) (enc : (Str → Option (FV ν)) → Option Str) (ops : List (LogOp ν)) (op : LogOp ν) (l : Nat) (x : LgVal ν)
    (hx : (logVals enc ops).logs[l]? = some x) (hf : LgFine ok x) (ho : actsOnLogger op = some l → OpFine ok op) :
    ∃ x', (logVals enc (ops ++ [op])).logs[l]? = some x' ∧ LgFine ok x' := by
  by_cases ha : actsOnLogger op = some l
  · have ho := ho ha
    have hget : ∀ f : LgVal ν → LgVal ν, ((logVals enc ops).onLog l f).logs[l]? = some (f x) := by
      intro f
      simp only [LogVal.onLog, List.getElem?_modify, hx]
      simp
    have hwrite : ∀ lvl msg, ∃ x', ((logVals enc ops).write enc l lvl msg).logs[l]? = some x' ∧ LgFine ok x' := by
      intro lvl msg
      simp only [LogVal.write, hx]
      split
      · refine ⟨_, List.getElem?_set_self (List.getElem?_eq_some_iff.1 hx).1, ?_⟩
        cases msg with
        | none => exact fine_stamped hf
        | some m => exact fine_stamped (x := { x with fields := updAt x.fields b!"message" (some (.str m)) }) (fine_upd hf _ _ fun w hw => by cases hw; trivial)
      · exact ⟨x, hx, hf⟩
    rw [logVals_snoc]
    cases op with
    | newConfig | cfgClone | cfgSetLevel | cfgSetWriter | cfgStdKeys | config | new | clone => cases ha
    | setConfig l' c =>
      cases ha
      simp only [logValStep]
      split
      · exact ⟨x, hx, hf⟩
      · exact ⟨_, hget _, hf⟩
    | add l' k' v => cases ha; exact ⟨_, hget _, fine_upd hf _ _ fun w' hw => by cases hw; exact ho⟩
    | addDebug l' k' v =>
      cases ha
      refine ⟨_, hget _, ?_⟩
      split
      · exact fine_upd hf _ _ fun w' hw => by cases hw; exact ho
      · exact hf
    | merge l' m => cases ha; exact ⟨_, hget _, fine_addAll m hf ho⟩
    | writer l' n => cases ha; exact ⟨_, hget _, hf⟩
    | setLevel l' n => cases ha; exact ⟨_, hget _, hf⟩
    | stdKeys l' key name =>
      cases ha
      refine ⟨_, hget _, ?_⟩
      unfold LgVal.rename
      split
      · exact hf
      · split
        · exact hf
        · rename_i old hold
          unfold LgFine
          simp only
          split
          · exact hf
          · cases hg : x.fields old with
            | none => exact hf
            | some w0 => exact fine_upd (fine_upd hf _ _ fun w' e => by cases e; exact hf _ _ hg) _ _ fun w' e => by cases e
    | error l' e =>
      cases ha
      refine ⟨_, hget _, ?_⟩
      unfold LgVal.attach
      cases e <;> exact hf
    | log l' lvl => cases ha; exact hwrite lvl none
    | logf l' lvl msg => cases ha; exact hwrite lvl (some msg)
  · refine ⟨x, ?_, hf⟩
    have h := (C49_isolated enc ops op).1 l x (by rw [C49_values]; exact hx) ha
    rwa [C49_values] at h

/-- C139, each logger for itself.  A logger whose fields have JSON and that is given only such fields writes a line for every call at an allowed level,
whatever is done meanwhile to other loggers, its originals and clones among them. -/
theorem C139_own (ok : ν → Bool) (enc : (Str → Option (FV ν)) → Option Str) (he : FailsOn ok enc) (ops : List (LogOp ν)) (l : Nat) (x : LgVal ν)
    (hx : (logVals enc ops).logs[l]? = some x) (hf : LgFine ok x) (pre : List (LogOp ν))
    (ho : ∀ op ∈ pre, actsOnLogger op = some l → OpFine ok op) (op : LogOp ν) (lvl : Int) (hop : recordOf l op = some lvl) :
    ∃ y s, (logVals enc (ops ++ pre)).logs[l]? = some y ∧
      (logRun enc (ops ++ pre ++ [op])).out = (logRun enc (ops ++ pre)).out ++ if lvl ≤ y.cfg.level then [(y.cfg.writer, s ++ [10])] else [] := by
  obtain ⟨y, hy, hyf⟩ : ∃ y, (logVals enc (ops ++ pre)).logs[l]? = some y ∧ LgFine ok y := by
    clear hop
    induction pre using backwards with
    | nil => exact ⟨x, by rw [List.append_nil]; exact hx, hf⟩
    | snoc pre o ih =>
      obtain ⟨y, hy, hyf⟩ := ih fun o' h' => ho o' (List.mem_append_left _ h')
      have := own_step ok enc (ops ++ pre) o l y hy hyf (ho o (by simp))
      rwa [List.append_assoc] at this
  have key : ∀ z : LgVal ν, LgFine ok z → ∃ s, line enc z.stamped.fields = s ++ [10] := by
    intro z hz
    refine line_end _ fun hn => ?_
    rw [line_nil, he] at hn
    obtain ⟨k, w, k1, k2⟩ := hn
    have := fine_stamped hz k _ k1
    simp only [FV.Fine, k2] at this
    cases this
  cases op with
  | log l' n =>
    simp only [recordOf] at hop
    split at hop
    · rename_i e; subst e; cases hop
      obtain ⟨s, hs⟩ := key y hyf
      refine ⟨y, s, hy, ?_⟩
      simp only [out_val, logVals_snoc, logValStep, LogVal.write, hy]
      split
      · rw [hs]
      · simp
    · cases hop
  | logf l' n msg =>
    simp only [recordOf] at hop
    split at hop
    · rename_i e; subst e; cases hop
      obtain ⟨s, hs⟩ := key { y with fields := updAt y.fields b!"message" (some (.str msg)) } (fine_upd hyf _ _ fun w hw => by cases hw; trivial)
      refine ⟨y, s, hy, ?_⟩
      simp only [out_val, logVals_snoc, logValStep, LogVal.write, hy]
      split
      · rw [hs]
      · simp
    · cases hop
  | _ => cases hop

/-- The hypotheses, met: a logger whose clone is given a field without JSON. -/
example (enc : (Str → Option (FV Bool)) → Option Str) (he : FailsOn id enc) : ∃ y s,
    (logVals enc ([.new b!"t"] ++ [.clone 0, .add 1 b!"f" (.val false), .add 0 b!"g" (.val true)])).logs[0]? = some y ∧
      (logRun enc ([.new b!"t"] ++ [.clone 0, .add 1 b!"f" (.val false), .add 0 b!"g" (.val true)] ++ [.logf 0 2 b!"a"])).out =
        (logRun enc ([.new b!"t"] ++ [.clone 0, .add 1 b!"f" (.val false), .add 0 b!"g" (.val true)])).out ++
          if (2 : Int) ≤ y.cfg.level then [(y.cfg.writer, s ++ [10])] else [] := by
  refine C139_own id enc he [.new b!"t"] 0 _ rfl ?_ _ ?_ (.logf 0 2 b!"a") 2 rfl
  · exact fine_upd (fun k w e => by cases e) _ _ fun w hw => by cases hw; trivial
  · intro op hop ha
    simp only [List.mem_cons, List.not_mem_nil, or_false] at hop
    rcases hop with rfl | rfl | rfl
    · cases ha
    · cases ha
    · rfl

/-- There is an encoder that fails exactly for the values without JSON, whatever these are. -/
theorem encoder_exists (ok : ν → Bool) : ∃ enc : (Str → Option (FV ν)) → Option Str, FailsOn ok enc := by
  classical
  refine ⟨fun f => if ∃ k v, f k = some (.val v) ∧ ok v = false then none else some b!"{}", fun f => ?_⟩
  show (if _ then _ else _) = none ↔ _
  split
  · rename_i h; simp [h]
  · rename_i h; simp [h]

/-- C139 is violated.  "What is logged at an allowed level is written": after one field without JSON every error message of the logger and of its
clone is an empty write; a message is written again when the field has been given another value. -/
theorem C139_violated : ∃ enc : (Str → Option (FV Bool)) → Option Str, FailsOn id enc ∧ ∃ s,
    (logRun enc [.new b!"t", .add 0 b!"f" (.val false), .logf 0 2 b!"disk full", .clone 0, .logf 1 2 b!"disk full", .log 0 0]).out =
      [(0, []), (0, []), (0, [])] ∧
    (logRun enc [.new b!"t", .add 0 b!"f" (.val false), .logf 0 2 b!"disk full", .add 0 b!"f" (.val true), .logf 0 2 b!"disk full"]).out =
      [(0, []), (0, s ++ [10])] := by
  obtain ⟨enc, he⟩ := encoder_exists (ν := Bool) id
  refine ⟨enc, he, ?_⟩
  have h1 : ∃ r0 r1 r2, (logVals enc [.new b!"t", .add 0 b!"f" (.val false), .logf 0 2 b!"disk full", .clone 0, .logf 1 2 b!"disk full", .log 0 0]).out =
      [(0, line enc r0), (0, line enc r1), (0, line enc r2)] ∧ r0 b!"f" = some (.val false) ∧ r1 b!"f" = some (.val false) ∧
      r2 b!"f" = some (.val false) := ⟨_, _, _, rfl, rfl, rfl, rfl⟩
  have h2 : ∃ r0 r1, (logVals enc [.new b!"t", .add 0 b!"f" (.val false), .logf 0 2 b!"disk full", .add 0 b!"f" (.val true), .logf 0 2 b!"disk full"]).out =
      [(0, line enc r0), (0, line enc r1)] ∧ r0 b!"f" = some (.val false) ∧
      ∀ k, r1 k = if k = b!"error.message" then some (.str []) else if k = b!"@level" then some (.str b!"debug") else if k = b!"message" then some (.str b!"disk full")
        else if k = b!"f" then some (.val true) else if k = b!"error.message" then some (.str []) else if k = b!"@level" then some (.str b!"debug")
        else if k = b!"message" then some (.str b!"disk full") else if k = b!"f" then some (.val false) else if k = b!"@timestamp" then some (.str b!"t") else none :=
    ⟨_, _, rfl, rfl, fun k => rfl⟩
  obtain ⟨r0, r1, r2, e1, f0, f1, f2⟩ := h1
  obtain ⟨q0, q1, e2, g0, g1⟩ := h2
  have bad : ∀ r : Str → Option (FV Bool), r b!"f" = some (.val false) → line enc r = [] := fun r h => by
    rw [line_nil, he]
    exact ⟨_, _, h, rfl⟩
  have good : line enc q1 ≠ [] := by
    intro h
    rw [line_nil, he] at h
    obtain ⟨k, v, k1, k2⟩ := h
    rw [g1] at k1
    by_cases a1 : k = b!"error.message"
    · rw [if_pos a1] at k1; cases k1
    rw [if_neg a1] at k1
    by_cases a2 : k = b!"@level"
    · rw [if_pos a2] at k1; cases k1
    rw [if_neg a2] at k1
    by_cases a3 : k = b!"message"
    · rw [if_pos a3] at k1; cases k1
    rw [if_neg a3] at k1
    by_cases a4 : k = b!"f"
    · rw [if_pos a4] at k1; cases k1; cases k2
    rw [if_neg a4, if_neg a1, if_neg a2, if_neg a3, if_neg a4] at k1
    split at k1 <;> cases k1
  obtain ⟨s, hs⟩ := line_end q1 good
  refine ⟨s, ?_, ?_⟩
  · rw [out_val, e1, bad r0 f0, bad r1 f1, bad r2 f2]
  · rw [out_val, e2, bad q0 g0, hs]

/-- A logger with a field without JSON is silent through renamed keys, other fields, errors, and calls on its clone. -/
example : ∃ y, (logVals (fun _ => none) ([.new b!"t", .add 0 b!"f" (.val false)] ++
      [.stdKeys 0 b!"@level" b!"severity", .add 0 b!"g" (.val true), .clone 0, .add 1 b!"f" (.val true), .logf 0 2 b!"a", .error 0 (some b!"e"), .log 0 0] :
      List (LogOp Bool))).logs[0]? = some y ∧ y.fields b!"f" = some (.val false) := ⟨_, rfl, rfl⟩

/-- The hypotheses of `C139_silent`, met: a key is renamed, a clone is made and given the field anew, and the logger remains silent. -/
example (enc : (Str → Option (FV Bool)) → Option Str) (he : FailsOn id enc) :
    ∃ y, (logVals enc ([.new b!"t", .add 0 b!"f" (.val false)] ++ [.stdKeys 0 b!"@level" b!"severity", .clone 0, .add 1 b!"f" (.val true)])).logs[0]? = some y ∧
      (logRun enc ([.new b!"t", .add 0 b!"f" (.val false)] ++ [.stdKeys 0 b!"@level" b!"severity", .clone 0, .add 1 b!"f" (.val true)] ++
        [.logf 0 2 b!"a"])).out = (logRun enc ([.new b!"t", .add 0 b!"f" (.val false)] ++
          [.stdKeys 0 b!"@level" b!"severity", .clone 0, .add 1 b!"f" (.val true)])).out ++ if (2 : Int) ≤ y.cfg.level then [(y.cfg.writer, [])] else [] := by
  refine C139_silent id enc he [.new b!"t", .add 0 b!"f" (.val false)] 0 b!"f" false rfl _ rfl rfl
    [.stdKeys 0 b!"@level" b!"severity", .clone 0, .add 1 b!"f" (.val true), .logf 0 2 b!"a"] ?_ _ [] (.logf 0 2 b!"a") rfl 2 rfl
  intro pre op post y e hy
  match pre, e with
  | [], e => cases e; cases hy; rintro ⟨-, h | h⟩ <;> revert h <;> decide
  | [_], e => cases e; exact id
  | [_, _], e => cases e; rintro ⟨h, -⟩; cases h
  | [_, _, _], e => cases e; cases hy; rintro ⟨-, h⟩; revert h; decide
  | _ :: _ :: _ :: _ :: _, e => simp at e

end Verif
