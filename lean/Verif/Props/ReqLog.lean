import Verif.Spec.ReqLog
import Verif.Props.Logger
/-
C89: the loggers of requests.
-/
namespace Verif
open Spec
variable {ν : Type}

/-- A state that comes from a history of logger calls, with the contexts' loggers among those made. -/
structure RLInv (enc : (Str → Option (FV ν)) → Option Str) (s : ReqLogSt ν) : Prop where
  hist : ∃ h, s.heap = logRun enc h
  known : ∀ l ∈ s.ctxs, l < s.heap.logs.length

theorem logRun_append (enc : (Str → Option (FV ν)) → Option Str) (a b : List (LogOp ν)) :
    logRun enc (a ++ b) = b.foldl (logStep enc) (logRun enc a) := by simp [logRun]

theorem logs_length (h : LogHeap ν) : h.val.logs.length = h.logs.length := by simp [LogHeap.val]

theorem cfgs_length (h : LogHeap ν) : h.val.cfgs.length = h.handles.length := by simp [LogHeap.val]

/-- Values after more calls. -/
theorem foldl_val (enc : (Str → Option (FV ν)) → Option Str) {s : ReqLogSt ν} (hs : ∃ h, s.heap = logRun enc h)
    (ops : List (LogOp ν)) :
    (ops.foldl (logStep enc) s.heap).val = ops.foldl (logValStep enc) s.heap.val := by
  obtain ⟨h, hh⟩ := hs
  rw [hh, ← logRun_append, C49_values, C49_values, logVals, List.foldl_append]; rfl

theorem foldl_hist (enc : (Str → Option (FV ν)) → Option Str) {s : ReqLogSt ν} (hs : ∃ h, s.heap = logRun enc h)
    (ops : List (LogOp ν)) : ∃ h, ops.foldl (logStep enc) s.heap = logRun enc h := by
  obtain ⟨h, hh⟩ := hs
  exact ⟨h ++ ops, by rw [hh, logRun_append]⟩

/-- No call makes loggers disappear. -/
theorem logValStep_grow (enc : (Str → Option (FV ν)) → Option Str) (v : LogVal ν) (op : LogOp ν) :
    v.logs.length ≤ (logValStep enc v op).logs.length := by
  cases op with
  | setConfig l c => simp only [logValStep]; split <;> simp [LogVal.onLog]
  | log l lvl => simp only [logValStep, LogVal.write]; split <;> (try split) <;> simp
  | logf l lvl msg => simp only [logValStep, LogVal.write]; split <;> (try split) <;> simp
  | _ => simp [logValStep, LogVal.onCfg, LogVal.onLog]

theorem logVal_grow (enc : (Str → Option (FV ν)) → Option Str) (ops : List (LogOp ν)) : ∀ v : LogVal ν,
    v.logs.length ≤ (ops.foldl (logValStep enc) v).logs.length := by
  induction ops with
  | nil => intro v; exact Nat.le_refl _
  | cons op t ih => intro v; exact Nat.le_trans (logValStep_grow enc v op) (ih _)

theorem rlStep_inv (enc : (Str → Option (FV ν)) → Option Str) (s : ReqLogSt ν) (op : RLOp ν) (h : RLInv enc s) :
    RLInv enc (rlStep enc s op) := by
  have hg : s.heap.logs.length ≤ (rlStep enc s op).heap.logs.length := by
    rw [← logs_length, ← logs_length]
    show _ ≤ ((s.calls op).foldl (logStep enc) s.heap).val.logs.length
    rw [foldl_val enc h.hist]
    exact logVal_grow enc _ _
  refine ⟨foldl_hist enc h.hist _, ?_⟩
  intro l hl
  have old : ∀ l ∈ s.ctxs, l < (rlStep enc s op).heap.logs.length := fun l hl => Nat.lt_of_lt_of_le (h.known l hl) hg
  have hnew : ∀ now, ∀ t : List (LogOp ν), s.calls op = .new now :: t →
      s.heap.logs.length < (rlStep enc s op).heap.logs.length := by
    intro now t ht
    rw [← logs_length (rlStep enc s op).heap]
    show _ < ((s.calls op).foldl (logStep enc) s.heap).val.logs.length
    rw [foldl_val enc h.hist, ht]
    refine Nat.lt_of_lt_of_le ?_ (logVal_grow enc t _)
    simp [logValStep, logs_length]
  have hl' : l ∈ s.ctxsAfter op := hl
  cases op with
  | newContext now =>
    rcases List.mem_append.1 hl' with h1 | h1
    · exact old l h1
    · rw [List.mem_singleton.1 h1]; exact hnew now [] rfl
  | route i now =>
    rcases List.mem_or_eq_of_mem_set hl' with h1 | h1
    · exact old l h1
    · rw [h1]
      cases hc : s.ctxs[i]? with
      | none =>
        have : s.ctxs.set i s.heap.logs.length = s.ctxs := by
          apply List.set_eq_of_length_le
          exact List.getElem?_eq_none_iff.1 hc
        rw [h1] at hl'
        simp only [ReqLogSt.ctxsAfter, this] at hl'
        exact absurd (h.known _ hl') (Nat.lt_irrefl _)
      | some k => exact hnew now _ (by simp only [ReqLogSt.calls, ReqLogSt.onCtx, hc]; rfl)
  | setLogger i k =>
    simp only [ReqLogSt.ctxsAfter] at hl'
    split at hl'
    · next hk =>
      rcases List.mem_or_eq_of_mem_set hl' with h1 | h1
      · exact old l h1
      · rw [h1]; exact Nat.lt_of_lt_of_le hk hg
    · exact old l hl'
  | setLogLevel | setLoggerWriter | serverDebugf | setLoggerLevel | mark | ctxDebugf | user => exact old l hl'

theorem rlRun_inv (enc : (Str → Option (FV ν)) → Option Str) (ops : List (RLOp ν)) : RLInv enc (rlRun enc ops) := by
  have key : ∀ (ops : List (RLOp ν)) (s : ReqLogSt ν), RLInv enc s → RLInv enc (ops.foldl (rlStep enc) s) := by
    intro ops
    induction ops with
    | nil => exact fun _ h => h
    | cons op t ih => exact fun s h => ih _ (rlStep_inv enc s op h)
  exact key ops _ ⟨⟨_, rfl⟩, by simp⟩

theorem rlRun_snoc (enc : (Str → Option (FV ν)) → Option Str) (ops : List (RLOp ν)) (op : RLOp ν) :
    rlRun enc (ops ++ [op]) = rlStep enc (rlRun enc ops) op := by simp [rlRun]

theorem val_step (enc : (Str → Option (FV ν)) → Option Str) {s : ReqLogSt ν} (h : RLInv enc s) (op : RLOp ν) :
    (rlStep enc s op).heap.val = (s.calls op).foldl (logValStep enc) s.heap.val := foldl_val enc h.hist _

/-- Configuration 0 is left alone by calls on others. -/
theorem logVal_cfg0 (enc : (Str → Option (FV ν)) → Option Str) (ops : List (LogOp ν)) (x : CfgVal) : ∀ v : LogVal ν,
    v.cfgs[0]? = some x → (∀ op ∈ ops, actsOnConfig op ≠ some 0) → (ops.foldl (logValStep enc) v).cfgs[0]? = some x := by
  induction ops with
  | nil => exact fun _ h _ => h
  | cons op t ih =>
    intro v hv hall
    refine ih _ ?_ fun o ho => hall o (List.mem_cons_of_mem _ ho)
    have hne := hall op (List.mem_cons_self ..)
    cases op with
    | newConfig => exact getElem?_append_some hv
    | cfgClone | config => exact getElem?_append_some hv
    | cfgSetLevel | cfgSetWriter | cfgStdKeys => exact (getElem?_modify_ne _ _ (fun h => hne (congrArg some h))).trans hv
    | setConfig l c => simp only [logValStep]; split <;> exact hv
    | log l lvl => exact (congrArg (·[0]?) (write_cfgs enc v l lvl none)).trans hv
    | logf l lvl msg => exact (congrArg (·[0]?) (write_cfgs enc v l lvl (some msg))).trans hv
    | new | clone | add | addDebug | merge | writer | setLevel | stdKeys | error => exact hv

/-- **C89.** The server's log settings are those last given to SetLogLevel and SetLoggerWriter, whatever requests and
handlers did with their loggers. -/
theorem C89_server (enc : (Str → Option (FV ν)) → Option Str) (ops : List (RLOp ν)) :
    (rlRun enc ops).heap.val.cfgs[0]? = some ⟨serverLevel ops, serverWriter ops, defaultCfg.keys⟩ := by
  have key : ∀ n (ops : List (RLOp ν)), ops.length = n →
      (rlRun enc ops).heap.val.cfgs[0]? = some ⟨serverLevel ops, serverWriter ops, defaultCfg.keys⟩ := by
    intro n
    induction n with
    | zero =>
      intro ops h
      rw [List.length_eq_zero_iff.1 h]
      show (logRun enc [.newConfig]).val.cfgs[0]? = _
      rw [C49_values]; rfl
    | succ n ih =>
      intro ops h
      have hne : ops ≠ [] := by intro h0; rw [h0] at h; cases h
      obtain ⟨pre, op, rfl⟩ : ∃ pre op, ops = pre ++ [op] := ⟨ops.dropLast, ops.getLast hne, (List.dropLast_concat_getLast hne).symm⟩
      have ih := ih pre (by simpa using h)
      rw [rlRun_snoc, val_step enc (rlRun_inv enc pre)]
      generalize hs : rlRun enc pre = s at ih
      have rest : (∀ o ∈ s.calls op, actsOnConfig o ≠ some 0) → serverLevel (pre ++ [op]) = serverLevel pre →
          serverWriter (pre ++ [op]) = serverWriter pre →
          ((s.calls op).foldl (logValStep enc) s.heap.val).cfgs[0]? =
            some ⟨serverLevel (pre ++ [op]), serverWriter (pre ++ [op]), defaultCfg.keys⟩ := by
        intro h1 h2 h3
        rw [h2, h3]
        exact logVal_cfg0 enc _ _ _ ih h1
      cases op with
      | setLogLevel l =>
        simp only [ReqLogSt.calls, List.foldl_cons, List.foldl_nil, logValStep, LogVal.onCfg]
        rw [List.getElem?_modify, ih]
        simp [serverLevel, serverWriter]
      | setLoggerWriter w =>
        simp only [ReqLogSt.calls, List.foldl_cons, List.foldl_nil, logValStep, LogVal.onCfg]
        rw [List.getElem?_modify, ih]
        simp [serverLevel, serverWriter]
      | serverDebugf now msg =>
        refine rest ?_ (by simp [serverLevel]) (by simp [serverWriter])
        simp only [ReqLogSt.calls]
        split <;> simp [actsOnConfig]
      | newContext now => exact rest (by simp [ReqLogSt.calls, actsOnConfig]) (by simp [serverLevel]) (by simp [serverWriter])
      | setLogger i l => exact rest (by simp [ReqLogSt.calls]) (by simp [serverLevel]) (by simp [serverWriter])
      | route i now | setLoggerLevel i l | mark i k v =>
        refine rest ?_ (by simp [serverLevel]) (by simp [serverWriter])
        simp only [ReqLogSt.calls, ReqLogSt.onCtx]
        split <;> simp [actsOnConfig]
      | ctxDebugf i now msg =>
        refine rest ?_ (by simp [serverLevel]) (by simp [serverWriter])
        simp only [ReqLogSt.calls, ReqLogSt.onCtx]
        split
        · simp
        · split <;> simp [actsOnConfig]
      | user o =>
        refine rest ?_ (by simp [serverLevel]) (by simp [serverWriter])
        simp only [ReqLogSt.calls, List.mem_singleton, forall_eq]
        cases o <;> simp [LogOp.notServer, actsOnConfig]
  exact key _ ops rfl

/-- **C89.** When its handlers begin, a request has a logger of its own — no other context has it — with the level and the
writer configured for the server at that moment, the standard key names, no error and no field but the time stamp;
whatever happened before. -/
theorem C89_handlers_begin (enc : (Str → Option (FV ν)) → Option Str) (ops : List (RLOp ν)) (i : Nat) (now : Str)
    (hi : i < (rlRun enc ops).ctxs.length) :
    ∃ l, (rlRun enc (ops ++ [.route i now])).ctxs[i]? = some l ∧
      (∀ j : Nat, j ≠ i → (rlRun enc (ops ++ [.route i now])).ctxs[j]? ≠ some l) ∧
      (rlRun enc (ops ++ [.route i now])).heap.val.logs[l]? = some (freshFor ops now) := by
  have hinv := rlRun_inv enc ops
  have hsrv := C89_server enc ops
  rw [rlRun_snoc]
  generalize rlRun enc ops = s at hinv hsrv hi
  refine ⟨s.heap.logs.length, ?_, ?_, ?_⟩
  · show (s.ctxs.set i s.heap.logs.length)[i]? = _
    rw [List.getElem?_set_self hi]
  · intro j hj hc
    have hc : (s.ctxs.set i s.heap.logs.length)[j]? = some s.heap.logs.length := hc
    rw [List.getElem?_set_ne (Ne.symm hj)] at hc
    exact absurd (hinv.known _ (List.mem_of_getElem? hc)) (Nat.lt_irrefl _)
  · rw [val_step enc hinv]
    have hc : s.calls (.route i now) =
        [.new now, .setConfig s.heap.logs.length 0, .setLevel s.heap.logs.length s.serverCfg.level] := by
      simp only [ReqLogSt.calls, ReqLogSt.onCtx, List.getElem?_eq_getElem hi]
    rw [hc]
    have hlen := logs_length s.heap
    have hlev : s.serverCfg.level = serverLevel ops := by
      have h0 : s.heap.val.cfgs[0]? = (s.heap.handles[0]?).map fun a => (s.heap.cfgAt a).val := by simp [LogHeap.val]
      rw [h0] at hsrv
      cases hh : s.heap.handles[0]? with
      | none => rw [hh] at hsrv; cases hsrv
      | some a =>
        rw [hh] at hsrv
        simp only [Option.map_some, Option.some.injEq] at hsrv
        have : (s.heap.cfgAt a).val.level = serverLevel ops := by rw [hsrv]
        have h2 : s.serverCfg = s.heap.cfgAt a := by simp [ReqLogSt.serverCfg, hh]
        rw [h2]; exact this
    simp only [List.foldl_cons, List.foldl_nil, logValStep, hsrv, LogVal.onLog, ← hlen]
    generalize s.heap.val = v
    rw [List.getElem?_modify, List.getElem?_modify]
    simp [hlev, freshFor]

/-- Values of loggers survive calls on others. -/
theorem logVal_logs (enc : (Str → Option (FV ν)) → Option Str) (l : Nat) (x : LgVal ν) (ops : List (LogOp ν)) :
    ∀ v : LogVal ν, v.logs[l]? = some x → (∀ op ∈ ops, actsOnLogger op ≠ some l) →
      (ops.foldl (logValStep enc) v).logs[l]? = some x := by
  induction ops with
  | nil => exact fun _ h _ => h
  | cons op t ih =>
    intro v hv hall
    refine ih _ ?_ fun o ho => hall o (List.mem_cons_of_mem _ ho)
    have hj := hall op (List.mem_cons_self ..)
    cases op with
    | newConfig | cfgClone | cfgSetLevel | cfgSetWriter | cfgStdKeys | config => exact hv
    | new now => exact getElem?_append_some hv
    | clone k => exact getElem?_append_some hv
    | setConfig k c =>
      simp only [logValStep]
      split
      · exact hv
      · exact (getElem?_modify_ne _ _ (fun h => hj (congrArg some h))).trans hv
    | log k lvl => exact (write_logs_ne enc v lvl none (fun h => hj (congrArg some h))).trans hv
    | logf k lvl msg => exact (write_logs_ne enc v lvl (some msg) (fun h => hj (congrArg some h))).trans hv
    | add | addDebug | merge | writer | setLevel | stdKeys | error =>
      exact (getElem?_modify_ne _ _ (fun h => hj (congrArg some h))).trans hv

/-- A logger only one context has keeps its value under foreign calls, and remains that context's own. -/
theorem foreign_step (enc : (Str → Option (FV ν)) → Option Str) (s : ReqLogSt ν) (hinv : RLInv enc s) (i l : Nat) (x : LgVal ν)
    (op : RLOp ν) (hf : Foreign i l op) (hc : s.ctxs[i]? = some l) (ho : ∀ j : Nat, j ≠ i → s.ctxs[j]? ≠ some l)
    (hx : s.heap.val.logs[l]? = some x) :
    (rlStep enc s op).ctxs[i]? = some l ∧ (∀ j : Nat, j ≠ i → (rlStep enc s op).ctxs[j]? ≠ some l) ∧
      (rlStep enc s op).heap.val.logs[l]? = some x := by
  have hl : l < s.heap.logs.length := hinv.known l (List.mem_of_getElem? hc)
  have hi : i < s.ctxs.length := (List.getElem?_eq_some_iff.1 hc).1
  have hval : (∀ o ∈ s.calls op, actsOnLogger o ≠ some l) → (rlStep enc s op).heap.val.logs[l]? = some x := by
    intro h
    rw [val_step enc hinv]
    exact logVal_logs enc l x _ _ hx h
  have hll : s.heap.logs.length ≠ l := by omega
  have ctxOp : ∀ j, j ≠ i → ∀ f : Nat → List (LogOp ν), (∀ k, k ≠ l → ∀ o ∈ f k, actsOnLogger o ≠ some l) →
      ∀ o ∈ s.onCtx j f, actsOnLogger o ≠ some l := by
    intro j hj f hf o ho'
    unfold ReqLogSt.onCtx at ho'
    split at ho'
    · simp at ho'
    · next k hk => exact hf k (fun h => ho j hj (by rw [hk, h])) o ho'
  cases op with
  | setLogLevel | setLoggerWriter => exact ⟨hc, ho, hval (by simp [ReqLogSt.calls, actsOnLogger])⟩
  | serverDebugf now msg =>
    refine ⟨hc, ho, hval ?_⟩
    simp only [ReqLogSt.calls]
    split <;> simp [actsOnLogger, hll]
  | newContext now =>
    refine ⟨?_, ?_, hval (by simp [ReqLogSt.calls, actsOnLogger])⟩
    · show (s.ctxs ++ [s.heap.logs.length])[i]? = _
      rw [List.getElem?_append_left hi]; exact hc
    · intro j hj h
      have h : (s.ctxs ++ [s.heap.logs.length])[j]? = some l := h
      rw [List.getElem?_append] at h
      split at h
      · exact ho j hj h
      · rw [List.getElem?_singleton] at h
        split at h
        · exact hll (by simpa using h)
        · cases h
  | route j now =>
    have hj : j ≠ i := hf
    refine ⟨?_, ?_, hval ?_⟩
    · show (s.ctxs.set j s.heap.logs.length)[i]? = _
      rw [List.getElem?_set_ne hj]; exact hc
    · intro k hk h
      have h : (s.ctxs.set j s.heap.logs.length)[k]? = some l := h
      rw [List.getElem?_set] at h
      split at h
      · split at h
        · exact hll (by simpa using h)
        · cases h
      · exact ho k hk h
    · exact ctxOp j hj _ (by simp [actsOnLogger, hll])
  | setLogger j k =>
    have hjk : j ≠ i ∧ k ≠ l := hf
    refine ⟨?_, ?_, hval (by simp [ReqLogSt.calls])⟩
    · show (if k < s.heap.logs.length then s.ctxs.set j k else s.ctxs)[i]? = _
      split
      · rw [List.getElem?_set_ne hjk.1]; exact hc
      · exact hc
    · intro m hm h
      have h : (if k < s.heap.logs.length then s.ctxs.set j k else s.ctxs)[m]? = some l := h
      split at h
      · rw [List.getElem?_set] at h
        split at h
        · split at h
          · exact hjk.2 (by simpa using h)
          · cases h
        · exact ho m hm h
      · exact ho m hm h
  | setLoggerLevel j n =>
    exact ⟨hc, ho, hval (ctxOp j hf _ (by intro k hk; simp [actsOnLogger, hk]))⟩
  | mark j k v =>
    exact ⟨hc, ho, hval (ctxOp j hf _ (by intro k hk; simp [actsOnLogger, hk]))⟩
  | ctxDebugf j now msg =>
    refine ⟨hc, ho, hval ?_⟩
    simp only [ReqLogSt.calls, ReqLogSt.onCtx]
    split
    · simp
    · split <;> simp [actsOnLogger, hll]
  | user o =>
    refine ⟨hc, ho, hval ?_⟩
    have hf : actsOnLogger o ≠ some l := hf
    simp only [ReqLogSt.calls, List.mem_singleton, forall_eq]
    cases o <;> exact hf

theorem foreign_run (enc : (Str → Option (FV ν)) → Option Str) (i l : Nat) (x : LgVal ν) (later : List (RLOp ν)) :
    ∀ s : ReqLogSt ν, RLInv enc s → (∀ op ∈ later, Foreign i l op) → s.ctxs[i]? = some l →
      (∀ j : Nat, j ≠ i → s.ctxs[j]? ≠ some l) → s.heap.val.logs[l]? = some x →
      (later.foldl (rlStep enc) s).ctxs[i]? = some l ∧
      (∀ j : Nat, j ≠ i → (later.foldl (rlStep enc) s).ctxs[j]? ≠ some l) ∧
      (later.foldl (rlStep enc) s).heap.val.logs[l]? = some x := by
  induction later with
  | nil => exact fun s _ _ a b c => ⟨a, b, c⟩
  | cons op t ih =>
    intro s hinv hf a b c
    obtain ⟨a', b', c'⟩ := foreign_step enc s hinv i l _ op (hf op (List.mem_cons_self ..)) a b c
    exact ih (rlStep enc s op) (rlStep_inv enc s op hinv) (fun o ho => hf o (List.mem_cons_of_mem _ ho)) a' b' c'

/-- **C89.** From then on only calls made on that context or that logger change it: new settings of the server, other
requests from beginning to end, and calls on other loggers and configurations, in any order, leave it as it is. -/
theorem C89_isolated (enc : (Str → Option (FV ν)) → Option Str) (ops later : List (RLOp ν)) (i l : Nat) (now : Str)
    (hi : i < (rlRun enc ops).ctxs.length) (hl : (rlRun enc (ops ++ [.route i now])).ctxs[i]? = some l)
    (hf : ∀ op ∈ later, Foreign i l op) :
    (rlRun enc (ops ++ [.route i now] ++ later)).ctxs[i]? = some l ∧
      (∀ j : Nat, j ≠ i → (rlRun enc (ops ++ [.route i now] ++ later)).ctxs[j]? ≠ some l) ∧
      (rlRun enc (ops ++ [.route i now] ++ later)).heap.val.logs[l]? = some (freshFor ops now) := by
  obtain ⟨l', h1, h2, h3⟩ := C89_handlers_begin enc ops i now hi
  have hll : l' = l := Option.some.inj (h1.symm.trans hl)
  rw [hll] at h2 h3
  have hr : rlRun enc (ops ++ [.route i now] ++ later) = later.foldl (rlStep enc) (rlRun enc (ops ++ [.route i now])) := by
    unfold rlRun; rw [List.foldl_append]
  rw [hr]
  exact foreign_run enc i l _ later _ (rlRun_inv enc _) hf hl h2 h3

/-- **C89.** The first message a handler logs through its context: if the level lets it pass, exactly one line, to the
server's writer of the moment the handlers began, whose record has the time stamp, the message, an empty error and the
server's level; otherwise nothing. -/
theorem C89_message (enc : (Str → Option (FV ν)) → Option Str) (ops later : List (RLOp ν)) (i l : Nat) (now : Str)
    (hi : i < (rlRun enc ops).ctxs.length) (hl : (rlRun enc (ops ++ [.route i now])).ctxs[i]? = some l)
    (hf : ∀ op ∈ later, Foreign i l op) (lvl : Int) (msg : Str) :
    (rlRun enc (ops ++ [.route i now] ++ later ++ [.user (.logf l lvl msg)])).heap.out =
      (rlRun enc (ops ++ [.route i now] ++ later)).heap.out ++
      if lvl ≤ serverLevel ops then
        [(serverWriter ops, line enc fun k =>
          if k = b!"error.message" then some (.str [])
          else if k = b!"@level" then some (.str (levelString (serverLevel ops)))
          else if k = b!"message" then some (.str msg)
          else if k = b!"@timestamp" then some (.str now)
          else none)]
      else [] := by
  obtain ⟨-, -, hx⟩ := C89_isolated enc ops later i l now hi hl hf
  have hinv := rlRun_inv enc (ops ++ [.route i now] ++ later)
  rw [rlRun_snoc]
  generalize rlRun enc (ops ++ [.route i now] ++ later) = s at hx hinv
  have h1 : (rlStep enc s (.user (.logf l lvl msg))).heap.out = (rlStep enc s (.user (.logf l lvl msg))).heap.val.out := rfl
  have h2 : s.heap.out = s.heap.val.out := rfl
  rw [h1, h2, val_step enc hinv]
  simp only [ReqLogSt.calls, LogOp.notServer, List.foldl_cons, List.foldl_nil, logValStep, LogVal.write, hx]
  by_cases hle : lvl ≤ serverLevel ops
  · have hle' : lvl ≤ (freshFor ops now).cfg.level := hle
    rw [if_pos hle, if_pos hle']
    have hk : ∀ k : Str, (k = b!"@level" ∨ k = b!"error.message") → (freshFor ops now).cfg.key k = k := by
      rintro k (rfl | rfl) <;> rfl
    have hfun : (LgVal.stamped { freshFor ops now with
        fields := updAt (freshFor ops now).fields b!"message" (some (.str msg)) }).fields = fun k =>
          if k = b!"error.message" then some (FV.str [])
          else if k = b!"@level" then some (.str (levelString (serverLevel ops)))
          else if k = b!"message" then some (.str msg)
          else if k = b!"@timestamp" then some (.str now)
          else none := by
      funext k
      rfl
    rw [← hfun]
    rfl
  · have hle' : ¬ lvl ≤ (freshFor ops now).cfg.level := hle
    rw [if_neg hle, if_neg hle']
    simp

/-- **C89.** Debugf of the server: if the server's level is at least debug, exactly one line, to the server's writer, whose
record has the time stamp, the message, an empty error and the server's level; otherwise nothing. -/
theorem C89_debugf (enc : (Str → Option (FV ν)) → Option Str) (ops : List (RLOp ν)) (now msg : Str) :
    (rlRun enc (ops ++ [.serverDebugf now msg])).heap.out = (rlRun enc ops).heap.out ++
      if 5 ≤ serverLevel ops then
        [(serverWriter ops, line enc fun k =>
          if k = b!"error.message" then some (.str [])
          else if k = b!"@level" then some (.str (levelString (serverLevel ops)))
          else if k = b!"message" then some (.str msg)
          else if k = b!"@timestamp" then some (.str now)
          else none)]
      else [] := by
  have hinv := rlRun_inv enc ops
  have hsrv := C89_server enc ops
  rw [rlRun_snoc]
  generalize rlRun enc ops = s at hinv hsrv
  have hlev : s.serverCfg.level = serverLevel ops := by
    have h2 : s.heap.val.cfgs[0]? = (s.heap.handles[0]?).map fun a => (s.heap.cfgAt a).val := by
      simp [LogHeap.val]
    rw [h2] at hsrv
    unfold ReqLogSt.serverCfg
    cases hh : s.heap.handles[0]? with
    | none => rw [hh] at hsrv; cases hsrv
    | some a =>
      rw [hh] at hsrv
      simp only [Option.map_some, Option.some.injEq] at hsrv
      have := congrArg CfgVal.level hsrv
      exact this
  have h1 : (rlStep enc s (.serverDebugf now msg)).heap.out = (rlStep enc s (.serverDebugf now msg)).heap.val.out := rfl
  have h2 : s.heap.out = s.heap.val.out := rfl
  have hlen := logs_length s.heap
  rw [h1, h2, val_step enc hinv]
  simp only [ReqLogSt.calls, hlev]
  generalize s.heap.logs.length = n at hlen
  generalize s.heap.val = v at hsrv hlen
  subst hlen
  by_cases hle : 5 ≤ serverLevel ops
  · rw [if_pos (show serverLevel ops ≥ 5 from hle), if_pos hle]
    simp only [List.foldl_cons, List.foldl_nil, logValStep, LogVal.write, LogVal.onLog, hsrv]
    rw [List.getElem?_modify]
    simp only [List.getElem?_append_right (Nat.le_refl _), Nat.sub_self, List.getElem?_cons_zero, Option.map_some, if_true, hle]
    simp only [Functor.map, Option.map, hle, if_true]
    rfl
  · rw [if_neg (show ¬ serverLevel ops ≥ 5 from hle), if_neg hle]
    simp

/-- **C89.** Debugf of a context: the level, the writer and the key names are those of its logger, whose fields and error are
not in the record. -/
theorem C89_ctx_debugf (enc : (Str → Option (FV ν)) → Option Str) (ops : List (RLOp ν)) (i l : Nat) (now msg : Str)
    (hl : (rlRun enc ops).ctxs[i]? = some l) (x : LgVal ν) (hx : (rlRun enc ops).heap.val.logs[l]? = some x) :
    (rlRun enc (ops ++ [.ctxDebugf i now msg])).heap.out = (rlRun enc ops).heap.out ++
      if 5 ≤ x.cfg.level then
        [(x.cfg.writer, line enc fun k =>
          if k = x.cfg.key b!"error.message" then some (.str [])
          else if k = x.cfg.key b!"@level" then some (.str (levelString x.cfg.level))
          else if k = b!"message" then some (.str msg)
          else if k = b!"@timestamp" then some (.str now)
          else none)]
      else [] := by
  have hinv := rlRun_inv enc ops
  rw [rlRun_snoc]
  generalize rlRun enc ops = s at hinv hl hx
  have hlev : s.levelOf l = x.cfg.level := by
    have h2 : s.heap.val.logs[l]? = (s.heap.logs[l]?).map (LgObj.val s.heap) := by
      simp [LogHeap.val]
    rw [h2] at hx
    unfold ReqLogSt.levelOf
    cases hh : s.heap.logs[l]? with
    | none => rw [hh] at hx; cases hx
    | some a =>
      rw [hh] at hx
      simp only [Option.map_some, Option.some.injEq] at hx
      have := congrArg (fun y => y.cfg.level) hx
      exact this
  have h1 : (rlStep enc s (.ctxDebugf i now msg)).heap.out = (rlStep enc s (.ctxDebugf i now msg)).heap.val.out := rfl
  have h2 : s.heap.out = s.heap.val.out := rfl
  have hlen := logs_length s.heap
  have hclen := cfgs_length s.heap
  rw [h1, h2, val_step enc hinv]
  simp only [ReqLogSt.calls, ReqLogSt.onCtx, hl, hlev]
  generalize s.heap.logs.length = n at hlen
  generalize s.heap.handles.length = m at hclen
  generalize s.heap.val = v at hx hlen hclen
  subst hlen hclen
  by_cases hle : 5 ≤ x.cfg.level
  · rw [if_pos (show x.cfg.level ≥ 5 from hle), if_pos hle]
    have hx' : ∀ y : LgVal ν, (v.logs ++ [y])[l]? = some x := fun y => by
      rw [List.getElem?_append_left (List.getElem?_eq_some_iff.mp hx).1]; exact hx
    simp only [List.foldl_cons, List.foldl_nil, logValStep, hx, Option.map_some, Option.toList_some, hx']
    have hc : (v.cfgs ++ [x.cfg] ++ [x.cfg])[v.cfgs.length + 1]? = some x.cfg := by simp
    simp only [hc, LogVal.write, LogVal.onLog]
    rw [List.getElem?_modify]
    simp only [List.getElem?_append_right (Nat.le_refl _), Nat.sub_self, List.getElem?_cons_zero, if_true]
    simp only [Functor.map, Option.map, hle, if_true]
    rfl
  · rw [if_neg (show ¬ x.cfg.level ≥ 5 from hle), if_neg hle]
    simp [logValStep]

/-- **C89 (exact).** What the session initialiser left on the request's logger is in effect for the handlers just when it changed
nothing: when the logger is as a fresh one with the server's settings. -/
theorem C89_initialiser_exact (enc : (Str → Option (FV ν)) → Option Str) (ops : List (RLOp ν)) (i l0 : Nat) (now : Str) (x : LgVal ν)
    (hl : (rlRun enc ops).ctxs[i]? = some l0) (_hx : (rlRun enc ops).heap.val.logs[l0]? = some x) :
    (∃ l, (rlRun enc (ops ++ [.route i now])).ctxs[i]? = some l ∧ (rlRun enc (ops ++ [.route i now])).heap.val.logs[l]? = some x) ↔
      x = freshFor ops now := by
  obtain ⟨l, h1, -, h3⟩ := C89_handlers_begin enc ops i now (List.getElem?_eq_some_iff.mp hl).1
  constructor
  · rintro ⟨l', h4, h5⟩
    rw [h1] at h4
    cases h4
    rw [h3] at h5
    exact (Option.some.inj h5).symm
  · rintro rfl
    exact ⟨l, h1, h3⟩

/-- **C89 (violated).** What the session initialiser adds to the request's logger is not in the records of the handlers:
the field "user" of the initialiser, and the level it sets. -/
theorem C89_violated : ∃ (enc : (Str → Option (FV Unit)) → Option Str) (pre post : List (RLOp Unit)),
    pre = [.setLogLevel 4, .newContext b!"t0", .user (.add 0 b!"user" (.str b!"ann")), .setLoggerLevel 0 6] ∧
    post = [.route 0 b!"t1", .user (.logf 1 4 b!"hello"), .user (.logf 1 6 b!"details")] ∧
    ((rlRun enc pre).heap.val.logs.map fun x => (x.fields b!"user", x.cfg.level)) = [(some (.str b!"ann"), 6)] ∧
    (rlRun enc (pre ++ post)).ctxs = [1] ∧
    (rlRun enc (pre ++ post)).heap.out = [(0, b!"hello -\n")] := by
  refine ⟨fun f => match f b!"message", f b!"user" with
    | some (.str m), some (.str u) => some (m ++ b!" " ++ u)
    | some (.str m), _ => some (m ++ b!" -")
    | _, _ => none, _, _, rfl, rfl, ?_⟩
  decide +kernel

/-- Concrete case: two requests, the server's level changed in between; each logs with what it began with. -/
example :
    let r := rlRun (ν := Unit) (fun f => match f b!"message" with | some (.str m) => some m | _ => none)
      [.setLoggerWriter 7, .newContext b!"t", .route 0 b!"t", .setLogLevel 2, .setLoggerWriter 8, .newContext b!"t", .route 1 b!"t",
        .user (.logf 1 5 b!"first"), .user (.logf 3 5 b!"second"), .user (.logf 3 2 b!"third"), .mark 0 b!"is_stopped" (.val ())]
    r.ctxs = [1, 3] ∧ r.heap.out = [(7, b!"first\n"), (8, b!"third\n")] := by decide +kernel

end Verif
