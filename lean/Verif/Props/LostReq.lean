import Verif.Props.Lost
import Verif.Props.ReqLog
/-
C139 for requests: fields without JSON given in one request do not silence others, nor Debugf.
-/
namespace Verif
open Spec
variable {ν : Type}

/-- A record of texts only is written. -/
theorem texts_written {ok : ν → Bool} {enc : (Str → Option (FV ν)) → Option Str} (he : FailsOn ok enc) (f : Str → Option (FV ν))
    (h : ∀ k w, f k = some w → ∃ s, w = .str s) : ∃ s, line enc f = s ++ [10] := by
  refine line_end _ fun hn => ?_
  rw [line_nil, he] at hn
  obtain ⟨k, v, k1, -⟩ := hn
  obtain ⟨s, hs⟩ := h k _ k1
  cases hs

theorem record_texts (k1 k2 : Str) (t1 t2 t3 t4 : Str) : ∀ (k : Str) (w : FV ν),
    (if k = k1 then some (.str t1) else if k = k2 then some (.str t2) else if k = b!"message" then some (.str t3)
      else if k = b!"@timestamp" then some (.str t4) else none) = some w → ∃ s, w = .str s := by
  intro k w h
  by_cases a1 : k = k1
  · rw [if_pos a1] at h; cases h; exact ⟨_, rfl⟩
  rw [if_neg a1] at h
  by_cases a2 : k = k2
  · rw [if_pos a2] at h; cases h; exact ⟨_, rfl⟩
  rw [if_neg a2] at h
  by_cases a3 : k = b!"message"
  · rw [if_pos a3] at h; cases h; exact ⟨_, rfl⟩
  rw [if_neg a3] at h
  by_cases a4 : k = b!"@timestamp"
  · rw [if_pos a4] at h; cases h; exact ⟨_, rfl⟩
  rw [if_neg a4] at h
  cases h

/-- C139, requests.  Whatever fields earlier and concurrent requests, the session initialiser and other handlers gave their loggers: the first message a
handler logs through its context at an allowed level is written as a line. -/
theorem C139_requests (ok : ν → Bool) (enc : (Str → Option (FV ν)) → Option Str) (he : FailsOn ok enc) (ops later : List (RLOp ν)) (i l : Nat)
    (now : Str) (hi : i < (rlRun enc ops).ctxs.length) (hl : (rlRun enc (ops ++ [.route i now])).ctxs[i]? = some l)
    (hf : ∀ op ∈ later, Foreign i l op) (lvl : Int) (msg : Str) : ∃ s,
    (rlRun enc (ops ++ [.route i now] ++ later ++ [.user (.logf l lvl msg)])).heap.out =
      (rlRun enc (ops ++ [.route i now] ++ later)).heap.out ++ if lvl ≤ serverLevel ops then [(serverWriter ops, s ++ [10])] else [] := by
  rw [C89_message enc ops later i l now hi hl hf lvl msg]
  obtain ⟨s, hs⟩ := texts_written he _ (record_texts (ν := ν) b!"error.message" b!"@level" [] (levelString (serverLevel ops)) msg now)
  exact ⟨s, by rw [hs]⟩

/-- C139, Debugf: what a server or a context logs with Debugf is never lost, whatever fields the logger of the context holds. -/
theorem C139_debugf (ok : ν → Bool) (enc : (Str → Option (FV ν)) → Option Str) (he : FailsOn ok enc) (ops : List (RLOp ν)) (now msg : Str) :
    (∃ s, (rlRun enc (ops ++ [.serverDebugf now msg])).heap.out =
      (rlRun enc ops).heap.out ++ if 5 ≤ serverLevel ops then [(serverWriter ops, s ++ [10])] else []) ∧
    ∀ (i l : Nat) (x : LgVal ν), (rlRun enc ops).ctxs[i]? = some l → (rlRun enc ops).heap.val.logs[l]? = some x →
      ∃ s, (rlRun enc (ops ++ [.ctxDebugf i now msg])).heap.out =
        (rlRun enc ops).heap.out ++ if 5 ≤ x.cfg.level then [(x.cfg.writer, s ++ [10])] else [] := by
  constructor
  · rw [C89_debugf enc ops now msg]
    obtain ⟨s, hs⟩ := texts_written he _ (record_texts (ν := ν) b!"error.message" b!"@level" [] (levelString (serverLevel ops)) msg now)
    exact ⟨s, by rw [hs]⟩
  · intro i l x hl hx
    rw [C89_ctx_debugf enc ops i l now msg hl x hx]
    obtain ⟨s, hs⟩ := texts_written he _ (record_texts (ν := ν) (x.cfg.key b!"error.message") (x.cfg.key b!"@level") [] (levelString x.cfg.level) msg now)
    exact ⟨s, by rw [hs]⟩

/-- A request gives its logger a field without JSON; the next request is not affected. -/
example (enc : (Str → Option (FV Bool)) → Option Str) :
    let ops : List (RLOp Bool) := [.newContext b!"t", .route 0 b!"t", .user (.add 1 b!"f" (.val false)), .newContext b!"t"]
    1 < (rlRun enc ops).ctxs.length ∧ (rlRun enc (ops ++ [.route 1 b!"t"])).ctxs[1]? = some 3 ∧
      ((rlRun enc ops).heap.val.logs[1]?.bind fun x => x.fields b!"f") = some (.val false) := ⟨Nat.lt_succ_self 1, rfl, rfl⟩

end Verif
