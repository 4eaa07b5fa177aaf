import Verif.Props.Ctx
import Verif.Props.Logger
import Verif.Props.Static
import Verif.Props.StdLog
/-
C38, C50, C71, C88, exactly: for which inputs the properties hold.
-/
namespace Verif
open Spec

/-! ### C38 -/

/-- The values of a name in form order, as a single string or a list. -/
def inFormOrder : List Str → Option Squeezed
  | [] => none
  | [v] => some (.one v)
  | vs => some (.many vs)

/-- **C38** (exactly).  A name's values are given back in form order exactly if it has fewer than two, or the first two are equal. -/
theorem C38_exact (c : Sources) (k : Str) : (squeezeParams c).get? k = inFormOrder (valuesOf c.form k) ↔
    ∀ v w r, valuesOf c.form k = v :: w :: r → v = w := by
  obtain ⟨h0, h1, h2⟩ := C38_squeeze c k
  match hv : valuesOf c.form k with
  | [] => simp [h0 hv, inFormOrder]
  | [v] => simp [h1 v hv, inFormOrder]
  | v :: w :: r =>
    rw [(h2 v w r hv).1]
    simp only [inFormOrder, Option.some.injEq, Squeezed.many.injEq, List.cons.injEq, and_true]
    exact ⟨fun ⟨h, _⟩ a b r ⟨e1, e2, _⟩ => by rw [← e1, ← e2]; exact h.symm, fun h => ⟨(h v w r ⟨rfl, rfl, rfl⟩).symm, h v w r ⟨rfl, rfl, rfl⟩⟩⟩

example : (∀ v w r, valuesOf [(b!"a", b!"1"), (b!"a", b!"1"), (b!"a", b!"2")] b!"a" = v :: w :: r → v = w) ∧
    ¬ ∀ v w r, valuesOf [(b!"a", b!"1"), (b!"a", b!"2")] b!"a" = v :: w :: r → v = w := by
  constructor
  · intro v w r h
    have : valuesOf [(b!"a", b!"1"), (b!"a", b!"1"), (b!"a", b!"2")] b!"a" = [b!"1", b!"1", b!"2"] := by decide
    rw [this] at h; cases h; rfl
  · intro h
    exact absurd (h b!"1" b!"2" [] (by decide)) (by decide)

/-! ### C71 -/

/-- **C71** (exactly).  An index page redirect never points to "./" with the query of the request. -/
theorem C71_never (lib : Lib) (href : Str → Str) (r : HttpReq) (w : HttpResp) (root : FileSys) (hp : hasPrefix r.path b!"/" = true)
    (pre : Str) (hi : r.path = pre ++ b!"/index.html") (hq : lib.quotePath r.path ≠ []) :
    ∃ s, fileServe lib href root r w = .ret s ∧ s.resp.status = 301 ∧
      s.resp.peek b!"Location" ≠ b!"./" ++ (if r.query = [] then [] else b!"?" ++ r.query) := by
  obtain ⟨s, h1, h2, h3⟩ := C71_location (lib := lib) (href := href) (r := r) (w := w) root hp pre hi hq
  refine ⟨s, h1, h2, fun e => ?_⟩
  rw [h3] at e
  have hl := congrArg List.length e
  have : 0 < (lib.quotePath r.path).length := List.length_pos_iff.2 hq
  by_cases hn : r.query = []
  · simp [hn] at hl
  · simp [hn] at hl; omega

example : ∃ s, fileServe exLib id (ioOpen exFS) { exGet b!"/docs/index.html" with query := b!"a=1" } HttpResp.fresh = .ret s ∧ s.resp.status = 301 ∧
    s.resp.peek b!"Location" ≠ b!"./" ++ (if b!"a=1" = [] then [] else b!"?" ++ b!"a=1") :=
  C71_never exLib id { exGet b!"/docs/index.html" with query := b!"a=1" } HttpResp.fresh (ioOpen exFS) (by decide) b!"/docs" (by decide) (by decide +kernel)

/-! ### C50 -/

/-- **C50** (exactly).  The record of a written message carries the message's own level under the level key exactly if the configured level has
the same name (or the level key is the error key too and the error's text is that name); and the message under "message" exactly if no other of
the two keys is "message", or what is under it is the message's text. -/
theorem C50_exact {ν : Type} (enc : (Str → Option (FV ν)) → Option Str) (ops : List (LogOp ν)) (l : Nat) (lvl : Int) (msg : Str)
    (x : LgVal ν) (hx : (logVals enc ops).logs[l]? = some x) (hle : lvl ≤ x.cfg.level) :
    ∃ rcd : Str → Option (FV ν),
      (logRun enc (ops ++ [.logf l lvl msg])).out = (logRun enc ops).out ++ [(x.cfg.writer, line enc rcd)] ∧
      (rcd (x.cfg.key b!"@level") = some (.str (levelString lvl)) ↔
        if x.cfg.key b!"@level" = x.cfg.key b!"error.message" then x.err.getD [] = levelString lvl else levelString x.cfg.level = levelString lvl) ∧
      (rcd b!"message" = some (.str msg) ↔
        if b!"message" = x.cfg.key b!"error.message" then x.err.getD [] = msg
        else b!"message" = x.cfg.key b!"@level" → levelString x.cfg.level = msg) := by
  obtain ⟨rcd, h1, -, h2⟩ := C50_record enc ops l lvl msg x hx hle
  refine ⟨rcd, h1, ?_, ?_⟩
  · rw [h2]
    by_cases k : x.cfg.key b!"@level" = x.cfg.key b!"error.message"
    · rw [if_pos k, if_pos k]; simp
    · rw [if_neg k, if_pos rfl, if_neg k]; simp
  · rw [h2]
    by_cases k : b!"message" = x.cfg.key b!"error.message"
    · rw [if_pos k, if_pos k]; simp
    · rw [if_neg k, if_neg k]
      by_cases k2 : b!"message" = x.cfg.key b!"@level"
      · rw [if_pos k2]; simp [k2]
      · rw [if_neg k2, if_pos rfl]; simp [k2]

/-! ### C88 -/

/-- **C88** (exactly).  Exactly one line is printed about a request exactly if it was not refused and did not panic, it failed, and neither the
address nor the reason has a line break. -/
theorem C88_exact {υ σ ρ : Type} [DecidableEq ρ] {u : Str → Str} {env : Env υ} {rxMatch : ρ → Str → Bool}
    {visit : GoMap ρ (Option σ) → List (ρ × Option σ)} {srv : Srv υ σ ρ} {ba : BaseAuth} {req : Req} {resp : Resp}
    {store : Args → υ} {buf : Args} {clock : Nat} {sv : Served υ} (addr : Str)
    (h : serveHTTP u env rxMatch visit srv ba req resp store buf clock = .ret sv) :
    lineCount (stdLog addr sv) = 1 ↔ ∃ d reason, sv.ran = some d ∧ d.flow ≠ .panicked ∧ reasonOf d.ctx.isSome req.path d.trace = some reason ∧
      10 ∉ addr ∧ 10 ∉ reason := by
  cases hd : sv.ran with
  | none =>
    have := C88_message addr h
    rw [hd] at this
    simp only at this
    rw [this]
    simp [lineCount]
  | some d =>
    by_cases hp : d.flow = .panicked
    · have := C88_message addr h
      rw [hd] at this
      simp only [if_pos hp] at this
      rw [this]
      constructor
      · intro k; simp [lineCount] at k
      · rintro ⟨d', _, e, k, _⟩; cases e; exact absurd hp k
    · have := C88_lines_partial addr h hd hp
      rw [this]
      cases hr : reasonOf d.ctx.isSome req.path d.trace with
      | none =>
        constructor
        · intro k; cases k
        · rintro ⟨d', _, e, _, k, _⟩; cases e; rw [hr] at k; cases k
      | some reason =>
        constructor
        · intro k
          simp only at k
          exact ⟨d, reason, rfl, hp, hr, List.count_eq_zero.1 (show lineCount addr = 0 by omega), List.count_eq_zero.1 (show lineCount reason = 0 by omega)⟩
        · rintro ⟨d', r', e, -, k, h1, h2⟩
          cases e; rw [hr] at k; cases k
          have e1 : lineCount addr = 0 := List.count_eq_zero.2 h1
          have e2 : lineCount reason = 0 := List.count_eq_zero.2 h2
          simp only [e1, e2]

end Verif
