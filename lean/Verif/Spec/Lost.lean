import Verif.Spec.Logger
/-
Fields that have no JSON: functions, channels, not-a-number, values whose own marshaller fails.
-/
namespace Verif.Spec

/-- The encoder fails exactly for the records that hold a value without JSON. -/
def FailsOn {ν : Type} (ok : ν → Bool) (enc : (Str → Option (FV ν)) → Option Str) : Prop :=
  ∀ f, enc f = none ↔ ∃ k v, f k = some (.val v) ∧ ok v = false

/-- A value that a program puts into a record. -/
def FV.Fine {ν : Type} (ok : ν → Bool) : FV ν → Prop
  | .str _ => True
  | .val v => ok v = true

/-- The call gives a logger only fields that have JSON. -/
def OpFine {ν : Type} (ok : ν → Bool) : LogOp ν → Prop
  | .add _ _ v | .addDebug _ _ v => FV.Fine ok v
  | .merge _ m => ∀ e ∈ m, FV.Fine ok e.2
  | _ => True

/-- The call puts a value under the field `k` of logger `l`, which is `x` now, or moves the field. -/
def Replaces {ν : Type} (x : LgVal ν) (l : Nat) (k : Str) : LogOp ν → Prop
  | .add l' k' _ | .addDebug l' k' _ => l' = l ∧ k' = k
  | .merge l' m => l' = l ∧ k ∈ m.map (·.1)
  | .stdKeys l' key name => l' = l ∧ (name = k ∨ x.cfg.keys key = some k)
  | .log l' _ => l' = l ∧ (k = x.cfg.key b!"@level" ∨ k = x.cfg.key b!"error.message")
  | .logf l' _ _ => l' = l ∧ (k = x.cfg.key b!"@level" ∨ k = x.cfg.key b!"error.message" ∨ k = b!"message")
  | _ => False

/-- The level of a call that writes a record of logger `l`. -/
def recordOf {ν : Type} (l : Nat) : LogOp ν → Option Int
  | .log l' lvl | .logf l' lvl _ => if l' = l then some lvl else none
  | _ => none

end Verif.Spec
