import Verif.Model.ReqLog
import Verif.Spec.Logger
/-
Vocabulary for C89.
-/
namespace Verif.Spec
variable {ν : Type}

/-- The server's level: the latest one set, debug (5) at first. -/
def serverLevel (ops : List (RLOp ν)) : Int :=
  ((ops.filterMap fun | .setLogLevel l => some l | _ => none).getLast?).getD 5

/-- The server's writer: the latest one set, standard output (0) at first. -/
def serverWriter (ops : List (RLOp ν)) : Nat :=
  ((ops.filterMap fun | .setLoggerWriter w => some w | _ => none).getLast?).getD 0

/-- Calls that are not made on context `i` or logger `l`, and do not make `l` the logger of another context: settings of
the server, other requests from beginning to end, calls on other loggers. -/
def Foreign (i l : Nat) : RLOp ν → Prop
  | .setLogLevel _ | .setLoggerWriter _ | .serverDebugf _ _ | .newContext _ => True
  | .route j _ => j ≠ i
  | .setLogger j k => j ≠ i ∧ k ≠ l
  | .setLoggerLevel j _ | .mark j _ _ => j ≠ i
  | .ctxDebugf _ _ _ => True
  | .user op => actsOnLogger op ≠ some l

/-- A logger with the server's settings, no error and only its time stamp. -/
def freshFor (ops : List (RLOp ν)) (now : Str) : LgVal ν :=
  ⟨⟨serverLevel ops, serverWriter ops, defaultCfg.keys⟩, none, updAt (fun _ => none) b!"@timestamp" (some (.str now))⟩

end Verif.Spec
