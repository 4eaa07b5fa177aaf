import Verif.Spec.Races
/-
When goroutines that use the API can block each other for good.
-/
namespace Verif.Spec

/-- The handler set a call locks: the builder calls on it, Clone, and adding it to the server. -/
def lockedSet : Call → Option Nat
  | .setBefore s | .setAfter s | .setLast s | .setUse s | .setClone s | .serverAdd s _ | .serverAddReg s => some s
  | _ => none

/-- The handlers of a request that run: Init, the chain as far as it goes, and the last handler unless the request was aborted. -/
def ReqAccess.running (q : ReqAccess) : List (List Call) :=
  ([q.init] ++ q.before ++ [if q.skipMain then [] else q.main] ++ q.after).take q.ran ++ if q.aborted then [] else [q.last]

/-- A request that runs set `s` has a handler that runs and calls a method that locks set `t`. -/
def Waits (tasks : List RaceTask) (s t : Nat) : Prop :=
  ∃ q, RaceTask.request q ∈ tasks ∧ q.set = some s ∧ ∃ h ∈ ReqAccess.running q, ∃ c ∈ h, lockedSet c = some t

/-- A group of sets, each of them run by a request that locks a set of the group. -/
def Circle (tasks : List RaceTask) (S : List Nat) : Prop := S ≠ [] ∧ ∀ s ∈ S, ∃ t ∈ S, Waits tasks s t

end Verif.Spec
