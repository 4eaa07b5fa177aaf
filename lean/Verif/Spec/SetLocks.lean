import Verif.Model.SetLocks
/-
C73, independently of the model: what a handler set contains after a list of builder calls, and the calls its chain
consists of.
-/
namespace Verif.Spec
variable {η : Type}

/-- The handlers given to `Before`, in order. -/
def givenBefore (calls : List (SetCall η)) : List η := calls.flatMap fun | .before hs => hs | _ => []

/-- The handlers given to `After`, in order. -/
def givenAfter (calls : List (SetCall η)) : List η := calls.flatMap fun | .after hs => hs | _ => []

/-- The main handler: that of the latest `Use`, if any. -/
def mainOf (v : SetVal η) (calls : List (SetCall η)) : η :=
  ((calls.filterMap fun | .use h => some h | _ => none).getLast?).getD v.main

/-- The last handler: that of the latest `Last`, if any. -/
def lastOf (v : SetVal η) (calls : List (SetCall η)) : Option η :=
  ((calls.filterMap fun | .last h => some h | _ => none).getLast?).getD v.last

/-- Init of the main handler, the before handlers, the main handler, the after handlers. -/
def chainOf (v : SetVal η) (calls : List (SetCall η)) : List (ChainCall η) :=
  .init (mainOf v calls) :: (v.before ++ givenBefore calls).map .run ++
    .run (mainOf v calls) :: (v.after ++ givenAfter calls).map .run

/-- The builder calls among the tasks that are past their change (`written`) or over (`built`). -/
def completed : List (SetTask η) → List (SPc η) → List (SetCall η)
  | .build c :: ts, .written :: ps => c :: completed ts ps
  | .build c :: ts, .built :: ps => c :: completed ts ps
  | _ :: ts, _ :: ps => completed ts ps
  | _, _ => []

/-- The handlers given to a builder call. -/
def handlersIn : SetCall η → List η
  | .before hs => hs
  | .after hs => hs
  | .last h => h.toList
  | .use h => [h]
  | .clone => []

/-- The handlers in a set. -/
def inSet (v : SetVal η) : List η := v.main :: (v.before ++ v.after ++ v.last.toList)

/-- The handlers that are in the set at the beginning or given to one of the builder calls. -/
def everyHandler (v : SetVal η) (tasks : List (SetTask η)) : List η :=
  inSet v ++ tasks.flatMap fun | .build c => handlersIn c | .request => []

end Verif.Spec
