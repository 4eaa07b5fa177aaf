import Verif.Model.Pipeline
/-
Vocabulary for the request-processing properties: what can be read off the ghost trace.
-/
namespace Verif.Spec

/-- The handler calls in a trace, in order. -/
def starts (t : List Ev) : List HId := t.filterMap fun | .start h _ => some h | _ => none

/-- The handler calls, with whether the request context was already cancelled. -/
def startsDone (t : List Ev) : List (HId × Bool) := t.filterMap fun | .start h d => some (h, d) | _ => none

/-- How the handler calls ended, in order. -/
def rets (t : List Ev) : List HOut := t.filterMap fun | .ret o _ => some o | _ => none

/-- The errors of the request goroutines that have ended, in order. -/
def goErrs (t : List Ev) : List GoErr := t.filterMap fun | .goEnd (some e) => some e | _ => none

/-- Number of goroutines started. -/
def spawned (t : List Ev) : Nat := t.countP fun | .spawn => true | _ => false

/-- Number of goroutines ended. -/
def ended (t : List Ev) : Nat := t.countP fun | .goEnd _ => true | _ => false

/-- Whether a control call was made. -/
def called (k : Ctl) (t : List Ev) : Bool := t.contains (.ctl k)

/-- The documented order of the handlers of a route. -/
def chainOrder (nBefore nAfter : Nat) (skipMain : Bool) : List HId :=
  [.init] ++ (List.range nBefore).map .before ++ (if skipMain then [] else [.main]) ++
    (List.range nAfter).map .after

/-- A handler of the chain proper. -/
def inChain : HId → Bool
  | .before _ | .main | .after _ => true
  | _ => false

/-- A handler that runs in or behind the place of the main handler. -/
def fromMain : HId → Bool
  | .main | .after _ => true
  | _ => false

/-- The part of a trace before the first handler that runs in or behind the place of the main
handler. -/
def untilMain (t : List Ev) : List Ev := t.takeWhile fun | .start h _ => !fromMain h | _ => true

/-- The error a handler call ended with. -/
def errOf : HOut → Option GoErr
  | .err e => some e
  | _ => none

/-- The error of a chain: that of the handler that failed, if one did. -/
def chainErr (t : List Ev) : Option GoErr := (rets t).findSome? errOf

/-- The error handed to the last handler, from the chain's error and the first goroutine error. -/
def combine : Option GoErr → Option GoErr → Option GoErr
  | none, g => g
  | some e, none => some e
  | some e, some g => some (.wrap e g.error)

/-- A handler call that belongs to the route's chain (neither session initialiser nor last handler). -/
def ofRoute : HId → Bool
  | .init | .before _ | .main | .after _ => true
  | _ => false

/-- The name of a handler of a route. -/
def nameOf {υ : Type} (set : HSetV υ) : HId → Option Str
  | .init | .main => set.main.map (·.name)
  | .before i => (set.before[i]?).join.map (·.name)
  | .after i => (set.after[i]?).join.map (·.name)
  | _ => none

/-- A handler body that leaves the debug trace and the log level alone. -/
inductive Quiet {υ : Type} : Prog υ → Prop
  | ret (o : HOut) : Quiet (.ret o)
  | call (op : COp υ) (k : RCtx υ → Prog υ) (hl : ∀ l, op ≠ .setLevel l) (hn : ∀ s, op ≠ .addName s)
      (hk : ∀ c, Quiet (k c)) : Quiet (.call op k)

/-- All handlers of a route leave the debug trace and the log level alone. -/
def QuietSet {υ : Type} (set : HSetV υ) : Prop :=
  (∀ m, set.main = some m → (∀ c, Quiet (m.init c)) ∧ ∀ c, Quiet (m.run c)) ∧
  (∀ h, some h ∈ set.before ++ set.after → ∀ c, Quiet (h.run c)) ∧
  (∀ l, set.last = some l → ∀ e c, Quiet (l.run e c))

end Verif.Spec
