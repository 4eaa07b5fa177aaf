import Verif.Model.Pipeline
/-
Vocabulary for C113: when the schedule of a request's goroutines cannot matter.
-/
namespace Verif.Spec
variable {υ π : Type}

/-- What the functions given to EGGo do: the error number `g` returns and what it does to the shared state. -/
structure Work (υ : Type) where
  res : Nat → Option GoErr
  act : Nat → υ → υ

/-- The environment's goroutines do this work. -/
def Does (env : Env υ) (w : Work υ) : Prop := ∀ g c, env.fin g c = (w.res g, w.act g c.store)

/-- The goroutines do not care about their order: if they fail, then with the error `e`; what they do to the shared state
commutes; and it cannot be seen by handlers that look only at `pub`. -/
structure Orderless (w : Work υ) (pub : υ → π) (e : GoErr) : Prop where
  fails : ∀ g, w.res g = none ∨ w.res g = some e
  comm : ∀ g h s, w.act g (w.act h s) = w.act h (w.act g s)
  hidden : ∀ g s, pub (w.act g s) = pub s

/-- What a handler can see of its context without looking at its goroutines. -/
structure Seen (π : Type) where
  stopped : Bool
  aborted : Bool
  skipped : Bool
  level : Int
  names : List Str
  cancelled : Bool
  resp : Resp
  pub : π

def seen (pub : υ → π) (c : RCtx υ) : Seen π :=
  ⟨c.stopped, c.aborted, c.skipped, c.level, c.names, c.cancelled, c.resp, pub c.store⟩

/-- After a call it is certain that no goroutine runs (`true`): after EGWait, and as long as none is started. -/
def calmAfter (calm : Bool) : COp υ → Bool
  | .go _ => false
  | .wait => true
  | _ => calm

/-- A change of the shared state while goroutines may run must not get in their way, nor look at what they do. -/
def Harmless (w : Work υ) (pub : υ → π) (calm : Bool) : COp υ → Prop
  | .upd f => calm = false → (∀ g s, f (w.act g s) = w.act g (f s)) ∧ ∀ s t, pub s = pub t → pub (f s) = pub (f t)
  | _ => True

/-- Two contexts that a handler cannot tell apart; when no goroutine runs, it may look at the whole shared state. -/
def Same (pub : υ → π) (calm : Bool) (c c' : RCtx υ) : Prop :=
  seen pub c = seen pub c' ∧ (calm = true → c.store = c'.store)

/-- A handler body that does not depend on what its goroutines have done so far, except after waiting for them. -/
inductive Tame (w : Work υ) (pub : υ → π) : Bool → Prog υ → Prop where
  | ret (calm : Bool) (o : HOut) : Tame w pub calm (.ret o)
  | call (calm : Bool) (op : COp υ) (k : RCtx υ → Prog υ) : Harmless w pub calm op →
      (∀ c c', Same pub (calmAfter calm op) c c' → k c = k c') → (∀ c, Tame w pub (calmAfter calm op) (k c)) →
      Tame w pub calm (.call op k)

/-- A handler. -/
def TameH (w : Work υ) (pub : υ → π) (calm : Bool) (f : RCtx υ → Prog υ) : Prop :=
  (∀ c c', Same pub calm c c' → f c = f c') ∧ ∀ c, Tame w pub calm (f c)

/-- A handler set.  The last handler is called after the goroutines have ended. -/
structure TameSet (w : Work υ) (pub : υ → π) (set : HSetV υ) : Prop where
  before : ∀ h, some h ∈ set.before → TameH w pub false h.run
  after : ∀ h, some h ∈ set.after → TameH w pub false h.run
  main : ∀ m, set.main = some m → TameH w pub false m.init ∧ TameH w pub false m.run
  last : ∀ l, set.last = some l → ∀ err, TameH w pub true (l.run err)

/-- What happened, without the goroutines: the handler calls and their results, the control calls, the changes of the
response. -/
inductive Told where
  | start (h : HId)
  | ret (o : HOut)
  | ctl (k : Ctl)
  | resp (old new : Resp)
  | released
  deriving DecidableEq, Repr

def tell : Ev → Option Told
  | .start h _ => some (.start h)
  | .ret o _ => some (.ret o)
  | .ctl k => some (.ctl k)
  | .spawn => none
  | .goEnd _ => none
  | .resp a b => some (.resp a b)
  | .released => some .released

def told (l : List Ev) : List Told := l.filterMap tell

end Verif.Spec
