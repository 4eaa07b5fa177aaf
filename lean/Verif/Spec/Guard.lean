import Verif.Spec.EndToEnd
import Verif.Spec.Builders
/-
Vocabulary for guards: before handlers that refuse some requests.

`P : υ → Prop` says, of the state the handlers of a request share (headers, cookies, context values, ...), that the
request is one to be refused ("carries no valid token").
-/
namespace Verif.Spec
variable {υ η ρ : Type}

/-- A handler body that does not change whether the request is to be refused. -/
inductive Keeps (P : υ → Prop) : Prog υ → Prop
  | ret (o : HOut) : Keeps P (.ret o)
  | call (op : COp υ) (k : RCtx υ → Prog υ) (hf : ∀ f, op = .upd f → ∀ s, P s → P (f s))
      (hk : ∀ c, P c.store → Keeps P (k c)) : Keeps P (.call op k)

/-- A handler body that refuses: whichever way it goes, it ends with an error or a panic, or it has called Stop, Abort or
SkipMain (and then it may do what it likes). -/
inductive TurnsAway (P : υ → Prop) : Prog υ → Prop
  | err (e : GoErr) : TurnsAway P (.ret (.err e))
  | panic : TurnsAway P (.ret .panic)
  | ctl (op : COp υ) (k : RCtx υ → Prog υ) (h : op = .stop ∨ op = .abort ∨ op = .skipMain) : TurnsAway P (.call op k)
  | call (op : COp υ) (k : RCtx υ → Prog υ) (hf : ∀ f, op = .upd f → ∀ s, P s → P (f s))
      (hk : ∀ c, P c.store → TurnsAway P (k c)) : TurnsAway P (.call op k)

/-- The situation: handler `g` refuses the requests `P`, and nothing else that runs before a main handler — session
initialiser, the other before handlers, `Init`, goroutines — makes an acceptable request of a request to be refused. -/
structure Guards (I : Handlers3 η υ) (env : Env υ) (init : Option (RCtx υ → Prog υ)) (P : υ → Prop) (g : η) : Prop where
  refuses : ∀ h, I.hdl g = some h → ∀ c, P c.store → TurnsAway P (h.run c)
  others : ∀ x h, x ≠ g → I.hdl x = some h → ∀ c, P c.store → Keeps P (h.run c)
  inits : ∀ x m, I.main x = some m → ∀ c, P c.store → Keeps P (m.init c)
  session : ∀ f, init = some f → ∀ c, P c.store → Keeps P (f c)
  goroutines : ∀ n c, P c.store → P (env.fin n c).2

/-- The same handlers, except that main handlers may do something else when they are run. -/
structure SameButMain (I I' : Handlers3 η υ) : Prop where
  hdl : I'.hdl = I.hdl
  last : I'.last = I.last
  main : ∀ x, (I'.main x).map (fun m => (m.name, m.init)) = (I.main x).map fun m => (m.name, m.init)

/-- A registration that does not go through a Router. -/
def viaServer : Op η ρ → Bool
  | .sAdd .. | .sAddReg .. | .sConv .. => true
  | _ => false

/-- The router a registration goes through. -/
def viaRouter : Op η ρ → Option Nat
  | .rUse r .. | .rUseReg r .. => some r
  | _ => none

/-- The handler set a registration goes through. -/
def viaSet : Op η ρ → Option Nat
  | .sAdd _ _ _ (some j) | .sAddReg _ _ _ (some j) | .sConv _ _ _ (some j :: _) => some j
  | _ => none

/-- A call that appends to, or clones, a handler set. -/
def setBuilt : Op η ρ → Option Nat
  | .setBefore k _ | .setAfter k _ | .setClone k => some k
  | _ => none

/-- In this program every registration goes through a Router that has `g` among its before handlers at that moment, or
through a handler set that has; in the latter case no other set that exists at that moment is appended to or cloned
afterwards. -/
def Guarded [Inhabited η] [DecidableEq ρ] (grow : Nat → Nat → Nat) (g : η) (ops : List (Op η ρ)) : Prop :=
  ∀ pre o post, ops = pre ++ o :: post →
    (∀ r rv, viaRouter o = some r → routerView (runOps grow World.init pre) r = some rv → g ∈ rv.before) ∧
    ∀ j v, viaSet o = some j → setView (runOps grow World.init pre) j = some v → g ∈ v.before ∧
      ∀ p ∈ post, ∀ k, setBuilt p = some k → k ≠ j → (runOps grow World.init pre).setVars.length ≤ k

/-- A call that cannot take `g` away from a router or bring a router without it: no new router, `Before` only with a list
that has `g`; and no registration past the routers. -/
def keepsGuard [DecidableEq η] (g : η) : Op η ρ → Bool
  | .newRouter => false
  | .rBefore _ (.lit xs) => decide (g ∈ xs)
  | o => !viaServer o

end Verif.Spec
