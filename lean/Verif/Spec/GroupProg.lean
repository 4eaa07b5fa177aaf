import Verif.Model.GroupProg
/-
What is asked of programs with a goroutine limit (C104).
-/
namespace Verif.Spec
open Verif

/-- The function may call EGGo itself. -/
def callsGo : GFn → Bool
  | .ret => false
  | .go _ _ => true
  | .tryGo _ y n => callsGo y || callsGo n
  | .wait r => callsGo r

/-- How many goroutines that may call EGGo are started, directly or not, by a function. -/
def starters : GFn → Nat
  | .ret => 0
  | .go c r => (if callsGo c then 1 else 0) + starters c + starters r
  | .tryGo c y n => max ((if callsGo c then 1 else 0) + starters c + starters y) (starters n)
  | .wait r => starters r

/-- The function and those it starts do not call EGWait. -/
def noWait : GFn → Bool
  | .ret => true
  | .go c r => noWait c && noWait r
  | .tryGo c y n => noWait c && noWait y && noWait n
  | .wait _ => false

/-- Only the handlers call EGWait. -/
def handlersWait : GFn → Bool
  | .ret => true
  | .go c r => noWait c && handlersWait r
  | .tryGo c y n => noWait c && handlersWait y && handlersWait n
  | .wait r => handlersWait r

/-- An upper bound for the number of steps: each call, each return and each `done`. -/
def steps : GFn → Nat
  | .ret => 0
  | .go c r => steps c + steps r + 3
  | .tryGo c y n => steps c + steps y + steps n + 3
  | .wait r => steps r + 1

/-- The request has room: there is no limit, or more goroutines may run than call EGGo (and at least one). -/
def Roomy (lim : List GOp) (main : GFn) : Prop :=
  lim = [] ∨ ∃ n : Int, lim = [.setLimit n] ∧ (n < 0 ∨ (starters main : Int) < n)

/-- `n` times EGGo of a function that calls EGGo once. -/
def nested : Nat → GFn
  | 0 => .ret
  | n + 1 => .go (.go .ret .ret) (nested n)

/-- The function and those it starts do not call EGTryGo. -/
def noTry : GFn → Bool
  | .ret => true
  | .go c r => noTry c && noTry r
  | .tryGo _ _ _ => false
  | .wait r => noTry r

/-- How many goroutines can stand before an EGGo at the same time, at most, if a goroutine runs this function (without EGTryGo and
EGWait): it stands before its first EGGo; or it has made that call, and then the started goroutine and the rest go on side by side. -/
def standing : GFn → Nat
  | .go c r => max 1 (standing c + standing r)
  | _ => 0

/-- The same for the goroutines started by handlers, with `acc` for those started already: EGWait returns when none is left. -/
def standingFrom (acc : Nat) : GFn → Nat
  | .ret => acc
  | .go c r => standingFrom (acc + standing c) r
  | .tryGo _ _ _ => acc
  | .wait r => max acc (standingFrom 0 r)

/-- The handlers come to an EGGo if every EGTryGo returns false. -/
def goWhenNoneStart : GFn → Bool
  | .ret => false
  | .go _ _ => true
  | .tryGo _ _ n => goWhenNoneStart n
  | .wait r => goWhenNoneStart r

end Verif.Spec
