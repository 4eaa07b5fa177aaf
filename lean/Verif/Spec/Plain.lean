import Verif.Model.ExampleHandlers
import Verif.Spec.Examples
import Verif.Spec.SetCookie
/-
Handlers that only write: the answer of a chain of them, and what the example programs are meant to answer.
-/
namespace Verif.Spec
variable {υ : Type}

/-- Started with the response and the state `x`, the program only changes these, ends with `y` and returns nil. -/
inductive PlainProg : Prog υ → Resp × υ → Resp × υ → Prop where
  | ret (x) : PlainProg (.ret .ok) x x
  | resp (f k x y) : (∀ c : RCtx υ, c.resp = f x.1 → c.store = x.2 → PlainProg (k c) (f x.1, x.2) y) →
      PlainProg (.call (.resp f) k) x y
  | upd (f k x y) : (∀ c : RCtx υ, c.resp = x.1 → c.store = f x.2 → PlainProg (k c) (x.1, f x.2) y) →
      PlainProg (.call (.upd f) k) x y

/-- The handler only changes response and state, by `g`. -/
def PlainH (p : RCtx υ → Prog υ) (g : Resp × υ → Resp × υ) : Prop :=
  ∀ c, PlainProg (p c) (c.resp, c.store) (g (c.resp, c.store))

/-- Handlers, none nil, with what they do. -/
inductive PlainList : List (Option (Hdl υ)) → List (Resp × υ → Resp × υ) → Prop where
  | nil : PlainList [] []
  | cons {h g t gs} : PlainH h.run g → PlainList t gs → PlainList (some h :: t) (g :: gs)

/-- One after the other. -/
def inTurn (gs : List (Resp × υ → Resp × υ)) (x : Resp × υ) : Resp × υ := gs.foldl (fun x g => g x) x

/-- The labels of the handlers of a row, in the order in which they are to run. -/
def labels (v : HView ExH) : List Str :=
  (v.before ++ v.main.toList ++ v.after).map fun
    | .ih l => l
    | _ => []

/-- What the handler with this label of example_1 writes. -/
def line1 (label : Str) : Str := b!"dddd-" ++ label ++ b!"- urlIds: {}- params: {} - cookie: {}//// \n\n"

/-- What the handler with this label of example_2, example_3 and static_video writes. -/
def line2 (label : Str) : Str := b!"dddd-" ++ label ++ b!"- u: {}//// \n\n"

end Verif.Spec
