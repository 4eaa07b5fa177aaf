import Verif.Model.Heap
/-
Independent specification of the builder API: handler sets and routers as plain immutable values, no
heap, no sharing.
-/
namespace Verif.Spec
variable {η ρ : Type}

/-- The values of the program's set and router variables, and the routes registered so far with the
handlers each will run. -/
structure Values (η ρ : Type) where
  sets : List (HView η)
  routers : List (RView η)
  routes : List (Method × Str × HView η)
  rxRoutes : List (Method × ρ × HView η)

/-- A new server. -/
def Values.init : Values η ρ := ⟨[], [], [], []⟩

/-- Change the value of variable `i`, if there is one. -/
def upd {α : Type} (l : List α) (i : Nat) (f : α → α) : List α := l.modify i f

/-- Register a route that runs `v`. -/
def Values.route (s : Values η ρ) (m : Method) (route : Str) (v : Option (HView η)) : Values η ρ :=
  match v with
  | none => s
  | some v => { s with routes := s.routes ++ [(m, route, v)] }

/-- Register a regular expression that runs `v` (refused for unsupported methods). -/
def Values.rxRoute (supported : List Method) (s : Values η ρ) (m : Method) (rx : ρ) (v : Option (HView η)) :
    Values η ρ :=
  match v with
  | none => s
  | some v => if m ∈ supported then { s with rxRoutes := s.rxRoutes ++ [(m, rx, v)] } else s

/-- The meaning of one call on values.  (Calls on the program's own slices mean nothing here.) -/
def vstep (supported : List Method) (s : Values η ρ) : Op η ρ → Values η ρ
  | .newSet => { s with sets := s.sets ++ [⟨[], [], none, none⟩] }
  | .setBefore j (.lit xs) => { s with sets := upd s.sets j fun v => { v with before := v.before ++ xs } }
  | .setAfter j (.lit xs) => { s with sets := upd s.sets j fun v => { v with after := v.after ++ xs } }
  | .setLast j h => { s with sets := upd s.sets j fun v => { v with last := h } }
  | .setUse j h => { s with sets := upd s.sets j fun v => { v with main := h } }
  | .setClone j =>
    match s.sets[j]? with
    | none => s
    | some v => { s with sets := s.sets ++ [v] }
  | .newRouter => { s with routers := s.routers ++ [⟨[], [], none⟩] }
  | .rFirst r h => { s with routers := upd s.routers r fun v => { v with before := h :: v.before } }
  | .rBefore r (.lit xs) => { s with routers := upd s.routers r fun v => { v with before := xs } }
  | .rAfter r (.lit xs) => { s with routers := upd s.routers r fun v => { v with after := xs } }
  | .rLastAfter r h => { s with routers := upd s.routers r fun v => { v with after := v.after ++ [h] } }
  | .rLast r h => { s with routers := upd s.routers r fun v => { v with last := h } }
  | .rUse r m route h =>
    s.route m route ((s.routers[r]?).map fun v => ⟨v.before, v.after, v.last, h⟩)
  | .rUseReg r m rx h =>
    s.rxRoute supported m rx ((s.routers[r]?).map fun v => ⟨v.before, v.after, v.last, h⟩)
  | .rClone r =>
    match s.routers[r]? with
    | none => s
    | some v => { s with routers := s.routers ++ [v] }
  | .sAdd m route h (some j) => s.route m route ((s.sets[j]?).map fun v => { v with main := h })
  | .sAddReg m rx h (some j) => s.rxRoute supported m rx ((s.sets[j]?).map fun v => { v with main := h })
  | .sConv m route h (some j :: _) => s.route m route ((s.sets[j]?).map fun v => { v with main := h })
  | _ => s

/-- The meaning of a program. -/
def vrun (supported : List Method) (ops : List (Op η ρ)) : Values η ρ :=
  ops.foldl (vstep supported) Values.init

/-- Calls that use no slice variables (all variadic arguments are written out) and do not clone a
handler set. -/
def plain : Op η ρ → Bool
  | .setBefore _ (.spread _) | .setAfter _ (.spread _) | .rBefore _ (.spread _) | .rAfter _ (.spread _) => false
  | .setClone _ => false
  | .rGetBefore _ | .rGetAfter _ | .mkSlice _ _ | .slSet _ _ _ | .slAppend _ _ | .slSub _ _ _ _ => false
  | _ => true

/-- Router.Clone. -/
def isRClone : Op η ρ → Bool
  | .rClone _ => true
  | _ => false

/-- Router.LastAfter. -/
def isLastAfter : Op η ρ → Bool
  | .rLastAfter _ _ => true
  | _ => false

end Verif.Spec
