import Verif.Props.Builders
import Verif.Props.StaticReg
import Verif.Props.EndToEnd
/-
Witnesses: the theorems of Props/Heap, Props/Builders, Props/EndToEnd and Props/StaticReg applied to concrete programs.
-/
namespace Verif.Witness
open Verif Verif.Spec

/-- Go's doubling. -/
abbrev dbl : Nat → Nat → Nat := fun c _ => 2 * c

section
variable {η ρ : Type}

theorem cleanOps_of (ops : List (Op η ρ))
    (h : (ops.all fun o => (registers o).all fun x => (segs x.2).all fun s => decide (s.dropWhile (· == 58) ≠ [])) = true) :
    cleanOps ops := by
  intro o ho m route hr s hs
  have := List.all_eq_true.1 h o ho
  simp only [hr, Option.all_some] at this
  exact of_decide_eq_true (List.all_eq_true.1 this s hs)

theorem literalOps_of (ops : List (Op η ρ))
    (h : (ops.all fun o => (registers o).all fun x => (segs x.2).all fun s => decide (s.head? ≠ some 58)) = true) :
    literalOps ops := by
  intro o ho m route hr s hs
  have := List.all_eq_true.1 h o ho
  simp only [hr, Option.all_some] at this
  exact of_decide_eq_true (List.all_eq_true.1 this s hs)

theorem noRival_of (ops : List (Op η ρ)) (path : Str)
    (h : (ops.all fun o => (registers o).all fun x => !competes ((segs x.2).map segPat) (segs path)) = true) :
    NoRival ops path := by
  intro o ho m route hr
  have := List.all_eq_true.1 h o ho
  simpa [hr] using this

theorem notReplaced_of (ops : List (Op η ρ)) (meth path : Str)
    (h : (ops.all fun o => (registers o).all fun x => decide (¬ (segs x.2 = segs path ∧ covers x.1 meth = true))) = true) :
    NotReplaced ops meth path := by
  intro o ho m route hr
  have := List.all_eq_true.1 h o ho
  simp only [hr, Option.all_some] at this
  exact of_decide_eq_true this

theorem noTreeRoute_of (ops : List (Op η ρ)) (meth path : Str)
    (h : (ops.all fun o => (registers o).all fun x => !covers x.1 meth || (matchRoute ((segs x.2).map segPat) (segs path)).isNone) = true) :
    NoTreeRoute ops meth path := by
  intro o ho m route hr hc
  have := List.all_eq_true.1 h o ho
  simpa [hr, hc] using this

theorem noRxRival_of (rxMatch : ρ → Str → Bool) (ops : List (Op η ρ)) (meth path : Str)
    (h : (ops.all fun o => (registersRx o).all fun x => !covers x.1 meth || !rxMatch x.2 path) = true) :
    NoRxRival rxMatch ops meth path := by
  intro o ho m rx hr hc
  have := List.all_eq_true.1 h o ho
  simpa [hr, hc] using this

theorem sameSet_of (j n : Nat) (ops : List (Op η ρ))
    (h : (ops.all fun o => (o.setVar?).all fun k => k == j || decide (n ≤ k)) = true) :
    ∀ o ∈ ops, ¬ usesOtherSet j n o := by
  rintro o ho ⟨k, h1, h2, h3⟩
  have := List.all_eq_true.1 h o ho
  simp only [h1, Option.all_some, Bool.or_eq_true, beq_iff_eq, decide_eq_true_eq] at this
  omega
end

/-! #### Sets and routers -/

/-- A router with handlers from a slice with spare capacity, used once; later calls reuse everything. -/
def rops : List (Op Nat Nat) := [.newRouter, .mkSlice [1, 2] 3, .rBefore 0 (.spread 0), .rLastAfter 0 5]
def rlater : List (Op Nat Nat) := [.slSet 0 0 9, .rFirst 0 7, .rClone 0, .rLastAfter 1 8, .rGetAfter 0, .slSet 1 0 6, .rLast 0 (some 4)]

/-- C32. -/
example := C32_snapshot dbl rops rlater 0 b!"GET" b!"/x" (some 3) ⟨[1, 2], [5], none⟩ (by decide +kernel)
example := C32_snapshot_reg dbl rops rlater 0 b!"GETHEAD" 77 (some 3) ⟨[1, 2], [5], none⟩ (by decide +kernel) (by decide +kernel)

/-- A set, and later calls on it and on a clone of it. -/
def sops : List (Op Nat Nat) := [.newSet, .setBefore 0 (.lit [1]), .setBefore 0 (.lit [2]), .setBefore 0 (.lit [3])]
def slater : List (Op Nat Nat) := [.setBefore 0 (.lit [4]), .setClone 0, .setBefore 1 (.lit [5]), .setUse 0 (some 8)]

/-- C33. -/
example := C33_template dbl sops slater 0 b!"GET" b!"/x" (some 7) ⟨[1, 2, 3], [], none, none⟩ (by decide +kernel)
  (sameSet_of _ _ _ (by decide +kernel))
example := C33_template_reg dbl sops slater 0 b!"GET" 7 (some 7) ⟨[1, 2, 3], [], none, none⟩ (by decide +kernel)
  (by decide +kernel) (sameSet_of _ _ _ (by decide +kernel))

/-- C16. -/
example := C16_registers_copy dbl sops 0 [none, some 9] b!"GET" b!"/x" (some 7) ⟨[1, 2, 3], [], none, none⟩ (by decide +kernel)

/-- C34: a whole program; one call on the set, one on the router. -/
def bops : List (Op Nat Nat) := [.newSet, .newRouter, .setBefore 0 (.lit [1, 2]), .rLastAfter 0 4, .newSet,
  .setBefore 1 (.lit [9]), .setBefore 0 (.lit [3]), .rFirst 0 5, .rFirst 0 6, .rLastAfter 0 7, .newRouter,
  .rBefore 1 (.lit [8]), .rBefore 1 (.lit [7, 7]), .sAdd b!"GET" b!"/a" (some 1) (some 0), .rUse 0 b!"GET" b!"/b" (some 2)]
example := C34_programs dbl bops (by decide +kernel) (by decide +kernel)
example := C34_set_calls dbl sops 0 ⟨[1, 2, 3], [], none, none⟩ [4, 5] (some 6) (by decide +kernel)
example := C34_router_calls dbl rops 0 ⟨[1, 2], [5], none⟩ [4, 5] 6 (some 7) (by decide +kernel)

/-- C35. -/
example := C35_programs_partial dbl ([.newRouter, .rAfter 0 (.lit [1, 2]), .rFirst 0 3, .rClone 0, .rFirst 1 4,
  .rFirst 0 5, .rAfter 1 (.lit [6]), .rLast 1 (some 9), .rClone 1, .rBefore 1 (.lit [])] : List (Op Nat Nat))
  (by decide +kernel) (by decide +kernel)
example := C35_calls_partial dbl ([.newRouter, .rAfter 0 (.lit [1, 2]), .rClone 0] : List (Op Nat Nat)) 1 0 [3] 4 none
  (by decide)

/-! #### Programs and requests -/

abbrev quiet : Env (List Nat) := ⟨fun _ c => (none, c.store), fun _ => [], fun _ => false⟩

/-- C75: GETHEAD /x/:id/:k of the program of Props/EndToEnd. -/
example : exRequest exServer b!"HEAD" b!"/x/seven/q" = some [5, 1, 103, 1, 2, 3, 5, 204] := by
  have := C75_router_route exHandlers none 5 id quiet (fun _ _ => false) id newBaseAuth ⟨b!"HEAD", b!"/x/seven/q", []⟩
    ⟨200, [], []⟩ (fun args => args.map fun x => x.2.length) [] 0 dbl exOps exLater 0 b!"GETHEAD" b!"/x/:id/:k" (some 3)
    ⟨[1, 2], [5], some 4⟩ (by decide +kernel) (cleanOps_of _ (by decide +kernel)) (by decide +kernel)
    [(b!"id", b!"seven"), (b!"k", b!"q")] (by decide +kernel) (noRival_of _ _ (by decide +kernel))
  unfold exRequest exServer
  rw [this]
  decide +kernel

/-- C75 for literal routes: the last registration of POST /d counts. -/
def litOps : List (Op Nat Nat) := [.newRouter, .rBefore 0 (.lit [1]), .rUse 0 b!"GETPOST" b!"/d" (some 6)]
def litLater : List (Op Nat Nat) := [.rBefore 0 (.lit [2]), .rUse 0 b!"GET" b!"/d" (some 9), .rUse 0 b!"POST" b!"/e" (some 9)]
example := C75_router_literal exHandlers none 5 id quiet (fun _ _ => false) id newBaseAuth ⟨b!"POST", b!"/d/", []⟩
    ⟨200, [], []⟩ (fun args => args.map fun x => x.2.length) [] 0 dbl litOps litLater 0 b!"POST" b!"/d" (some 3)
    ⟨[1], [], none⟩ (by decide +kernel) (literalOps_of _ (by decide +kernel)) (by decide +kernel) (by decide +kernel)
    (notReplaced_of _ _ _ (by decide +kernel))
example := C75_set_route exHandlers none 5 id quiet (fun _ _ => false) id newBaseAuth ⟨b!"POST", b!"/d/7", []⟩
    ⟨200, [], []⟩ (fun args => args.map fun x => x.2.length) [] 0 dbl sops slater 0 b!"POST" b!"/d/:n" (some 3)
    ⟨[1, 2, 3], [], none, none⟩ (by decide +kernel) (sameSet_of _ _ _ (by decide +kernel)) (cleanOps_of _ (by decide +kernel))
    (by decide +kernel) [(b!"n", b!"7")] (by decide +kernel) (noRival_of _ _ (by decide +kernel))
example := C75_router_reg exHandlers none 5 id quiet (fun rx _ => rx == 7) id (fun l => List.Perm.refl l) newBaseAuth
    ⟨b!"POST", b!"/d/7", []⟩ ⟨200, [], []⟩ (fun args => args.map fun x => x.2.length) [] 0 dbl exOps exLater 0 b!"GETPOST" 7 (some 3)
    ⟨[1, 2], [5], some 4⟩ (by decide +kernel) (by decide +kernel) (cleanOps_of _ (by decide +kernel))
    (noTreeRoute_of _ _ _ (by decide +kernel)) (by decide +kernel) rfl (noRxRival_of _ _ _ _ (by decide +kernel))
example := C75_set_reg exHandlers none 5 id quiet (fun rx _ => rx == 7) id (fun l => List.Perm.refl l) newBaseAuth
    ⟨b!"POST", b!"/d/7", []⟩ ⟨200, [], []⟩ (fun args => args.map fun x => x.2.length) [] 0 dbl sops slater 0 b!"POST" 7 (some 3)
    ⟨[1, 2, 3], [], none, none⟩ (by decide +kernel) (by decide +kernel) (sameSet_of _ _ _ (by decide +kernel))
    (cleanOps_of _ (by decide +kernel)) (noTreeRoute_of _ _ _ (by decide +kernel)) (by decide +kernel) rfl
    (noRxRival_of _ _ _ _ (by decide +kernel))

/-! #### Static routes -/

/-- C76: StaticFile under /html, without and with a set; paths it does not answer. -/
example := C76_serves exHandlers none 5 id quiet id (fun l => List.Perm.refl l) newBaseAuth ⟨b!"GET", b!"/html/a/b.txt", []⟩
    ⟨200, [], []⟩ (fun args => args.map fun x => x.2.length) [] 0 dbl exStaticOps exStaticLater 2 b!"/html" (plain_ascii _ (by decide +kernel)) 3
    (Or.inl rfl) (by decide +kernel) (cleanOps_of _ (by decide +kernel)) (noTreeRoute_of _ _ _ (by decide +kernel))
    (noRxRival_of _ _ _ _ (by decide +kernel))
def ssops : List (Op Nat RxPtr) := [.newSet, .setBefore 0 (.lit [1]), .sAdd b!"GET" b!"/d/:n" (some 9) (some 0)]
def sslater : List (Op Nat RxPtr) := [.setBefore 0 (.lit [2]), .setClone 0]
example := C76_serves_set exHandlers none 5 id quiet id (fun l => List.Perm.refl l) newBaseAuth ⟨b!"HEAD", b!"/html/a/b.txt", []⟩
    ⟨200, [], []⟩ (fun args => args.map fun x => x.2.length) [] 0 dbl ssops sslater 2 b!"/html" (plain_ascii _ (by decide +kernel)) 3
    0 [none] ⟨[1], [], none, none⟩ (by decide +kernel) (sameSet_of _ _ _ (by decide +kernel)) (Or.inr rfl) (by decide +kernel)
    (cleanOps_of _ (by decide +kernel)) (noTreeRoute_of _ _ _ (by decide +kernel)) (noRxRival_of _ _ _ _ (by decide +kernel))
example := C76_no_other dbl exStaticOps 2 b!"/html" (plain_ascii _ (by decide +kernel)) (some 3) [] b!"GET" b!"/htmlx/a" (Or.inr (by decide +kernel)) []
example := C76_fix_methods (ρ := Nat) dbl b!"/pages/about" (some 3) (by decide +kernel) b!"POST" b!"/pages/about/" []

end Verif.Witness
