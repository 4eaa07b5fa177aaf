import Verif.Props.Group
import Verif.Props.GroupProg
import Verif.Props.Contexts
import Verif.Props.Roles
import Verif.Props.Pool
import Verif.Props.StdLog
/-
Witnesses: the theorems of Props/Group, Props/GroupProg, Props/Contexts, Props/Roles, Props/Pool and Props/StdLog applied to
concrete histories.
-/
namespace Verif.Witness
open Verif Verif.Spec

/-! #### Groups of goroutines -/

/-- Limit 2, two goroutines, one of which has returned but not released its place. -/
example : groupStep ⟨some (2, 2), [.running, .returned]⟩ .go = .blocked ∧
    groupStep ⟨some (2, 2), [.running, .returned]⟩ .tryGo = .ok ⟨some (2, 2), [.running, .returned]⟩ false := by
  obtain ⟨-, -, h3, h4, -⟩ := C84_limit_partial 2 [] [.go, .tryGo, .fin 1] ⟨none, []⟩ rfl (by simp) (by decide)
    ⟨some (2, 2), [.running, .returned]⟩ (by decide)
  exact ⟨h4.2 (by decide), h3.2 (by decide)⟩
example : groupStep ⟨some (2, 2), [.running, .returned]⟩ (.setLimit 5) = .panic :=
  (C84_again 2 [] [.go, .tryGo, .fin 1] ⟨none, []⟩ rfl (by simp) (by decide) ⟨some (2, 2), [.running, .returned]⟩ (by decide) 5).1.2
    ⟨by decide, .running, by simp, by decide⟩
example : ∃ s', groupStep ⟨none, [.running, .running]⟩ .tryGo = .ok s' true ∧ s'.gs = [.running, .running, .running] :=
  (C84_unlimited [.setLimit (-1)] (by intro o ho; simp at ho; exact ⟨-1, by decide, ho⟩) [.go, .go] (by decide)
    ⟨none, [.running, .running]⟩ (by decide)).1 .tryGo (Or.inr rfl)
/-- A limit set while a goroutine runs. -/
example : groupStep ⟨some (1, 0), [.returned, .done]⟩ (.rel 0) = .blocked ∧ groupStep ⟨some (1, 0), [.returned, .done]⟩ .wait = .blocked := by
  obtain ⟨-, -, -, -, h5, h6⟩ := C84_exact 1 [.go] [.go, .fin 0, .fin 1, .rel 1] ⟨none, [.running]⟩ (by decide) (by decide)
    ⟨some (1, 0), [.returned, .done]⟩ (by decide)
  exact ⟨(h5 0 rfl).2 (by decide), h6 (by decide)⟩

/-- A handler that starts two functions, one of which tries to start another, and waits. -/
def starterFn : GFn := .go (.tryGo .ret .ret .ret) (.go .ret (.wait .ret))

example : ∃ s0 s, gpInit [.setLimit 3] starterFn = some s0 ∧ gpRun s0 [none, some 0, none, some 1] = some s ∧
    (gpOver s ∨ ∃ t s', gpStep s t = some s') :=
  ⟨_, _, rfl, rfl, (C104_ends_partial [.setLimit 3] starterFn (Or.inr ⟨3, rfl, Or.inr (by decide)⟩) (by decide) _ _ rfl
    [none, some 0, none, some 1] rfl).2.1⟩

/-! #### Contexts -/

example : ReqCancelled exCx 0 := (C111_request exCx 0).1 (by decide)
example : ¬ ReqCancelled exCx 1 := fun h => by have := (C111_request exCx 1).2 h; revert this; decide
/-- And then the last handler of the second request waits for the group. -/
def exCx2 : List CxOp := exCx ++ [.shut, .wait 1]
example : (cxRun exCx2).ctxDone 1 = true :=
  C111_last exCx2 1 [] (exCx2.take 6) (exCx2.drop 7) ⟨by decide, rfl, by decide⟩ (by decide)
example : (cxRun exCx).globalContext 1 = some 0 ∧ (cxRun exCx).runDone 0 = false := by
  obtain ⟨h1, -⟩ := (C111_global exCx exCx_sound 1 [] (exCx.take 6) (exCx.drop 7) ⟨by decide, rfl, by decide⟩).2.2 0 (by decide)
  exact ⟨h1, by decide⟩
example : LastOf (fun v => .setUser 0 [1] v) (exCx.drop 6) [3] ∨
    (∀ v', CxOp.setUser 0 [1] v' ∉ exCx.drop 6) ∧ GoMap.get? [(([7] : Str), ([8] : Str))] [1] = some [3] :=
  (C111_values exCx 0 [([7], [8])] (exCx.take 5) (exCx.drop 6) ⟨by decide, rfl, by decide⟩ [1] [3]).1.1 (by decide)
example : (cxRun (exCx.take 8 ++ .abort 1 :: exCx.drop 8)).ctxDone 0 = (cxRun (exCx.take 8 ++ exCx.drop 8)).ctxDone 0 :=
  ((C111_isolated (exCx.take 8) (exCx.drop 8) (.abort 1) 1 rfl).2 0 (by decide)).1

/-! #### Shared tables of roles -/

theorem ann_credentials : Credentials id (basicHeader b!"ann" b!"1") b!"ann" b!"1" :=
  ((C30_exact id ((rolesRun RolesEx.prog).view 2) (by decide +kernel) (by decide +kernel) b!"ann" b!"1" (by decide +kernel)).2
    (by decide) (by decide) b!"ann" (by decide) (by decide +kernel)).1

example : Refuses id ((rolesRun (.del 3 b!"ann" :: RolesEx.prog.reverse).reverse).view 2) (basicHeader b!"ann" b!"1") :=
  (C108_revoked id RolesEx.prog.reverse 2 3 b!"ann" (by decide +kernel) (by decide +kernel) (by unfold LogReady; decide +kernel)
    (basicHeader b!"ann" b!"1") b!"ann" b!"1" ann_credentials).1 rfl (by decide)
example : LetsIn id ((rolesRun (.del 9 b!"ann" :: RolesEx.prog.reverse).reverse).view 2) (basicHeader b!"ann" b!"1") ↔
    LetsIn id ((rolesRun RolesEx.prog).view 2) (basicHeader b!"ann" b!"1") := by
  have := (C108_other id RolesEx.prog.reverse 2 9 (by decide +kernel) b!"ann" b!"" (basicHeader b!"ann" b!"1") (by decide +kernel)
    (by unfold LogReady; decide +kernel)).2
  rwa [List.reverse_reverse] at this

/-- What the shared table answers at the second server, for a header. -/
def roleServe (s : Nat) (auth : Str) : Outcome (Served Nat) :=
  (rolesRun RolesEx.prog).serve (ρ := Nat) s id ReqEx.lazy (fun _ _ => false) id (ReqEx.server 5 none ReqEx.empty ReqEx.empty)
    ⟨mGet, b!"/b", auth⟩ ⟨200, [], []⟩ (fun a => a.length) [] 0

theorem roleServe_ret (s : Nat) (auth : Str) (h : (match roleServe s auth with | .ret sv => sv.ran.isSome | _ => false) = true) :
    ∃ sv, roleServe s auth = .ret sv ∧ sv.ran.isSome = true := by
  cases hr : roleServe s auth with
  | ret sv => rw [hr] at h; exact ⟨sv, rfl, h⟩
  | panic => rw [hr] at h; cases h
  | outOfFuel => rw [hr] at h; cases h

example : ∃ user pass, Credentials id (basicHeader b!"ann" b!"1") user pass ∧ user ≠ [] ∧
    (passwordIn RolesEx.prog.reverse 2 user).getD [] = pass := by
  obtain ⟨sv, h, hs⟩ := roleServe_ret 1 (basicHeader b!"ann" b!"1") (by decide +kernel)
  unfold roleServe at h
  rw [← List.reverse_reverse RolesEx.prog] at h
  rcases (C108_gate RolesEx.prog.reverse 1 2 (by decide +kernel) h).1.1 hs with h | ⟨f, h1, h2⟩ | h
  · exact absurd h (by decide +kernel)
  · exfalso
    have : (saidAccess (callsOn RolesEx.prog.reverse 2) (some fun _ => true)).all (fun f => f ⟨mGet, b!"/b", basicHeader b!"ann" b!"1"⟩) = true := by
      decide +kernel
    rw [h1] at this
    rw [Option.all_some, h2] at this
    cases this
  · exact h
/-- A server whose Auth was set to nil. -/
example : (rolesRun (.setAuth 0 none :: RolesEx.prog.reverse).reverse).serve (ρ := Nat) 0 id ReqEx.lazy (fun _ _ => false) id
    (ReqEx.server 5 none ReqEx.empty ReqEx.empty) ⟨mGet, b!"/b", []⟩ ⟨200, [], []⟩ (fun a => a.length) [] 0 = .panic :=
  C108_nil (.setAuth 0 none :: RolesEx.prog.reverse) 0 (by decide +kernel)

/-! #### Requests that share the pool -/

/-- The requests of `PoolEx` and one that is not found. -/
def poolReqs : List (PReq Nat Nat) := PoolEx.reqs ++ [⟨mGet, b!"/c", id⟩]

def poolAfter (is : List Nat) : PoolSt Nat := schedule PoolEx.tree (fun (_ : Nat) _ => false) newRegTree poolReqs is (poolInit 3)

theorem poolAfter_reach (is : List Nat) : PoolReach PoolEx.tree (fun (_ : Nat) _ => false) newRegTree poolReqs (poolAfter is) :=
  schedule_reach PoolEx.tree _ _ poolReqs is _ .init

/-- The buffer a request has while its handlers run, and the one a request has that was not found. -/
def servingBuf (s : PoolSt Nat) (i : Nat) : Option (Nat × Option Nat) := match s.pcs[i]? with | some (.serving io set) => some (io, set) | _ => none
def failedBuf (s : PoolSt Nat) (i : Nat) : Option Nat := match s.pcs[i]? with | some (.failed io) => some io | _ => none

theorem serving_of {s : PoolSt Nat} {i io : Nat} {set : Option Nat} (h : servingBuf s i = some (io, set)) :
    s.pcs[i]? = some (.serving io set) := by
  unfold servingBuf at h
  split at h
  · rename_i h'; cases h; exact h'
  · cases h

theorem failed_of {s : PoolSt Nat} {i io : Nat} (h : failedBuf s i = some io) : s.pcs[i]? = some (.failed io) := by
  unfold failedBuf at h
  split at h
  · rename_i h'; cases h; exact h'
  · cases h

def mixed : List Nat := PoolEx.alt 15 ++ PoolEx.own 0 5 ++ PoolEx.own 2 11

set_option synthInstance.maxSize 1000
set_option synthInstance.maxHeartbeats 200000
theorem mixed_0 : servingBuf (poolAfter mixed) 0 = some (0, some 0) := by decide +kernel
theorem mixed_1 : servingBuf (poolAfter mixed) 1 = some (1, some 1) := by decide +kernel
theorem mixed_2 : (failedBuf (poolAfter mixed) 2).isSome := by decide +kernel

example : serverFind (fun (_ : Nat) _ => false) id PoolEx.tree newRegTree mGet b!"/b/8" [] = .ret ⟨some 1, true, (poolAfter mixed).mem.at 1⟩ :=
  C91_own_parameters (poolAfter_reach mixed) 1 ⟨mGet, b!"/b/8", id⟩ rfl 1 (some 1) (serving_of mixed_1) []
example : 0 ∉ (poolAfter mixed).mem.free := (C91_exclusive (poolAfter_reach mixed) 0 0 (some 0) (serving_of mixed_0)).2.1
example : ∃ res, serverFind (fun (_ : Nat) _ => false) id PoolEx.tree newRegTree mGet b!"/c" [] = .ret res ∧ res.found = false := by
  obtain ⟨io, h⟩ := Option.isSome_iff_exists.1 mixed_2
  exact C91_not_found (poolAfter_reach mixed) 2 ⟨mGet, b!"/c", id⟩ rfl io (failed_of h) []
example : ∃ mem' pc', PStep PoolEx.tree (fun (_ : Nat) _ => false) newRegTree ⟨mGet, b!"/a/7", id⟩ (poolAfter mixed).mem (.serving 0 (some 0)) mem' pc' :=
  C91_progress (poolAfter_reach mixed) 0 ⟨mGet, b!"/a/7", id⟩ rfl _ (serving_of mixed_0) (by simp)

/-! #### The line that is printed -/

/-- A request whose before handler aborts with an error. -/
def noReq : Outcome (Served Nat) :=
  serveHTTP (υ := Nat) (σ := Nat) (ρ := Nat) id ReqEx.lazy (fun _ _ => false) id
    (ReqEx.server 5 none ⟨[some (ChainEx.does [] [.abort] (.err (.leaf 7 b!"no")))], [], none, some (ChainEx.mainH [] [] .ok)⟩ ReqEx.empty) newBaseAuth
    ⟨mGet, b!"/a/7", []⟩ ⟨200, [], []⟩ (fun a => a.length) [] 0

theorem noReq_ret : ∃ sv d, noReq = .ret sv ∧ sv.ran = some d ∧ d.flow ≠ .panicked ∧ stdLog b!"::1" sv = b!"[::1] no\n" := by
  have h : (match noReq with | .ret sv => (match sv.ran with | some d => decide (d.flow ≠ .panicked) | none => false) &&
      (stdLog b!"::1" sv == b!"[::1] no\n") | _ => false) = true := by decide +kernel
  cases hr : noReq with
  | ret sv =>
    rw [hr] at h
    simp only [Bool.and_eq_true, beq_iff_eq] at h
    cases hd : sv.ran with
    | none => rw [hd] at h; exact absurd h.1 (by simp)
    | some d => rw [hd] at h; exact ⟨sv, d, rfl, hd, by simpa using h.1, h.2⟩
  | panic => rw [hr] at h; cases h
  | outOfFuel => rw [hr] at h; cases h

example : ∃ sv d reason, noReq = .ret sv ∧ sv.ran = some d ∧ reasonOf d.ctx.isSome b!"/a/7" d.trace = some reason ∧
    stdLog b!"::1" sv = b!"[" ++ b!"::1" ++ b!"] " ++ reason ++ b!"\n" ∧
    lineCount (stdLog b!"::1" sv) = lineCount b!"::1" + lineCount reason + 1 := by
  obtain ⟨sv, d, h1, h2, h3, h4⟩ := noReq_ret
  have m := C88_message b!"::1" h1
  have l := C88_lines_partial b!"::1" h1 h2 h3
  rw [h2] at m
  simp only [if_neg h3] at m
  cases hr : reasonOf d.ctx.isSome b!"/a/7" d.trace with
  | none => simp only [hr] at m; rw [h4] at m; exact absurd m (by decide)
  | some reason => simp only [hr] at m l; exact ⟨sv, d, reason, h1, h2, hr, m, l⟩

end Verif.Witness
