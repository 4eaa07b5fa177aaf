import Verif.Spec.Roles
import Verif.Props.Auth
/-
C108: role tables are live and shared.
-/
namespace Verif
open Spec

theorem upd_same {α : Type} (f : Nat → α) (i : Nat) (x : α) : upd f i x i = x := by simp [upd]

theorem rolesRun_said (rev : List RoleOp) :
    (rolesRun rev.reverse).clock = rev.length ∧
    (∀ a, (rolesRun rev.reverse).auth a = authOf (callsOn rev a)) ∧
    (∀ a, (rolesRun rev.reverse).table a = tableIn rev a) ∧
    (∀ m k, ((rolesRun rev.reverse).maps m).get? k = entryIn rev m k) ∧
    (∀ s, (rolesRun rev.reverse).server s = authIn rev s) := by
  induction rev with
  | nil => exact ⟨rfl, fun _ => rfl, fun _ => rfl, fun _ _ => rfl, fun _ => rfl⟩
  | cons o old ih =>
    obtain ⟨h1, h2, h3, h4, h5⟩ := ih
    have e : rolesRun (o :: old).reverse = (rolesRun old.reverse).step o := by simp [rolesRun]
    rw [e]
    generalize rolesRun old.reverse = h at *
    unfold RoleHeap.step
    refine ⟨by simp [h1], ?_⟩
    cases o with
    | newMap =>
      simp only [RoleHeap.step?, Option.getD_some, callsOn, tableIn, entryIn, authIn, h1]
      refine ⟨h2, h3, fun m k => ?_, h5⟩
      unfold upd; split <;> simp_all
    | put n k' v =>
      simp only [RoleHeap.step?, Option.getD_some, callsOn, tableIn, entryIn, authIn]
      refine ⟨h2, h3, fun m k => ?_, h5⟩
      unfold upd
      by_cases hm : m = n
      · subst hm; simp only [if_true, GoMap.get?_set, h4, true_and]
      · simp [hm, h4]
    | del n k' =>
      simp only [RoleHeap.step?, Option.getD_some, callsOn, tableIn, entryIn, authIn]
      refine ⟨h2, h3, fun m k => ?_, h5⟩
      unfold upd
      by_cases hm : m = n
      · subst hm; simp only [if_true, GoMap.get?_erase, h4, true_and]
      · simp [hm, h4]
    | newAuth =>
      simp only [RoleHeap.step?, RoleHeap.newAuth, Option.getD_some, callsOn, tableIn, entryIn, authIn, h1]
      refine ⟨fun a => ?_, fun a => ?_, fun m k => ?_, h5⟩ <;> unfold upd <;> split <;> simp_all [authOf]
    | newServer =>
      simp only [RoleHeap.step?, RoleHeap.newAuth, Option.getD_some, callsOn, tableIn, entryIn, authIn, h1]
      refine ⟨fun a => ?_, fun a => ?_, fun m k => ?_, fun s => ?_⟩ <;> unfold upd <;> split <;> simp_all [authOf]
    | call b o =>
      cases o with
      | setRoles r =>
        simp only [RoleHeap.step?, Option.getD_some, callsOn, tableIn, entryIn, authIn, h1]
        refine ⟨fun a => ?_, fun a => ?_, fun m k => ?_, h5⟩ <;> unfold upd <;> split <;> simp_all [authOf]
      | _ =>
        simp only [RoleHeap.step?, Option.getD_some, callsOn, tableIn, entryIn, authIn]
        refine ⟨fun a => ?_, h3, h4, h5⟩
        unfold upd
        split <;> simp_all [authOf]
    | setRoles b m =>
      simp only [RoleHeap.step?, Option.getD_some, callsOn, tableIn, entryIn, authIn]
      refine ⟨h2, fun a => ?_, h4, h5⟩
      unfold upd; split <;> simp_all
    | rolesPut a k' v =>
      simp only [RoleHeap.step?, callsOn, tableIn, entryIn, authIn]
      rw [h3 a]
      cases ht : tableIn old a with
      | none => simp only [Option.getD_none]; exact ⟨h2, h3, fun m k => by simp [h4], h5⟩
      | some n =>
        simp only [Option.getD_some]
        refine ⟨h2, h3, fun m k => ?_, h5⟩
        unfold upd
        by_cases hm : m = n
        · subst hm; simp only [if_true, GoMap.get?_set, h4, true_and]
        · simp [hm, Ne.symm hm, h4]
    | rolesDel a k' =>
      simp only [RoleHeap.step?, callsOn, tableIn, entryIn, authIn]
      rw [h3 a]
      cases ht : tableIn old a with
      | none => simp only [Option.getD_some]; exact ⟨h2, h3, fun m k => by simp [h4], h5⟩
      | some n =>
        simp only [Option.getD_some]
        refine ⟨h2, h3, fun m k => ?_, h5⟩
        unfold upd
        by_cases hm : m = n
        · subst hm; simp only [if_true, GoMap.get?_erase, h4, true_and]
        · simp [hm, Ne.symm hm, h4]
    | setAuth s a =>
      simp only [RoleHeap.step?, Option.getD_some, callsOn, tableIn, entryIn, authIn]
      refine ⟨h2, h3, h4, fun s' => ?_⟩
      unfold upd; split <;> simp_all

/-- The entries of the table in force. -/
theorem view_entry (rev : List RoleOp) (a : Nat) (user : Str) :
    ((rolesRun rev.reverse).view a).roles.get? user = passwordIn rev a user := by
  obtain ⟨-, -, h3, h4, -⟩ := rolesRun_said rev
  unfold RoleHeap.view passwordIn
  rw [h3 a]
  cases tableIn rev a with
  | none => rfl
  | some m => exact h4 m user

/-- What the calls say apart from the role table. -/
theorem said_roles_last (ops : List AuthOp) (r : GoMap Str Str) :
    (∀ d, saidUse (ops ++ [.setRoles r]) d = saidUse ops d) ∧ (∀ d, saidAccess (ops ++ [.setRoles r]) d = saidAccess ops d) ∧
    (∀ d, saidRoles (ops ++ [.setRoles r]) d = r) ∧ (∀ d, challenge (ops ++ [.setRoles r]) d = challenge ops d) ∧
    (∀ d, saidLog (ops ++ [.setRoles r]) d = saidLog ops d) := by
  induction ops with
  | nil => exact ⟨fun _ => rfl, fun _ => rfl, fun _ => rfl, fun _ => rfl, fun _ => rfl⟩
  | cons o t ih =>
    obtain ⟨h1, h2, h3, h4, h5⟩ := ih
    cases o <;> simp [saidUse, saidAccess, saidRoles, challenge, saidLog, h1, h2, h3, h4, h5]

theorem view_calls (rev : List RoleOp) (a : Nat) :
    (rolesRun rev.reverse).view a = authOf (callsOn rev a ++ [.setRoles ((rolesRun rev.reverse).view a).roles]) := by
  obtain ⟨-, h2, -, -, -⟩ := rolesRun_said rev
  unfold authOf RoleHeap.view
  rw [h2 a, List.foldl_append]
  rfl

section
variable {υ σ ρ : Type} [DecidableEq ρ] {u : Str → Str} {env : Env υ} {rxMatch : ρ → Str → Bool}
  {visit : GoMap ρ (Option σ) → List (ρ × Option σ)} {srv : Srv υ σ ρ} {req : Req} {resp : Resp} {store : Args → υ}
  {buf : Args} {clock : Nat} {sv : Served υ}

/-- **C108** (exact).  After any program (read backwards, `rev`) that makes maps, BaseAuth objects and servers and connects
them in any way, a request to server `s` is decided by the BaseAuth that was set last on that server, by the last settings
made on that BaseAuth, and by what the map that was set last on that BaseAuth contains at the time of the request: entries
count however and whenever they were put there, and deleted ones do not. -/
theorem C108_gate (rev : List RoleOp) (s a : Nat) (hs : authIn rev s = some a)
    (h : (rolesRun rev.reverse).serve s u env rxMatch visit srv req resp store buf clock = .ret sv) :
    (sv.ran.isSome = true ↔ saidUse (callsOn rev a) false = false ∨
      (∃ f, saidAccess (callsOn rev a) (some fun _ => true) = some f ∧ f req = false) ∨
      ∃ user pass, Credentials u req.auth user pass ∧ user ≠ [] ∧ (passwordIn rev a user).getD [] = pass) ∧
    (sv.ran = none → sv.resp.status = 401 ∧ sv.resp.body = resp.body ∧
      sv.resp.headers.filter (fun e => e.1 = b!"WWW-Authenticate") =
        [(b!"WWW-Authenticate", challenge (callsOn rev a) b!"Basic realm=\"Access to the staging site\", charset=\"UTF-8\"")]) := by
  have h5 := (rolesRun_said rev).2.2.2.2 s
  unfold RoleHeap.serve at h
  rw [h5, hs] at h
  simp only at h
  rw [view_calls] at h
  have key := C26_gate (callsOn rev a ++ [.setRoles ((rolesRun rev.reverse).view a).roles]) h
  obtain ⟨k1, k2, k3, k4, -⟩ := said_roles_last (callsOn rev a) ((rolesRun rev.reverse).view a).roles
  rw [k1, k2, k3, k4] at key
  unfold Accepted at key
  simp only [view_entry] at key
  exact key

/-- **C108** (nil).  A server whose BaseAuth was set to nil answers no request: each one panics. -/
theorem C108_nil (rev : List RoleOp) (s : Nat) (hs : authIn rev s = none) :
    (rolesRun rev.reverse).serve s u env rxMatch visit srv req resp store buf clock = .panic := by
  unfold RoleHeap.serve
  rw [(rolesRun_said rev).2.2.2.2 s, hs]

end

/-- Nothing panics in the log function. -/
def LogReady (calls : List AuthOp) : Prop := saidLog calls none ≠ some true

theorem view_ready (rev : List RoleOp) (a : Nat) (hlog : LogReady (callsOn rev a)) :
    ((rolesRun rev.reverse).view a).useLogFunc = true → ((rolesRun rev.reverse).view a).logNil = false := by
  intro h
  have h4 := (authOf_said (callsOn rev a)).2.2.2
  have e : (rolesRun rev.reverse).view a =
      { authOf (callsOn rev a) with roles := ((rolesRun rev.reverse).view a).roles } := by
    unfold RoleHeap.view
    rw [(rolesRun_said rev).2.1 a]
  rw [e] at h ⊢
  simp only at h ⊢
  rw [h, if_pos rfl] at h4
  cases e' : (authOf (callsOn rev a)).logNil with
  | false => rfl
  | true => rw [e'] at h4; exact absurd h4.symm hlog

theorem view_use (rev : List RoleOp) (a : Nat) : ((rolesRun rev.reverse).view a).use = saidUse (callsOn rev a) false := by
  have : ((rolesRun rev.reverse).view a).use = ((rolesRun rev.reverse).auth a).use := rfl
  rw [this, (rolesRun_said rev).2.1 a]
  exact (authOf_said (callsOn rev a)).1

section
variable (u : Str → Str)

/-- **C108** (adding a user).  When a name and a password (a name that can be used to log in, C30) are put into a map, every
BaseAuth whose table is that map lets this user in from then on, without another call. -/
theorem C108_added (rev : List RoleOp) (a m : Nat) (user pass : Str) (ht : tableIn rev a = some m)
    (huse : saidUse (callsOn rev a) false = true) (hlog : LogReady (callsOn rev a))
    (hu : user ≠ []) (hc : 58 ∉ user) (hlow : toLower u user = user) (hp : 58 ∉ pass) :
    LetsIn u ((rolesRun (.put m user pass :: rev).reverse).view a) (basicHeader user pass) := by
  refine C30_login_partial u _ ?_ ?_ user pass hu hc hlow hp ?_
  · rw [view_use]; exact huse
  · exact view_ready _ _ hlog
  · rw [view_entry]
    simp [passwordIn, tableIn, ht, entryIn]

/-- **C108** (revoking a user).  When a name is deleted from a map, every BaseAuth whose table is that map refuses every
request of that user with a password, from then on; all other users are let in or not as before. -/
theorem C108_revoked (rev : List RoleOp) (a m : Nat) (user : Str) (ht : tableIn rev a = some m)
    (huse : saidUse (callsOn rev a) false = true) (hlog : LogReady (callsOn rev a)) (header who pass : Str)
    (hh : Credentials u header who pass) :
    (who = user → pass ≠ [] → Refuses u ((rolesRun (.del m user :: rev).reverse).view a) header) ∧
    (who ≠ user → (LetsIn u ((rolesRun (.del m user :: rev).reverse).view a) header ↔
      LetsIn u ((rolesRun rev.reverse).view a) header)) := by
  have e1 : ((rolesRun (.del m user :: rev).reverse).view a).use = true := by rw [view_use]; exact huse
  have e2 := view_ready (.del m user :: rev) a hlog
  have e3 : ((rolesRun rev.reverse).view a).use = true := by rw [view_use]; exact huse
  have e4 := view_ready rev a hlog
  have hent : passwordIn (.del m user :: rev) a who = if who = user then none else passwordIn rev a who := by
    simp [passwordIn, tableIn, ht, entryIn]
  constructor
  · intro hw hp
    rw [(C28_exact u _ e1 e2 header who pass hh).2, view_entry, hent, if_pos hw]
    rintro ⟨-, h | ⟨-, h⟩⟩
    · cases h
    · exact hp h
  · intro hw
    rw [(C28_exact u _ e1 e2 header who pass hh).1, (C28_exact u _ e3 e4 header who pass hh).1, view_entry, view_entry, hent,
      if_neg hw]

/-- **C108** (other tables).  Writing to a map that is not the table of a BaseAuth changes no decision of that BaseAuth. -/
theorem C108_other (rev : List RoleOp) (a n : Nat) (ht : tableIn rev a ≠ some n) (user pass header : Str)
    (huse : saidUse (callsOn rev a) false = true) (hlog : LogReady (callsOn rev a)) :
    (LetsIn u ((rolesRun (.put n user pass :: rev).reverse).view a) header ↔ LetsIn u ((rolesRun rev.reverse).view a) header) ∧
    (LetsIn u ((rolesRun (.del n user :: rev).reverse).view a) header ↔ LetsIn u ((rolesRun rev.reverse).view a) header) := by
  have e3 : ((rolesRun rev.reverse).view a).use = true := by rw [view_use]; exact huse
  have e4 := view_ready rev a hlog
  have hne : ∀ m, tableIn rev a = some m → m ≠ n := by intro m hm e; subst e; exact ht hm
  constructor
  · rw [letsIn_iff u _ _ (by rw [view_use]; exact huse) (view_ready (.put n user pass :: rev) a hlog), letsIn_iff u _ _ e3 e4]
    unfold Accepted
    have : ∀ who, passwordIn (.put n user pass :: rev) a who = passwordIn rev a who := by
      intro who
      simp only [passwordIn, tableIn]
      cases hm : tableIn rev a with
      | none => rfl
      | some m => simp [entryIn, hne m hm]
    simp only [view_entry, this]
  · rw [letsIn_iff u _ _ (by rw [view_use]; exact huse) (view_ready (.del n user :: rev) a hlog), letsIn_iff u _ _ e3 e4]
    unfold Accepted
    have : ∀ who, passwordIn (.del n user :: rev) a who = passwordIn rev a who := by
      intro who
      simp only [passwordIn, tableIn]
      cases hm : tableIn rev a with
      | none => rfl
      | some m => simp [entryIn, hne m hm]
    simp only [view_entry, this]

end

/-! Two servers (steps 0 and 1) share one BaseAuth (step 2) with the table of step 3; after that, bob is put into the map. -/
namespace RolesEx

def prog : List RoleOp := [.newServer, .newServer, .newAuth, .newMap, .put 3 b!"ann" b!"1", .setRoles 2 (some 3), .call 2 (.setUse true),
  .setAuth 0 (some 2), .setAuth 1 (some 2)]

example : authIn prog.reverse 0 = some 2 ∧ authIn prog.reverse 1 = some 2 ∧ tableIn prog.reverse 2 = some 3 ∧
    passwordIn prog.reverse 2 b!"ann" = some b!"1" ∧ passwordIn prog.reverse 2 b!"bob" = none ∧
    saidUse (callsOn prog.reverse 2) false = true := by decide +kernel

example : LetsIn id ((rolesRun (.put 3 b!"bob" b!"2" :: prog.reverse).reverse).view 2) (basicHeader b!"bob" b!"2") :=
  C108_added id prog.reverse 2 3 b!"bob" b!"2" (by decide +kernel) (by decide +kernel) (by unfold LogReady; decide +kernel)
    (by decide) (by decide) (by decide) (by decide)

/-- A put through the table of the other way, and one into a replaced table. -/
example : passwordIn (.rolesPut 2 b!"cy" b!"3" :: prog.reverse) 2 b!"cy" = some b!"3" ∧
    passwordIn (.put 3 b!"cy" b!"3" :: .setRoles 2 none :: prog.reverse) 2 b!"cy" = none := by decide +kernel

end RolesEx

end Verif
