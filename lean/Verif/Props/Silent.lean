import Verif.Props.Auth
/-
C128: what a client can learn from a server that refuses it.
-/
namespace Verif
open Spec
set_option linter.unusedSectionVars false

section
variable {υ υ' σ σ' ρ ρ' : Type} [DecidableEq ρ] [DecidableEq ρ']
  {u : Str → Str} {env : Env υ} {rxMatch : ρ → Str → Bool} {visit : GoMap ρ (Option σ) → List (ρ × Option σ)} {srv : Srv υ σ ρ}
  {req : Req} {resp : Resp} {store : Args → υ} {buf : Args} {clock : Nat} {sv : Served υ}

/-- **C128** (silence).  Two servers, with any routes, handlers, files, users and other settings, whose challenge is the same; two requests, to any addresses, with any
methods and credentials: if both are refused, the answers are the same, byte by byte. -/
theorem C128_silent {u' : Str → Str} {env' : Env υ'} {rxMatch' : ρ' → Str → Bool} {visit' : GoMap ρ' (Option σ') → List (ρ' × Option σ')}
    {srv' : Srv υ' σ' ρ'} {req' : Req} {store' : Args → υ'} {buf' : Args} {clock' : Nat} {sv' : Served υ'}
    (ops ops' : List AuthOp) (hc : challenge ops b!"Basic realm=\"Access to the staging site\", charset=\"UTF-8\"" =
      challenge ops' b!"Basic realm=\"Access to the staging site\", charset=\"UTF-8\"")
    (h : serveHTTP u env rxMatch visit srv (authOf ops) req resp store buf clock = .ret sv)
    (h' : serveHTTP u' env' rxMatch' visit' srv' (authOf ops') req' resp store' buf' clock' = .ret sv')
    (hr : sv.ran = none) (hr' : sv'.ran = none) : sv.resp = sv'.resp := by
  have key : ∀ {υ σ ρ : Type} [DecidableEq ρ] {u : Str → Str} {env : Env υ} {rxMatch : ρ → Str → Bool} {visit : GoMap ρ (Option σ) → List (ρ × Option σ)}
      {srv : Srv υ σ ρ} {req : Req} {store : Args → υ} {buf : Args} {clock : Nat} {sv : Served υ} (ops : List AuthOp),
      serveHTTP u env rxMatch visit srv (authOf ops) req resp store buf clock = .ret sv → sv.ran = none →
      sv.resp = { resp with status := 401, headers := setHeader resp.headers b!"WWW-Authenticate" (challenge ops b!"Basic realm=\"Access to the staging site\", charset=\"UTF-8\"") } := by
    intro υ σ ρ _ u env rxMatch visit srv req store buf clock sv ops h hr
    rcases serve_shape h with ⟨h1, -, c, h3, -, ⟨k1, -, k3⟩ | ⟨-, d, -, k3, -⟩⟩ | ⟨-, -, d, -, h4, -⟩
    · obtain ⟨-, -, g3⟩ := check_eq u _ _ _ _ h3 h1
      rw [k3, g3, k1]
      have : (authOf ops).header = challenge ops b!"Basic realm=\"Access to the staging site\", charset=\"UTF-8\"" := authOf_header ops newBaseAuth
      rw [this]
      rfl
    · rw [k3] at hr; cases hr
    · rw [h4] at hr; cases hr
  rw [key ops h hr, key ops' h' hr', hc]

/-- The decision is all that the role table is used for. -/
theorem check_congr (ba : BaseAuth) (roles roles' : GoMap Str Str) (auth : Str) (h : Accepted u roles auth ↔ Accepted u roles' auth) :
    { ba with roles := roles }.check u auth resp = { ba with roles := roles' }.check u auth resp := by
  have e : (decide ((getUserPassword u auth).1 ≠ []) && decide ((roles.get? (getUserPassword u auth).1).getD [] = (getUserPassword u auth).2)) =
      (decide ((getUserPassword u auth).1 ≠ []) && decide ((roles'.get? (getUserPassword u auth).1).getD [] = (getUserPassword u auth).2)) := by
    rw [Bool.eq_iff_iff, decision_iff u roles auth, decision_iff u roles' auth]
    exact h
  unfold BaseAuth.check
  simp only [e]

/-- **C128** (one bit).  All that a server does with a request, its answer, what its handlers do and what it logs, depends on the role table only through whether the
credentials of the request are accepted. -/
theorem C128_one_bit (ba : BaseAuth) (roles roles' : GoMap Str Str) (h : Accepted u roles req.auth ↔ Accepted u roles' req.auth) :
    serveHTTP u env rxMatch visit srv { ba with roles := roles } req resp store buf clock =
      serveHTTP u env rxMatch visit srv { ba with roles := roles' } req resp store buf clock := by
  have e := check_congr (u := u) (resp := resp) ba roles roles' req.auth h
  unfold serveHTTP
  simp only [e]

/-- **C128** (other users).  Whatever is changed, added or removed in the role table for other users than the one the request names, nothing changes for the request. -/
theorem C128_others (ba : BaseAuth) (roles roles' : GoMap Str Str)
    (h : ∀ user pass, Credentials u req.auth user pass → roles.get? user = roles'.get? user) :
    serveHTTP u env rxMatch visit srv { ba with roles := roles } req resp store buf clock =
      serveHTTP u env rxMatch visit srv { ba with roles := roles' } req resp store buf clock := by
  refine C128_one_bit ba roles roles' ⟨?_, ?_⟩
  · rintro ⟨user, pass, h1, h2, h3⟩
    exact ⟨user, pass, h1, h2, by rw [← h user pass h1]; exact h3⟩
  · rintro ⟨user, pass, h1, h2, h3⟩
    exact ⟨user, pass, h1, h2, by rw [h user pass h1]; exact h3⟩

end

/-! ### Cases -/

namespace SilentEx

def env : Env Unit := ⟨fun _ _ => (none, ()), fun _ => [], fun _ => false⟩
def noRoutes : Srv Unit Nat Nat := ⟨newTree, newRegTree, fun _ => ⟨[], [], none, none⟩, none, 0⟩
/-- A server with users, and its refusals. -/
def ops : List AuthOp := [.setUse true, .setRoles [(b!"bob", b!"pw")]]
def serve (ops : List AuthOp) (auth path : Str) : Outcome (Served Unit) :=
  serveHTTP id env (fun _ _ => false) id noRoutes (authOf ops) ⟨b!"GET", path, auth⟩ ⟨200, [], []⟩ (fun _ => ()) [] 0
def told : Outcome (Served Unit) → Option (Nat × Bool)
  | .ret sv => some (sv.resp.status, sv.ran.isSome)
  | _ => none

/-- A wrong password, an unknown user and no credentials are refused; the right ones are not. -/
example : told (serve ops (basicHeader b!"bob" b!"x") b!"/a") = some (401, false) ∧ told (serve ops (basicHeader b!"eve" b!"x") b!"/b") = some (401, false) ∧
    told (serve ops [] b!"/") = some (401, false) ∧ told (serve ops (basicHeader b!"bob" b!"pw") b!"/a") = some (404, true) := by decide +kernel

end SilentEx
end Verif
