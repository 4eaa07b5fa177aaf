import Verif.Model.Auth
/-
Role tables are Go maps and BaseAuth objects are shared by pointer: /repo/baseauth.go:35-45, 78-85 and
/repo/server.go:44-52, 63-66.  A heap of maps, BaseAuth objects and servers; things are named by the number of the step that
made them.
-/
namespace Verif

/-- Steps of the program around the server.  baseauth.go:35-85, server.go:44-52, 63-66. -/
inductive RoleOp where
  /-- `m := map[string]string{}` -/
  | newMap
  /-- `m[k] = v` -/
  | put (m : Nat) (k v : Str)
  /-- `delete(m, k)` -/
  | del (m : Nat) (k : Str)
  /-- `a := NewBaseAuth()` -/
  | newAuth
  /-- the calls of Model/Auth on `a`; `SetRoles` here is that with a map made for the call -/
  | call (a : Nat) (o : AuthOp)
  /-- `a.SetRoles(m)`, `none`: `a.SetRoles(nil)` -/
  | setRoles (a : Nat) (m : Option Nat)
  /-- `a.Roles()[k] = v` -/
  | rolesPut (a : Nat) (k v : Str)
  /-- `delete(a.Roles(), k)` -/
  | rolesDel (a : Nat) (k : Str)
  /-- `s := New()` -/
  | newServer
  /-- `s.SetBaseAuth(a)`, `none`: `s.SetBaseAuth(nil)` -/
  | setAuth (s : Nat) (a : Option Nat)

/-- The heap.  baseauth.go:29 `roles` is the reference `table a`; the field `roles` of `auth a` is not used.  Objects that were
never made are there as empty ones; no program can name them. -/
structure RoleHeap where
  clock : Nat
  maps : Nat → GoMap Str Str
  auth : Nat → BaseAuth
  table : Nat → Option Nat
  server : Nat → Option Nat

/-- Assignment to one cell.  The objects of baseauth.go:24-33 and server.go:28. -/
def upd {α : Type} (f : Nat → α) (i : Nat) (x : α) : Nat → α := fun j => if j = i then x else f j

/-- Nothing was made yet.  The objects of baseauth.go:24-33 and server.go:28. -/
def RoleHeap.empty : RoleHeap := ⟨0, fun _ => [], fun _ => newBaseAuth, fun _ => none, fun _ => none⟩

/-- baseauth.go:35-45 `NewBaseAuth`: the object and its own empty role table. -/
def RoleHeap.newAuth (h : RoleHeap) : RoleHeap :=
  { h with maps := upd h.maps h.clock [], auth := upd h.auth h.clock newBaseAuth, table := upd h.table h.clock (some h.clock) }

/-- One step; `none`: it panics (an entry of a nil map is assigned), and changes nothing.  baseauth.go:35-85, server.go:44-52, 63-66. -/
def RoleHeap.step? (h : RoleHeap) : RoleOp → Option RoleHeap
  | .newMap => some { h with maps := upd h.maps h.clock [] }
  | .put m k v => some { h with maps := upd h.maps m ((h.maps m).set k v) }
  | .del m k => some { h with maps := upd h.maps m ((h.maps m).erase k) }
  | .newAuth => some h.newAuth                                                            -- baseauth.go:35-45
  | .call a (.setRoles r) =>                                                              -- baseauth.go:78-81
    some { h with maps := upd h.maps h.clock r, table := upd h.table a (some h.clock),
                  auth := upd h.auth a ((h.auth a).op (.setRoles r)) }
  | .call a o => some { h with auth := upd h.auth a ((h.auth a).op o) }                   -- baseauth.go:47-72
  | .setRoles a m => some { h with table := upd h.table a m }                             -- baseauth.go:78-81
  | .rolesPut a k v =>                                                                    -- baseauth.go:83-85
    match h.table a with
    | none => none
    | some m => some { h with maps := upd h.maps m ((h.maps m).set k v) }
  | .rolesDel a k =>                                                                      -- deleting from nil does nothing
    match h.table a with
    | none => some h
    | some m => some { h with maps := upd h.maps m ((h.maps m).erase k) }
  | .newServer => some { h.newAuth with server := upd h.server h.clock (some h.clock) }   -- server.go:44-52
  | .setAuth s a => some { h with server := upd h.server s a }                            -- server.go:63-66

/-- One step of a program that recovers from panics.  baseauth.go:35-85, server.go:44-52, 63-66. -/
def RoleHeap.step (h : RoleHeap) (o : RoleOp) : RoleHeap :=
  { (h.step? o).getD h with clock := h.clock + 1 }

/-- The heap after a program.  baseauth.go:35-85, server.go:44-52, 63-66. -/
def rolesRun (ops : List RoleOp) : RoleHeap := ops.foldl RoleHeap.step .empty

/-- The BaseAuth object as a check sees it: its fields, and the entries of its table at that time (baseauth.go:93; reading
from a nil map finds nothing). -/
def RoleHeap.view (h : RoleHeap) (a : Nat) : BaseAuth :=
  { h.auth a with roles := match h.table a with | none => [] | some m => h.maps m }

/-- server_run.go:109-121 `ServeHTTP` of server `s`: a nil `baseAuth` panics at line 110. -/
def RoleHeap.serve {υ σ ρ : Type} [DecidableEq ρ] (h : RoleHeap) (s : Nat) (u : Str → Str) (env : Env υ) (rxMatch : ρ → Str → Bool)
    (visit : GoMap ρ (Option σ) → List (ρ × Option σ)) (srv : Srv υ σ ρ) (req : Req)
    (resp : Resp) (store : Args → υ) (buf : Args) (clock : Nat) : Outcome (Served υ) :=
  match h.server s with
  | none => .panic
  | some a => serveHTTP u env rxMatch visit srv (h.view a) req resp store buf clock

end Verif
