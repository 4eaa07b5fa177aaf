import Verif.Model.Roles
import Verif.Spec.Auth
/-
Which role table decides a request, and what is in it, read off the program.  Programs are read backwards: the newest step
first, so that the number of a step is the number of steps after it in the list.
-/
namespace Verif.Spec

/-- The BaseAuth of a server: that of the last SetBaseAuth, else the one the server was made with. -/
def authIn : List RoleOp → Nat → Option Nat
  | [], _ => none
  | .newServer :: old, s => if s = old.length then some old.length else authIn old s
  | .setAuth s' a :: old, s => if s = s' then a else authIn old s
  | _ :: old, s => authIn old s

/-- The role table of a BaseAuth: the map of the last SetRoles, else the one it was made with; `none`: nil. -/
def tableIn : List RoleOp → Nat → Option Nat
  | [], _ => none
  | .newAuth :: old, a => if a = old.length then some old.length else tableIn old a
  | .newServer :: old, a => if a = old.length then some old.length else tableIn old a
  | .call b (.setRoles _) :: old, a => if a = b then some old.length else tableIn old a
  | .setRoles b m :: old, a => if a = b then m else tableIn old a
  | _ :: old, a => tableIn old a

/-- The entry of a map for a name: that of the last step that wrote or deleted it, by whatever way. -/
def entryIn : List RoleOp → Nat → Str → Option Str
  | [], _, _ => none
  | .newMap :: old, m, k => if m = old.length then none else entryIn old m k
  | .newAuth :: old, m, k => if m = old.length then none else entryIn old m k
  | .newServer :: old, m, k => if m = old.length then none else entryIn old m k
  | .call _ (.setRoles r) :: old, m, k => if m = old.length then r.get? k else entryIn old m k
  | .put n k' v :: old, m, k => if m = n ∧ k = k' then some v else entryIn old m k
  | .del n k' :: old, m, k => if m = n ∧ k = k' then none else entryIn old m k
  | .rolesPut a k' v :: old, m, k => if tableIn old a = some m ∧ k = k' then some v else entryIn old m k
  | .rolesDel a k' :: old, m, k => if tableIn old a = some m ∧ k = k' then none else entryIn old m k
  | _ :: old, m, k => entryIn old m k

/-- The calls made on a BaseAuth, oldest first. -/
def callsOn : List RoleOp → Nat → List AuthOp
  | [], _ => []
  | .newAuth :: old, a => if a = old.length then [] else callsOn old a
  | .newServer :: old, a => if a = old.length then [] else callsOn old a
  | .call b o :: old, a => if a = b then callsOn old a ++ [o] else callsOn old a
  | _ :: old, a => callsOn old a

/-- The password on record for a user, for a BaseAuth. -/
def passwordIn (old : List RoleOp) (a : Nat) (user : Str) : Option Str :=
  (tableIn old a).bind fun m => entryIn old m user

end Verif.Spec
