import Verif.Spec.Routing
/-
When a table of routes can be read row by row.
-/
namespace Verif.Spec

/-- Is there a path (as a list of segments) that `q` matches and for which `p` competes?  Position by position, two different
literals exclude each other. -/
def meets : List Pat → List Pat → Bool
  | _, [] => true
  | [], _ :: _ => false
  | .lit a :: ps, .lit b :: qs => decide (a = b) && meets ps qs
  | _ :: ps, _ :: qs => meets ps qs

/-- No route of the table is outranked by another one that competes for some of its paths. -/
def orderly (routes : List (List Pat)) : Prop :=
  ∀ (i j : Nat) p q, routes[i]? = some p → routes[j]? = some q → meets p q = true → ¬ outranks routes q.length i j

/-- The same, as a computation over the table. -/
def orderlyCheck (routes : List (List Pat)) : Bool :=
  (List.range routes.length).all fun i => (List.range routes.length).all fun j =>
    match routes[i]?, routes[j]? with
    | some p, some q => !(meets p q && (List.range (q.length + 1)).any fun k =>
        decide (birth routes i k < birth routes j k) && (List.range k).all fun l => birth routes i l == birth routes j l)
    | _, _ => true

end Verif.Spec
