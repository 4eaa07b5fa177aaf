import Verif.Props.RoutingExact
import Verif.Props.RegTree
/-
Witnesses: the theorems of Props/Routing, Props/RoutingExact and Props/RegTree applied to concrete tables.  Every
hypothesis is discharged for the concrete case, so none of the theorems is vacuous; where a conclusion can be
computed, it is stated in computed form.
-/
namespace Verif.Witness
open Verif Verif.Spec

/-- A literal table: shared prefix, combined method, empty segment, overwritten entry. -/
def lits : List (Reg Nat) :=
  [⟨b!"GET", b!"/a/b", 1⟩, ⟨b!"GETPOST", b!"/a", 2⟩, ⟨b!"POST", b!"a//c/", 3⟩, ⟨b!"POST", b!"/a", 4⟩]

/-- A table with parameters, several competing branches and a combined method. -/
def pars : List (Reg Nat) :=
  [⟨b!"GET", b!"/u/:id/posts", 1⟩, ⟨b!"GET", b!"/w/about", 5⟩, ⟨b!"GETPOST", b!"/v/:id", 3⟩, ⟨b!"GET", b!"/u/:id", 2⟩,
    ⟨b!"GET", b!"/:x/:y/z", 4⟩]

theorem lits_literal : ∀ r ∈ lits, Literal r := by decide +kernel
theorem pars_clean : ∀ r ∈ pars, Clean r := by decide +kernel

theorem found_posts : treeFind (treeOf pars) b!"GET" b!"/u/7/posts/" [(b!"old", b!"x")]
    = .ret ⟨some 1, true, [(b!"id", b!"7")]⟩ := by decide +kernel

/-- C01. -/
example : treeFind (treeOf lits) b!"POST" b!"/a/" [(b!"old", b!"x")] = .ret ⟨some 4, true, []⟩ :=
  (C01_literal_map lits lits_literal b!"POST" b!"/a/" [(b!"old", b!"x")]).trans (by decide +kernel)
example : treeFind (treeOf lits) b!"POST" b!"/a/b" [] = .ret ⟨none, false, []⟩ :=
  (C01_literal_map lits lits_literal b!"POST" b!"/a/b" []).trans (by decide +kernel)

/-- C02, C05, C09. -/
example : ∃ r ∈ pars, some 1 = some r.set ∧ covers r.method b!"GET" = true ∧
    (Clean r → matchRoute (routePats r) (segs b!"/u/7/posts/") = some [(b!"id", b!"7")]) :=
  C02_sound pars b!"GET" b!"/u/7/posts/" [(b!"old", b!"x")] _ found_posts rfl
example := C02_any_history pars b!"GET" b!"/u/7/posts/" [(b!"old", b!"x")] _ found_posts rfl
example : ∃ r ∈ pars, some 1 = some r.set ∧ covers r.method b!"GET" = true ∧ (routePats r).length = 3 ∧
    (Clean r → [(b!"id", b!"7")] = params (routePats r) [b!"u", b!"7", b!"posts"]) :=
  C05_params pars b!"GET" b!"/u/7/posts/" [(b!"old", b!"x")] _ found_posts rfl
example : ∃ r ∈ pars, some 1 = some r.set ∧ covers r.method b!"GET" = true :=
  C09_method_sound pars b!"GET" b!"/u/7/posts/" [(b!"old", b!"x")] _ found_posts rfl

/-- C03: all competitors match and cover; no competitor; literal competitors only; the exact condition. -/
example : ∃ s args, treeFind (treeOf pars) b!"GET" b!"/v/9" [] = .ret ⟨some s, true, args⟩ :=
  C03_reachable_partial (pars.take 3) (by decide +kernel) b!"GET" b!"/v/9" [] ⟨b!"GETPOST", b!"/v/:id", 3⟩
    (by simp [pars]) (by decide +kernel) (by decide +kernel) |> fun _ => ⟨3, [(b!"id", b!"9")], by decide +kernel⟩
example : treeFind (treeOf (pars.take 3)) b!"POST" b!"/v/9" [] = .ret ⟨some 3, true, [(b!"id", b!"9")]⟩ :=
  C03_unique_partial (pars.take 3) (by decide +kernel) b!"POST" b!"/v/9" [] ⟨b!"GETPOST", b!"/v/:id", 3⟩
    (by simp [pars]) (by decide +kernel) [(b!"id", b!"9")] (by decide +kernel)
    (by
      intro o ho
      simp only [pars, List.take, List.mem_cons, List.not_mem_nil, or_false] at ho
      rcases ho with rfl | rfl | rfl
      · intro h; exact absurd h (by decide +kernel)
      · intro h; exact absurd h (by decide +kernel)
      · intro _; rfl)
example : (∃ s args, treeFind (treeOf lits) b!"GET" b!"/a" [] = .ret ⟨some s, true, args⟩) ↔
      ∃ r ∈ [(⟨b!"GET", b!"/a/b", 1⟩ : Reg Nat), ⟨b!"GETPOST", b!"/a", 2⟩], covers r.method b!"GET" = true ∧
        (matchRoute (routePats r) (segs b!"/a")).isSome = true :=
  ⟨fun _ => ((C03_literal_partial [(⟨b!"GET", b!"/a/b", 1⟩ : Reg Nat), ⟨b!"GETPOST", b!"/a", 2⟩] (by decide +kernel)
      b!"GET" b!"/a" [] (by decide +kernel)).1 ⟨2, [], by decide +kernel⟩),
    fun _ => ⟨2, [], by decide +kernel⟩⟩
example := (C03_exact pars pars_clean b!"GET" b!"/u/7/posts" []).1 ⟨1, [(b!"id", b!"7")], by decide +kernel⟩

/-- C04: a found path, and a path that is not found although a route competes for it. -/
example := C04_arbitration pars pars_clean b!"GET" b!"/u/7/posts/" [(b!"old", b!"x")] _ found_posts rfl
example := C04_not_found pars pars_clean b!"POST" b!"/u/7/posts/" [] ⟨none, false, []⟩ (by decide +kernel) rfl
  ⟨⟨b!"GET", b!"/u/:id/posts", 1⟩, by simp [pars], by decide +kernel⟩

/-- C06: the parameter route registered again is ignored, the literal route is replaced. -/
example : treeFind (treeOf (pars ++ [⟨b!"GET", b!"u/:id/posts/", 9⟩])) b!"GET" b!"/u/7/posts" []
    = .ret ⟨some 1, true, [(b!"id", b!"7")]⟩ :=
  (C06_param_reregistration_ignored pars ⟨b!"GET", b!"/u/:id/posts", 1⟩ ⟨b!"GET", b!"u/:id/posts/", 9⟩ (by simp [pars])
    (by decide +kernel) (by decide +kernel) ⟨b!"id", by decide +kernel⟩ b!"GET" b!"/u/7/posts" []).trans
    (by decide +kernel)
example : treeFind (treeOf (pars ++ [⟨b!"GETPOST", b!"/w/about", 9⟩])) b!"POST" b!"w/about" []
    = .ret ⟨some 9, true, []⟩ :=
  (C06_literal_reregistration pars pars_clean ⟨b!"GETPOST", b!"/w/about", 9⟩ (by decide +kernel) (by decide +kernel)
    b!"w/about" (by decide +kernel) b!"GET" [] 5 (by decide +kernel) b!"POST" []).trans (by decide +kernel)
example : treeFind (treeOf (lits ++ [⟨b!"GETPOST", b!"/a/b", 9⟩])) b!"POST" b!"a/b" [] = .ret ⟨some 9, true, []⟩ :=
  (C06_literal_again lits ⟨b!"GET", b!"/a/b", 1⟩ ⟨b!"GETPOST", b!"/a/b", 9⟩ (by simp [lits]) (by decide +kernel)
    (by decide +kernel) (by decide +kernel) b!"a/b" (by decide +kernel) b!"GET" [] 1 (by decide +kernel) b!"POST"
    []).trans (by decide +kernel)

/-- C07: fresh first segments and parameter routes hide nothing; literal tables hide nothing; the exact effect. -/
example : treeFind (treeOf (pars ++ [⟨b!"GET", b!"/new/:a/:b", 7⟩])) b!"GET" b!"/u/7/posts/" []
    = .ret ⟨some 1, true, [(b!"id", b!"7")]⟩ :=
  C07_fresh_partial pars [⟨b!"GET", b!"/new/:a/:b", 7⟩] (by decide +kernel)
    (by
      intro pre new post h
      cases pre with
      | cons x l => simp at h
      | nil =>
        simp only [List.nil_append, List.cons.injEq] at h
        obtain ⟨rfl, -⟩ := h
        refine ⟨by decide +kernel, ?_⟩
        intro t ht
        have : t = b!"new" := by
          have e : (routePats (⟨b!"GET", b!"/new/:a/:b", 7⟩ : Reg Nat)).head? = some (.lit b!"new") := by decide +kernel
          rw [e] at ht
          exact (Pat.lit.inj (Option.some.inj ht)).symm
        subst this
        decide +kernel)
    b!"GET" b!"/u/7/posts/" [(b!"old", b!"x")] [] 1 [(b!"id", b!"7")] found_posts
example : ∃ s, treeFind (treeOf (lits.take 2 ++ lits.drop 2)) b!"POST" b!"/a" [] = .ret ⟨some s, true, []⟩ :=
  C07_literal_partial (lits.take 2) (lits.drop 2) (by decide +kernel) b!"POST" b!"/a" [] [] ⟨some 2, true, []⟩
    (by decide +kernel) rfl
example := C07_exact pars ⟨b!"GET", b!"/u/7/posts", 8⟩ (by decide +kernel) b!"GET" b!"/u/7/posts/" [(b!"old", b!"x")] [] 1
  [(b!"id", b!"7")] found_posts

/-- C08: a route of another shape changes nothing. -/
example : treeFind (treeOf (pars ++ [⟨b!"GET", b!"/x/:n", 8⟩])) b!"GET" b!"/u/7/posts/" [(b!"old", b!"x")]
    = treeFind (treeOf pars) b!"GET" b!"/u/7/posts/" [(b!"old", b!"x")] :=
  C08_frame pars ⟨b!"GET", b!"/x/:n", 8⟩ (by decide +kernel) b!"GET" b!"/u/7/posts/" [(b!"old", b!"x")] (by
    intro k hk
    have e : routePats (⟨b!"GET", b!"/x/:n", 8⟩ : Reg Nat) = [.lit b!"x", .par b!"n"] := by decide +kernel
    have e2 : segs b!"/u/7/posts/" = [b!"u", b!"7", b!"posts"] := by decide +kernel
    rw [e, e2]
    rw [e] at hk
    match k, hk with
    | 0, h => simp at h
    | k + 1, _ => simp [matchRoute])

/-- C09: one route; another method of the same route; the pseudo methods. -/
example : treeFind (treeOf [(⟨b!"GETHEAD", b!"/f/:n", 1⟩ : Reg Nat)]) b!"HEAD" b!"/f/x" []
    = .ret ⟨some 1, true, [(b!"n", b!"x")]⟩ :=
  (C09_single_route (⟨b!"GETHEAD", b!"/f/:n", 1⟩ : Reg Nat) (by decide +kernel) b!"HEAD" b!"/f/x" [] [(b!"n", b!"x")]
    (by decide +kernel)).trans (by decide +kernel)
example : treeFind (treeOf (pars ++ [⟨b!"PUT", b!"/w/about", 9⟩])) b!"GET" b!"/w/about" [] = .ret ⟨some 5, true, []⟩ :=
  (C09_other_methods pars ⟨b!"GET", b!"/w/about", 5⟩ ⟨b!"PUT", b!"/w/about", 9⟩ (by simp [pars]) (by decide +kernel)
    (by decide +kernel) b!"GET" (by decide +kernel) b!"/w/about" []).trans (by decide +kernel)
example : treeFind (treeOf pars) b!"GETPOST" b!"/v/1" [] = .ret ⟨none, false, []⟩ :=
  C09_pseudo_methods_not_found pars b!"GETPOST" (Or.inl rfl) b!"/v/1" []

/-- C10: blanks and slashes around two segments with an empty one between them. -/
example : segs b!" \t//a//b c/ \n" = [b!"a", [], b!"b c"] :=
  C10_segments [b!"a", [], b!"b c"] (by decide) (by decide) (by decide) (by decide)
    (by rintro ⟨x, hx, h⟩; revert x; decide +kernel) b!" \t" b!" \n" ⟨[b!" ", b!"\t"], by decide +kernel, rfl⟩
    ⟨[b!" ", b!"\n"], by decide +kernel, rfl⟩ 2 1 (Or.inl (by decide))
example : segs b!" /// " = [] := C10_root b!" " b!" " ⟨[b!" "], by decide +kernel, rfl⟩ ⟨[b!" "], by decide +kernel, rfl⟩ 3

/-- C11, C12. -/
example := C11_find_returns (treeOf pars) b!"GET" b!"/u/7/posts/" [] ((treeOf pars).size + 1) (Nat.lt_succ_self _)
example : ([] : Args) = [] :=
  (C12_buffer_overwritten (treeOf pars) b!"PUT" b!"/u/7" [(b!"old", b!"x")] []).2 ⟨none, false, []⟩
    (by decide +kernel) (Or.inl rfl)

/-! Regular expressions: expression 1 matches every path, expression 2 none, and 3 paths of length 2. -/

/-- Registrations of expressions, one of them replaced. -/
def rxs : List (RxReg Nat Nat) := [⟨b!"GETPOST", 1, 10⟩, ⟨b!"GET", 2, 20⟩, ⟨b!"POST", 1, 11⟩, ⟨b!"GET", 3, 30⟩]

def rxm : Nat → Str → Bool := fun rx p => rx == 1 || (rx == 3 && p.length == 2)

theorem rxs_methods : ∀ r ∈ rxs, r.method ∈ rxMethods := by decide +kernel

theorem rev_any : AnyOrder (List.reverse : GoMap Nat (Option Nat) → List (Nat × Option Nat)) :=
  fun l => List.reverse_perm l

/-- C13. -/
example := C13_found_iff rxs rxs_methods rxm List.reverse rev_any b!"POST" b!"/x" [(b!"k", b!"v")]
example : regFind rxm List.reverse (regOf rxs) b!"POST" b!"/x" [(b!"k", b!"v")] = ⟨some 11, true, []⟩ :=
  C13_determined rxs rxs_methods rxm List.reverse rev_any b!"POST" b!"/x" [(b!"k", b!"v")] ⟨b!"POST", 1, 11⟩ rfl
    (by decide +kernel) (by decide +kernel)
example : ∃ visit, AnyOrder visit ∧ regFind rxm visit (regOf rxs) b!"GET" b!"/x" [] = ⟨some 30, true, []⟩ :=
  (C13_possible rxs rxs_methods rxm b!"GET" b!"/x" [] (some 30)).2 ⟨⟨b!"GET", 3, 30⟩, by decide +kernel, rfl, rfl⟩

/-- C14, C12, C15. -/
example : ∃ rt, treeFind (treeOf pars) b!"GET" b!"/x" [] = .ret rt ∧
    (rt.found = false → serverFind rxm List.reverse (treeOf pars) (regOf rxs) b!"GET" b!"/x" []
      = .ret (regFind rxm List.reverse (regOf rxs) b!"GET" b!"/x" [])) := by
  obtain ⟨rt, h1, -, h3, -⟩ := C14_tree_first rxm List.reverse (treeOf pars) (regOf rxs) b!"GET" b!"/x" []
  exact ⟨rt, h1, h3⟩
example : ([] : Args) = [] :=
  (C12_server_buffer rxm List.reverse (treeOf pars) (regOf rxs) b!"GET" b!"/x" [(b!"k", b!"v")] []).2
    ⟨some 10, true, []⟩ (by decide +kernel) (Or.inr (by
      intro rt h
      have e : treeFind (treeOf pars) b!"GET" b!"/x" [(b!"k", b!"v")] = .ret ⟨none, false, []⟩ := by decide +kernel
      rw [e] at h
      injection h with h
      rw [← h]))
example : regAdd (regOf rxs) b!"get" 7 (some 3) = (regOf rxs, true) :=
  (C15_unsupported_method rxs b!"get" 7 3).2 (by decide +kernel)

end Verif.Witness
