import Verif.Props.Auth
import Verif.Witness.Routing
/-
Witnesses: the theorems of Props/Chain, Props/Request and Props/Auth applied to concrete requests.
-/
namespace Verif.Witness
open Verif Verif.Spec Verif.ChainEx Verif.ReqEx

/-! #### One handler set: a before handler that starts a goroutine and stops, another one, main, after -/

def stopSet : HSetV Nat :=
  ⟨[some (does b!"b0" [.go (.ret 0), .stop] .ok), some (does b!"b1" [] .ok)], [some (does b!"a0" [] .ok)], none, some (mainH [] [] .ok)⟩

/-- The trace of `stopSet`: Stop in the first handler. -/
theorem stopSet_trace : (runSet ChainEx.env stopSet c0).1.trace =
    [.start .init false, .ret .ok false, .start (.before 0) false, .spawn, .goEnd none] ++ .ctl .stop :: [.ret .ok false] := by
  decide +kernel

/-- C19 says that no handler starts after the Stop. -/
example : starts [Ev.ret .ok false] = [] := by
  obtain ⟨new, h1, h2⟩ := C19_stop ChainEx.env stopSet c0
  have : new = [.start .init false, .ret .ok false, .start (.before 0) false, .spawn, .goEnd none] ++ .ctl .stop :: [.ret .ok false] :=
    (List.nil_append new ▸ h1.symm : new = _).trans stopSet_trace
  exact h2 _ .stop _ (Or.inl rfl) this ⟨.before 0, by decide, rfl⟩

/-- A set whose second handler fails. -/
def errSet : HSetV Nat :=
  ⟨[some (does b!"b0" [] .ok), some (does b!"b1" [] (.err (.leaf 3 b!"no")))], [some (does b!"a0" [] .ok)], none, some (mainH [] [] .ok)⟩

/-- C18 gives the result of the chain. -/
example : (runSet ChainEx.env errSet c0).2 = .returned (some (.leaf 3 b!"no")) := by
  obtain ⟨new, h1, h2, -⟩ := C18_error ChainEx.env errSet c0
  have e : new = [.start .init false, .ret .ok false, .start (.before 0) false, .ret .ok false, .start (.before 1) false]
      ++ .ret (.err (.leaf 3 b!"no")) false :: [] :=
    (List.nil_append new ▸ h1.symm : new = _).trans (by decide +kernel)
  exact (h2 _ _ _ _ e).2

/-- A set whose first handler skips the main handler. -/
def skipSet : HSetV Nat :=
  ⟨[some (does b!"b0" [.skipMain] .ok), some (does b!"b1" [] .ok)], [some (does b!"a0" [] .ok)], none, some (mainH [] [] .ok)⟩

/-- C20 gives the handlers that run. -/
example : starts (runSet ChainEx.env skipSet c0).1.trace = [.init, .before 0, .before 1, .after 0] := by
  obtain ⟨new, h1, -, h2⟩ := C20_skipMain ChainEx.env skipSet c0
  have e : (runSet ChainEx.env skipSet c0).1.trace = new := h1
  have ht : (runSet ChainEx.env skipSet c0).1.trace = [.start .init false, .ret .ok false, .start (.before 0) false, .ctl .skipMain,
      .ret .ok false, .start (.before 1) false, .ret .ok false, .start (.after 0) false, .ret .ok false] := by decide +kernel
  rw [e, h2 (by decide +kernel) rfl (by decide +kernel) rfl (by rw [← e, ht]; decide) (by rw [← e, ht]; decide), ← e, ht]
  decide +kernel

/-- C17, C19 (Stop in Init). -/
example : (starts (runSet ChainEx.env stopSet c0).1.trace).Nodup := by
  obtain ⟨new, h1, -, h3⟩ := C17_order ChainEx.env stopSet c0
  rw [show (runSet ChainEx.env stopSet c0).1.trace = new from h1]
  exact h3
example : (starts [Ev.ret .ok false, .start (.before 0) false, .ret .ok false]).length ≤ 1 := by
  obtain ⟨new, h1, -, h3⟩ := C19_init ChainEx.env
    ⟨[some (does b!"b0" [] .ok), some looks], [], none, some (mainH [.stop] [] .ok)⟩ c0
  have e : new = [.start .init false] ++ .ctl .stop :: [.ret .ok false, .start (.before 0) false, .ret .ok false] :=
    (List.nil_append new ▸ h1.symm : new = _).trans (by decide +kernel)
  exact h3 _ .stop _ (Or.inl rfl) e rfl

/-! #### One request: two goroutines, a failing main handler, a last handler -/

theorem outcome_ret {α : Type} {o : Outcome α} (h : (match o with | .ret _ => true | _ => false) = true) : ∃ d, o = .ret d := by
  cases o <;> simp_all

/-- The request GET /a/7 of the server of `ReqEx`. -/
abbrev theRun := runHTTP (ρ := Nat) lazy (fun _ _ => false) id (server 5 none set1 empty) mGet b!"/a/7" ⟨200, [], []⟩
  (fun a => a.length) [] 0

def theTrace : List Ev := [.start .init false, .ret .ok false, .start (.before 0) false, .spawn, .spawn, .ret .ok false,
      .start .main false, .ret (.err (.leaf 5 b!"bad")) false, .goEnd none, .goEnd (some (.leaf 1 b!"g1")),
      .start (.last (some (.wrap (.leaf 5 b!"bad") b!"g1"))) true, .ret .ok true, .released]

theorem theRun_done : ∃ d, theRun = .ret d ∧ d.trace = theTrace ∧ d.flow = .returned none ∧ d.ctx.isSome = true := by
  obtain ⟨d, hd⟩ := outcome_ret (o := theRun) (by decide +kernel)
  have h2 : ReqEx.run lazy (server 5 none set1 empty) b!"/a/7" = (theTrace, .returned none, 200) := by decide +kernel
  have h3 : (match theRun with | .ret d => d.ctx.isSome | _ => false) = true := by decide +kernel
  unfold ReqEx.run at h2
  unfold theRun at hd h3
  rw [hd] at h2 h3
  simp only [Prod.mk.injEq] at h2
  exact ⟨d, hd, h2.1, h2.2.1, h3⟩

/-- C21: when the last handler starts, both goroutines have ended and nothing else starts afterwards. -/
example : spawned (theTrace.take 10) = ended (theTrace.take 10) ∧ starts (theTrace.drop 11) = [] := by
  obtain ⟨d, h, ht, -⟩ := theRun_done
  have := (C21_last h).1 (theTrace.take 10) (some (.wrap (.leaf 5 b!"bad") b!"g1")) true (theTrace.drop 11)
    (by rw [ht]; rfl)
  exact ⟨this.2.2.1, this.1⟩

/-- C22: the error the last handler gets carries both errors. -/
example : ∃ e' p q, some (GoErr.wrap (.leaf 5 b!"bad") b!"g1") = some e' ∧ e'.error = p ++ b!"g1" ++ q := by
  obtain ⟨d, h, ht, -⟩ := theRun_done
  exact (C22_errors h (some (.wrap (.leaf 5 b!"bad") b!"g1")) (theTrace.take 10)
    (Or.inl ⟨true, theTrace.drop 11, by rw [ht]; rfl⟩)).2.2 (.leaf 1 b!"g1") rfl

/-- C23. -/
example : ∀ d, theRun = .ret d → ∀ cf, d.ctx = some cf → cf.done = true := fun _ h => (C23_cancel h).1

/-- C24: the names of the handlers that ran. -/
example : ∀ d cf, theRun = .ret d → d.ctx = some cf →
    (calledHandles cf).map some = ((starts d.trace).filter ofRoute).map (nameOf set1) := by
  intro d cf h hcf
  have := C24_debug h (by intro p hp; cases hp) (by
      intro s
      show QuietSet (if s = 1 then set1 else empty)
      split
      · exact quietEx
      · refine ⟨?_, ?_, ?_⟩
        · intro m hm
          simp only [empty, Option.some.injEq] at hm
          subst hm
          exact ⟨fun _ => .ret _, fun _ => .ret _⟩
        · intro x hx; simp [empty] at hx
        · intro l hl; simp [empty] at hl)
    ⟨some 1, true, [(b!"id", b!"7")]⟩ 1 cf (by decide +kernel) rfl hcf (by intro h; cases h)
  exact this

/-- C63: nothing of this request runs on when the buffer is released. -/
example : ∃ t, theTrace = t ++ [.released] ∧ spawned t = ended t := by
  obtain ⟨d, h, ht, hf, hc⟩ := theRun_done
  obtain ⟨t, h1, -, h3⟩ := C63_release_partial h hc
  refine ⟨t, ht ▸ h1, ?_⟩
  have e : t = theTrace.take 12 := by
    have := congrArg List.dropLast (ht ▸ h1 : theTrace = t ++ [.released])
    rw [List.dropLast_concat] at this
    rw [← this]; decide +kernel
  refine h3 (by rw [hf]; decide) (by rw [e]; decide) (by intro h; cases h) ?_
  intro pre ev dn post hp
  intro hs
  rw [e] at hp
  have hl : (theTrace.take 12).reverse = [.ret .ok true, .start (.last (some (.wrap (.leaf 5 b!"bad") b!"g1"))) true,
      .goEnd (some (.leaf 1 b!"g1")), .goEnd none, .ret (.err (.leaf 5 b!"bad")) false, .start .main false, .ret .ok false, .spawn, .spawn,
      .start (.before 0) false, .ret .ok false, .start .init false] := by decide +kernel
  have hr : (theTrace.take 12).reverse = post.reverse ++ .start (.last ev) dn :: pre.reverse := by rw [hp]; simp
  rw [hl] at hr
  have hs' : Ev.spawn ∈ post.reverse := by simpa using hs
  revert hs'
  generalize post.reverse = q at hr
  match q, hr with
  | [], h => simp
  | [a], h => simp only [List.cons_append, List.nil_append, List.cons.injEq] at h; rw [← h.1]; decide
  | a :: b :: q', h =>
    simp only [List.cons_append, List.cons.injEq] at h
    have h' := h.2.2
    -- the second entry from the end is the only start of a last handler
    have : Ev.start (.last ev) dn ∈ ([.goEnd (some (.leaf 1 b!"g1")), .goEnd none, .ret (.err (.leaf 5 b!"bad")) false, .start .main false,
      .ret .ok false, .spawn, .spawn, .start (.before 0) false, .ret .ok false, .start .init false] : List Ev) := by
      rw [h']; simp
    simp at this

/-- C25: paths for which nothing is registered. -/
example : ∃ d, runHTTP (ρ := Nat) lazy (fun _ _ => false) id (server 5 none set1 empty) mPost b!"/a/7" ⟨200, [], []⟩
      (fun a => a.length) [] 0 = .ret d ∧ d.ctx = none ∧ d.trace = [] ∧ d.resp.status = 404 ∧ d.resp.body = b!"not found" :=
  C25_unrouted [⟨mGet, b!"/a/:id", 1⟩, ⟨mGet, b!"/b", 2⟩] [] (by simp) (fun l => List.Perm.refl l) rfl rfl
    (by intro res h; have e : treeFind (treeOf [⟨mGet, b!"/a/:id", 1⟩, ⟨mGet, b!"/b", 2⟩]) mPost b!"/a/7" [] =
          .ret ⟨(none : Option Nat), false, []⟩ := by decide +kernel
        rw [e] at h; injection h with h; rw [← h]) (by simp)
example : ∃ d, runHTTP (ρ := Nat) lazy (fun _ _ => false) id (server 5 none set1 empty) mGet b!"/c" ⟨200, [], []⟩
      (fun a => a.length) [] 0 = .ret d ∧ d.ctx = none ∧ d.trace = [] ∧ d.resp.status = 404 ∧ d.resp.body = b!"not found" :=
  C25_no_route [⟨mGet, b!"/a/:id", 1⟩, ⟨mGet, b!"/b", 2⟩] [] (by simp) (by decide +kernel) (fun l => List.Perm.refl l) rfl
    rfl (by decide +kernel) (by simp)
example : ∀ d, runHTTP (ρ := Nat) lazy (fun _ _ => false) id (server 5 none set1 empty) mGet b!"/c" ⟨200, [], []⟩
      (fun a => a.length) [] 0 = .ret d → d.ctx = none →
    (∃ rt, treeFind (server 5 none set1 empty).tree mGet b!"/c" [] = .ret rt ∧ rt.found = false) :=
  fun _ h hc => (C25_only_unrouted h hc).1

/-! #### Authentication: alice with password "pw" -/

/-- The settings of `AuthEx`. -/
abbrev alice := authOf AuthEx.ops

abbrev authRun (auth : Str) := serveHTTP (ρ := Nat) id lazy (fun _ _ => false) id (server 5 none set1 empty) alice
  ⟨mGet, b!"/a/7", auth⟩ ⟨200, [], []⟩ (fun a => a.length) [] 0

theorem alice_in : LetsIn id alice (basicHeader b!"alice" b!"pw") :=
  C30_login_partial id alice (by decide +kernel) (by decide +kernel) b!"alice" b!"pw" (by decide) (by decide) (by decide +kernel) (by decide) (by decide +kernel)

/-- C26, C27, C29, C31 on whole requests. -/
example : ∃ sv, authRun (basicHeader b!"alice" b!"pw") = .ret sv ∧ sv.ran.isSome = true := by
  obtain ⟨sv, h⟩ := outcome_ret (o := authRun (basicHeader b!"alice" b!"pw")) (by decide +kernel)
  exact ⟨sv, h, C27_request h alice_in⟩
example : ∃ sv, authRun b!"Digest x" = .ret sv ∧ sv.ran = none ∧ sv.resp.status = 401 := by
  obtain ⟨sv, h⟩ := outcome_ret (o := authRun b!"Digest x") (by decide +kernel)
  refine ⟨sv, h, C29_request h (by decide +kernel) (fun _ => true) rfl rfl (C29_malformed id alice (by decide +kernel) (by decide +kernel) b!"Digest x" ?_)⟩
  exact Or.inr (Or.inr ⟨b!"Digest", b!"x", rfl, by decide, Or.inl (by decide +kernel)⟩)
example : ∃ sv, authRun b!"Digest x" = .ret sv ∧ (sv.ran = none → sv.resp.status = 401) := by
  obtain ⟨sv, h⟩ := outcome_ret (o := authRun b!"Digest x") (by decide +kernel)
  exact ⟨sv, h, fun e => ((C26_gate AuthEx.ops h).2 e).1⟩
example : ∃ sv user pass, authRun (basicHeader b!"alice" b!"pw") = .ret sv ∧ sv.logged = [(user, pass, sv.ran.isSome)] := by
  obtain ⟨sv, h⟩ := outcome_ret (o := authRun (basicHeader b!"alice" b!"pw")) (by decide +kernel)
  have := C31_logged_once h
  rw [if_pos ⟨by decide +kernel, ⟨fun _ => true, rfl, rfl⟩, by decide +kernel⟩] at this
  obtain ⟨user, pass, h1, -⟩ := this
  exact ⟨sv, user, pass, h, h1⟩

/-- C27, C28, C30 on headers. -/
example : LetsIn id alice (b!"basic" ++ 32 :: b64Encode (b!"alice" ++ 58 :: b!"pw")) :=
  C27_valid id alice (by decide +kernel) (by decide +kernel) b!"basic" b!"alice" b!"pw" (by decide +kernel) (by decide) (by decide) (by decide +kernel) (by decide) (by decide +kernel)
theorem alice_credentials : Credentials id (basicHeader b!"alice" b!"pw") b!"alice" b!"pw" :=
  ((C30_exact id alice (by decide +kernel) (by decide +kernel) b!"alice" b!"pw" (by decide +kernel)).2 (by decide) (by decide) b!"alice" (by decide)
    (by decide +kernel)).1
example : alice.roles.get? b!"alice" = some b!"pw" :=
  (C28_in_table_partial id alice (by decide +kernel) (by decide +kernel) _ b!"alice" b!"pw" alice_in alice_credentials (by decide)).2
example : LetsIn id alice (basicHeader b!"alice" b!"pw") ↔ b!"alice" ≠ [] ∧ (alice.roles.get? b!"alice" = some b!"pw" ∨
    (alice.roles.get? b!"alice" = none ∧ b!"pw" = [])) := (C28_exact id alice (by decide +kernel) (by decide +kernel) _ _ _ alice_credentials).1
example : LetsIn id alice (basicHeader b!"mallory" []) :=
  C28_violated id alice (by decide +kernel) (by decide +kernel) b!"mallory" (by decide) (by decide) (by decide +kernel) (by decide +kernel)

end Verif.Witness
