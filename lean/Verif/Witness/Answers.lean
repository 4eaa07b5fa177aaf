import Verif.Witness.Request
import Verif.Props.Access
import Verif.Props.Orderly
import Verif.Props.Answer
import Verif.Props.ReqLog
import Verif.Props.Listing
/-
Witnesses: the theorems of Props/Access, Props/Orderly, Props/Answer, Props/ReqLog and Props/Listing applied to concrete
servers and histories.
-/
namespace Verif.Witness
open Verif Verif.Spec Verif.ReqEx

/-! #### Covered paths, and the dialogue -/

/-- The server of `AccessEx` behind its authentication. -/
def gated (target auth : Str) : Outcome (Served Nat) :=
  serveHTTP id lazy (fun (_ : Nat) _ => false) id (server 5 none set1 empty) (authOf AccessEx.ops)
    ⟨mGet, wirePath ⟨target, [], []⟩, auth⟩ ⟨200, [], []⟩ (fun a => a.length) [] 0

theorem served_ret {o : Outcome (Served Nat)} {p : Served Nat → Bool} (h : (match o with | .ret sv => p sv | _ => false) = true) :
    ∃ sv, o = .ret sv ∧ p sv = true := by
  cases o with
  | ret sv => exact ⟨sv, rfl, h⟩
  | panic => cases h
  | outOfFuel => cases h

def gateFn : Req → Bool := fun r => hasPrefix r.path b!"/a"
theorem gateFn_asks (r : Req) (h : ofSegs [b!"a"] <+: r.path) : gateFn r = true := List.isPrefixOf_iff_prefix.2 h
theorem nobody : ¬ Accepted id (saidRoles AccessEx.ops []) [] := by
  rintro ⟨user, pass, ⟨raw, rest, ⟨s, e, h, -⟩, -⟩, -⟩
  exact absurd (congrArg List.length h) (by simp)

def gatedHist : List (Reg Nat) := [⟨mGet, b!"/a/:id", 1⟩, ⟨mGet, b!"/b", 2⟩]
/-- "/b" is served without credentials; the theorem says that it is none of the covered routes. -/
example : matchRoute (routePats ⟨mGet, b!"/a/:id", 1⟩) (segs (wirePath ⟨b!"/b", [], []⟩)) = none := by
  obtain ⟨sv, h, hs⟩ := served_ret (o := gated b!"/b" []) (p := fun sv => sv.ran.isSome) (by decide +kernel)
  exact (C102_covered (srv := server 5 none set1 empty) gatedHist [b!"a"] (by rfl) ⟨b!"/b", [], []⟩ rfl (by decide) gateFn rfl gateFn_asks h hs
    nobody).1 ⟨mGet, b!"/a/:id", 1⟩ (by simp [gatedHist]) ⟨[.par b!"id"], by decide +kernel⟩
example : matchRoute (routePats ⟨mGet, b!"/a/:id", 1⟩) (segs (wirePath ⟨b!"/b", [], []⟩)) = none := by
  obtain ⟨sv, h, hs⟩ := served_ret (o := gated b!"/b" []) (p := fun sv => sv.ran.isSome) (by decide +kernel)
  exact C102_slash gatedHist [b!"a"] ⟨b!"/b", [], []⟩ rfl (by decide) gateFn rfl
    (fun r hr => gateFn_asks r (List.IsPrefix.trans ⟨[47], rfl⟩ hr)) h hs
    nobody ⟨mGet, b!"/a/:id", 1⟩ (by simp [gatedHist]) ⟨[.par b!"id"], by decide +kernel⟩ (by decide +kernel)
example : ∃ sv, gated b!"/a/7" [] = .ret sv ∧ sv.ran = none ∧ sv.resp.status = 401 := by
  obtain ⟨sv, h, -⟩ := served_ret (o := gated b!"/a/7" []) (p := fun _ => true) (by decide +kernel)
  obtain ⟨h1, h2, -⟩ := C103_exact (by decide) gateFn rfl (by decide +kernel) rfl h
  exact ⟨sv, h, h1, h2⟩
example : ∃ sv, gated b!"/a/7" [] = .ret sv ∧ ∃ v, sv.resp.headers.filter (fun e => e.1 = b!"WWW-Authenticate") = [(b!"WWW-Authenticate", v)] ∧
    readChallenge (headerValue v) = some (b!"Basic", [(b!"realm", b!"staff"), (b!"charset", b!"latin1")]) := by
  obtain ⟨sv, h, -⟩ := served_ret (o := gated b!"/a/7" []) (p := fun _ => true) (by decide +kernel)
  obtain ⟨⟨-, -, h3⟩, -⟩ := C103_dialogue_partial (by decide) (by decide) gateFn rfl (by decide +kernel) rfl b!"staff" b!"latin1"
    (by decide +kernel) (by unfold Quotable; decide) (by unfold Quotable; decide) b!"alice" b!"pw" (by decide) (by decide) (by decide) (by decide)
    (by decide) h
  exact ⟨sv, h, h3⟩
example : ∃ sv, gated b!"/a/7" (basicHeader b!"alice" b!"pw") = .ret sv ∧
    serveHTTP id lazy (fun (_ : Nat) _ => false) id (server 5 none set1 empty) { authOf AccessEx.ops with use := false }
      ⟨mGet, wirePath ⟨b!"/a/7", [], []⟩, basicHeader b!"alice" b!"pw"⟩ ⟨200, [], []⟩ (fun a => a.length) [] 0 = .ret ⟨[], sv.ran, sv.resp⟩ := by
  obtain ⟨sv, h, -⟩ := served_ret (o := gated b!"/a/7" (basicHeader b!"alice" b!"pw")) (p := fun _ => true) (by decide +kernel)
  exact ⟨sv, h, (C103_repeat (req := ⟨mGet, wirePath ⟨b!"/a/7", [], []⟩, []⟩) (by decide) (by decide) (by decide) b!"alice" b!"pw" (by decide) (by decide) (by decide) (by decide)
    (by decide) _ rfl).1 sv h⟩

/-! #### Orderly tables -/

def neat : List (Reg Nat) := [⟨b!"GET", b!"/user/:id", 1⟩, ⟨b!"POST", b!"/user/:id/:action", 2⟩, ⟨b!"GET", b!"/a/b", 3⟩,
  ⟨b!"GET", b!"/a", 4⟩, ⟨b!"POST", b!"/a", 5⟩]
theorem neat_orderly : orderly (neat.map routePats) := (orderlyCheck_iff _).1 (by decide +kernel)
theorem neat_clean : ∀ r ∈ neat, Clean r := by decide +kernel

example : treeFind (treeOf neat) b!"POST" b!"/user/7/edit" [] = .ret ⟨some 2, true, [(b!"id", b!"7"), (b!"action", b!"edit")]⟩ :=
  (C97_reading neat neat_clean neat_orderly b!"POST" b!"/user/7/edit" []).trans (by decide +kernel)
/-- Another order of the same table. -/
def neat' : List (Reg Nat) := [⟨b!"GET", b!"/a", 4⟩, ⟨b!"GET", b!"/user/:id", 1⟩, ⟨b!"POST", b!"/user/:id/:action", 2⟩,
  ⟨b!"GET", b!"/a/b", 3⟩, ⟨b!"POST", b!"/a", 5⟩]
example : treeFind (treeOf neat) b!"GET" b!"/a" [] = treeFind (treeOf neat') b!"GET" b!"/a" [(b!"x", b!"y")] := by
  have hp : neat.Perm neat' := List.perm_middle (a := (⟨b!"GET", b!"/a", 4⟩ : Reg Nat)) (l₁ := [⟨b!"GET", b!"/user/:id", 1⟩, ⟨b!"POST", b!"/user/:id/:action", 2⟩,
    ⟨b!"GET", b!"/a/b", 3⟩]) (l₂ := [⟨b!"POST", b!"/a", 5⟩])
  have hm : ∀ r ∈ neat, (matchRoute (routePats r) (segs b!"/a")).isSome = true → covers r.method b!"GET" = true → r = ⟨b!"GET", b!"/a", 4⟩ := by
    intro r hr h1 h2
    simp only [neat, List.mem_cons, List.not_mem_nil, or_false] at hr
    rcases hr with rfl | rfl | rfl | rfl | rfl
    · exact absurd h1 (by decide +kernel)
    · exact absurd h1 (by decide +kernel)
    · exact absurd h1 (by decide +kernel)
    · rfl
    · exact absurd h2 (by decide +kernel)
  exact C97_order neat neat' hp neat_clean neat_orderly ((orderlyCheck_iff _).1 (by decide +kernel)) b!"GET" b!"/a" [] _
    (fun r hr r' hr' h1 h2 h3 h4 => (hm r hr h1 h2).trans (hm r' hr' h3 h4).symm)

/-! #### The answer -/

def said (p : Str) : Outcome (Served Nat) :=
  serveHTTP id lazy (fun (_ : Nat) _ => false) id (server 5 none AnswerEx.set2 empty) newBaseAuth ⟨mGet, p, []⟩ ⟨200, [], []⟩ (fun a => a.length) [] 0

theorem said_ret {p : Str} {f : Done Nat → Bool}
    (h : (match said p with | .ret sv => (match sv.ran with | some d => f d | none => false) | _ => false) = true) :
    ∃ sv d, said p = .ret sv ∧ sv.ran = some d ∧ f d = true := by
  obtain ⟨sv, h1, h2⟩ := served_ret h
  cases hd : sv.ran with
  | none => rw [hd] at h2; cases h2
  | some d => rw [hd] at h2; exact ⟨sv, d, h1, hd, h2⟩

/-- The writes of four handlers, and nothing else, are the answer. -/
example : ∃ sv d, said b!"/a/7" = .ret sv ∧ sv.ran = some d ∧ (changes none d.trace).length = 4 ∧
    Leads ⟨200, [], []⟩ ((changes none d.trace).map (·.2)) sv.resp := by
  obtain ⟨sv, d, h1, h2, h3⟩ := said_ret (p := b!"/a/7") (f := fun d => d.ctx.isSome && decide ((changes none d.trace).length = 4)) (by decide +kernel)
  simp only [Bool.and_eq_true, decide_eq_true_eq] at h3
  obtain ⟨c, hc⟩ := Option.isSome_iff_exists.1 h3.1
  exact ⟨sv, d, h1, h2, h3.2, (C87_response h1 h2 hc).2⟩
example : ∃ sv, said b!"/b" = .ret sv ∧ sv.resp = ⟨200, [], []⟩ := by
  obtain ⟨sv, d, h1, h2, h3⟩ := said_ret (p := b!"/b") (f := fun d => d.ctx.isSome && decide (changes none d.trace = [])) (by decide +kernel)
  simp only [Bool.and_eq_true, decide_eq_true_eq] at h3
  obtain ⟨c, hc⟩ := Option.isSome_iff_exists.1 h3.1
  exact ⟨sv, h1, C87_silent h1 h2 hc h3.2⟩
example : ∃ sv, said b!"/c" = .ret sv ∧ sv.resp.status = 404 := by
  obtain ⟨sv, d, h1, h2, h3⟩ := said_ret (p := b!"/c") (f := fun d => d.ctx.isNone) (by decide +kernel)
  exact ⟨sv, h1, by rw [(C87_unrouted h1 h2 (Option.isNone_iff_eq_none.1 h3)).1]⟩

/-! #### The loggers of requests -/

def keepMsg : (Str → Option (FV Unit)) → Option Str := fun f => match f b!"message" with | some (.str m) => some m | _ => none
/-- A server at level 4 and the contexts of two requests. -/
def reqOps : List (RLOp Unit) := [.setLogLevel 4, .setLoggerWriter 7, .newContext b!"t0", .newContext b!"t1"]

theorem reqOps_logger : ∃ l, (rlRun keepMsg (reqOps ++ [.route 0 b!"t2"])).ctxs[0]? = some l ∧
    (rlRun keepMsg (reqOps ++ [.route 0 b!"t2"])).heap.val.logs[l]? = some (freshFor reqOps b!"t2") := by
  obtain ⟨l, h1, -, h3⟩ := C89_handlers_begin keepMsg reqOps 0 b!"t2" (by decide +kernel)
  exact ⟨l, h1, h3⟩
/-- Another request and the server change their settings; the first request still logs at the old level to the old writer. -/
example : ∃ l : Nat, (rlRun keepMsg (reqOps ++ [.route 0 b!"t2"] ++ [.setLogLevel 6, .setLoggerWriter 8, .route 1 b!"t3", .setLoggerLevel 1 0])).heap.val.logs[l]?
    = some (freshFor reqOps b!"t2") := by
  obtain ⟨l, h1, -⟩ := reqOps_logger
  exact ⟨l, (C89_isolated keepMsg reqOps [.setLogLevel 6, .setLoggerWriter 8, .route 1 b!"t3", .setLoggerLevel 1 0] 0 l b!"t2"
    (by decide +kernel) h1 (by simp [Foreign])).2.2⟩
example : ∃ l, (rlRun keepMsg (reqOps ++ [.route 0 b!"t2"] ++ [.setLogLevel 6] ++ [.user (.logf l 5 b!"x")])).heap.out =
    (rlRun keepMsg (reqOps ++ [.route 0 b!"t2"] ++ [.setLogLevel 6])).heap.out := by
  obtain ⟨l, h1, -⟩ := reqOps_logger
  refine ⟨l, ?_⟩
  have h := C89_message keepMsg reqOps [.setLogLevel 6] 0 l b!"t2" (by decide +kernel) h1 (by simp [Foreign]) 5 b!"x"
  rw [if_neg (by decide +kernel), List.append_nil] at h
  exact h

/-! #### The listing -/

example : ∃ lines : List Line, treeString (fun n : Nat => if n = 1 then b!"one" else b!"two") List.reverse (treeOf neat) = .ret (lines.flatMap Line.text) ∧
    ∃ es, ([(b!"a", b!"")], es) ∈ (indented [] lines).map (fun x => (x.1.drop 1, x.2)) ∧ (b!"GET", b!"two") ∈ es := by
  obtain ⟨lines, h1, h2⟩ := C95_listing (fun n : Nat => if n = 1 then b!"one" else b!"two") List.reverse (fun l => List.reverse_perm l)
    neat (Or.inl neat_clean)
  have := (h2 (shownRoute (routePats ⟨b!"GET", b!"/a", 4⟩)) b!"GET" b!"two").2 ⟨3, ⟨b!"GET", b!"/a", 4⟩, rfl, rfl, by decide, by decide, ?_⟩
  · obtain ⟨es, h3, h4⟩ := this
    have hs : (shownRoute (routePats ⟨b!"GET", b!"/a", 4⟩)).drop 1 = [(b!"a", b!"")] := by decide +kernel
    exact ⟨lines, h1, es, List.mem_map.2 ⟨_, h3, Prod.ext hs rfl⟩, h4⟩
  · intro _ j r' hj hr' _
    match j, hj with
    | 4, _ => cases hr'; decide
    | j + 5, _ => simp [neat] at hr'
example : treeString (fun n : Nat => if n = 1 then b!"one" else b!"two") id (treeAdd (treeOf neat) b!"GET" b!"/x" none) = .panic :=
  C95_nil _ id (fun l => List.Perm.refl l) (treeOf neat) b!"GET" b!"/x"

end Verif.Witness
