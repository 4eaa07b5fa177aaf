import Verif.Spec.Determined
import Verif.Props.StaticReg
/-
C122: equal requests are answered alike.
-/
namespace Verif
open Spec
variable {σ ρ υ η : Type} [DecidableEq ρ]

/-- The registration that C13 finds, declaratively. -/
theorem answers_find (rxMatch : ρ → Str → Bool) (rxs : List (RxReg ρ σ)) (m : Method) (path : Str) (r : RxReg ρ σ) :
    (rxMatch r.rx path = true ∧ (rxs.reverse.find? fun x => decide (x.rx = r.rx) && covers x.method m) = some r) ↔
      Answers rxMatch rxs m path r := by
  unfold Answers
  refine and_congr_right fun _ => ?_
  rw [List.find?_eq_some_iff_append]
  constructor
  · rintro ⟨h1, as, bs, h2, h3⟩
    simp only [Bool.and_eq_true, decide_eq_true_eq, true_and] at h1
    refine ⟨h1, bs.reverse, as.reverse, ?_, ?_⟩
    · have := congrArg List.reverse h2
      simpa using this
    · intro o ho hc
      have := h3 o (by simpa using ho)
      simp [hc.1, hc.2] at this
  · rintro ⟨h1, before, after, rfl, h3⟩
    refine ⟨by simp [h1], after.reverse, before.reverse, by simp, ?_⟩
    intro o ho
    have := h3 o (by simpa using ho)
    rw [Bool.not_eq_true']
    cases hd : (decide (o.rx = r.rx) && covers o.method m) with
    | false => rfl
    | true =>
      simp only [Bool.and_eq_true, decide_eq_true_eq] at hd
      exact absurd hd this

omit [DecidableEq ρ] in
/-- Nothing found, no set. -/
theorem regFind_nothing (rxMatch : ρ → Str → Bool) (visit : GoMap ρ (Option σ) → List (ρ × Option σ)) (t : RegTable ρ σ)
    (m : Method) (path : Str) (buf : Args) (h : (regFind rxMatch visit t m path buf).found = false) :
    (regFind rxMatch visit t m path buf).set = none := by
  unfold regFind at h ⊢
  dsimp only at h ⊢
  split
  · rfl
  · split
    · rename_i h1 _ _ h2
      rw [h1] at h
      dsimp only at h
      rw [h2] at h
      cases h
    · rfl

section
variable (rxMatch : ρ → Str → Bool) (tree : Node σ) (rxs : List (RxReg ρ σ)) (m : Method) (path : Str) (buf : Args)

/-- The answers that are possible: that of the tree, or else those of the expressions that match. -/
theorem C122_possible (hm : ∀ r ∈ rxs, r.method ∈ rxMethods) (s : σ) (args : Args) :
    (∃ visit, AnyOrder visit ∧ serverFind rxMatch visit tree (regOf rxs) m path buf = .ret ⟨some s, true, args⟩) ↔
      treeFind tree m path buf = .ret ⟨some s, true, args⟩ ∨
      ((∀ res, treeFind tree m path buf = .ret res → res.found = false) ∧ args = [] ∧
        ∃ r, Answers rxMatch rxs m path r ∧ r.set = s) := by
  have hc13 := C13_possible rxs hm rxMatch m path [] (some s)
  constructor
  · rintro ⟨visit, hv, h⟩
    obtain ⟨rt, h1, h2, h3, -⟩ := C14_tree_first rxMatch visit tree (regOf rxs) m path buf
    cases hf : rt.found with
    | true =>
      left
      rw [h2 hf] at h
      rw [h1, ← h]
    | false =>
      right
      rw [h3 hf] at h
      have h := Outcome.ret.inj h
      have ha : args = [] := by
        have h4 := C12_server_buffer rxMatch visit tree (regOf rxs) m path buf buf
        have h5 := h4.2 _ (h3 hf) (.inr fun rt' h' => by rw [h1] at h'; cases h'; exact hf)
        rw [h] at h5
        exact h5
      subst ha
      refine ⟨fun res hr => by rw [h1] at hr; cases hr; exact hf, rfl, ?_⟩
      obtain ⟨r, a, b, c⟩ := hc13.1 ⟨visit, hv, h⟩
      exact ⟨r, (answers_find ..).1 ⟨a, c⟩, (Option.some.inj b).symm⟩
  · rintro (h | ⟨h, rfl, r, ha, rfl⟩)
    · obtain ⟨rt, h1, h2, -⟩ := C14_tree_first rxMatch (fun l => l) tree (regOf rxs) m path buf
      rw [h] at h1
      cases h1
      exact ⟨_, fun l => List.Perm.refl l, h2 rfl⟩
    · have ⟨a, c⟩ := (answers_find ..).2 ha
      obtain ⟨visit, hv, h'⟩ := hc13.2 ⟨r, a, rfl, c⟩
      obtain ⟨rt, h1, -, h3, -⟩ := C14_tree_first rxMatch visit tree (regOf rxs) m path buf
      exact ⟨visit, hv, (h3 (h rt h1)).trans (by rw [h'])⟩

/-- **C122 (exact).** Two lookups of a method and a path give the same answer, in whatever orders Go visits the table of
expressions, exactly if the tree answers or all expressions that match were registered (latest) with the same handler set. -/
theorem C122_exact (hm : ∀ r ∈ rxs, r.method ∈ rxMethods) :
    (∀ v v', AnyOrder v → AnyOrder v' → serverFind rxMatch v tree (regOf rxs) m path buf = serverFind rxMatch v' tree (regOf rxs) m path buf) ↔
      (∃ res, treeFind tree m path buf = .ret res ∧ res.found = true) ∨
      ∀ r r', Answers rxMatch rxs m path r → Answers rxMatch rxs m path r' → r.set = r'.set := by
  constructor
  · intro h
    cases hf : (∃ res, treeFind tree m path buf = .ret res ∧ res.found = true : Prop) |> Classical.propDecidable with
    | isTrue ht => exact .inl ht
    | isFalse hn =>
      right
      intro r r' hr hr'
      have hno : ∀ res, treeFind tree m path buf = .ret res → res.found = false := by
        intro res hres
        cases hb : res.found with
        | false => rfl
        | true => exact absurd ⟨res, hres, hb⟩ hn
      obtain ⟨v, hv, h1⟩ := (C122_possible rxMatch tree rxs m path buf hm r.set []).2 (.inr ⟨hno, rfl, r, hr, rfl⟩)
      obtain ⟨v', hv', h2⟩ := (C122_possible rxMatch tree rxs m path buf hm r'.set []).2 (.inr ⟨hno, rfl, r', hr', rfl⟩)
      have := h v v' hv hv'
      rw [h1, h2] at this
      simpa using this
  · intro h v v' hv hv'
    obtain ⟨rt, h1, h2, h3, -⟩ := C14_tree_first rxMatch v tree (regOf rxs) m path buf
    obtain ⟨rt', h1', h2', h3', -⟩ := C14_tree_first rxMatch v' tree (regOf rxs) m path buf
    rw [h1] at h1'
    cases h1'
    cases hf : rt.found with
    | true => rw [h2 hf, h2' hf]
    | false =>
      rw [h3 hf, h3' hf]
      have h : ∀ r r', Answers rxMatch rxs m path r → Answers rxMatch rxs m path r' → r.set = r'.set := by
        rcases h with ⟨res, hr, hfound⟩ | h
        · rw [h1] at hr
          cases hr
          rw [hf] at hfound
          cases hfound
        · exact h
      obtain ⟨i1, i2, i3⟩ := C13_found_iff rxs hm rxMatch v hv m path []
      obtain ⟨j1, j2, j3⟩ := C13_found_iff rxs hm rxMatch v' hv' m path []
      have i4 := regFind_nothing rxMatch v (regOf rxs) m path []
      have j4 := regFind_nothing rxMatch v' (regOf rxs) m path []
      generalize regFind rxMatch v (regOf rxs) m path [] = a at *
      generalize regFind rxMatch v' (regOf rxs) m path [] = b at *
      congr 1
      obtain ⟨as, af, aa⟩ := a
      obtain ⟨bs, bf, ba⟩ := b
      simp only at *
      subst i3 j3
      have hab : af = bf := by
        rw [Bool.eq_iff_iff, i1, j1]
      subst hab
      cases af with
      | false => rw [i4 rfl, j4 rfl]
      | true =>
        obtain ⟨r, x1, x2, x3⟩ := i2 rfl
        obtain ⟨r', y1, y2, y3⟩ := j2 rfl
        rw [x2, y2, h r r' ((answers_find ..).1 ⟨x1, x3⟩) ((answers_find ..).1 ⟨y1, y3⟩)]

end

/-- Processing depends on the order only through the lookup. -/
theorem serveHTTP_order (u : Str → Str) (env : Env υ) (rxMatch : ρ → Str → Bool)
    (v v' : GoMap ρ (Option σ) → List (ρ × Option σ)) (srv : Srv υ σ ρ) (ba : BaseAuth) (req : Req)
    (resp : Resp) (store : Args → υ) (buf : Args) (clock : Nat)
    (h : serverFind rxMatch v srv.tree srv.regs req.method req.path buf = serverFind rxMatch v' srv.tree srv.regs req.method req.path buf) :
    serveHTTP u env rxMatch v srv ba req resp store buf clock = serveHTTP u env rxMatch v' srv ba req resp store buf clock := by
  unfold serveHTTP runHTTP
  rw [h]

/-- **C122 (partial).** A request whose path is answered by the tree, or is matched by expressions of one handler set only, is
processed in the same way whatever the orders: same handlers, same response, same result. Missing: paths that expressions of
different handler sets match, for which it is false (C122_exact, C122_violated). -/
theorem C122_served_partial (u : Str → Str) (env : Env υ) (rxMatch : ρ → Str → Bool) (srv : Srv υ σ ρ) (rxs : List (RxReg ρ σ))
    (hr : srv.regs = regOf rxs) (hm : ∀ r ∈ rxs, r.method ∈ rxMethods) (ba : BaseAuth) (req : Req) (resp : Resp) (store : Args → υ)
    (buf : Args) (clock : Nat)
    (h : (∃ res, treeFind srv.tree req.method req.path buf = .ret res ∧ res.found = true) ∨
      ∀ r r', Answers rxMatch rxs req.method req.path r → Answers rxMatch rxs req.method req.path r' → r.set = r'.set)
    (v v' : GoMap ρ (Option σ) → List (ρ × Option σ)) (hv : AnyOrder v) (hv' : AnyOrder v') :
    serveHTTP u env rxMatch v srv ba req resp store buf clock = serveHTTP u env rxMatch v' srv ba req resp store buf clock := by
  apply serveHTTP_order
  rw [hr]
  exact (C122_exact rxMatch srv.tree rxs req.method req.path buf hm).2 h v v' hv hv'

/-- **C122, static routes.** Any number of StaticFile and StaticFileFS routes with prefixes of ordinary characters, each with an
expression of its own: the handler sets that may answer a GET or HEAD request that the tree does not answer are exactly those of
the routes whose prefix, followed by a slash, the path begins with — those registered earlier as well as those registered later
for the same prefix, and those with the shorter prefix as well as those with the longer one. -/
theorem C122_static (tree : Node σ) (rxs : List (RxReg RxPtr σ)) (pre : RxReg RxPtr σ → Str)
    (hreg : ∀ r ∈ rxs, r.method = b!"GETHEAD" ∧ PlainText (pre r) ∧ rxCompileAt r.rx.addr (staticExpr (pre r)) = some r.rx)
    (hown : (rxs.map (·.rx.addr)).Nodup) (m : Method) (hmeth : m = b!"GET" ∨ m = b!"HEAD") (path : Str) (buf : Args)
    (hno : ∀ res, treeFind tree m path buf = .ret res → res.found = false) (s : σ) :
    (∃ visit, AnyOrder visit ∧ serverFind RxPtr.matches visit tree (regOf rxs) m path buf = .ret ⟨some s, true, []⟩) ↔
      ∃ r ∈ rxs, (pre r ++ b!"/") <+: path ∧ r.set = s := by
  have hm : ∀ r ∈ rxs, r.method ∈ rxMethods := fun r hr => by rw [(hreg r hr).1]; decide
  have hmatch : ∀ r ∈ rxs, (r.rx.matches path = true ↔ (pre r ++ b!"/") <+: path) := by
    intro r hr
    obtain ⟨-, h2, h3⟩ := hreg r hr
    obtain ⟨parts, hc, hp⟩ := rx_literal (pre r) h2
    unfold rxCompileAt staticExpr at h3
    rw [hc] at h3
    have : r.rx = ⟨r.rx.addr, parts⟩ := (Option.some.inj h3).symm
    rw [this]
    exact hp path
  have hcov : covers b!"GETHEAD" m = true := by rcases hmeth with rfl | rfl <;> decide
  rw [C122_possible RxPtr.matches tree rxs m path buf hm s []]
  constructor
  · rintro (h | ⟨-, -, r, ⟨h1, -, before, after, h3, -⟩, h4⟩)
    · exact absurd (hno _ h) (by simp)
    · have hr : r ∈ rxs := by rw [h3]; simp
      exact ⟨r, hr, (hmatch r hr).1 h1, h4⟩
  · rintro ⟨r, hr, h1, h2⟩
    refine .inr ⟨hno, rfl, r, ⟨(hmatch r hr).2 h1, by rw [(hreg r hr).1]; exact hcov, ?_⟩, h2⟩
    obtain ⟨before, after, e⟩ := List.append_of_mem hr
    refine ⟨before, after, e, fun o ho hc => ?_⟩
    rw [e] at hown
    simp only [List.map_append, List.map_cons] at hown
    have := (List.nodup_append.1 hown).2.1
    rw [List.nodup_cons] at this
    exact this.1 (List.mem_map.2 ⟨o, ho, by rw [hc.1]⟩)

/-- The main handler that answers, in a program's server. -/
def answeredBy (visit : GoMap RxPtr (Option Nat) → List (RxPtr × Option Nat)) (w : World Nat RxPtr) (m : Method) (path : Str) : Option Nat :=
  match serverFind RxPtr.matches visit w.tree w.regs m path [] with
  | .ret res => res.set.bind fun a => (setHandlers w a).bind (·.main)
  | _ => none

/-- The program: StaticFile for two prefixes, one after the other, with the handlers 1 and 2. -/
def twoStatic (p q : Str) : Option (List (Op Nat RxPtr)) :=
  (staticCalls (rxCompileAt 0) 0 p (some 1) []).bind fun c =>
    (staticCalls (rxCompileAt 1) (progState (fun _ n => n) c).setVars.length q (some 2) []).map (c ++ ·)

/-- **C122 (violated).** A static route that is registered again for its prefix does not replace the earlier one, and of two static
routes with nested prefixes either may answer: two requests for the same path, on an unchanged server, get different files. -/
theorem C122_violated :
    (∃ ops, twoStatic b!"/files" b!"/files" = some ops ∧
      ∃ v v', AnyOrder v ∧ AnyOrder v' ∧ answeredBy v (progState (fun _ n => n) ops) b!"GET" b!"/files/x" = some 1 ∧
        answeredBy v' (progState (fun _ n => n) ops) b!"GET" b!"/files/x" = some 2) ∧
    (∃ ops, twoStatic b!"/a" b!"/a/b" = some ops ∧
      ∃ v v', AnyOrder v ∧ AnyOrder v' ∧ answeredBy v (progState (fun _ n => n) ops) b!"GET" b!"/a/b/x" = some 1 ∧
        answeredBy v' (progState (fun _ n => n) ops) b!"GET" b!"/a/b/x" = some 2) := by
  refine ⟨⟨_, rfl, List.reverse, fun l => l, fun l => List.reverse_perm l, fun l => List.Perm.refl l, ?_, ?_⟩,
    ⟨_, rfl, List.reverse, fun l => l, fun l => List.reverse_perm l, fun l => List.Perm.refl l, ?_, ?_⟩⟩ <;> decide +kernel

/-- The static registrations of the example, as `C122_static` takes them. -/
example : ∃ r1 r2 : RxPtr, rxCompileAt 0 (staticExpr b!"/a") = some r1 ∧ rxCompileAt 1 (staticExpr b!"/a/b") = some r2 ∧
    r1.addr = 0 ∧ r2.addr = 1 ∧
    (([⟨b!"GETHEAD", r1, 1⟩, ⟨b!"GETHEAD", r2, 2⟩] : List (RxReg RxPtr Nat)).map (·.rx.addr)).Nodup :=
  ⟨_, _, rfl, rfl, rfl, rfl, by decide⟩

/-- A path that one expression matches, and one that none does. -/
example : Answers (fun rx _ => rx == 1) ([⟨b!"GETPOST", 1, 10⟩, ⟨b!"GET", 2, 20⟩, ⟨b!"POST", 1, 11⟩] : List (RxReg Nat Nat)) b!"GET" b!"/x"
    ⟨b!"GETPOST", 1, 10⟩ :=
  ⟨rfl, by decide, [], [⟨b!"GET", 2, 20⟩, ⟨b!"POST", 1, 11⟩], rfl, by decide⟩

end Verif
