import Verif.Spec.Diverge
import Verif.Props.Frame
/-
C132 for every table: parts of a table whose routes part can be registered in any order.
-/
namespace Verif
open Spec
variable {σ : Type}

/-- The same way, but for the order of two registrations. -/
def Swapped (r o : Row σ) (f g : Fork σ) : Prop :=
  f = g ∨ (f.text = g.text ∧ f.name = [] ∧ g.name = [] ∧ ∃ X Y, f.rows = X ++ [r, o] ++ Y ∧ g.rows = X ++ [o, r] ++ Y)

inductive AllSwapped (r o : Row σ) : List (Fork σ) → List (Fork σ) → Prop
  | nil : AllSwapped r o [] []
  | cons {f g : Fork σ} {fs gs : List (Fork σ)} : Swapped r o f g → AllSwapped r o fs gs → AllSwapped r o (f :: fs) (g :: gs)

theorem AllSwapped.refl (r o : Row σ) : ∀ fs, AllSwapped r o fs fs
  | [] => .nil
  | _ :: fs => .cons (Or.inl rfl) (AllSwapped.refl r o fs)

theorem swapped_take {r o x : Row σ} {f g : Fork σ} (h : Swapped r o f g) : Swapped r o (f.take x) (g.take x) := by
  rcases h with rfl | ⟨h1, h2, h3, X, Y, h4, h5⟩
  · exact Or.inl rfl
  · refine Or.inr ⟨h1, h2, h3, X, Y ++ [x], ?_, ?_⟩
    · simp only [Fork.take, h4, List.append_assoc]
    · simp only [Fork.take, h5, List.append_assoc]

theorem swapped_text {r o : Row σ} {f g : Fork σ} (h : Swapped r o f g) : f.text = g.text := by
  rcases h with rfl | h
  · rfl
  · exact h.1

theorem allSwapped_first {r o : Row σ} (p : Str) (x : Row σ) {fs gs : List (Fork σ)} (h : AllSwapped r o fs gs) :
    AllSwapped r o (forkFirst p x fs) (forkFirst p x gs) := by
  induction h with
  | nil => exact .refl ..
  | cons h hs ih =>
    simp only [forkFirst, swapped_text h]
    split
    · exact .cons (swapped_take h) hs
    · exact .cons h ih

theorem allSwapped_foldl {r o : Row σ} : ∀ (B : List (Row σ)) {fs gs : List (Fork σ)}, AllSwapped r o fs gs →
    AllSwapped r o (B.foldl (fork false) fs) (B.foldl (fork false) gs) := by
  intro B
  induction B with
  | nil => intro fs gs h; exact h
  | cons b B ih =>
    intro fs gs h
    refine ih ?_
    unfold fork
    split
    · exact h
    · simp only [Bool.false_eq_true, false_and, if_false]
      exact allSwapped_first _ _ h

/-- Two registrations that go the same way, one after the other. -/
theorem allSwapped_two (p : Str) (hp : LitSeg p) (r o : Row σ) : ∀ fs : List (Fork σ), (∀ f ∈ fs, OfSegment f) →
    AllSwapped r o (forkFirst p o (forkFirst p r fs)) (forkFirst p r (forkFirst p o fs)) := by
  have ht : segText p = p := by unfold segText; rw [if_neg hp.2]
  have hn : segName p = [] := by unfold segName; rw [if_neg hp.2]
  intro fs
  induction fs with
  | nil =>
    intro _
    simp only [forkFirst, ht, hn, if_true]
    exact .cons (Or.inr ⟨rfl, rfl, rfl, [], [], rfl, rfl⟩) .nil
  | cons f fs ih =>
    intro h
    by_cases hf : f.text = p
    · have hname := (h f (List.mem_cons_self ..)).lit hp.1 hf
      simp only [forkFirst, Fork.take, hf, if_true]
      exact .cons (Or.inr ⟨rfl, hname, hname, f.rows, [], by simp, by simp⟩) (.refl ..)
    · simp only [forkFirst, hf, if_false]
      exact .cons (Or.inl rfl) (ih fun x hx => h x (List.mem_cons_of_mem _ hx))

theorem allSwapped_share {r o : Row σ} (s : Str) (ss : List Str)
    (ih : ∀ A B : List (Row σ), choices false (A ++ [r, o] ++ B) ss = choices false (A ++ [o, r] ++ B) ss)
    {fs gs : List (Fork σ)} (h : AllSwapped r o fs gs) : fs.flatMap (share s ss) = gs.flatMap (share s ss) := by
  induction h with
  | nil => rfl
  | cons h hs ihs =>
    simp only [List.flatMap_cons, ihs]
    congr 1
    rcases h with rfl | ⟨h1, h2, h3, X, Y, h4, h5⟩
    · rfl
    · unfold share
      rw [if_pos h2, if_pos h3, h1, h4, h5, ih X Y]

/-- The same ways, two neighbours without name and with different texts in the other order - or the same ways altogether. -/
def Crossed (fs gs : List (Fork σ)) : Prop :=
  fs = gs ∨ ∃ (L : List (Fork σ)) (e f : Fork σ) (R : List (Fork σ)), e.text ≠ f.text ∧ e.name = [] ∧ f.name = [] ∧
    fs = L ++ e :: f :: R ∧ gs = L ++ f :: e :: R

theorem Crossed.cons {fs gs : List (Fork σ)} (x : Fork σ) (h : Crossed fs gs) : Crossed (x :: fs) (x :: gs) := by
  rcases h with rfl | ⟨L, e, f, R, h1, h2, h3, rfl, rfl⟩
  · exact Or.inl rfl
  · exact Or.inr ⟨x :: L, e, f, R, h1, h2, h3, rfl, rfl⟩

theorem crossed_first (p : Str) (r : Row σ) {fs gs : List (Fork σ)} (h : Crossed fs gs) : Crossed (forkFirst p r fs) (forkFirst p r gs) := by
  rcases h with rfl | ⟨L, e, f, R, h1, h2, h3, rfl, rfl⟩
  · exact Or.inl rfl
  · induction L with
    | nil =>
      simp only [List.nil_append, forkFirst]
      by_cases a : e.text = p
      · have b : ¬ f.text = p := fun b => h1 (a.trans b.symm)
        rw [if_pos a, if_neg b, if_pos a]
        exact Or.inr ⟨[], e.take r, f, R, h1, h2, h3, rfl, rfl⟩
      · rw [if_neg a]
        by_cases b : f.text = p
        · rw [if_pos b, if_pos b]
          exact Or.inr ⟨[], e, f.take r, R, h1, h2, h3, rfl, rfl⟩
        · rw [if_neg b, if_neg b, if_neg a]
          exact Or.inr ⟨[], e, f, forkFirst p r R, h1, h2, h3, rfl, rfl⟩
    | cons x L ih =>
      simp only [List.cons_append, forkFirst]
      split
      · exact Or.inr ⟨x.take r :: L, e, f, R, h1, h2, h3, rfl, rfl⟩
      · exact ih.cons x

theorem crossed_foldl : ∀ (B : List (Row σ)) {fs gs : List (Fork σ)}, Crossed fs gs → Crossed (B.foldl (fork false) fs) (B.foldl (fork false) gs) := by
  intro B
  induction B with
  | nil => intro fs gs h; exact h
  | cons b B ih =>
    intro fs gs h
    refine ih ?_
    unfold fork
    split
    · exact h
    · simp only [Bool.false_eq_true, false_and, if_false]
      exact crossed_first _ _ h

/-- Two registrations that go on with different segments, neither of them a parameter. -/
theorem crossed_two (p q : Str) (hp : p.head? ≠ some 58) (hq : q.head? ≠ some 58) (hne : p ≠ q) (r o : Row σ) : ∀ fs : List (Fork σ),
    Crossed (forkFirst q o (forkFirst p r fs)) (forkFirst p r (forkFirst q o fs)) := by
  have t1 : segText p = p := by unfold segText; rw [if_neg hp]
  have t2 : segText q = q := by unfold segText; rw [if_neg hq]
  have n1 : segName p = [] := by unfold segName; rw [if_neg hp]
  have n2 : segName q = [] := by unfold segName; rw [if_neg hq]
  intro fs
  induction fs with
  | nil =>
    simp only [forkFirst, t1, t2, if_neg hne, if_neg (Ne.symm hne)]
    exact Or.inr ⟨[], _, _, [], hne, n1, n2, rfl, rfl⟩
  | cons f fs ih =>
    by_cases a : f.text = p
    · have b : ¬ f.text = q := fun b => hne (a.symm.trans b)
      have c : (f.take r).text = p := a
      have d : ¬ (f.take r).text = q := b
      simp only [forkFirst, if_pos a, if_neg b, if_neg d]
      exact Or.inl rfl
    · by_cases b : f.text = q
      · have d : ¬ (f.take o).text = p := a
        simp only [forkFirst, if_neg a, if_pos b, if_neg d]
        exact Or.inl rfl
      · simp only [forkFirst, if_neg a, if_neg b]
        exact ih.cons f

theorem crossed_share (s : Str) (ss : List Str) {fs gs : List (Fork σ)} (h : Crossed fs gs) : fs.flatMap (share s ss) = gs.flatMap (share s ss) := by
  rcases h with rfl | ⟨L, e, f, R, h1, h2, h3, rfl, rfl⟩
  · rfl
  · simp only [List.flatMap_append, List.flatMap_cons]
    congr 1
    by_cases a : e.text = s
    · have b : share s ss f = [] := by
        unfold share
        rw [if_pos h3, if_neg fun b => h1 (a.trans b.symm)]
      rw [b]
      simp
    · have b : share s ss e = [] := by
        unfold share
        rw [if_pos h2, if_neg a]
      rw [b]
      simp

theorem fork_lit {fs : List (Fork σ)} {r : Row σ} {p : Str} {ps : List Str} (hs : r.segs = p :: ps) :
    fork false fs r = forkFirst p { r with segs := ps } fs := by
  simp [fork, hs]

/-- Two registrations of a table that part, one after the other: their order does not matter. -/
theorem choices_swap (ss : List Str) : ∀ (A B : List (Row σ)) (r o : Row σ), Parting r.segs o.segs →
    choices false (A ++ [r, o] ++ B) ss = choices false (A ++ [o, r] ++ B) ss := by
  induction ss with
  | nil =>
    intro A B r o hp
    have : ¬ (r.segs = [] ∧ o.segs = []) := by
      rintro ⟨h1, h2⟩
      rw [h1, h2] at hp
      cases hp
    simp only [choices, List.filter_append, List.filter_cons, List.filter_nil]
    by_cases h1 : r.segs = []
    · have h2 : o.segs ≠ [] := fun h => this ⟨h1, h⟩
      simp [h1, h2]
    · simp [h1]
  | cons s ss ih =>
    intro A B r o hp
    have hof : ∀ f ∈ A.foldl (fork false) ([] : List (Fork σ)), OfSegment f := ofSegment_forks false A
    simp only [choices_cons, forks, List.foldl_append, List.foldl_cons, List.foldl_nil]
    cases hr : r.segs with
    | nil =>
      have e : ∀ fs : List (Fork σ), fork false fs r = fs := fun fs => by simp [fork, hr]
      rw [e, e]
    | cons p ps =>
      cases ho : o.segs with
      | nil =>
        have e : ∀ fs : List (Fork σ), fork false fs o = fs := fun fs => by simp [fork, ho]
        rw [e, e]
      | cons q qs =>
        rw [hr, ho] at hp
        simp only [fork_lit hr, fork_lit ho]
        cases hp with
        | same hl hp' =>
          exact allSwapped_share s ss (fun X Y => ih X Y { r with segs := ps } { o with segs := qs } hp')
            (allSwapped_foldl B (allSwapped_two p hl _ _ _ hof))
        | differ hp1 hq1 hne => exact crossed_share s ss (crossed_foldl B (crossed_two p q hp1 hq1 hne _ _ _))

/-- C132 for every table, one step: two registrations whose routes part can change places, whatever is registered before and
afterwards, odd routes or not. -/
theorem C132_every (A B : List (Reg σ)) (r o : Reg σ) (h : Parting (segs r.route) (segs o.route)) (m : Method) (path : Str) (buf buf' : Args) :
    treeFind (treeOf (A ++ [r, o] ++ B)) m path buf = treeFind (treeOf (A ++ [o, r] ++ B)) m path buf' := by
  rw [treeFind_every, treeFind_every]
  unfold serveEvery
  have := choices_swap (segs path) (A.map Reg.toRow) (B.map Reg.toRow) r.toRow o.toRow h
  simp only [List.map_append, List.map_cons, List.map_nil]
  rw [this]

/-- One registration moves past many. -/
theorem move_past (A B : List (Reg σ)) (a : Reg σ) : ∀ (X : List (Reg σ)), (∀ x ∈ X, Parting (segs a.route) (segs x.route)) → ∀ (C : List (Reg σ))
    (m : Method) (path : Str) (buf buf' : Args),
    treeFind (treeOf (A ++ C ++ [a] ++ X ++ B)) m path buf = treeFind (treeOf (A ++ C ++ X ++ [a] ++ B)) m path buf' := by
  intro X
  induction X with
  | nil =>
    intro _ C m path buf buf'
    simp only [List.append_nil]
    rw [treeFind_every, treeFind_every]
  | cons x X ih =>
    intro h C m path buf buf'
    have h1 := C132_every (A ++ C) (X ++ B) a x (h x (List.mem_cons_self ..)) m path buf buf
    have h2 := ih (fun y hy => h y (List.mem_cons_of_mem _ hy)) (C ++ [x]) m path buf buf'
    simp only [List.append_assoc, List.cons_append, List.nil_append] at h1 h2 ⊢
    rw [h1, h2]

/-- C132 for every table, parts: if every route of one part of the registrations parts from every route of the other, the two parts
can be registered one after the other or mixed in whatever way: every lookup is the same. -/
theorem C132_parts {X Y Z : List (Reg σ)} (hz : Shuffle X Y Z) (h : ∀ x ∈ X, ∀ y ∈ Y, Parting (segs y.route) (segs x.route)) (A B : List (Reg σ))
    (m : Method) (path : Str) (buf buf' : Args) :
    treeFind (treeOf (A ++ Z ++ B)) m path buf = treeFind (treeOf (A ++ (X ++ Y) ++ B)) m path buf' := by
  induction hz generalizing A buf buf' with
  | nil => rw [treeFind_every, treeFind_every]; simp
  | @left a x y z _ ih =>
    have := ih (fun x' hx => h x' (List.mem_cons_of_mem _ hx)) (A ++ [a]) buf buf'
    simp only [List.append_assoc, List.cons_append, List.nil_append] at this ⊢
    exact this
  | @right a x y z _ ih =>
    have h1 := ih (fun x' hx y' hy => h x' hx y' (List.mem_cons_of_mem _ hy)) (A ++ [a]) buf buf
    have h2 := move_past A (y ++ B) a x (fun x' hx => h x' hx a (List.mem_cons_self ..)) [] m path buf buf'
    simp only [List.append_assoc, List.cons_append, List.nil_append] at h1 h2 ⊢
    rw [h1, h2]

/-- C132 for every table, requests: servers whose parts were registered in such different orders answer every request alike, with the same effects. -/
theorem C132_parts_requests {υ ρ : Type} [DecidableEq ρ] {X Y Z : List (Reg σ)} (hz : Shuffle X Y Z)
    (h : ∀ x ∈ X, ∀ y ∈ Y, Parting (segs y.route) (segs x.route)) (A B : List (Reg σ)) (u : Str → Str) (env : Env υ) (rxMatch : ρ → Str → Bool)
    (visit : GoMap ρ (Option σ) → List (ρ × Option σ)) (srv : Srv υ σ ρ) (ba : BaseAuth) (req : Req) (resp : Resp)
    (store : Args → υ) (buf buf' : Args) (clock : Nat) :
    serveHTTP u env rxMatch visit { srv with tree := treeOf (A ++ Z ++ B) } ba req resp store buf clock =
      serveHTTP u env rxMatch visit { srv with tree := treeOf (A ++ (X ++ Y) ++ B) } ba req resp store buf' clock := by
  have hr : ∀ resp, runHTTP env rxMatch visit { srv with tree := treeOf (A ++ Z ++ B) } req.method req.path resp store buf clock =
      runHTTP env rxMatch visit { srv with tree := treeOf (A ++ (X ++ Y) ++ B) } req.method req.path resp store buf' clock := by
    intro resp
    unfold runHTTP serverFind
    simp only [C132_parts hz h A B req.method req.path buf buf']
  unfold serveHTTP
  simp only [hr]

/-- Two parts with odd routes, one below /api, the other below /web, mixed and one after the other; and two odd routes that do not part, whose order does
matter. -/
example :
    let X : List (Reg Nat) := [⟨b!"GET", b!"/api/:id", 1⟩, ⟨b!"GET", b!"/api//x", 2⟩]
    let Y : List (Reg Nat) := [⟨b!"GET", b!"/web//y", 3⟩, ⟨b!"GET", b!"/web/:", 4⟩]
    let Z : List (Reg Nat) := [⟨b!"GET", b!"/web//y", 3⟩, ⟨b!"GET", b!"/api/:id", 1⟩, ⟨b!"GET", b!"/web/:", 4⟩, ⟨b!"GET", b!"/api//x", 2⟩]
    Shuffle X Y Z ∧ (∀ x ∈ X, ∀ y ∈ Y, Parting (segs y.route) (segs x.route)) ∧
    treeFind (treeOf Z) b!"GET" b!"/api/7/x" [] = .ret ⟨some 2, true, [(b!"id", b!"7")]⟩ ∧
    treeFind (treeOf [⟨b!"GET", b!"/api//x", 2⟩, ⟨b!"GET", b!"/api/:id", 1⟩]) b!"GET" b!"/api/7/x" [] = .ret ⟨none, false, []⟩ := by
  refine ⟨.right (.left (.right (.left .nil))), ?_, by decide +kernel, by decide +kernel⟩
  have e1 : ∀ t, Parting (b!"web" :: t) [b!"api", b!":id"] := fun t => .differ (by decide) (by decide) (by decide)
  have e2 : ∀ t, Parting (b!"web" :: t) [b!"api", [], b!"x"] := fun t => .differ (by decide) (by decide) (by decide)
  have s1 : segs b!"/api/:id" = [b!"api", b!":id"] := by decide +kernel
  have s2 : segs b!"/api//x" = [b!"api", [], b!"x"] := by decide +kernel
  have s3 : segs b!"/web//y" = [b!"web", [], b!"y"] := by decide +kernel
  have s4 : segs b!"/web/:" = [b!"web", b!":"] := by decide +kernel
  intro x hx y hy
  simp only [List.mem_cons, List.not_mem_nil, or_false] at hx hy
  rcases hx with rfl | rfl <;> rcases hy with rfl | rfl <;> simp only [s1, s2, s3, s4] <;> first | exact e1 _ | exact e2 _

end Verif
