import Verif.Props.Every
import Verif.Props.Order
/-
C08 for every table and every new route, also with empty segments and segments of colons only.
-/
namespace Verif
open Spec
variable {σ : Type}

/-- Text and name of a way are those of one segment. -/
def OfSegment (f : Fork σ) : Prop := ∃ q, f.text = segText q ∧ f.name = segName q

theorem ofSegment_first (p : Str) (r : Row σ) : ∀ fs : List (Fork σ), (∀ f ∈ fs, OfSegment f) → ∀ f ∈ forkFirst p r fs, OfSegment f := by
  intro fs
  induction fs with
  | nil =>
    intro _ f hf
    simp only [forkFirst, List.mem_singleton] at hf
    subst hf
    exact ⟨p, rfl, rfl⟩
  | cons g gs ih =>
    intro h f hf
    simp only [forkFirst] at hf
    split at hf
    · rcases List.mem_cons.1 hf with rfl | hf
      · exact h g (List.mem_cons_self ..)
      · exact h f (List.mem_cons_of_mem _ hf)
    · rcases List.mem_cons.1 hf with rfl | hf
      · exact h f (List.mem_cons_self ..)
      · exact ih (fun x hx => h x (List.mem_cons_of_mem _ hx)) f hf

theorem ofSegment_forks (below : Bool) (rows : List (Row σ)) : ∀ f ∈ forks below rows, OfSegment f := by
  unfold forks
  have : ∀ (rows : List (Row σ)) (fs : List (Fork σ)), (∀ f ∈ fs, OfSegment f) → ∀ f ∈ rows.foldl (fork below) fs, OfSegment f := by
    intro rows
    induction rows with
    | nil => intro fs h; exact h
    | cons r rows ih =>
      intro fs h
      refine ih _ ?_
      unfold fork
      split
      · exact h
      · split
        · intro f hf
          obtain ⟨g, hg, rfl⟩ := List.mem_map.1 hf
          exact h g hg
        · exact ofSegment_first _ _ fs h
  exact this rows [] (fun _ h => by cases h)

/-- A way with the text of a segment that is not empty has this text and no name. -/
theorem OfSegment.lit {f : Fork σ} {p : Str} (h : OfSegment f) (hp : p ≠ []) (ht : f.text = p) : f.name = [] := by
  obtain ⟨q, h1, h2⟩ := h
  rw [h2]
  unfold segName
  split
  · rename_i hq
    rw [h1] at ht
    unfold segText at ht
    rw [if_pos hq] at ht
    exact absurd ht.symm hp
  · rfl

/-- A registration that does not read the path. -/
theorem choices_unread (ss : List Str) : ∀ (below : Bool) (rows : List (Row σ)) (r : Row σ), (below = false ∨ rows = []) →
    ¬ reads (r.segs.take ss.length) ss → choices below (rows ++ [r]) ss = choices below rows ss := by
  induction ss with
  | nil => intro _ _ _ _ h; exact absurd trivial h
  | cons s ss ih =>
    intro below rows r hb hn
    by_cases hshort : r.segs.length < (s :: ss).length
    · exact choices_shorter (s :: ss) below rows r hshort
    cases hs : r.segs with
    | nil => rw [hs] at hshort; exact absurd (Nat.zero_lt_succ _) hshort
    | cons p ps =>
      rw [hs] at hn hshort
      simp only [List.length_cons, List.take_succ_cons, reads] at hn
      have hlen : ¬ ps.length < ss.length := by simpa using hshort
      have hp : p ≠ [] := fun h => hn (Or.inl ⟨h, by simp; omega⟩)
      have hread : (p.head? = some 58 ∨ p = s) → ¬ reads (ps.take ss.length) ss := fun h1 h2 => hn (Or.inr ⟨h1, h2⟩)
      have hne : (p.head? = some 58 ∨ p = s) → ∀ b, choices b ([] : List (Row σ)) ss = [] := by
        intro h1 b
        cases ss with
        | nil => exact absurd trivial (hread h1)
        | cons t ts => rfl
      have hnew : share s ss (⟨segText p, segName p, [{ r with segs := ps }]⟩ : Fork σ) = [] := by
        by_cases h1 : p.head? = some 58 ∨ p = s
        · have e : ∀ b, choices b [({ r with segs := ps } : Row σ)] ss = [] := by
            intro b
            have h2 := ih b [] { r with segs := ps } (Or.inr rfl) (hread h1)
            rw [List.nil_append] at h2
            rw [h2, hne h1]
          simp only [share, e]
          split <;> simp
        · have hc : p.head? ≠ some 58 := fun h => h1 (Or.inl h)
          have hd : p ≠ s := fun h => h1 (Or.inr h)
          simp [share, segText, segName, hc, hd]
      have hfirst : ∀ fs : List (Fork σ), (∀ f ∈ fs, OfSegment f) →
          (forkFirst p { r with segs := ps } fs).flatMap (share s ss) = fs.flatMap (share s ss) := by
        intro fs
        induction fs with
        | nil => intro _; simp only [forkFirst, List.flatMap_cons, List.flatMap_nil, hnew, List.append_nil]
        | cons f fs ihf =>
          intro hof
          simp only [forkFirst]
          split
          · rename_i ht
            have hname := (hof f (List.mem_cons_self ..)).lit hp ht
            simp only [List.flatMap_cons]
            congr 1
            simp only [share, Fork.take, hname, ht, if_true]
            by_cases hd : p = s
            · rw [if_pos hd, if_pos hd]
              exact ih false f.rows { r with segs := ps } (Or.inl rfl) (hread (Or.inr hd))
            · rw [if_neg hd, if_neg hd]
          · simp only [List.flatMap_cons, ihf fun x hx => hof x (List.mem_cons_of_mem _ hx)]
      rw [choices_cons, choices_cons, forks_append]
      simp only [fork, hs]
      rw [if_neg]
      · exact hfirst _ (ofSegment_forks below rows)
      · rintro ⟨h1, h2⟩
        rcases hb with hb | hb
        · rw [hb] at h1; cases h1
        · subst hb; exact h2 rfl

/-- C08 for every table and every new route: registering a route changes no lookup of a path that the route, as far as the path goes, does not read -
segment by segment, up to the first empty segment of the route. -/
theorem C08_every (hist : List (Reg σ)) (new : Reg σ) (m : Method) (path : Str) (buf buf' : Args)
    (h : ¬ reads ((segs new.route).take (segs path).length) (segs path)) :
    treeFind (treeOf (hist ++ [new])) m path buf = treeFind (treeOf hist) m path buf' := by
  rw [treeFind_every, treeFind_every, List.map_append, List.map_singleton]
  unfold serveEvery
  rw [choices_unread (segs path) false (hist.map Reg.toRow) new.toRow (Or.inl rfl) h]

/-- C08 for whole requests: a server answers a request as before, with the same effects, when a route is added that does not read its path. -/
theorem C08_requests {υ ρ : Type} [DecidableEq ρ] (hist : List (Reg σ)) (new : Reg σ) (u : Str → Str) (env : Env υ) (rxMatch : ρ → Str → Bool)
    (visit : GoMap ρ (Option σ) → List (ρ × Option σ)) (srv : Srv υ σ ρ) (ba : BaseAuth) (req : Req) (resp : Resp)
    (store : Args → υ) (buf buf' : Args) (clock : Nat)
    (h : ¬ reads ((segs new.route).take (segs req.path).length) (segs req.path)) :
    serveHTTP u env rxMatch visit { srv with tree := treeOf (hist ++ [new]) } ba req resp store buf clock =
      serveHTTP u env rxMatch visit { srv with tree := treeOf hist } ba req resp store buf' clock := by
  have hr : ∀ resp, runHTTP env rxMatch visit { srv with tree := treeOf (hist ++ [new]) } req.method req.path resp store buf clock =
      runHTTP env rxMatch visit { srv with tree := treeOf hist } req.method req.path resp store buf' clock := by
    intro resp
    unfold runHTTP serverFind
    simp only [C08_every hist new req.method req.path buf buf' h]
  unfold serveHTTP
  simp only [hr]

/-- Routes with an empty segment: one that is longer than the path and one that differs before the empty segment change nothing, one that reads the
path does. -/
example : ¬ reads ((segs b!"/a//x/y").take (segs b!"/b/7/x").length) (segs b!"/b/7/x") ∧
    reads ((segs b!"/a//x").take (segs b!"/a/5/x").length) (segs b!"/a/5/x") ∧
    treeFind (treeOf ([⟨b!"POST", b!"/b/:id/x", 1⟩] ++ [⟨b!"POST", b!"/a//x/y", 2⟩])) b!"POST" b!"/b/7/x" [] =
      .ret ⟨some 1, true, [(b!"id", b!"7")]⟩ ∧
    treeFind (treeOf ([⟨b!"POST", b!"/a/:id/x", 1⟩] ++ [⟨b!"POST", b!"/a//x", 2⟩])) b!"POST" b!"/a/5/x" [] =
      .ret ⟨some 2, true, [(b!"id", b!"5")]⟩ := by
  refine ⟨?_, ?_, by decide +kernel, by decide +kernel⟩
  · intro h
    have e1 : (segs b!"/a//x/y").take (segs b!"/b/7/x").length = [b!"a", [], b!"x"] := by decide +kernel
    have e2 : segs b!"/b/7/x" = [b!"b", b!"7", b!"x"] := by decide +kernel
    rw [e1, e2] at h
    simp [reads] at h
  · have e1 : (segs b!"/a//x").take (segs b!"/a/5/x").length = [b!"a", [], b!"x"] := by decide +kernel
    have e2 : segs b!"/a/5/x" = [b!"a", b!"5", b!"x"] := by decide +kernel
    rw [e1, e2]
    simp [reads]

end Verif
