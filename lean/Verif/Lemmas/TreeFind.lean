import Verif.Model.Tree
/-
The queue loop of `Tree.Find` equals "take the first full-depth match in depth-first order".
-/
namespace Verif
variable {σ : Type}

/-- Bindings after a node consumed a segment. -/
def bindSeg (n : Node σ) (p : Str) (args : Args) : Args :=
  if n.urlId ≠ [] then args ++ [(n.urlId, p)] else args

/-- Full-depth matches below a node that already consumed its own segment. -/
def candsAt : List Str → Node σ → Args → List (Handlers σ × Args)
  | [], n, args => [(n.handlers, args)]
  | q :: qs, n, args =>
    (n.children.filter fun c => c.path = q ∨ c.urlId ≠ []).flatMap fun c =>
      candsAt qs c (bindSeg c q args)

/-- Outcome decided by the first candidate. -/
def decideFirst (m : Method) (inOut : Args) (l : List (Handlers σ × Args)) : FindResult σ :=
  match l with
  | [] => .notFound inOut
  | (h, a) :: _ =>
    match h.get? m with
    | some (some s) => ⟨some s, true, inOut ++ a⟩
    | _ => .notFound inOut

/-- An item whose node accepts its first segment, `d` segments remaining after it. -/
def Item.Ok (it : Item σ) (d : Nat) : Prop :=
  ∃ p ps, it.path = p :: ps ∧ ps.length = d ∧ (it.node.urlId ≠ [] ∨ it.node.path = p)

/-- Candidates below an item. -/
def Item.cands (it : Item σ) : List (Handlers σ × Args) :=
  match it.path with
  | [] => []
  | p :: ps => candsAt ps it.node (bindSeg it.node p it.args)

/-- total size of the nodes of a work list -/
def qsize : List (Item σ) → Nat
  | [] => 0
  | it :: q => it.node.size + qsize q

theorem qsize_append (a b : List (Item σ)) : qsize (a ++ b) = qsize a + qsize b := by
  induction a with
  | nil => simp [qsize]
  | cons x a ih => simp [qsize, ih]; omega

theorem size_eq (n : Node σ) : n.size = 1 + Node.size.sizes n.children := by
  cases n; simp [Node.size, Node.children]

theorem size_pos (n : Node σ) : 0 < n.size := by rw [size_eq]; omega

theorem qsize_filter_map (cs : List (Node σ)) (f : Node σ → Bool) (ps : List Str) (a : Args) :
    qsize ((cs.filter f).map fun c => (⟨c, ps, a⟩ : Item σ)) ≤ Node.size.sizes cs := by
  induction cs with
  | nil => simp [qsize, Node.size.sizes]
  | cons c cs ih =>
    by_cases h : f c
    · simp only [List.filter_cons_of_pos h, List.map_cons, qsize, Node.size.sizes]; omega
    · simp only [List.filter_cons_of_neg h, Node.size.sizes]; omega

theorem item_cands_expand (it : Item σ) (p q : Str) (qs : List Str) (h : it.path = p :: q :: qs) :
    it.cands = ((it.node.children.filter fun c => c.path = q ∨ c.urlId ≠ []).map
      fun c => (⟨c, q :: qs, bindSeg it.node p it.args⟩ : Item σ)).flatMap Item.cands := by
  simp only [Item.cands, h, candsAt, List.flatMap_map]

/-- One loop iteration plus induction: with `A` the items of the current level and `B` those already
queued for the next level, the loop decides by the first candidate of `B ++ A`. -/
theorem findLoop_eq (m : Method) (inOut : Args) :
    ∀ (fuel : Nat) (A B : List (Item σ)) (d : Nat),
      (∀ it ∈ A, it.Ok (d + 1)) → (∀ it ∈ B, it.Ok d) → qsize (A ++ B) < fuel →
      findLoop m inOut fuel (A ++ B) = .ret (decideFirst m inOut ((B ++ A).flatMap Item.cands)) := by
  intro fuel
  induction fuel with
  | zero => intro A B d _ _ h; omega
  | succ fuel ih =>
    -- the step for a non-empty current level
    have step : ∀ (it : Item σ) (A B : List (Item σ)) (d : Nat),
        (∀ x ∈ it :: A, x.Ok (d + 1)) → (∀ x ∈ B, x.Ok d) → qsize (it :: A ++ B) < fuel + 1 →
        findLoop m inOut (fuel + 1) (it :: A ++ B) =
          .ret (decideFirst m inOut ((B ++ it :: A).flatMap Item.cands)) := by
      intro it A B d hA hB hsz
      obtain ⟨p, ps, hp, hlen, hok⟩ := hA it (by simp)
      cases ps with
      | nil => simp at hlen
      | cons q qs =>
        simp only [List.cons_append, findLoop, hp]
        rw [if_neg (by rintro ⟨h1, h2⟩; rcases hok with h | h <;> contradiction)]
        have hargs : (if it.node.urlId ≠ [] then it.args ++ [(it.node.urlId, p)] else it.args)
            = bindSeg it.node p it.args := rfl
        rw [hargs, List.append_assoc]
        rw [ih A _ d (fun x hx => hA x (by simp [hx]))]
        · congr 2
          simp only [List.flatMap_append, List.flatMap_cons, item_cands_expand it p q qs hp,
            List.append_assoc]
        · intro x hx
          rcases List.mem_append.1 hx with hx | hx
          · exact hB x hx
          · simp only [List.mem_map, List.mem_filter] at hx
            obtain ⟨c, ⟨_, hc⟩, rfl⟩ := hx
            refine ⟨q, qs, rfl, by simpa using hlen, ?_⟩
            simp only [ne_eq, decide_eq_true_eq] at hc
            exact hc.symm
        · have h1 := qsize_filter_map it.node.children (fun c => c.path = q ∨ c.urlId ≠ []) (q :: qs)
            (bindSeg it.node p it.args)
          have h2 := size_eq it.node
          simp only [qsize_append, List.cons_append, qsize] at hsz ⊢
          omega
    intro A B d hA hB hsz
    cases A with
    | cons it A => exact step it A B d hA hB hsz
    | nil =>
      cases B with
      | nil => simp [findLoop, decideFirst]
      | cons it B =>
        cases d with
        | zero =>
          obtain ⟨p, ps, hp, hlen, hok⟩ := hB it (by simp)
          have hps : ps = [] := List.length_eq_zero_iff.1 hlen
          subst hps
          simp only [List.nil_append, findLoop, hp]
          rw [if_neg (by rintro ⟨h1, h2⟩; rcases hok with h | h <;> contradiction)]
          simp only [List.append_nil, List.flatMap_cons, Item.cands, hp, candsAt,
            List.cons_append, decideFirst, bindSeg]
          split <;> simp_all
        | succ d =>
          have := step it B [] d hB (by simp) (by simpa using hsz)
          simpa using this

/-- `Find` on a path with at least one segment, for an arbitrary tree and enough fuel. -/
theorem findLoop_top (m : Method) (inOut : Args) (fuel : Nat) (t : Node σ) (p : Str)
    (ps : List Str) (hf : t.size < fuel) :
    findLoop m inOut fuel [⟨t, p :: ps, []⟩] =
      .ret (if t.urlId = [] ∧ t.path ≠ p then .notFound inOut
            else decideFirst m inOut (candsAt ps t (bindSeg t p []))) := by
  split
  · rename_i h
    cases fuel with
    | zero => omega
    | succ fuel => simp [findLoop, h]
  · rename_i h
    have := findLoop_eq m inOut fuel [] [⟨t, p :: ps, []⟩] ps.length (by simp)
      (by
        intro it hit
        simp only [List.mem_singleton] at hit
        subst hit
        refine ⟨p, ps, rfl, rfl, ?_⟩
        by_cases h1 : t.urlId = []
        · exact Or.inr (by by_cases h2 : t.path = p; exact h2; exact absurd ⟨h1, h2⟩ h)
        · exact Or.inl h1)
      (by simpa [qsize] using hf)
    simpa [Item.cands] using this

theorem splitByte_ne_nil (c : UInt8) (s : Str) : splitByte c s ≠ [] := by
  cases s with
  | nil => simp [splitByte]
  | cons x xs =>
    simp only [splitByte]
    split
    · simp
    · split <;> simp

/-- `splitPath` always yields `"/"` followed by segments. -/
theorem splitPath_cons (path : Str) : ∃ t, splitPath path = [47] :: t := by
  simp only [splitPath]
  split
  · exact ⟨[], rfl⟩
  · split
    · exact absurd ‹_› (splitByte_ne_nil _ _)
    · exact ⟨_, rfl⟩

theorem splitPath_eq (path : Str) : splitPath path = [47] :: segs path := by
  obtain ⟨t, h⟩ := splitPath_cons path
  simp [segs, h]

/-- `Find` in closed form, for every tree. -/
theorem treeFindFuel_eq (fuel : Nat) (t : Node σ) (m : Method) (path : Str) (inArgs : Args)
    (hf : t.size < fuel) :
    treeFindFuel fuel t m path inArgs = .ret (
      if segs path = [] then decideFirst m [] [(t.handlers, [])]
      else if t.urlId = [] ∧ t.path ≠ [47] then .notFound []
      else decideFirst m [] (candsAt (segs path) t (bindSeg t [47] []))) := by
  simp only [treeFindFuel, splitPath_eq, argsReset]
  by_cases h : segs path = []
  · simp only [h, List.length_cons, List.length_nil, ↓reduceIte, decideFirst, List.append_nil]
    split <;> simp_all
  · have : ([47] :: segs path).length ≠ 1 := by
      have := List.length_pos_iff.2 h
      simp only [List.length_cons]; omega
    rw [if_neg this, findLoop_top _ _ _ _ _ _ hf, if_neg h]

theorem treeFind_eq (t : Node σ) (m : Method) (path : Str) (inArgs : Args) :
    treeFind t m path inArgs = .ret (
      if segs path = [] then decideFirst m [] [(t.handlers, [])]
      else if t.urlId = [] ∧ t.path ≠ [47] then .notFound []
      else decideFirst m [] (candsAt (segs path) t (bindSeg t [47] []))) :=
  treeFindFuel_eq _ t m path inArgs (by omega)

end Verif
