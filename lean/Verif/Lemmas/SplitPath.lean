import Verif.Lemmas.TreeFind
/-
Laws of white-space trimming, slash trimming and splitting.
-/
namespace Verif

/-- A run of white-space runes. -/
def Spaces (w : Str) : Prop := ∃ l : List Str, (∀ x ∈ l, x ∈ spaceSeqs) ∧ w = l.flatten

/-- Starts (ends) with a white-space rune. -/
def StartsWithSpace (s : Str) : Prop := ∃ x ∈ spaceSeqs, x <+: s
def EndsWithSpace (s : Str) : Prop := ∃ x ∈ spaceSeqs, x <:+ s

theorem stripOne_none {seqs : List Str} {s : Str} (h : ¬ ∃ x ∈ seqs, x <+: s) : stripOne seqs s = none := by
  simp only [stripOne, Option.map_eq_none_iff, List.find?_eq_none, List.isPrefixOf_iff_prefix]
  exact fun x hx hp => h ⟨x, hx, hp⟩

theorem stripOne_some {seqs : List Str} (hpf : ∀ a ∈ seqs, ∀ b ∈ seqs, a <+: b → a = b) {x s : Str}
    (hx : x ∈ seqs) : stripOne seqs (x ++ s) = some s := by
  unfold stripOne
  cases hf : seqs.find? (·.isPrefixOf (x ++ s)) with
  | none =>
    rw [List.find?_eq_none] at hf
    exact absurd (by simp [List.isPrefixOf_iff_prefix]) (hf x hx)
  | some y =>
    have hy := List.mem_of_find?_eq_some hf
    have hp := List.find?_some hf
    rw [List.isPrefixOf_iff_prefix] at hp
    have : y = x := by
      rcases List.prefix_or_prefix_of_prefix hp (List.prefix_append x s) with h | h
      · exact hpf y hy x hx h
      · exact (hpf x hx y hy h).symm
    subst this
    simp

theorem strip_concat {seqs : List Str} (hpf : ∀ a ∈ seqs, ∀ b ∈ seqs, a <+: b → a = b)
    {s : Str} (hs : ¬ ∃ x ∈ seqs, x <+: s) (l : List Str) : ∀ (n : Nat), (∀ x ∈ l, x ∈ seqs) →
    l.length ≤ n → strip seqs n (l.flatten ++ s) = s := by
  induction l with
  | nil =>
    intro n _ _
    cases n with
    | zero => rfl
    | succ n => simp [strip, stripOne_none hs]
  | cons x l ih =>
    intro n hx hn
    cases n with
    | zero => simp at hn
    | succ n =>
      have h1 : (x :: l).flatten ++ s = x ++ (l.flatten ++ s) := by simp
      rw [h1, strip, stripOne_some hpf (hx x (by simp))]
      exact ih n (fun y hy => hx y (by simp [hy])) (by simpa using hn)

theorem spaceSeqs_pf : ∀ a ∈ spaceSeqs, ∀ b ∈ spaceSeqs, a <+: b → a = b := by decide +kernel

theorem spaceSeqs_pf_rev : ∀ a ∈ spaceSeqs.map List.reverse, ∀ b ∈ spaceSeqs.map List.reverse,
    a <+: b → a = b := by decide +kernel

theorem spaceSeqs_ne_nil : ∀ a ∈ spaceSeqs, a ≠ [] := by decide +kernel

theorem spaceSeqs_no_slash : ∀ a ∈ spaceSeqs, a.head? ≠ some 47 ∧ a.getLast? ≠ some 47 := by decide +kernel

theorem length_le_flatten (l : List Str) (h : ∀ x ∈ l, x ≠ []) : l.length ≤ l.flatten.length := by
  induction l with
  | nil => simp
  | cons x l ih =>
    have h1 := ih (fun y hy => h y (by simp [hy]))
    have h2 : 0 < x.length := List.length_pos_iff.2 (h x (by simp))
    simp only [List.length_cons, List.flatten_cons, List.length_append]; omega

theorem trimLeftSpace_append {w s : Str} (hw : Spaces w) (hs : ¬ StartsWithSpace s) :
    trimLeftSpace (w ++ s) = s := by
  obtain ⟨l, hl, rfl⟩ := hw
  refine strip_concat spaceSeqs_pf hs l _ hl ?_
  have := length_le_flatten l (fun x hx => spaceSeqs_ne_nil x (hl x hx))
  simp only [List.length_append]; omega

theorem flatten_reverse' (l : List Str) : l.flatten.reverse = (l.reverse.map List.reverse).flatten := by
  induction l with
  | nil => rfl
  | cons x l ih => simp [ih]

theorem trimRightSpace_append {w s : Str} (hw : Spaces w) (hs : ¬ EndsWithSpace s) :
    trimRightSpace (s ++ w) = s := by
  obtain ⟨l, hl, rfl⟩ := hw
  unfold trimRightSpace
  have h1 : (s ++ l.flatten).reverse = (l.reverse.map List.reverse).flatten ++ s.reverse := by
    rw [List.reverse_append, flatten_reverse']
  rw [h1, strip_concat spaceSeqs_pf_rev]
  · simp
  · rintro ⟨x, hx, hp⟩
    simp only [List.mem_map] at hx
    obtain ⟨y, hy, rfl⟩ := hx
    exact hs ⟨y, hy, List.reverse_prefix.1 hp⟩
  · intro x hx
    simp only [List.mem_map, List.mem_reverse] at hx ⊢
    obtain ⟨y, hy, rfl⟩ := hx
    exact ⟨y, hl y hy, rfl⟩
  · have := length_le_flatten l (fun x hx => spaceSeqs_ne_nil x (hl x hx))
    simp only [List.length_reverse, List.length_map, List.length_append]; omega

theorem trimSpace_pad {w1 w2 s : Str} (h1 : Spaces w1) (h2 : Spaces w2) (hs : ¬ StartsWithSpace (s ++ w2))
    (he : ¬ EndsWithSpace s) : trimSpace (w1 ++ s ++ w2) = s := by
  rw [trimSpace, List.append_assoc, trimLeftSpace_append h1 hs, trimRightSpace_append h2 he]

theorem spaces_nil : Spaces [] := ⟨[], by simp, rfl⟩

theorem trimSpace_id {s : Str} (hs : ¬ StartsWithSpace s) (he : ¬ EndsWithSpace s) : trimSpace s = s := by
  have := trimSpace_pad spaces_nil spaces_nil (s := s) (by simpa using hs) he
  simpa using this

theorem trimSpace_spaces {w : Str} (h : Spaces w) : trimSpace w = [] := by
  have hn : ∀ x ∈ spaceSeqs, ¬ x <+: ([] : Str) := by
    intro x hx hp
    exact spaceSeqs_ne_nil x hx (List.prefix_nil.1 hp)
  have h1 : trimLeftSpace (w ++ []) = [] := trimLeftSpace_append h (fun ⟨x, hx, hp⟩ => hn x hx hp)
  rw [List.append_nil] at h1
  rw [trimSpace, h1]; rfl

theorem dropWhile_replicate (c : UInt8) (n : Nat) (s : Str) (h : s.head? ≠ some c) :
    (List.replicate n c ++ s).dropWhile (· == c) = s := by
  induction n with
  | zero =>
    cases s with
    | nil => rfl
    | cons x xs =>
      have : x ≠ c := by simpa using h
      simp [this]
  | succ n ih => simp [List.replicate_succ, ih]

theorem trimByte_pad (c : UInt8) (n m : Nat) (s : Str) (h1 : s.head? ≠ some c) (h2 : s.getLast? ≠ some c)
    (hne : s ≠ []) : trimByte c (List.replicate n c ++ s ++ List.replicate m c) = s := by
  unfold trimByte trimLeftByte rdropWhile
  rw [List.append_assoc, dropWhile_replicate]
  · rw [List.reverse_append, List.reverse_replicate, dropWhile_replicate]
    · simp
    · rw [List.head?_reverse]; exact h2
  · cases s with
    | nil => exact absurd rfl hne
    | cons x xs => simpa using h1

theorem trimByte_replicate (c : UInt8) (n : Nat) : trimByte c (List.replicate n c) = [] := by
  unfold trimByte trimLeftByte
  have := dropWhile_replicate c n [] (by simp)
  rw [List.append_nil] at this
  rw [this]; rfl

/-- Splitting never leaves a separator in a piece. -/
theorem splitByte_not_mem (c : UInt8) (s : Str) : ∀ x ∈ splitByte c s, c ∉ x := by
  induction s with
  | nil => simp [splitByte]
  | cons a s ih =>
    intro x hx
    simp only [splitByte] at hx
    split at hx
    · rcases List.mem_cons.1 hx with rfl | hx
      · simp
      · exact ih x hx
    · rename_i hac
      split at hx
      · simp only [List.mem_singleton] at hx; subst hx; simpa using Ne.symm hac
      · rename_i h t hs
        rcases List.mem_cons.1 hx with rfl | hx
        · have := ih h (by rw [hs]; simp)
          simp only [List.mem_cons, not_or]; exact ⟨Ne.symm hac, this⟩
        · exact ih x (by rw [hs]; simp [hx])

theorem splitByte_append (c : UInt8) (a s : Str) (ha : c ∉ a) :
    splitByte c (a ++ c :: s) = a :: splitByte c s := by
  induction a with
  | nil => simp [splitByte]
  | cons x a ih =>
    simp only [List.mem_cons, not_or] at ha
    simp [splitByte, Ne.symm ha.1, ih ha.2]

theorem splitByte_single (c : UInt8) (a : Str) (ha : c ∉ a) : splitByte c a = [a] := by
  induction a with
  | nil => rfl
  | cons x a ih =>
    simp only [List.mem_cons, not_or] at ha
    simp [splitByte, Ne.symm ha.1, ih ha.2]

/-- Split is a left inverse of join. -/
theorem splitByte_join (c : UInt8) (l : List Str) (hne : l ≠ []) (h : ∀ x ∈ l, c ∉ x) :
    splitByte c (joinByte c l) = l := by
  induction l with
  | nil => exact absurd rfl hne
  | cons x l ih =>
    cases l with
    | nil => simpa [joinByte] using splitByte_single c x (h x (by simp))
    | cons y l =>
      simp only [joinByte]
      rw [splitByte_append c x _ (h x (by simp)), ih (by simp) (fun z hz => h z (by simp [hz]))]

theorem joinByte_head (c : UInt8) (x : Str) (l : List Str) (hx : x ≠ []) :
    (joinByte c (x :: l)).head? = x.head? := by
  cases l with
  | nil => rfl
  | cons y l => cases x with
    | nil => exact absurd rfl hx
    | cons a x => rfl

theorem joinByte_last (c : UInt8) (l : List Str) (hne : l ≠ []) (h : l.getLast hne ≠ []) :
    ∃ pre, joinByte c l = pre ++ l.getLast hne ∧ (pre = [] ∨ pre.getLast? = some c) := by
  induction l with
  | nil => exact absurd rfl hne
  | cons x l ih =>
    cases l with
    | nil => exact ⟨[], by simp [joinByte], Or.inl rfl⟩
    | cons y l =>
      obtain ⟨pre, h1, h2⟩ := ih (by simp) (by simpa using h)
      refine ⟨x ++ c :: pre, by simp [joinByte, h1], Or.inr ?_⟩
      rcases h2 with rfl | h2
      · simp
      · cases pre with
        | nil => simp at h2
        | cons a pre =>
          rw [List.getLast?_append, List.getLast?_cons]
          simp [h2]

theorem splitPath_no_slash (path : Str) : ∀ s ∈ segs path, (47 : UInt8) ∉ s := by
  intro s hs
  simp only [segs, splitPath] at hs
  split at hs
  · simp at hs
  · split at hs
    · simp at hs
    · rename_i a t h
      simp only [List.tail_cons] at hs
      exact splitByte_not_mem 47 _ s (by rw [h]; simp [hs])

end Verif
