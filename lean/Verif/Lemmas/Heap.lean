import Verif.Model.Heap
/-
Lemmas about the heap model: what each call can change.
-/
namespace Verif
set_option linter.unusedSectionVars false
variable {η ρ : Type} [Inhabited η] [DecidableEq ρ]

/-! ### Arrays and slices -/

@[simp] theorem writeAt_length (l : List η) (i : Nat) (xs : List η) : (writeAt l i xs).length = l.length := by
  simp [writeAt]

theorem writeAt_getElem? (l : List η) (i : Nat) (xs : List η) (k : Nat) :
    (writeAt l i xs)[k]? = (l[k]?).map fun c => if i ≤ k then (xs[k - i]?).getD c else c := by
  simp [writeAt, List.getElem?_mapIdx]

theorem take_drop_ext {l l' : List η} {o n : Nat} (h : ∀ k, o ≤ k → k < o + n → l'[k]? = l[k]?) :
    (l'.drop o).take n = (l.drop o).take n := by
  apply List.ext_getElem?
  intro k
  rw [List.getElem?_take, List.getElem?_take]
  by_cases hk : k < n
  · simp only [hk, if_true, List.getElem?_drop]
    exact h _ (by omega) (by omega)
  · simp [hk]

theorem cells_modify_ne (A : Arrs η) (z : Slice) (i : Nat) (f : List η → List η) (h : z.arr ≠ i) :
    cells (A.modify i f) z = cells A z := by
  unfold cells
  have e : ¬ i = z.arr := fun e => h e.symm
  rw [List.getElem?_modify]
  simp [e]

/-- Writing past the end of a slice does not change it. -/
theorem cells_write_after (A : Arrs η) (z : Slice) (k i : Nat) (xs : List η)
    (h : z.arr = k → z.off + z.len ≤ i) :
    cells (A.modify k fun l => writeAt l i xs) z = cells A z := by
  by_cases hk : z.arr = k
  · subst hk
    unfold cells
    rw [List.getElem?_modify]
    cases hA : A[z.arr]? with
    | none => simp
    | some l =>
      simp only [Option.map_eq_map, Option.map_some, Option.getD_some, if_true]
      refine take_drop_ext fun n h1 h2 => ?_
      rw [writeAt_getElem?]
      have := h rfl
      rw [if_neg_fun (by omega)]
  · exact cells_modify_ne A z k _ hk
where
  if_neg_fun {i n : Nat} {xs : List η} {l : List η} (h : ¬ i ≤ n) :
      (l[n]?).map (fun c => if i ≤ n then (xs[n - i]?).getD c else c) = l[n]? := by
    simp [h]

theorem cells_push (A : Arrs η) (z : Slice) (l : List η) (h : z.arr < A.length) :
    cells (A ++ [l]) z = cells A z := by
  unfold cells
  rw [List.getElem?_append_left h]

/-- A slice lies inside its array. -/
structure SWF (A : Arrs η) (z : Slice) : Prop where
  arr : z.arr < A.length
  len : z.len ≤ z.cap
  cap : z.off + z.cap ≤ ((A[z.arr]?).getD []).length

theorem swf_push {A : Arrs η} {z : Slice} (l : List η) (h : SWF A z) : SWF (A ++ [l]) z := by
  refine ⟨by have := h.arr; simp; omega, h.len, ?_⟩
  rw [List.getElem?_append_left h.arr]; exact h.cap

theorem swf_modify {A : Arrs η} {z : Slice} (k : Nat) (i : Nat) (xs : List η) (h : SWF A z) :
    SWF (A.modify k fun l => writeAt l i xs) z := by
  refine ⟨by simpa using h.arr, h.len, ?_⟩
  have := h.cap
  rw [List.getElem?_modify]
  cases hA : A[z.arr]? with
  | none => simpa [hA] using this
  | some l =>
    rw [hA] at this
    by_cases hk : k = z.arr <;> simpa [hk] using this

theorem allocSlice_spec (A : Arrs η) (xs : List η) :
    (allocSlice A xs).1 = A ++ [xs] ∧ (allocSlice A xs).2.arr = A.length ∧
    SWF (allocSlice A xs).1 (allocSlice A xs).2 ∧ cells (allocSlice A xs).1 (allocSlice A xs).2 = xs := by
  refine ⟨rfl, rfl, ⟨?_, ?_, ?_⟩, ?_⟩ <;> simp [allocSlice, cells]

/-- The slice returned by `append`. -/
theorem appendSlice_slice (grow : Nat → Nat → Nat) (A : Arrs η) (s : Slice) (xs : List η) :
    let r := appendSlice grow A s xs
    (s.len + xs.length ≤ s.cap ∧ r.2 = { s with len := s.len + xs.length } ∧
      r.1 = A.modify s.arr fun l => writeAt l (s.off + s.len) xs) ∨
    (¬ s.len + xs.length ≤ s.cap ∧ r.2.arr = A.length ∧ r.2.off = 0 ∧ r.2.len = s.len + xs.length ∧
      ∃ l, r.1 = A ++ [l]) := by
  intro r
  by_cases h : s.len + xs.length ≤ s.cap
  · left
    simp [r, appendSlice, h]
  · right
    refine ⟨h, ?_⟩
    simp [r, appendSlice, h]

theorem appendSlice_length (grow : Nat → Nat → Nat) (A : Arrs η) (s : Slice) (xs : List η) :
    A.length ≤ (appendSlice grow A s xs).1.length := by
  rcases appendSlice_slice grow A s xs with ⟨_, _, h⟩ | ⟨_, _, _, _, l, h⟩ <;> simp [h]

/-- `append` through `s` does not change the elements of `z` unless `z` shares the array and reaches
past the end of `s`. -/
theorem cells_append_other (grow : Nat → Nat → Nat) (A : Arrs η) (s z : Slice) (xs : List η)
    (hz : z.arr < A.length) (h : s.arr = z.arr → z.off + z.len ≤ s.off + s.len) :
    cells (appendSlice grow A s xs).1 z = cells A z := by
  rcases appendSlice_slice grow A s xs with ⟨_, _, h1⟩ | ⟨_, _, _, _, l, h1⟩
  · rw [h1]; exact cells_write_after A z _ _ _ fun e => h e.symm
  · rw [h1]; exact cells_push A z l hz

theorem swf_append (grow : Nat → Nat → Nat) (A : Arrs η) (s z : Slice) (xs : List η) (h : SWF A z) :
    SWF (appendSlice grow A s xs).1 z := by
  rcases appendSlice_slice grow A s xs with ⟨_, _, h1⟩ | ⟨_, _, _, _, l, h1⟩
  · rw [h1]; exact swf_modify _ _ _ h
  · rw [h1]; exact swf_push l h

theorem cells_length {A : Arrs η} {s : Slice} (h : SWF A s) : (cells A s).length = s.len := by
  have h1 := h.len
  have h2 := h.cap
  simp [cells]; omega

/-- `append` appends. -/
theorem appendSlice_spec (grow : Nat → Nat → Nat) (A : Arrs η) (s : Slice) (xs : List η) (h : SWF A s) :
    SWF (appendSlice grow A s xs).1 (appendSlice grow A s xs).2 ∧
    cells (appendSlice grow A s xs).1 (appendSlice grow A s xs).2 = cells A s ++ xs := by
  have hl := h.len
  have hc := h.cap
  have ha := h.arr
  by_cases hn : s.len + xs.length ≤ s.cap
  · simp only [appendSlice, hn, if_true]
    obtain ⟨l, hA⟩ : ∃ l, A[s.arr]? = some l := ⟨A[s.arr], by simp⟩
    rw [hA] at hc
    simp only [Option.getD_some] at hc
    constructor
    · refine ⟨by simpa using ha, hn, ?_⟩
      simpa [List.getElem?_modify, hA] using hc
    · unfold cells
      simp only [List.getElem?_modify, hA, Option.map_eq_map, Option.map_some, Option.getD_some, if_true]
      apply List.ext_getElem?
      intro k
      rw [List.getElem?_take, List.getElem?_append, List.getElem?_drop, writeAt_getElem?]
      have hlen : ((l.drop s.off).take s.len).length = s.len := by simp; omega
      rw [hlen]
      by_cases h1 : k < s.len
      · rw [if_pos (by omega), if_pos h1, List.getElem?_take, if_pos h1, List.getElem?_drop]
        simp only [show ¬ s.off + s.len ≤ s.off + k by omega, if_false, Option.map_id']
      · rw [if_neg h1]
        by_cases h2 : k < s.len + xs.length
        · rw [if_pos h2]
          have h3 : s.off + k < l.length := by omega
          rw [List.getElem?_eq_getElem h3]
          simp only [Option.map_some, show s.off + s.len ≤ s.off + k by omega, if_true]
          have e : s.off + k - (s.off + s.len) = k - s.len := by omega
          rw [e, List.getElem?_eq_getElem (by omega)]
          simp
        · rw [if_neg h2, List.getElem?_eq_none (by omega)]
  · simp only [appendSlice, hn, if_false]
    have hcl := cells_length h
    constructor
    · refine ⟨by simp, by simp only; omega, ?_⟩
      simp only [List.getElem?_concat_length, Option.getD_some, List.length_append, hcl,
        List.length_replicate]
      omega
    · unfold cells
      simp only [List.getElem?_concat_length, Option.getD_some, List.drop_zero]
      have hcl' : (((A[s.arr]?).getD []).drop s.off |>.take s.len).length = s.len := hcl
      rw [List.take_append_of_le_length (by rw [List.length_append, hcl']; omega)]
      rw [List.take_of_length_le (by rw [List.length_append, hcl']; omega)]

end Verif
