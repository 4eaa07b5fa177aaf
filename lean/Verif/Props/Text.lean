import Verif.Model.Text
import Verif.Spec.Text
/-
C60: trimming ASCII white space.
-/
namespace Verif

theorem trimFront_ret (s : Str) : ∀ (n i : Nat), i ≤ s.length → s.length - i < n →
    trimFront s s.length n i = .ret (i + ((s.drop i).takeWhile isASCIISpace).length) := by
  intro n
  induction n with
  | zero => intro i _ h; omega
  | succ n ih =>
    intro i hi hn
    unfold trimFront
    by_cases hlt : i < s.length
    · rw [if_pos hlt, List.getElem?_eq_getElem hlt]
      simp only
      rw [List.drop_eq_getElem_cons hlt, List.takeWhile_cons]
      by_cases hs : isASCIISpace s[i] = true
      · rw [if_pos hs, if_pos hs, ih (i + 1) (by omega) (by omega), List.length_cons]
        congr 1; omega
      · rw [if_neg hs, if_neg hs]; rfl
    · rw [if_neg hlt, List.drop_eq_nil_of_le (by omega)]; rfl

theorem trimBack_ret (s : Str) (i : Nat) : ∀ (n j : Nat), i ≤ j → j ≤ s.length → j - i < n →
    trimBack s i n j = .ret (i + (rdropWhile isASCIISpace ((s.take j).drop i)).length) := by
  intro n
  induction n with
  | zero => intro j _ _ h; omega
  | succ n ih =>
    intro j hij hj hn
    unfold trimBack
    by_cases hlt : j > i
    · have hlt' : j - 1 < s.length := by omega
      rw [if_pos hlt, List.getElem?_eq_getElem hlt']
      simp only
      have hsplit : (s.take j).drop i = (s.take (j - 1)).drop i ++ [s[j - 1]] := by
        have h1 : s.take j = s.take (j - 1) ++ [s[j - 1]] := by
          have := List.take_succ_eq_append_getElem hlt'
          rwa [show j - 1 + 1 = j by omega] at this
        rw [h1, List.drop_append_of_le_length (by rw [List.length_take]; omega)]
      by_cases hs : isASCIISpace s[j - 1] = true
      · rw [if_pos hs, ih (j - 1) (by omega) (by omega) (by omega), hsplit]
        congr 3
        unfold rdropWhile
        rw [List.reverse_append, List.reverse_singleton, List.singleton_append, List.dropWhile_cons, if_pos hs]
      · rw [if_neg hs, hsplit]
        unfold rdropWhile
        rw [List.reverse_append, List.reverse_singleton, List.singleton_append, List.dropWhile_cons, if_neg hs,
          List.length_reverse, List.length_cons, List.length_reverse, List.length_drop, List.length_take]
        congr 1; omega
    · rw [if_neg hlt, List.drop_eq_nil_of_le (by rw [List.length_take]; omega)]
      unfold rdropWhile
      simp only [List.reverse_nil, List.dropWhile_nil, List.length_nil]
      congr 1; omega

theorem takeWhile_append_dropWhile' (p : UInt8 → Bool) (s : Str) : s = s.takeWhile p ++ s.dropWhile p :=
  (List.takeWhile_append_dropWhile).symm

theorem rdropWhile_prefix (p : UInt8 → Bool) (s : Str) : ∃ r, s = rdropWhile p s ++ r ∧ ∀ c ∈ r, p c = true := by
  refine ⟨(s.reverse.takeWhile p).reverse, ?_, ?_⟩
  · unfold rdropWhile
    rw [← List.reverse_append, List.takeWhile_append_dropWhile, List.reverse_reverse]
  · intro c hc
    have := List.mem_reverse.1 hc
    exact List.all_eq_true.1 (List.all_takeWhile (l := s.reverse) (p := p)) c this

/-- The code computes the value, without panicking. -/
theorem goTrimString_ret (s : Str) : goTrimString s = .ret (trimString s) := by
  unfold goTrimString
  rw [trimFront_ret s _ 0 (Nat.zero_le _) (by omega)]
  simp only [List.drop_zero, Nat.zero_add, Outcome.bind_ret]
  have hle : (s.takeWhile isASCIISpace).length ≤ s.length := (List.takeWhile_sublist _).length_le
  rw [trimBack_ret s _ _ _ hle (Nat.le_refl _) (by omega)]
  simp only [Outcome.bind_ret, List.take_length]
  have hd : s.drop (s.takeWhile isASCIISpace).length = s.dropWhile isASCIISpace := by
    conv => lhs; arg 2; rw [takeWhile_append_dropWhile' isASCIISpace s]
    rw [List.drop_left]
  rw [hd]
  have ht : rdropWhile isASCIISpace (s.dropWhile isASCIISpace) = trimString s := rfl
  rw [ht]
  obtain ⟨r, hr, -⟩ := rdropWhile_prefix isASCIISpace (s.dropWhile isASCIISpace)
  rw [ht] at hr
  have hs : s = s.takeWhile isASCIISpace ++ (trimString s ++ r) := by
    rw [← hr]; exact takeWhile_append_dropWhile' _ s
  have hlen := congrArg List.length hs
  simp only [List.length_append] at hlen
  by_cases hc : (s.takeWhile isASCIISpace).length > 0 ∨ (s.takeWhile isASCIISpace).length + (trimString s).length ≠ s.length
  · rw [if_pos hc, if_pos ⟨by omega, by omega⟩]
    congr 1
    generalize s.takeWhile isASCIISpace = a at *
    generalize trimString s = t at *
    rw [hs, ← List.append_assoc, show a.length + t.length = (a ++ t).length by simp, List.take_left, List.drop_left]
  · rw [if_neg hc]
    congr 1
    have h1 : s.takeWhile isASCIISpace = [] := List.length_eq_zero_iff.1 (by omega)
    have h2 : r = [] := List.length_eq_zero_iff.1 (by omega)
    rw [h1, h2] at hs
    simpa using hs

open Spec

theorem isASCIISpace_iff (c : UInt8) : isASCIISpace c = true ↔ Space c := by
  unfold isASCIISpace Space
  simp only [Bool.or_eq_true, beq_iff_eq, List.mem_cons, List.not_mem_nil, or_false]
  constructor
  · rintro (((h | h) | h) | h) <;> simp [h]
  · rintro (h | h | h | h) <;> simp [h]

theorem trimString_trimmed (s : Str) : Trimmed s (trimString s) := by
  obtain ⟨r, hr, hrs⟩ := rdropWhile_prefix isASCIISpace (s.dropWhile isASCIISpace)
  refine ⟨s.takeWhile isASCIISpace, r, ?_, ?_, ?_, ?_, ?_⟩
  · rw [List.append_assoc]
    show s = _ ++ (rdropWhile isASCIISpace (s.dropWhile isASCIISpace) ++ r)
    rw [← hr]; exact takeWhile_append_dropWhile' _ s
  · intro c hc
    exact (isASCIISpace_iff c).1 (List.all_eq_true.1 (List.all_takeWhile (l := s) (p := isASCIISpace)) c hc)
  · exact fun c hc => (isASCIISpace_iff c).1 (hrs c hc)
  · intro c hc hsp
    have hd : (s.dropWhile isASCIISpace).head? = some c := by
      rw [hr, List.head?_append]
      show (trimString s).head?.or _ = _
      rw [hc]; rfl
    have := List.head?_dropWhile_not isASCIISpace s
    rw [hd] at this
    simp only [Bool.not_eq_true'] at this
    rw [(isASCIISpace_iff c).2 hsp] at this
    cases this
  · intro c hc hsp
    have hd : (((s.dropWhile isASCIISpace).reverse).dropWhile isASCIISpace).head? = some c := by
      have : (trimString s).getLast? = some c := hc
      unfold trimString rdropWhile at this
      rwa [List.getLast?_reverse] at this
    have := List.head?_dropWhile_not isASCIISpace (s.dropWhile isASCIISpace).reverse
    rw [hd] at this
    simp only [Bool.not_eq_true'] at this
    rw [(isASCIISpace_iff c).2 hsp] at this
    cases this

/-- A trimmed string is determined by what it is trimmed from. -/
theorem trimmed_unique {s t t' : Str} (h : Trimmed s t) (h' : Trimmed s t') : t = t' := by
  have key : ∀ {s t : Str}, Trimmed s t → trimString s = t := by
    rintro s t ⟨l, r, rfl, hl, hr, hh, hlast⟩
    unfold trimString
    have h1 : (l ++ t ++ r).dropWhile isASCIISpace = (t ++ r).dropWhile isASCIISpace := by
      rw [List.append_assoc, List.dropWhile_append_of_pos]
      exact fun c hc => (isASCIISpace_iff c).2 (hl c hc)
    rw [h1]
    cases t with
    | nil =>
      have := List.dropWhile_append_of_pos (p := isASCIISpace) (l₁ := r) (l₂ := [])
        fun c hc => (isASCIISpace_iff c).2 (hr c hc)
      rw [List.append_nil] at this
      rw [List.nil_append, this]; rfl
    | cons a t =>
      have ha : ¬ isASCIISpace a = true := fun h => hh a rfl ((isASCIISpace_iff a).1 h)
      rw [List.cons_append, List.dropWhile_cons, if_neg ha, ← List.cons_append]
      unfold rdropWhile
      rw [List.reverse_append, List.dropWhile_append_of_pos
        (fun c hc => (isASCIISpace_iff c).2 (hr c (List.mem_reverse.1 hc)))]
      have hne : (a :: t).reverse ≠ [] := by simp
      obtain ⟨z, zs, hz⟩ := List.exists_cons_of_ne_nil hne
      have hzl : (a :: t).getLast? = some z := by
        rw [List.getLast?_eq_head?_reverse, hz]; rfl
      have hza : ¬ isASCIISpace z = true := fun h => hlast z hzl ((isASCIISpace_iff z).1 h)
      rw [hz, List.dropWhile_cons, if_neg hza, ← hz, List.reverse_reverse]
  rw [← key h, ← key h']

/-- **C60.** TrimString and TrimBytes never panic and return exactly the input without the white space around it. -/
theorem C60_trim (s t : Str) : goTrimString s = .ret t ↔ Trimmed s t := by
  rw [goTrimString_ret]
  constructor
  · intro h; injection h with h; exact h ▸ trimString_trimmed s
  · intro h; rw [trimmed_unique (trimString_trimmed s) h]

/-- **C60.** Trimming twice is trimming once. -/
theorem C60_idempotent (s t : Str) (h : goTrimString s = .ret t) : goTrimString t = .ret t := by
  rw [C60_trim] at h ⊢
  obtain ⟨l, r, -, -, -, h1, h2⟩ := h
  exact ⟨[], [], by simp, by simp, by simp, h1, h2⟩

example : goTrimString b!"\r \t   Super\nheader \n" = .ret b!"Super\nheader" ∧ goTrimString b!" \n\t" = .ret [] := by decide +kernel

end Verif
