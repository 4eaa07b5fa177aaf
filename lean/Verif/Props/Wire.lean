import Verif.Model.Wire
import Verif.Spec.Wire
import Verif.Props.StaticExact
import Verif.Props.Ctx
/-
C100, C101: what a client writes is what a handler reads.
-/
namespace Verif
open Spec

/-! ### Decoding -/

theorem percentDecode_cons {c : UInt8} (h : c ≠ 37) (t : Str) : percentDecode (c :: t) = c :: percentDecode t := by
  match t with
  | [] => rfl
  | [a] => rfl
  | x :: y :: t => rw [percentDecode, if_neg h]

theorem hex_pair_byte {x y : UInt8} : UInt8.ofNat (hexValue x) * 16 + UInt8.ofNat (hexValue y) = UInt8.ofNat (16 * hexValue x + hexValue y) := by
  apply UInt8.toNat_inj.mp
  simp [UInt8.toNat_add, UInt8.toNat_mul]
  rw [Nat.mul_comm]

theorem percentDecode_hex {x y : UInt8} (hx : HexDigit x) (hy : HexDigit y) (t : Str) :
    percentDecode (37 :: x :: y :: t) = UInt8.ofNat (16 * hexValue x + hexValue y) :: percentDecode t := by
  rw [percentDecode, if_pos rfl, hexVal_value, hexVal_value, if_pos hx, if_pos hy]
  simp only
  rw [hex_pair_byte]

theorem decodeArg_cons {c : UInt8} (h : c ≠ 37) (t : Str) : decodeArg (c :: t) = plusByte c :: decodeArg t := by
  match t with
  | [] => rfl
  | [a] =>
    show (if c = 37 then [c, a] else [plusByte c, plusByte a]) = _
    rw [if_neg h]
    rfl
  | x :: y :: t => rw [decodeArg, if_neg h]

theorem decodeArg_hex {x y : UInt8} (hx : HexDigit x) (hy : HexDigit y) (t : Str) :
    decodeArg (37 :: x :: y :: t) = UInt8.ofNat (16 * hexValue x + hexValue y) :: decodeArg t := by
  rw [decodeArg, if_pos rfl, hexVal_value, hexVal_value, if_pos hx, if_pos hy]
  simp only
  rw [hex_pair_byte]

theorem pathByte_ne {c d : UInt8} (h : PathByte c) (hd : d ∈ b!"%/?#") : c ≠ d := fun e => h.2 (e ▸ hd)

theorem writtenSeg_decode {w s : Str} (h : WrittenSeg w s) (t : Str) : percentDecode (w ++ t) = s ++ percentDecode t := by
  induction h with
  | nil => rfl
  | plain hc _ ih =>
    rw [List.cons_append, percentDecode_cons (pathByte_ne hc (by decide)), ih]; rfl
  | escaped hx hy _ ih =>
    rw [List.cons_append, List.cons_append, List.cons_append, percentDecode_hex hx hy, ih]; rfl

theorem writtenPath_decode {w : Str} {ss : List Str} (h : WrittenPath w ss) : percentDecode w = ofSegs ss := by
  induction h with
  | @one w s h =>
    have := writtenSeg_decode h []
    rw [List.append_nil] at this
    rw [percentDecode_cons (by decide), this]
    simp [percentDecode]
  | cons h _ ih =>
    rw [List.cons_append, percentDecode_cons (by decide), writtenSeg_decode h, ih]
    rfl

theorem hexDigit_ne {x d : UInt8} (h : HexDigit x) (hd : ¬ HexDigit d) : x ≠ d := fun e => hd (e ▸ h)

theorem writtenSeg_avoids {w s : Str} (h : WrittenSeg w s) {d : UInt8} (hd : d ∈ b!"/?#") : d ∉ w := by
  have h37 : d ≠ 37 ∧ ¬ HexDigit d ∧ d ∈ b!"%/?#" := by
    simp only [List.mem_cons, List.not_mem_nil, or_false] at hd
    rcases hd with rfl | rfl | rfl <;> decide
  induction h with
  | nil => simp
  | plain hc _ ih =>
    simp only [List.mem_cons, not_or]
    exact ⟨(pathByte_ne hc h37.2.2).symm, ih⟩
  | escaped hx hy _ ih =>
    simp only [List.mem_cons, not_or]
    exact ⟨h37.1, (hexDigit_ne hx h37.2.1).symm, (hexDigit_ne hy h37.2.1).symm, ih⟩

theorem writtenPath_avoids {w : Str} {ss : List Str} (h : WrittenPath w ss) {d : UInt8} (hd : d ∈ b!"?#") : d ∉ w := by
  have hd' : d ∈ b!"/?#" ∧ d ≠ 47 := by
    simp only [List.mem_cons, List.not_mem_nil, or_false] at hd
    rcases hd with rfl | rfl <;> decide
  induction h with
  | one h => simp only [List.mem_cons, not_or]; exact ⟨hd'.2, writtenSeg_avoids h hd'.1⟩
  | cons h _ ih =>
    simp only [List.mem_cons, List.mem_append, not_or]
    exact ⟨⟨hd'.2, writtenSeg_avoids h hd'.1⟩, ih⟩

theorem writtenPath_slash {w : Str} {ss : List Str} (h : WrittenPath w ss) : hasPrefix w b!"/" = true ∧ ss ≠ [] := by
  cases h <;> simp [hasPrefix]

theorem writtenText_decode {P : UInt8 → Prop} (hP : ∀ c, P c → c ≠ 37 ∧ c ≠ 43) {w s : Str} (h : WrittenText P w s) :
    decodeArg w = s := by
  induction h with
  | nil => rfl
  | plain hc _ ih =>
    rw [decodeArg_cons (hP _ hc).1, ih]
    unfold plusByte
    rw [if_neg (hP _ hc).2]
  | space _ ih => rw [decodeArg_cons (by decide), ih]; rfl
  | escaped hx hy _ ih => rw [decodeArg_hex hx hy, ih]

theorem writtenText_avoids {P : UInt8 → Prop} {w s : Str} (h : WrittenText P w s) {d : UInt8} (hP : ∀ c, P c → c ≠ d)
    (h1 : d ≠ 37 ∧ d ≠ 43 ∧ ¬ HexDigit d) : d ∉ w := by
  induction h with
  | nil => simp
  | plain hc _ ih => simp only [List.mem_cons, not_or]; exact ⟨(hP _ hc).symm, ih⟩
  | space _ ih => simp only [List.mem_cons, not_or]; exact ⟨h1.2.1, ih⟩
  | escaped hx hy _ ih =>
    simp only [List.mem_cons, not_or]
    exact ⟨h1.1, (hexDigit_ne hx h1.2.2).symm, (hexDigit_ne hy h1.2.2).symm, ih⟩

theorem nameByte_ne {c d : UInt8} (hd : d ∈ b!"%+&=#") (h : NameByte c) : c ≠ d := fun e => h.2 (e ▸ hd)
theorem valueByte_ne {c d : UInt8} (hd : d ∈ b!"%+&#") (h : ValueByte c) : c ≠ d := fun e => h.2 (e ▸ hd)

theorem name_decode {w s : Str} (h : WrittenText NameByte w s) : decodeArg w = s :=
  writtenText_decode (fun _ hc => ⟨nameByte_ne (by decide) hc, nameByte_ne (by decide) hc⟩) h
theorem value_decode {w s : Str} (h : WrittenText ValueByte w s) : decodeArg w = s :=
  writtenText_decode (fun _ hc => ⟨valueByte_ne (by decide) hc, valueByte_ne (by decide) hc⟩) h

theorem cutByte_until {c : UInt8} {a : Str} (b : Str) (h : c ∉ a) : cutByte c (a ++ c :: b) = some (a, b) := by
  induction a with
  | nil => simp [cutByte]
  | cons x a ih =>
    simp only [List.mem_cons, not_or] at h
    rw [List.cons_append, cutByte, if_neg (Ne.symm h.1), ih h.2]

theorem cutByte_absent {c : UInt8} {a : Str} (h : c ∉ a) : cutByte c a = none := by
  induction a with
  | nil => rfl
  | cons x a ih =>
    simp only [List.mem_cons, not_or] at h
    rw [cutByte, if_neg (Ne.symm h.1), ih h.2]

theorem writtenPair_read {w : Str} {e : Str × Str} (h : WrittenPair w e) : argPair w = e ∧ 38 ∉ w ∧ 35 ∉ w := by
  cases h with
  | full hn hv =>
    have h61 := writtenText_avoids hn (d := 61) (fun _ => nameByte_ne (by decide)) (by decide)
    refine ⟨?_, ?_, ?_⟩
    · unfold argPair
      rw [cutByte_until _ h61]
      simp only
      rw [name_decode hn, value_decode hv]
    · simp only [List.mem_append, List.mem_cons, not_or]
      exact ⟨writtenText_avoids hn (fun _ => nameByte_ne (by decide)) (by decide), by decide,
        writtenText_avoids hv (fun _ => valueByte_ne (by decide)) (by decide)⟩
    · simp only [List.mem_append, List.mem_cons, not_or]
      exact ⟨writtenText_avoids hn (fun _ => nameByte_ne (by decide)) (by decide), by decide,
        writtenText_avoids hv (fun _ => valueByte_ne (by decide)) (by decide)⟩
  | bare hn =>
    have h61 := writtenText_avoids hn (d := 61) (fun _ => nameByte_ne (by decide)) (by decide)
    refine ⟨?_, writtenText_avoids hn (fun _ => nameByte_ne (by decide)) (by decide),
      writtenText_avoids hn (fun _ => nameByte_ne (by decide)) (by decide)⟩
    unfold argPair
    rw [cutByte_absent h61]
    simp only
    rw [name_decode hn]

/-- The pairs with a name or a value. -/
def said (ps : List (Str × Str)) : List (Str × Str) := ps.filter fun e => !(e.1.isEmpty && e.2.isEmpty)

theorem writtenPairs_read {w : Str} {ps : List (Str × Str)} (h : WrittenPairs w ps) : parseArgs w = said ps ∧ 35 ∉ w := by
  induction h with
  | nil => exact ⟨by decide, by simp⟩
  | one h =>
    obtain ⟨h1, h2, h3⟩ := writtenPair_read h
    refine ⟨?_, h3⟩
    unfold parseArgs
    rw [splitByte_single _ _ h2]
    simp only [List.map_cons, List.map_nil, h1]
    rfl
  | cons h _ ih =>
    obtain ⟨h1, h2, h3⟩ := writtenPair_read h
    refine ⟨?_, ?_⟩
    · unfold parseArgs
      rw [splitByte_append _ _ _ h2, List.map_cons, h1]
      unfold said
      rw [List.filter_cons, List.filter_cons]
      have := ih.1
      unfold parseArgs said at this
      rw [this]
    · simp only [List.mem_append, List.mem_cons, not_or]
      exact ⟨h3, by decide, ih.2⟩

/-! ### The target -/

theorem indexByte_until {c : UInt8} {a : Str} (b : Str) (h : c ∉ a) : indexByte c (a ++ c :: b) = some a.length := by
  unfold indexByte
  induction a with
  | nil => simp [List.findIdx?_cons]
  | cons x a ih =>
    simp only [List.mem_cons, not_or] at h
    rw [List.cons_append, List.findIdx?_cons]
    rw [if_neg (by simpa using Ne.symm h.1), ih h.2]
    simp

theorem indexByte_absent {c : UInt8} {a : Str} (h : c ∉ a) : indexByte c a = none := by
  unfold indexByte
  rw [List.findIdx?_eq_none_iff]
  intro x hx
  simp
  rintro rfl
  exact h hx

theorem parseURI_path {p : Str} (h1 : 63 ∉ p) (h2 : 35 ∉ p) : parseURI p = (p, []) := by
  unfold parseURI
  rw [indexByte_absent h1, indexByte_absent h2]

theorem parseURI_query {p q : Str} (h1 : 63 ∉ p) (h2 : 35 ∉ p) (h3 : 35 ∉ q) : parseURI (p ++ 63 :: q) = (p, q) := by
  unfold parseURI
  rw [indexByte_until q h1, indexByte_absent (show (35 : UInt8) ∉ p ++ 63 :: q by simp [h2, h3])]
  simp

theorem parseURI_fragment {t f : Str} (h : 35 ∉ t) : parseURI (t ++ 35 :: f) = parseURI t := by
  unfold parseURI
  rw [indexByte_until f h, indexByte_absent h]
  by_cases hq : 63 ∈ t
  · obtain ⟨a, b, rfl, ha⟩ : ∃ a b, t = a ++ 63 :: b ∧ 63 ∉ a := by
      clear h
      induction t with
      | nil => simp at hq
      | cons c t ih =>
        by_cases hc : c = 63
        · exact ⟨[], t, by simp [hc], by simp⟩
        · obtain ⟨a, b, h1, h2⟩ := ih (by simpa [Ne.symm hc] using hq)
          exact ⟨c :: a, b, by simp [h1], by simp [h2, Ne.symm hc]⟩
    have e1 : indexByte 63 (a ++ 63 :: b ++ 35 :: f) = some a.length := by
      rw [List.append_assoc, List.cons_append]; exact indexByte_until _ ha
    rw [e1, indexByte_until b ha]
    simp only
    rw [if_neg (by simp)]
    have e2 : (a ++ 63 :: b ++ 35 :: f).take (a ++ 63 :: b).length = a ++ 63 :: b := take_append_len _ _
    show ((a ++ 63 :: b ++ 35 :: f).take a.length, ((a ++ 63 :: b ++ 35 :: f).take (a ++ 63 :: b).length).drop (a.length + 1)) = _
    rw [e2]
    simp
  · rw [indexByte_absent hq]
    have : ∀ o : Option Nat, (∀ q, o = some q → t.length < q) →
        (match (match o, some t.length with
          | some q, some h => if q > h then none else some q
          | q, _ => q), some t.length with
        | none, none => (t ++ 35 :: f, ([] : Str))
        | some q, none => ((t ++ 35 :: f).take q, (t ++ 35 :: f).drop (q + 1))
        | some q, some h => ((t ++ 35 :: f).take q, ((t ++ 35 :: f).take h).drop (q + 1))
        | none, some h => ((t ++ 35 :: f).take h, [])) = (t, []) := by
      intro o ho
      cases o with
      | none => simp
      | some q => simp [ho q rfl]
    refine this _ fun q hq' => ?_
    unfold indexByte at hq'
    rw [List.findIdx?_eq_some_iff_getElem] at hq'
    obtain ⟨hl, h1, -⟩ := hq'
    rcases Nat.lt_trichotomy q t.length with h2 | h2 | h2
    · rw [List.getElem_append_left h2] at h1
      exact absurd (by simp at h1; rw [← h1]; exact List.getElem_mem h2) hq
    · subst h2
      rw [List.getElem_append_right (Nat.le_refl _)] at h1
      simp at h1
    · exact h2

theorem writtenTarget_parse {t : Str} {ss : List Str} {ps : List (Str × Str)} (h : WrittenTarget t ss ps) :
    ∃ p q, parseURI t = (p, q) ∧ WrittenPath p ss ∧ parseArgs q = said ps := by
  have bare : ∀ {t : Str} {ps : List (Str × Str)}, WrittenBare t ss ps → 35 ∉ t ∧ ∃ p q, parseURI t = (p, q) ∧ WrittenPath p ss ∧ parseArgs q = said ps := by
    intro t ps h
    cases h with
    | path h' =>
      have h := h'
      have h2 := writtenPath_avoids h (d := 35) (by decide)
      exact ⟨h2, t, [], parseURI_path (writtenPath_avoids h (by decide)) h2, h, by decide⟩
    | query h hq =>
      obtain ⟨h3, h4⟩ := writtenPairs_read hq
      have h2 := writtenPath_avoids h (d := 35) (by decide)
      exact ⟨by simp [h2, h4], _, _, parseURI_query (writtenPath_avoids h (by decide)) h2 h4, h, h3⟩
  cases h with
  | bare h => exact (bare h).2
  | fragment h =>
    obtain ⟨h1, p, q, h2, h3⟩ := bare h
    exact ⟨p, q, by rw [parseURI_fragment h1, h2], h3⟩

/-! ### Lengths: each step of the normalisation that changes the path makes it shorter -/

theorem dedupSlash_same (s : Str) (h : s.length ≤ (dedupSlash s).length) : dedupSlash s = s := by
  induction s with
  | nil => rfl
  | cons c t ih =>
    cases t with
    | nil => rfl
    | cons d t =>
      rw [dedupSlash] at h ⊢
      split at h
      · have := dedupSlash_length (d :: t)
        simp at this h
        omega
      · rename_i hc
        rw [if_neg hc, ih (by simp at h ⊢; exact h)]

theorem indexOf_bound (sub s : Str) (n : Nat) (h : indexOf sub s = some n) : n + sub.length ≤ s.length := by
  induction s generalizing n with
  | nil =>
    rw [indexOf] at h
    split at h
    · rename_i hp
      have := (List.isPrefixOf_iff_prefix.1 hp).length_le
      cases h
      simpa using this
    · cases h
  | cons c t ih =>
    rw [indexOf] at h
    split at h
    · rename_i hp
      have := (List.isPrefixOf_iff_prefix.1 hp).length_le
      cases h
      simpa using this
    · cases hx : indexOf sub t with
      | none => rw [hx] at h; cases h
      | some k =>
        rw [hx] at h
        cases h
        have := ih k hx
        simp; omega

theorem removeDot_same (n : Nat) (b : Str) (h : b.length ≤ (removeDot n b).length) : removeDot n b = b := by
  cases n with
  | zero => rfl
  | succ n =>
    rw [removeDot] at h ⊢
    split
    · rfl
    · rename_i k hk
      rw [hk] at h
      have h1 := removeDot_length n (b.take k ++ b.drop (k + 2))
      have h2 := indexOf_bound _ _ _ hk
      simp at h h1 h2
      omega

theorem removeDotDot_same (n : Nat) (b : Str) (h : b.length ≤ (removeDotDot n b).length) : removeDotDot n b = b := by
  cases n with
  | zero => rfl
  | succ n =>
    rw [removeDotDot] at h ⊢
    split
    · rfl
    · rename_i k hk
      rw [hk] at h
      have h1 := removeDotDot_length n (b.take (lastSlash b k) ++ b.drop (k + 3))
      have h2 := indexOf_bound _ _ _ hk
      have h3 : lastSlash b k ≤ k := by
        unfold lastSlash lastIndexByte
        split
        · simp
        · simp; omega
      simp at h h1 h2
      omega

theorem trailingDotDot_same (b : Str) (h : b.length ≤ (trailingDotDot b).length) : trailingDotDot b = b := by
  unfold trailingDotDot at h ⊢
  split
  · rename_i hs
    rw [if_pos hs] at h
    have h3 : 3 ≤ b.length := by
      unfold hasSuffix at hs
      simpa using (List.isSuffixOf_iff_suffix.1 hs).length_le
    cases hx : lastIndexByte 47 (b.take (b.length - 3)) with
    | none => rw [hx] at h; simp at h; omega
    | some k =>
      rw [hx] at h
      simp only [List.length_take] at h
      have : k ≤ b.length - 3 := by
        unfold lastIndexByte at hx
        split at hx
        · cases hx
        · cases hx
          simp; omega
      omega
  · rfl

/-- Normalisation never lengthens a decoded path, and leaves it alone if it keeps its length. -/
theorem normalize_same (d : Str) (hd : d ≠ []) (P : Str)
    (hP : P = (let d := dedupSlash d
       let d := removeDot d.length d
       let d := removeDotDot d.length d
       trailingDotDot d)) (h : d.length ≤ P.length) : P = d := by
  simp only at hP
  have h1 := dedupSlash_length d
  have h2 := removeDot_length (dedupSlash d).length (dedupSlash d)
  have h3 := removeDotDot_length (removeDot (dedupSlash d).length (dedupSlash d)).length (removeDot (dedupSlash d).length (dedupSlash d))
  have h4 : P.length ≤ (removeDotDot (removeDot (dedupSlash d).length (dedupSlash d)).length (removeDot (dedupSlash d).length (dedupSlash d))).length := by
    rw [hP]
    apply trailingDotDot_length
    intro he
    rw [he] at hP
    rw [hP] at h
    have : trailingDotDot [] = [] := by decide
    rw [this] at h
    cases d with
    | nil => exact hd rfl
    | cons a t => simp at h
  have e1 := dedupSlash_same d (by omega)
  rw [e1] at hP h2 h3 h4
  have e2 := removeDot_same d.length d (by omega)
  rw [e2] at hP h3 h4
  have e3 := removeDotDot_same d.length d (by omega)
  rw [e3] at hP h4
  rw [hP]
  exact trailingDotDot_same d (by rw [← hP]; exact h)

/-! ### Splitting -/

theorem strip_suffix (seqs : List Str) (n : Nat) (s : Str) : strip seqs n s <:+ s := by
  induction n generalizing s with
  | zero => exact List.suffix_refl s
  | succ n ih =>
    rw [strip]
    cases h : stripOne seqs s with
    | none => exact List.suffix_refl s
    | some r =>
      unfold stripOne at h
      cases hf : seqs.find? (·.isPrefixOf s) with
      | none => rw [hf] at h; cases h
      | some w =>
        rw [hf] at h
        cases h
        exact (ih _).trans (List.drop_suffix _ _)

theorem trimRightSpace_prefix (s : Str) : trimRightSpace s <+: s := by
  unfold trimRightSpace
  have := strip_suffix (spaceSeqs.map List.reverse) s.length s.reverse
  rw [← List.reverse_prefix] at this
  simpa using this

/-- Trimming leaves the text alone only if it does not end with white space. -/
theorem trimRightSpace_same (s : Str) (h : trimRightSpace s = s) : ¬ EndsWithSpace s := by
  rintro ⟨x, hx, r, hr⟩
  have hne := spaceSeqs_ne_nil x hx
  have hlen : 0 < s.length := by
    rw [← hr]
    cases x with
    | nil => exact absurd rfl hne
    | cons a t => simp; omega
  obtain ⟨n, hn⟩ : ∃ n, s.length = n + 1 := ⟨s.length - 1, by omega⟩
  have : (trimRightSpace s).length < s.length := by
    unfold trimRightSpace
    rw [hn, strip]
    have hrev : s.reverse = x.reverse ++ r.reverse := by rw [← hr]; simp
    rw [hrev, stripOne_some spaceSeqs_pf_rev (List.mem_map.2 ⟨x, hx, rfl⟩)]
    simp only
    have h1 := (strip_suffix (spaceSeqs.map List.reverse) n r.reverse).length_le
    have h2 : s.length = r.length + x.length := by rw [← hr]; simp
    have h3 : 0 < x.length := by
      cases x with
      | nil => exact absurd rfl hne
      | cons a t => simp
    simp at h1 ⊢
    omega
  rw [h] at this
  exact absurd this (Nat.lt_irrefl _)

theorem trimLeftSpace_slash (t : Str) : trimLeftSpace (47 :: t) = 47 :: t := by
  have := trimLeftSpace_append (w := []) (s := 47 :: t) spaces_nil (by
    rintro ⟨x, hx, hp⟩
    have hno : ∀ y ∈ spaceSeqs, (47 : UInt8) ∉ y ∧ y ≠ [] := by decide +kernel
    cases x with
    | nil => exact (hno [] hx).2 rfl
    | cons a x =>
      have := List.cons_prefix_cons.1 hp
      exact (hno _ hx).1 (by simp [this.1]))
  simpa using this

theorem rdropWhile_isPrefix (p : UInt8 → Bool) (s : Str) : rdropWhile p s <+: s := by
  unfold rdropWhile
  have := List.dropWhile_suffix p (l := s.reverse)
  rw [← List.reverse_prefix] at this
  simpa using this

theorem eq_of_prefix {a b : Str} (h : a <+: b) (hl : b.length ≤ a.length) : a = b := h.eq_of_length_le hl

theorem segs_short (P t : Str) (hP : P = 47 :: t) : (ofSegs (segs P)).length ≤ P.length := by
  subst hP
  unfold segs splitPath
  simp only
  have hXp : trimSpace (47 :: t) <+: 47 :: t := by rw [trimSpace, trimLeftSpace_slash]; exact trimRightSpace_prefix _
  have hY : (trimByte 47 (trimSpace (47 :: t))).length ≤ t.length := by
    have hl := hXp.length_le
    cases hX : trimSpace (47 :: t) with
    | nil => exact Nat.zero_le _
    | cons a u =>
      rw [hX] at hXp hl
      rw [(List.cons_prefix_cons.1 hXp).1]
      unfold trimByte trimLeftByte
      have h1 := (rdropWhile_isPrefix (· == 47) ((47 :: u).dropWhile (· == 47))).length_le
      rw [List.dropWhile_cons_of_pos (by rfl)] at h1 ⊢
      have h2 := (List.dropWhile_suffix (· == (47 : UInt8)) (l := u)).length_le
      simp at h1 h2 hl ⊢
      omega
  generalize trimByte 47 (trimSpace (47 :: t)) = Y at hY
  have hZp : trimSpace (47 :: Y) <+: 47 :: Y := by rw [trimSpace, trimLeftSpace_slash]; exact trimRightSpace_prefix _
  have hl := hZp.length_le
  split
  · simp
  · rename_i hc
    cases hZ : trimSpace (47 :: Y) with
    | nil => rw [hZ] at hc; exact absurd (Or.inr rfl) hc
    | cons a v =>
      rw [hZ] at hZp hl
      have : a = 47 := (List.cons_prefix_cons.1 hZp).1
      rw [this, splitByte, if_pos rfl]
      simp only [List.tail_cons]
      rw [ofSegs_split]
      simp at hl ⊢
      omega

/-- The segments of a rooted path, written again, are not longer than the path; if they are as long, the path has no white
space and no slash at its end, and the segments are what is between its slashes. -/
theorem segs_same (t : Str) (hne : segs (47 :: t) ≠ []) (hl : t.length + 1 ≤ (ofSegs (segs (47 :: t))).length) :
    segs (47 :: t) = splitByte 47 t ∧ ¬ EndsWithSpace (47 :: t) ∧ t.getLast? ≠ some 47 := by
  unfold segs splitPath at hne hl ⊢
  simp only at hne hl ⊢
  generalize hX : trimSpace (47 :: t) = X at hne hl ⊢
  have hX' : X = trimRightSpace (47 :: t) := by rw [← hX, trimSpace, trimLeftSpace_slash]
  have hXp : X <+: 47 :: t := hX' ▸ trimRightSpace_prefix _
  have hXe : X = [] ∨ ∃ u, X = 47 :: u := by
    cases X with
    | nil => exact Or.inl rfl
    | cons a u => exact Or.inr ⟨u, by rw [(List.cons_prefix_cons.1 hXp).1]⟩
  generalize hY : trimByte 47 X = Y at hne hl ⊢
  have hYl : Y.length + 1 ≤ X.length ∨ X = [] := by
    rcases hXe with h | ⟨u, h⟩
    · exact Or.inr h
    · left
      rw [← hY, h]
      unfold trimByte trimLeftByte
      have h1 := (rdropWhile_isPrefix (· == 47) ((47 :: u).dropWhile (· == 47))).length_le
      rw [List.dropWhile_cons_of_pos (by rfl)] at h1 ⊢
      have h2 := (List.dropWhile_suffix (· == (47 : UInt8)) (l := u)).length_le
      simp at h1 h2 ⊢
      omega
  generalize hZ : trimSpace (47 :: Y) = Z at hne hl ⊢
  have hZp : Z <+: 47 :: Y := by
    rw [← hZ, trimSpace, trimLeftSpace_slash]
    exact trimRightSpace_prefix _
  by_cases hc : Z = [47] ∨ Z = []
  · rw [if_pos hc] at hne
    exact absurd rfl hne
  · rw [if_neg hc] at hne hl ⊢
    obtain ⟨v, hv⟩ : ∃ v, Z = 47 :: v := by
      cases Z with
      | nil => exact absurd (Or.inr rfl) hc
      | cons a v => exact ⟨v, by rw [(List.cons_prefix_cons.1 hZp).1]⟩
    have hs : splitByte 47 Z = [] :: splitByte 47 v := by rw [hv, splitByte, if_pos rfl]
    rw [hs] at hne hl ⊢
    simp only [List.tail_cons] at hne hl ⊢
    rw [ofSegs_split] at hl
    have l1 := hZp.length_le
    have l2 := hXp.length_le
    rw [hv] at l1
    simp only [List.length_cons] at l1 l2 hl
    have hXne : X ≠ [] := by
      rintro rfl
      have : Y = [] := by rw [← hY]; rfl
      rw [this] at l1 hZp
      simp at l1
      rw [hv, l1] at hc
      exact hc (Or.inl rfl)
    have l3 : Y.length + 1 ≤ X.length := hYl.resolve_right hXne
    have eX : X = 47 :: t := eq_of_prefix hXp (by simp; omega)
    have eY : Y = t := by
      rw [← hY, eX]
      unfold trimByte trimLeftByte
      rw [List.dropWhile_cons_of_pos (by rfl)]
      have p1 := rdropWhile_isPrefix (· == 47) (t.dropWhile (· == 47))
      have p2 := List.dropWhile_suffix (· == (47 : UInt8)) (l := t)
      have q1 := p1.length_le
      have q2 := p2.length_le
      have q3 : Y.length = (rdropWhile (· == 47) (t.dropWhile (· == 47))).length := by
        rw [← hY, eX]
        unfold trimByte trimLeftByte
        rw [List.dropWhile_cons_of_pos (by rfl)]
      rw [eq_of_prefix p1 (by omega), p2.eq_of_length_le (by omega)]
    have eZ : Z = 47 :: Y := eq_of_prefix hZp (by rw [hv]; simp; omega)
    have ev : v = t := by
      have := hv.symm.trans eZ
      rw [eY] at this
      exact (List.cons.inj this).2
    refine ⟨by rw [ev], trimRightSpace_same _ (by rw [← hX']; exact eX), ?_⟩
    intro hg
    have : (rdropWhile (· == 47) t).length < t.length := by
      unfold rdropWhile
      rw [← List.head?_reverse] at hg
      cases hr : t.reverse with
      | nil => rw [hr] at hg; cases hg
      | cons a r =>
        rw [hr] at hg
        cases hg
        rw [List.dropWhile_cons_of_pos (by rfl)]
        have h1 := (List.dropWhile_suffix (· == (47 : UInt8)) (l := r)).length_le
        have h2 : t.length = r.length + 1 := by rw [← List.length_reverse, hr]; simp
        simp
        omega
    have e : trimByte 47 (47 :: t) = t := by rw [← eX, hY, eY]
    unfold trimByte trimLeftByte at e
    rw [List.dropWhile_cons_of_pos (by rfl)] at e
    have p1 := (rdropWhile_isPrefix (· == 47) (t.dropWhile (· == 47))).length_le
    have p2 := List.dropWhile_suffix (· == (47 : UInt8)) (l := t)
    have p3 : t.dropWhile (· == 47) = t := p2.eq_of_length_le (by rw [e] at p1; exact p1)
    rw [p3] at e
    rw [e] at this
    exact absurd this (Nat.lt_irrefl _)

/-! ### C100 -/

theorem wire_path {r : WireReq} {ss : List Str} {qs : List (Str × Str)} (h : WrittenTarget r.target ss qs) :
    ss ≠ [] ∧ wirePath r = (let d := dedupSlash (ofSegs ss)
       let d := removeDot d.length d
       let d := removeDotDot d.length d
       trailingDotDot d) := by
  obtain ⟨p, q, h1, h2, -⟩ := writtenTarget_parse h
  have h3 := writtenPath_slash h2
  refine ⟨h3.2, ?_⟩
  unfold wirePath normalizePath addLeadingSlash
  rw [h1]
  simp only
  rw [if_pos h3.1, writtenPath_decode h2]
  rfl

theorem ofSegs_cons_ex {l : List Str} (h : l ≠ []) : ∃ t, ofSegs l = 47 :: t ∧ (NoSlash l → splitByte 47 t = l) := by
  refine ⟨joinByte 47 l, ofSegs_join l h, fun hl => splitByte_join 47 l h hl⟩

theorem intact_normal {ss : List Str} (hne : ss ≠ []) (h : Intact ss) : Normal ss := by
  refine ⟨hne, fun s hs => (h.elem s hs).2.2, ?_, fun hm => (h.elem _ hm).2.1 rfl⟩
  intro A s B hAB hB
  refine ⟨(h.elem s (by rw [hAB]; simp)).1, h.dot s ?_⟩
  rw [hAB, List.dropLast_append_of_ne_nil (by simp)]
  cases B with
  | nil => exact absurd rfl hB
  | cons b B => simp [List.dropLast]

/-- **C100**, exactly: the segments the router sees are those the client meant, however it wrote them, iff they are intact. -/
theorem C100_exact (r : WireReq) (ss : List Str) (qs : List (Str × Str)) (h : WrittenTarget r.target ss qs) :
    segs (wirePath r) = ss ↔ Intact ss := by
  obtain ⟨hne, hw⟩ := wire_path h
  constructor
  · intro hs
    have hno : NoSlash ss := fun s hm => C10_no_slash (wirePath r) s (hs.symm ▸ hm)
    obtain ⟨l, hn, -, hl, -⟩ := normalize_steps ss hne hno
    have hl' : wirePath r = ofSegs l := hw.trans hl
    obtain ⟨t, ht, ht'⟩ := ofSegs_cons_ex hn.1
    have hwt : wirePath r = 47 :: t := hl'.trans ht
    -- the path is as long as what was sent
    have len : (ofSegs ss).length ≤ (wirePath r).length := by
      rw [← hs]
      exact segs_short _ t hwt
    have same := normalize_same (ofSegs ss) (by
      cases ss with
      | nil => exact absurd rfl hne
      | cons a b => simp) (wirePath r) hw len
    have hls : l = ss := ofSegs_inj hn.1 hne hn.2.1 hno (hl'.symm.trans same)
    subst hls
    rw [hwt] at hs
    obtain ⟨-, s2, s3⟩ := segs_same t (by rw [hs]; exact hne) (by rw [hs, ← hl', hwt]; simp)
    obtain ⟨A, e, rfl⟩ : ∃ A e, l = A ++ [e] := by
      rcases List.eq_nil_or_concat l with h | ⟨A, s, h⟩
      · exact absurd h hne
      · exact ⟨A, s, by simp [h]⟩
    have hend : 47 :: t = ofSegs A ++ 47 :: e := by rw [← ht]; simp
    have he : e ≠ [] := by
      rintro rfl
      cases A with
      | nil =>
        simp at hend
        subst hend
        revert hs
        decide +kernel
      | cons a A =>
        simp at hend
        rw [hend] at s3
        exact s3 (by simp)
    have inner : ∀ s ∈ A, s ≠ [] ∧ s ≠ b!"." := by
      intro s hs
      obtain ⟨U, V, rfl⟩ := List.append_of_mem hs
      exact hn.2.2.1 U s (V ++ [e]) (by simp) (by simp)
    refine ⟨?_, ?_, ?_⟩
    · intro s hs
      refine ⟨?_, fun hd => hn.2.2.2 (hd ▸ hs), hno s hs⟩
      simp at hs
      rcases hs with hs | rfl
      · exact (inner s hs).1
      · exact he
    · intro s hs
      rw [List.dropLast_concat] at hs
      exact (inner s hs).2
    · rintro s hs ⟨x, hx, hsuf⟩
      rw [List.getLast?_concat] at hs
      cases hs
      refine s2 ⟨x, hx, hsuf.trans ?_⟩
      rw [hend]
      exact (List.suffix_cons 47 e).trans (List.suffix_append _ _)
  · intro hi
    have hn := intact_normal hne hi
    obtain ⟨l, -, -, hl, hid, -⟩ := normalize_steps ss hne hn.2.1
    rw [hw.trans hl, hid hn, ofSegs_join ss hne]
    have := C10_segments ss hne hn.2.1 (hi.elem _ (List.head_mem hne)).1 (hi.elem _ (List.getLast_mem hne)).1
      (hi.space _ (List.getLast?_eq_some_getLast hne)) [] [] spaces_nil spaces_nil 1 0 (Or.inl (by decide))
    simpa using this

/-- **C100**: a client asks for a path with intact segments, each byte of them written as itself or as an escape.  The route
served is the one the routing rules give for those segments, and `PeekParam` of a parameter of that route is the segment
the client put in its place — whatever the query and the form say. -/
theorem C100_arrives_partial {σ : Type} (hist : List (Reg σ)) (hclean : ∀ x ∈ hist, Clean x) (m : Method) (buf : Args)
    (r : WireReq) (ss : List Str) (qs : List (Str × Str)) (h : WrittenTarget r.target ss qs) (hi : Intact ss) :
    ∃ res, treeFind (treeOf hist) m (wirePath r) buf = .ret res ∧
      (∀ x b, serve (hist.map Reg.toRoute) m ss = some (x, b) → res.found = true ∧ res.set = some x.set ∧ res.args = b) ∧
      (serve (hist.map Reg.toRoute) m ss = none → res.found = false) ∧
      (res.found = true → ∃ x ∈ hist, res.set = some x.set ∧
        ∀ (i : Nat) (n s : Str), (routePats x)[i]? = some (.par n) → (∀ j < i, (routePats x)[j]? ≠ some (.par n)) →
          ss[i]? = some s → peekParam (wireSources r res.args) n = some s) := by
  have hs := (C100_exact r ss qs h).2 hi
  have hf := find_clean hclean m (wirePath r) buf
  rw [hs] at hf
  refine ⟨_, hf, ?_, ?_, ?_⟩
  · intro x b hx
    rw [hx]
    exact ⟨rfl, rfl, rfl⟩
  · intro hx
    rw [hx]
    rfl
  · intro hfound
    obtain ⟨x, hx, h1, h2⟩ := C37_url_wins_partial hist m (wirePath r) buf _ hf hfound
    refine ⟨x, hx, h1, ?_⟩
    intro i n s hi' hj hs'
    refine h2 (hclean x hx) i n s hi' hj (by rw [hs]; exact hs') ?_ _ _
    exact (hi.elem s (List.mem_of_getElem? hs')).1

/-- **C100**: the way the segments are written, the query and the fragment make no difference to the lookup, in the tree or in the
regular expressions — for all segments, intact or not. -/
theorem C100_same {σ ρ : Type} (rxMatch : ρ → Str → Bool) (visit : GoMap ρ (Option σ) → List (ρ × Option σ)) (tree : Node σ)
    (regs : RegTable ρ σ) (m : Method) (buf : Args) (r r' : WireReq) (ss : List Str) (qs qs' : List (Str × Str))
    (h : WrittenTarget r.target ss qs) (h' : WrittenTarget r'.target ss qs') :
    serverFind rxMatch visit tree regs m (wirePath r) buf = serverFind rxMatch visit tree regs m (wirePath r') buf := by
  rw [(wire_path h).2, (wire_path h').2]

/-- Every segment can be written: byte by byte as escapes. -/
theorem written_escaped (s : Str) : ∃ w, WrittenSeg w s := by
  have digit : ∀ n : Fin 16, ∃ x : UInt8, HexDigit x ∧ hexValue x = n.val := by
    intro n
    have : ∀ n : Fin 16, ∃ x ∈ b!"0123456789abcdef", HexDigit x ∧ hexValue x = n.val := by decide +kernel
    obtain ⟨x, -, h⟩ := this n
    exact ⟨x, h⟩
  induction s with
  | nil => exact ⟨[], .nil⟩
  | cons c s ih =>
    obtain ⟨w, hw⟩ := ih
    have hc := c.toNat_lt
    obtain ⟨x, hx, ex⟩ := digit ⟨c.toNat / 16, by omega⟩
    obtain ⟨y, hy, ey⟩ := digit ⟨c.toNat % 16, by omega⟩
    refine ⟨37 :: x :: y :: w, ?_⟩
    have := WrittenSeg.escaped hx hy hw
    rw [ex, ey] at this
    simp only at this
    have e : 16 * (c.toNat / 16) + c.toNat % 16 = c.toNat := by omega
    rw [e, UInt8.ofNat_toNat] at this
    exact this

/-- **C100** fails for the other segments: no way of writing a path parameter that is empty, ".." or contains a slash (in any
position), "." followed by something, or white space at the end, gets it to the handler. -/
theorem C100_violated (ss : List Str) (h : ¬ Intact ss) (hne : ss ≠ []) :
    (∃ t, WrittenTarget t ss []) ∧ ∀ r : WireReq, ∀ qs, WrittenTarget r.target ss qs → segs (wirePath r) ≠ ss := by
  constructor
  · have : ∃ p, WrittenPath p ss := by
      clear h
      induction ss with
      | nil => exact absurd rfl hne
      | cons s ss ih =>
        obtain ⟨w, hw⟩ := written_escaped s
        cases ss with
        | nil => exact ⟨_, .one hw⟩
        | cons u t =>
          obtain ⟨p, hp⟩ := ih (by simp)
          exact ⟨_, .cons hw hp⟩
    obtain ⟨p, hp⟩ := this
    exact ⟨p, .bare (.path hp)⟩
  · intro r qs hw he
    exact h ((C100_exact r ss qs hw).1 he)

/-- A document whose name contains a slash, and one called "..", asked for by a correct client. -/
theorem C100_violated_example :
    let hist : List (Reg Nat) := [⟨b!"GET", b!"/doc/:name", 1⟩, ⟨b!"GET", b!"/doc/:name/delete", 2⟩, ⟨b!"GET", b!"/", 3⟩]
    (∀ x ∈ hist, Clean x) ∧
    WrittenTarget b!"/doc/a%2Fdelete" [b!"doc", b!"a/delete"] [] ∧
    treeFind (treeOf hist) b!"GET" (wirePath ⟨b!"/doc/a%2Fdelete", [], []⟩) [] = .ret ⟨some 2, true, [(b!"name", b!"a")]⟩ ∧
    WrittenTarget b!"/doc/%2e%2e" [b!"doc", b!".."] [] ∧
    treeFind (treeOf hist) b!"GET" (wirePath ⟨b!"/doc/%2e%2e", [], []⟩) [] = .ret ⟨some 3, true, []⟩ := by
  have p : ∀ {c : UInt8} {w s : Str}, decide (PathByte c) = true → WrittenSeg w s → WrittenSeg (c :: w) (c :: s) :=
    fun h => .plain (of_decide_eq_true h)
  have hdoc : WrittenSeg b!"doc" b!"doc" := p (by decide) (p (by decide) (p (by decide) .nil))
  refine ⟨by decide +kernel, ?_, by decide +kernel, ?_, by decide +kernel⟩
  · refine .bare (.path (.cons hdoc (.one (p (by decide) (.escaped (x := 50) (y := 70) (by decide) (by decide) ?_)))))
    exact p (by decide) (p (by decide) (p (by decide) (p (by decide) (p (by decide) (p (by decide) .nil)))))
  · refine .bare (.path (.cons hdoc (.one (.escaped (x := 50) (y := 101) (by decide) (by decide)
      (.escaped (x := 50) (y := 101) (by decide) (by decide) .nil)))))

/-- A case that meets the hypotheses of `C100_arrives_partial`: the name "a b%" sent as "a%20b%25". -/
example : WrittenTarget b!"/doc/a%20b%25?name=x" [b!"doc", b!"a b%"] [(b!"name", b!"x")] ∧ Intact [b!"doc", b!"a b%"] ∧
    peekParam (wireSources ⟨b!"/doc/a%20b%25?name=x", [], []⟩ [(b!"name", b!"a b%")]) b!"name" = some b!"a b%" := by
  have p : ∀ {c : UInt8} {w s : Str}, decide (PathByte c) = true → WrittenSeg w s → WrittenSeg (c :: w) (c :: s) :=
    fun h => .plain (of_decide_eq_true h)
  have q : ∀ {P : UInt8 → Prop} {c : UInt8} {w s : Str}, P c → WrittenText P w s → WrittenText P (c :: w) (c :: s) :=
    fun h => .plain h
  refine ⟨?_, ⟨by decide, by decide, ?_⟩, by decide +kernel⟩
  · refine .bare (.query (p := b!"/doc/a%20b%25") (.cons (p (by decide) (p (by decide) (p (by decide) .nil))) (.one ?_)) (.one ?_))
    · exact p (by decide) (.escaped (x := 50) (y := 48) (by decide) (by decide) (p (by decide)
        (.escaped (x := 50) (y := 53) (by decide) (by decide) .nil)))
    · exact .full (wn := b!"name") (wv := b!"x") (q (by unfold NameByte Visible; decide) (q (by unfold NameByte Visible; decide)
        (q (by unfold NameByte Visible; decide) (q (by unfold NameByte Visible; decide) .nil)))) (q (by unfold ValueByte Visible; decide) .nil)
  · intro s hs
    cases hs
    rintro ⟨x, hx, h⟩
    revert x
    decide +kernel

/-! ### C101 -/

theorem valuesOf_said (ps : List (Str × Str)) (k : Str) (hk : k ≠ []) : valuesOf (said ps) k = valuesOf ps k := by
  induction ps with
  | nil => rfl
  | cons e t ih =>
    obtain ⟨n, v⟩ := e
    unfold said at ih ⊢
    rw [List.filter_cons]
    split
    · rw [valuesOf, valuesOf, ih]
    · rename_i h
      have : n = [] := by
        simp at h
        exact h.1
      rw [valuesOf, if_neg (by rw [this]; exact fun h => hk h.symm), ih]

theorem firstVal_values (a : List (Str × Str)) (k v : Str) : FirstVal a k v ↔ (valuesOf a k).head? = some v := by
  constructor
  · rintro ⟨pre, post, rfl, h⟩
    rw [valuesOf_append, (valuesOf_nil pre k).2 h]
    simp [valuesOf]
  · induction a with
    | nil => simp [valuesOf]
    | cons e t ih =>
      obtain ⟨n, w⟩ := e
      intro h
      rw [valuesOf] at h
      by_cases hn : n = k
      · rw [if_pos hn] at h
        simp at h
        exact ⟨[], t, by rw [hn, h]; rfl, by simp⟩
      · rw [if_neg hn] at h
        obtain ⟨pre, post, h1, h2⟩ := ih h
        refine ⟨(n, w) :: pre, post, by rw [h1]; rfl, ?_⟩
        intro e he
        simp at he
        rcases he with rfl | he
        · exact hn
        · exact h2 e he

theorem hasVal_congr {a b : List (Str × Str)} {k : Str} (h : valuesOf a k = valuesOf b k) :
    (HasVal a k ↔ HasVal b k) ∧ (Absent a k ↔ Absent b k) ∧ ∀ v, FirstVal a k v ↔ FirstVal b k v := by
  have f : ∀ v, FirstVal a k v ↔ FirstVal b k v := fun v => by rw [firstVal_values, firstVal_values, h]
  refine ⟨?_, by rw [← valuesOf_nil, ← valuesOf_nil, h], f⟩
  unfold HasVal
  constructor
  · rintro ⟨v, h1, h2⟩; exact ⟨v, (f v).1 h1, h2⟩
  · rintro ⟨v, h1, h2⟩; exact ⟨v, (f v).2 h1, h2⟩

theorem wire_values {r : WireReq} {ss : List Str} {qs : List (Str × Str)} (h : WrittenTarget r.target ss qs) :
    wireQuery r = said qs := by
  obtain ⟨p, q, h1, -, h3⟩ := writtenTarget_parse h
  unfold wireQuery
  rw [h1]
  exact h3

theorem wire_form {r : WireReq} {fs : List (Str × Str)} (h : FormOf r.contentType r.body fs) : wireForm r = said fs := by
  cases h with
  | form h1 h2 =>
    unfold wireForm hasPrefix
    rw [if_pos (by rw [h1]; exact List.isPrefixOf_iff_prefix.2 (List.prefix_append _ _))]
    exact (writtenPairs_read h2).1
  | other h =>
    unfold wireForm hasPrefix
    rw [if_neg (fun hp => h (List.isPrefixOf_iff_prefix.1 hp))]
    rfl

/-- **C101**: the query parameters `qs` and the form parameters `fs`, names and values written in any of the ways there are,
are what a handler reads, for every name but the empty one: a name the route does not bind has the first value of the query,
if it is not empty, else the first value of the form; all values in order; `SqueezeParams` has the values of the form. -/
theorem C101_params (r : WireReq) (ss : List Str) (qs fs : List (Str × Str)) (hq : WrittenTarget r.target ss qs) (hf : FormOf r.contentType r.body fs)
    (url : Args) (k : Str) (hk : k ≠ []) :
    (¬ HasVal url k → ∀ v, FirstVal qs k v → v ≠ [] → peekParam (wireSources r url) k = some v) ∧
    (¬ HasVal url k → ¬ HasVal qs k → ∀ v, FirstVal fs k v → peekParam (wireSources r url) k = some v) ∧
    (¬ HasVal url k → ¬ HasVal qs k → Absent fs k → peekParam (wireSources r url) k = none) ∧
    (Absent url k → ¬ Absent qs k → peekMultiParam (wireSources r url) k = valuesOf qs k) ∧
    (Absent url k → Absent qs k → peekMultiParam (wireSources r url) k = valuesOf fs k) ∧
    (valuesOf fs k = [] → (squeezeParams (wireSources r url)).get? k = none) ∧
    (∀ v, valuesOf fs k = [v] → (squeezeParams (wireSources r url)).get? k = some (.one v)) ∧
    (∀ v w t, valuesOf fs k = v :: w :: t → (squeezeParams (wireSources r url)).get? k = some (.many (w :: v :: t))) := by
  have eq : valuesOf (wireSources r url).query k = valuesOf qs k := by
    show valuesOf (wireQuery r) k = _
    rw [wire_values hq, valuesOf_said qs k hk]
  have ef : valuesOf (wireSources r url).form k = valuesOf fs k := by
    show valuesOf (wireForm r) k = _
    rw [wire_form hf, valuesOf_said fs k hk]
  obtain ⟨q1, q2, q3⟩ := hasVal_congr eq
  obtain ⟨f1, f2, f3⟩ := hasVal_congr ef
  obtain ⟨-, p1, p2, p3⟩ := C36_peek (wireSources r url) k
  obtain ⟨-, m1, m2, -⟩ := C36_peekMulti (wireSources r url) k
  obtain ⟨s1, s2, s3⟩ := C38_squeeze (wireSources r url) k
  rw [q1] at p2 p3
  rw [f2] at p3
  rw [q2] at m1 m2
  rw [eq] at m1
  rw [ef] at m2 s1 s2 s3
  exact ⟨fun h v hv => p1 h v ((q3 v).2 hv), fun h h' v hv => p2 h h' v ((f3 v).2 hv), p3, m1, m2, s1, s2,
    fun v w t h => (s3 v w t h).1⟩

/-- A case that meets the hypotheses of `C101_params`, with two ways to write a space. -/
example : WrittenTarget b!"/?q=a+b&q=c%20d" [[]] [(b!"q", b!"a b"), (b!"q", b!"c d")] ∧
    FormOf b!"application/x-www-form-urlencoded; charset=utf-8" b!"q=1&x" [(b!"q", b!"1"), (b!"x", [])] ∧
    peekMultiParam (wireSources ⟨b!"/?q=a+b&q=c%20d", b!"application/x-www-form-urlencoded; charset=utf-8", b!"q=1&x"⟩ []) b!"q" =
      [b!"a b", b!"c d"] := by
  have q : ∀ {P : UInt8 → Prop} {c : UInt8} {w s : Str}, P c → WrittenText P w s → WrittenText P (c :: w) (c :: s) :=
    fun h => .plain h
  refine ⟨?_, ?_, by decide +kernel⟩
  · refine .bare (.query (p := b!"/") (.one .nil) (.cons (w := b!"q=a+b") ?_ (.one (w := b!"q=c%20d") ?_)))
    · exact .full (wn := b!"q") (wv := b!"a+b") (q (by decide) .nil) (q (by decide) (.space (q (by decide) .nil)))
    · exact .full (wn := b!"q") (wv := b!"c%20d") (q (by decide) .nil)
        (q (by decide) (.escaped (x := 50) (y := 48) (by decide) (by decide) (q (by decide) .nil)))
  · refine .form (more := b!"; charset=utf-8") (by decide) (.cons (w := b!"q=1") ?_ (.one (w := b!"x") ?_))
    · exact .full (wn := b!"q") (wv := b!"1") (q (by decide) .nil) (q (by decide) .nil)
    · exact .bare (q (by decide) .nil)

end Verif
