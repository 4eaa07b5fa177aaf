import Verif.Spec.Ctx
import Verif.Base.U8
/-
Lemmas about the request helpers.
-/
namespace Verif
open Spec

theorem argsPeek_firstVal (a : Args) (k v : Str) : argsPeek a k = some v ↔ FirstVal a k v := by
  unfold argsPeek FirstVal
  induction a with
  | nil => simp
  | cons e t ih =>
    obtain ⟨n, w⟩ := e
    by_cases h : n = k
    · subst h
      simp only [decide_true, List.find?_cons_of_pos, Option.map_some, Option.some.injEq]
      constructor
      · rintro rfl; exact ⟨[], t, rfl, by simp⟩
      · rintro ⟨pre, post, h1, h2⟩
        cases pre with
        | nil => simp at h1; exact h1.1
        | cons p ps => simp at h1; exact absurd (h1.1 ▸ rfl) (h2 p (by simp))
    · rw [List.find?_cons_of_neg (by simpa using h), ih]
      constructor
      · rintro ⟨pre, post, rfl, h2⟩
        exact ⟨(n, w) :: pre, post, rfl, by simpa using ⟨h, fun a b hm => h2 (a, b) hm⟩⟩
      · rintro ⟨pre, post, h1, h2⟩
        cases pre with
        | nil => simp at h1; exact absurd h1.1.1 h
        | cons p ps =>
          simp at h1
          exact ⟨ps, post, h1.2, fun e he => h2 e (by simp [he])⟩

theorem argsPeek_absent (a : Args) (k : Str) : argsPeek a k = none ↔ Absent a k := by
  simp [argsPeek, Absent]

theorem lenOpt_hasVal (a : Args) (k : Str) : lenOpt (argsPeek a k) > 0 ↔ HasVal a k := by
  unfold HasVal
  constructor
  · intro h
    cases hp : argsPeek a k with
    | none => simp [hp, lenOpt] at h
    | some v =>
      refine ⟨v, (argsPeek_firstVal a k v).1 hp, ?_⟩
      rintro rfl
      simp [hp, lenOpt] at h
  · rintro ⟨v, hv, hne⟩
    rw [(argsPeek_firstVal a k v).2 hv]
    simpa [lenOpt, List.length_pos_iff] using hne

theorem argsPeekMulti_eq (a : Args) (k : Str) : argsPeekMulti a k = valuesOf a k := by
  unfold argsPeekMulti
  induction a with
  | nil => rfl
  | cons e t ih =>
    obtain ⟨n, w⟩ := e
    by_cases h : n = k
    · simp [valuesOf, h, ih.symm]
    · simp [valuesOf, h, ih.symm]

theorem valuesOf_nil (a : Args) (k : Str) : valuesOf a k = [] ↔ Absent a k := by
  induction a with
  | nil => simp [valuesOf, Absent]
  | cons e t ih =>
    obtain ⟨n, w⟩ := e
    by_cases h : n = k
    · simp [valuesOf, h, Absent]
    · simp only [valuesOf, h, if_false, ih]
      simp [Absent, h]

theorem FirstVal.unique {a : Args} {k v w : Str} (h1 : FirstVal a k v) (h2 : FirstVal a k w) : v = w := by
  rw [← argsPeek_firstVal] at h1 h2
  rw [h1] at h2
  exact Option.some.inj h2

/-! ### SqueezeParams -/

/-- What SqueezeParams stores for a list of values. -/
def squeezed : List Str → Option Squeezed
  | [] => none
  | [v] => some (.one v)
  | v :: w :: r => some (.many (w :: v :: r))

theorem squeezed_snoc (l : List Str) (v : Str) :
    squeezed (l ++ [v]) = match squeezed l with
      | none => some (.one v)
      | some (.one t) => some (.many [v, t])
      | some (.many t) => some (.many (t ++ [v])) := by
  match l with
  | [] => rfl
  | [_] => rfl
  | a :: b :: t => rfl

theorem valuesOf_append (a b : Args) (k : Str) : valuesOf (a ++ b) k = valuesOf a k ++ valuesOf b k := by
  induction a with
  | nil => rfl
  | cons e t ih =>
    obtain ⟨n, w⟩ := e
    by_cases h : n = k <;> simp [valuesOf, h, ih]

theorem squeeze_get (form done : Args) (out : GoMap Str Squeezed)
    (h : ∀ k, out.get? k = squeezed (valuesOf done k)) (k : Str) :
    (form.foldl squeezeStep out).get? k = squeezed (valuesOf (done ++ form) k) := by
  induction form generalizing done out with
  | nil => simpa using h k
  | cons e t ih =>
    rw [List.foldl_cons]
    have := ih (done ++ [e]) (squeezeStep out e) ?_
    · simpa using this
    · intro k'
      obtain ⟨n, v⟩ := e
      have hn := h n
      unfold squeezeStep
      rw [valuesOf_append]
      by_cases hk : k' = n
      · subst hk
        simp only [valuesOf, if_true]
        rw [squeezed_snoc, ← hn]
        cases hg : out.get? k' with
        | none => simp
        | some s => cases s <;> simp
      · have hk2 : n ≠ k' := fun e => hk e.symm
        simp only [valuesOf, if_neg hk2, List.append_nil]
        cases hg : out.get? n with
        | none => simp only; rw [GoMap.get?_set_ne _ _ hk, h]
        | some s => cases s <;> (simp only; rw [GoMap.get?_set_ne _ _ hk, h])

/-! ### Letter case -/

theorem sameLetter_lower : ∀ c d : UInt8, lowerByte d = d → (sameLetter c d ↔ lowerByte c = d) := by
  have key : ∀ c : UInt8, ∀ d : UInt8, lowerByte d = d → (sameLetter c d ↔ lowerByte c = d) := by
    apply u8_all
    unfold sameLetter
    intro n
    intro d hd
    constructor
    · rintro (h | ⟨h1, h2, h3⟩ | ⟨h1, h2, h3⟩)
      · rw [h]; exact hd
      · rw [h3]; unfold lowerByte; rw [if_pos ⟨h1, h2⟩]
      · exfalso
        have : lowerByte d = d + 32 := by unfold lowerByte; rw [if_pos ⟨h1, h2⟩]
        rw [this] at hd
        have h4 : d.toNat + 32 < 256 := by
          have := UInt8.le_iff_toNat_le.1 h2
          have e : (90 : UInt8).toNat = 90 := rfl
          omega
        have := congrArg UInt8.toNat hd
        rw [UInt8.toNat_add] at this
        have e : (32 : UInt8).toNat = 32 := rfl
        omega
    · intro h
      unfold lowerByte at h
      split at h
      · next hc => exact Or.inr (Or.inl ⟨hc.1, hc.2, h.symm⟩)
      · exact Or.inl h
  exact key

theorem eqIgnoreCase_iff (s t : Str) (ht : t.map lowerByte = t) : EqIgnoreCase s t ↔ s.map lowerByte = t := by
  induction t generalizing s with
  | nil =>
    constructor
    · intro h; cases h; rfl
    · intro h
      have : s = [] := by simpa using h
      subst this; exact .nil
  | cons d t ih =>
    simp only [List.map_cons, List.cons.injEq] at ht
    constructor
    · intro h
      cases h with
      | cons h1 h2 => rw [List.map_cons, (sameLetter_lower _ d ht.1).1 h1, (ih _ ht.2).1 h2]
    · intro h
      cases s with
      | nil => simp at h
      | cons c s =>
        simp only [List.map_cons, List.cons.injEq] at h
        exact .cons ((sameLetter_lower c d ht.1).2 h.1) ((ih s ht.2).2 h.2)

theorem lower_ascii : ∀ c : UInt8, lowerByte c < 128 → c < 128 := u8_all (by decide +kernel)

theorem isAscii_of_lower (s t : Str) (h : s.map lowerByte = t) (ht : isAscii t = true) : isAscii s = true := by
  subst h
  simp only [isAscii, List.all_eq_true, decide_eq_true_eq, List.mem_map] at *
  intro c hc
  exact lower_ascii c (ht _ ⟨c, hc, rfl⟩)

/-! ### Host -/

theorem indexByte_some (c : UInt8) (s : Str) (i : Nat) :
    indexByte c s = some i ↔ ∃ a b, s = a ++ c :: b ∧ c ∉ a ∧ a.length = i := by
  unfold indexByte
  induction s generalizing i with
  | nil => simp
  | cons x t ih =>
    rw [List.findIdx?_cons]
    by_cases h : x = c
    · subst h
      simp only [beq_self_eq_true, if_true, Option.some.injEq]
      constructor
      · rintro rfl; exact ⟨[], t, rfl, by simp, rfl⟩
      · rintro ⟨a, b, h1, h2, h3⟩
        cases a with
        | nil => simpa using h3
        | cons p ps => simp at h1; exact absurd (by simp [h1.1]) h2
    · have hb : (x == c) = false := by simpa using h
      simp only [hb, Bool.false_eq_true, if_false, Option.map_eq_some_iff]
      constructor
      · rintro ⟨j, hj, rfl⟩
        obtain ⟨a, b, rfl, h2, rfl⟩ := (ih j).1 hj
        exact ⟨x :: a, b, rfl, by simp [h2, Ne.symm h], rfl⟩
      · rintro ⟨a, b, h1, h2, h3⟩
        cases a with
        | nil => simp at h1; exact absurd h1.1 h
        | cons p ps =>
          simp at h1 h2 h3
          exact ⟨ps.length, (ih _).2 ⟨ps, b, h1.2, h2.2, rfl⟩, h3⟩

theorem indexByte_none (c : UInt8) (s : Str) : indexByte c s = none ↔ c ∉ s := by
  unfold indexByte
  rw [List.findIdx?_eq_none_iff]
  constructor
  · intro h hm; simpa using h c hm
  · intro h x hx; simp; rintro rfl; exact h hx

theorem lastIndexByte_some (c : UInt8) (s : Str) (i : Nat) :
    lastIndexByte c s = some i ↔ ∃ a b, s = a ++ c :: b ∧ c ∉ b ∧ a.length = i := by
  unfold lastIndexByte
  cases h : indexByte c s.reverse with
  | none =>
    rw [indexByte_none] at h
    simp only [reduceCtorEq, false_iff]
    rintro ⟨a, b, rfl, -, -⟩
    exact h (by simp)
  | some j =>
    obtain ⟨a, b, h1, h2, h3⟩ := (indexByte_some _ _ _).1 h
    have h4 : s = b.reverse ++ c :: a.reverse := by
      have := congrArg List.reverse h1
      simpa using this
    subst h4
    simp only [List.length_append, List.length_reverse, List.length_cons, Option.some.injEq]
    constructor
    · rintro rfl
      refine ⟨b.reverse, a.reverse, rfl, by simpa using h2, ?_⟩
      simp; omega
    · rintro ⟨a', b', h5, h6, h7⟩
      have := List.append_inj' h5
      have : b.reverse.length = a'.length := by
        have e1 : indexByte c (b'.reverse ++ c :: a'.reverse) = some b'.reverse.length :=
          (indexByte_some _ _ _).2 ⟨_, _, rfl, by simpa using h6, rfl⟩
        have e2 : (b.reverse ++ c :: a.reverse).reverse = b'.reverse ++ c :: a'.reverse := by rw [h5]; simp
        have e3 : indexByte c ((b.reverse ++ c :: a.reverse).reverse) = some a.length :=
          (indexByte_some _ _ _).2 ⟨a, b, by simp, h2, rfl⟩
        rw [e2, e1] at e3
        have := congrArg List.length h5
        simp at this e3 ⊢
        omega
      simp at this h7
      omega

theorem lastIndexByte_none (c : UInt8) (s : Str) : lastIndexByte c s = none ↔ c ∉ s := by
  unfold lastIndexByte
  cases h : indexByte c s.reverse with
  | none => rw [indexByte_none] at h; simpa using h
  | some j =>
    obtain ⟨a, b, h1, h2, h3⟩ := (indexByte_some _ _ _).1 h
    simp only [reduceCtorEq, false_iff, Decidable.not_not]
    rw [← List.mem_reverse, h1]
    simp

theorem digits_no_colon {d : Str} (h : ∀ c ∈ d, 48 ≤ c ∧ c ≤ 57) : 58 ∉ d := by
  intro hm
  exact absurd (h 58 hm).2 (by decide)

theorem validOptionalPort_colon (d : Str) :
    validOptionalPort (58 :: d) = true ↔ ∀ c ∈ d, 48 ≤ c ∧ c ≤ 57 := by
  have key : ∀ b : UInt8, (!(decide (b < 48) || decide (b > 57))) = true ↔ 48 ≤ b ∧ b ≤ 57 :=
    u8_all (by decide +kernel)
  simp only [validOptionalPort, ne_eq, not_true_eq_false, if_false, List.all_eq_true]
  exact forall_congr' fun c => imp_congr Iff.rfl (key c)

theorem stripPort_spec (s : Str) :
    ∃ base, stripPort s = .ret base ∧ (EndsInPort s base ∨ (base = s ∧ ∀ b, ¬ EndsInPort s b)) := by
  unfold stripPort
  cases h : lastIndexByte 58 s with
  | none =>
    rw [lastIndexByte_none] at h
    refine ⟨s, rfl, Or.inr ⟨rfl, ?_⟩⟩
    rintro b ⟨d, rfl, -⟩
    exact h (by simp)
  | some i =>
    obtain ⟨a, b, rfl, h2, rfl⟩ := (lastIndexByte_some _ _ _).1 h
    have e1 : goSlice (a ++ 58 :: b) a.length (a ++ 58 :: b).length = .ret (58 :: b) := by
      have : (a ++ 58 :: b).take (a ++ 58 :: b).length = a ++ 58 :: b := List.take_length
      unfold goSlice
      rw [this]
      simp
    have e2 : goSlice (a ++ 58 :: b) 0 a.length = .ret a := by simp [goSlice]
    simp only [e1, e2, Outcome.bind_ret]
    cases hv : validOptionalPort (58 :: b) with
    | true => exact ⟨a, by simp, Or.inl ⟨b, rfl, (validOptionalPort_colon b).1 hv⟩⟩
    | false =>
      refine ⟨a ++ 58 :: b, by simp, Or.inr ⟨rfl, ?_⟩⟩
      rintro a' ⟨d, h3, h4⟩
      have e3 := (lastIndexByte_some 58 (a ++ 58 :: b) a'.length).2 ⟨a', d, h3, digits_no_colon h4, rfl⟩
      rw [h] at e3
      simp only [Option.some.injEq] at e3
      have := (List.append_inj h3 e3).2
      simp at this
      subst this
      rw [(validOptionalPort_colon b).2 h4] at hv
      exact absurd hv (by simp)

theorem endsInPort_unique {s a b : Str} (h1 : EndsInPort s a) (h2 : EndsInPort s b) : a = b := by
  obtain ⟨d, rfl, hd⟩ := h1
  obtain ⟨e, h3, he⟩ := h2
  have e1 := (lastIndexByte_some 58 (a ++ 58 :: d) a.length).2 ⟨a, d, rfl, digits_no_colon hd, rfl⟩
  have e2 := (lastIndexByte_some 58 (a ++ 58 :: d) b.length).2 ⟨b, e, h3, digits_no_colon he, rfl⟩
  rw [e1] at e2
  simp only [Option.some.injEq] at e2
  exact (List.append_inj h3 e2).1

theorem bracket_cases (b : Str) :
    (hasPrefix b b!"[" ∧ hasSuffix b b!"]") ↔ ∃ x, b = 91 :: x ++ [93] := by
  unfold hasPrefix hasSuffix
  rw [List.isPrefixOf_iff_prefix, List.isSuffixOf_iff_suffix]
  constructor
  · rintro ⟨⟨u, rfl⟩, ⟨v, hv⟩⟩
    cases v with
    | nil => simp at hv
    | cons p ps =>
      simp at hv
      obtain ⟨rfl, rfl⟩ := hv
      exact ⟨ps, rfl⟩
  · rintro ⟨x, rfl⟩
    exact ⟨⟨x ++ [93], rfl⟩, ⟨91 :: x, rfl⟩⟩

/-! ### Escaping -/

theorem escape_unreserved : ∀ c : UInt8, shouldEscape c = false → c ≠ 32 → c ≠ 43 ∧ c ≠ 37 ∧
    ((97 ≤ c ∧ c ≤ 122) ∨ (65 ≤ c ∧ c ≤ 90) ∨ (48 ≤ c ∧ c ≤ 57) ∨ c ∈ b!"-_.~") := u8_all (by decide +kernel)

theorem hexDigit_spec : ∀ c : UInt8, hexDigit (c / 16) ∈ b!"0123456789ABCDEF" ∧
    hexDigit (c % 16) ∈ b!"0123456789ABCDEF" ∧ hexVal (hexDigit (c / 16)) = some (c / 16) ∧
    hexVal (hexDigit (c % 16)) = some (c % 16) ∧ c / 16 * 16 + c % 16 = c := u8_all (by decide +kernel)

end Verif
