import Verif.Model.Cond
import Verif.Spec.Cond
import Verif.Props.Range
import Verif.Base.U8
/-
C57, C58: entity tags and conditional requests.
-/
namespace Verif
open Spec

/-! ### Scanning -/

theorem etagByte_iff (c : UInt8) : etagByte c = true ↔ TagByte c := by
  unfold etagByte TagByte
  simp [or_assoc]

theorem tagByte_not_space' : ∀ c : UInt8, TagByte c → ¬ Space c :=
  u8_all (P := fun c => TagByte c → ¬ Space c) (by unfold TagByte Space; decide +kernel)

theorem tagByte_not_space {c : UInt8} (h : TagByte c) : ¬ Space c := tagByte_not_space' c h

theorem etagByte_quote : etagByte 34 = false := by decide

/-- The loop of `scanETag` on the rest of the string. -/
def scanTail : Str → Option Nat
  | [] => none
  | c :: t => if etagByte c then (scanTail t).map (· + 1) else if c = 34 then some 0 else none

theorem scanLoop_ret (s : Str) : ∀ (fuel i : Nat), i ≤ s.length → s.length - i < fuel →
    scanLoop s fuel i = .ret ((scanTail (s.drop i)).map (i + ·)) := by
  intro fuel
  induction fuel with
  | zero => intro i _ h; omega
  | succ fuel ih =>
    intro i hi hf
    unfold scanLoop
    by_cases hlt : i < s.length
    · rw [if_pos hlt]
      have hd : s.drop i = s[i] :: s.drop (i + 1) := List.drop_eq_getElem_cons hlt
      rw [hd, List.getElem?_eq_getElem hlt]
      simp only [scanTail]
      cases he : etagByte s[i] with
      | true =>
        rw [if_pos rfl, ih (i + 1) hlt (by omega), if_pos rfl, Option.map_map]
        congr 2
        funext n
        simp only [Function.comp]
        omega
      | false =>
        simp only [Bool.false_eq_true, if_false]
        by_cases hq : s[i] = 34
        · rw [if_pos hq, if_pos hq]; simp
        · rw [if_neg hq, if_neg hq]; rfl
    · rw [if_neg hlt, List.drop_of_length_le (by omega)]
      rfl

theorem scanTail_iff (u : Str) (n : Nat) : scanTail u = some n ↔
    ∃ a b, u = a ++ 34 :: b ∧ (∀ c ∈ a, TagByte c) ∧ n = a.length := by
  induction u generalizing n with
  | nil => simp [scanTail]
  | cons c u ih =>
    unfold scanTail
    cases he : etagByte c with
    | true =>
      rw [if_pos rfl]
      have hc34 : c ≠ 34 := by rintro rfl; rw [etagByte_quote] at he; cases he
      constructor
      · intro h
        rw [Option.map_eq_some_iff] at h
        obtain ⟨m, hm, rfl⟩ := h
        obtain ⟨a, b, rfl, ha, rfl⟩ := (ih m).1 hm
        refine ⟨c :: a, b, rfl, ?_, rfl⟩
        intro x hx
        rcases List.mem_cons.1 hx with rfl | hx
        · exact (etagByte_iff _).1 he
        · exact ha x hx
      · rintro ⟨a, b, hu, ha, rfl⟩
        cases a with
        | nil => injection hu with h1 _; exact absurd h1 hc34
        | cons x a =>
          injection hu with h1 h2
          rw [(ih a.length).2 ⟨a, b, h2, fun c hc => ha c (List.mem_cons_of_mem _ hc), rfl⟩]
          rfl
    | false =>
      rw [if_neg (by simp)]
      have hnt : ¬ TagByte c := fun h => by rw [(etagByte_iff c).2 h] at he; cases he
      by_cases hq : c = 34
      · rw [if_pos hq]
        subst hq
        constructor
        · intro h; injection h with h; exact ⟨[], u, rfl, by simp, h.symm⟩
        · rintro ⟨a, b, hu, ha, rfl⟩
          cases a with
          | nil => rfl
          | cons x a => injection hu with h1 _; exact absurd (h1 ▸ ha x (List.mem_cons_self ..)) hnt
      · rw [if_neg hq]
        constructor
        · intro h; cases h
        · rintro ⟨a, b, hu, ha, rfl⟩
          cases a with
          | nil => injection hu with h1 _; exact absurd h1 hq
          | cons x a => injection hu with h1 _; exact absurd (h1 ▸ ha x (List.mem_cons_self ..)) hnt

theorem written_ne_nil (e : ETag) : e.written ≠ [] := by
  unfold ETag.written
  cases e.weak <;> simp

theorem written_strong (t : Str) : (ETag.mk false t).written = 34 :: (t ++ [34]) := rfl
theorem written_weak (t : Str) : (ETag.mk true t).written = 87 :: 47 :: 34 :: (t ++ [34]) := rfl

/-- What `scanETag` finds at the start of a trimmed string. -/
def scanTrimmed (u : Str) : Str × Str :=
  let start := if hasPrefix u b!"W/" then 2 else 0
  if u[start]? = some 34 then
    match scanTail (u.drop (start + 1)) with
    | some n => (u.take (start + 1 + n + 1), u.drop (start + 1 + n + 1))
    | none => ([], [])
  else ([], [])

theorem scanETag_ret (s : Str) : scanETag s = .ret (scanTrimmed (trimString s)) := by
  unfold scanETag scanTrimmed
  generalize trimString s = u
  simp only
  generalize (if hasPrefix u b!"W/" = true then 2 else 0) = start
  by_cases hl : (u.drop start).length < 2
  · rw [if_pos hl]
    rw [List.length_drop] at hl
    by_cases h34 : u[start]? = some 34
    · rw [if_pos h34, List.drop_of_length_le (by omega)]
      rfl
    · rw [if_neg h34]
  · rw [if_neg hl]
    rw [List.length_drop] at hl
    have hlt : start < u.length := by omega
    rw [List.getElem?_eq_getElem hlt]
    simp only [Option.some.injEq]
    by_cases hq : u[start] = 34
    · rw [if_neg (by simp [hq]), if_pos hq, scanLoop_ret u _ _ (by omega) (by omega)]
      simp only [Outcome.bind_ret]
      cases scanTail (u.drop (start + 1)) with
      | none => rfl
      | some n => rfl
    · rw [if_pos hq, if_neg hq]

theorem scanTrimmed_rest (u : Str) : (scanTrimmed u).1 = [] → (scanTrimmed u).2 = [] := by
  unfold scanTrimmed
  simp only
  generalize (if hasPrefix u b!"W/" = true then 2 else 0) = start
  split
  · rename_i h34
    cases scanTail (u.drop (start + 1)) with
    | none => simp
    | some n =>
      simp only
      intro h
      have hlt : start < u.length := by
        rcases Nat.lt_or_ge start u.length with h' | h'
        · exact h'
        · rw [List.getElem?_eq_none h'] at h34; cases h34
      have := congrArg List.length h
      rw [List.length_take] at this
      simp only [List.length_nil] at this
      omega
  · simp

theorem take_drop_quote (pre t : Str) (n : Nat) (h : scanTail t = some n) :
    ∃ a, (∀ c ∈ a, TagByte c) ∧ (pre ++ 34 :: t).take (pre.length + 1 + n + 1) = pre ++ 34 :: (a ++ [34]) ∧
      pre ++ 34 :: t = pre ++ 34 :: (a ++ [34]) ++ (pre ++ 34 :: t).drop (pre.length + 1 + n + 1) := by
  obtain ⟨a, b, rfl, ha, rfl⟩ := (scanTail_iff t n).1 h
  have e : pre ++ 34 :: (a ++ 34 :: b) = (pre ++ 34 :: (a ++ [34])) ++ b := by simp
  have hlen : (pre ++ 34 :: (a ++ [34])).length = pre.length + 1 + a.length + 1 := by simp; omega
  refine ⟨a, ha, ?_, ?_⟩
  · rw [e, ← hlen, List.take_left]
  · rw [e, ← hlen, List.drop_left]

theorem scanTrimmed_tag (u : Str) (h : (scanTrimmed u).1 ≠ []) :
    ∃ e : ETag, e.Valid ∧ (scanTrimmed u).1 = e.written ∧ u = e.written ++ (scanTrimmed u).2 := by
  unfold scanTrimmed at h ⊢
  simp only at h ⊢
  cases hw : hasPrefix u b!"W/" with
  | true =>
    obtain ⟨v, hv⟩ := List.isPrefixOf_iff_prefix.1 hw
    subst hv
    rw [hw] at h
    simp only [if_true] at h ⊢
    by_cases h34 : (b!"W/" ++ v)[2]? = some 34
    · rw [if_pos h34] at h ⊢
      cases v with
      | nil => cases h34
      | cons c t =>
        have hc : c = 34 := by simpa using h34
        subst hc
        have hd : (b!"W/" ++ 34 :: t).drop (2 + 1) = t := rfl
        rw [hd] at h ⊢
        cases hs : scanTail t with
        | none => rw [hs] at h; exact absurd rfl h
        | some n =>
          obtain ⟨a, ha, h1, h2⟩ := take_drop_quote b!"W/" t n hs
          exact ⟨⟨true, a⟩, ha, h1, h2⟩
    · rw [if_neg h34] at h; exact absurd rfl h
  | false =>
    rw [hw] at h
    simp only [Bool.false_eq_true, if_false] at h ⊢
    by_cases h34 : u[0]? = some 34
    · rw [if_pos h34] at h ⊢
      cases u with
      | nil => cases h34
      | cons c t =>
        have hc : c = 34 := by simpa using h34
        subst hc
        have hd : (34 :: t).drop (0 + 1) = t := rfl
        rw [hd] at h ⊢
        cases hs : scanTail t with
        | none => rw [hs] at h; exact absurd rfl h
        | some n =>
          obtain ⟨a, ha, h1, h2⟩ := take_drop_quote [] t n hs
          exact ⟨⟨false, a⟩, ha, h1, h2⟩
    · rw [if_neg h34] at h; exact absurd rfl h

theorem scanTrimmed_written (e : ETag) (hv : e.Valid) (r : Str) : scanTrimmed (e.written ++ r) = (e.written, r) := by
  obtain ⟨weak, t⟩ := e
  have hs : scanTail (t ++ 34 :: r) = some t.length := (scanTail_iff _ _).2 ⟨t, r, rfl, hv, rfl⟩
  cases weak with
  | true =>
    have e1 : (ETag.mk true t).written ++ r = b!"W/" ++ 34 :: (t ++ 34 :: r) := by simp [written_weak]
    unfold scanTrimmed
    have hp : hasPrefix (b!"W/" ++ 34 :: (t ++ 34 :: r)) b!"W/" = true := by simp [hasPrefix]
    rw [e1]
    simp only [hp, if_true]
    rw [if_pos (show (b!"W/" ++ 34 :: (t ++ 34 :: r))[2]? = some 34 from rfl)]
    have hd : (b!"W/" ++ 34 :: (t ++ 34 :: r)).drop (2 + 1) = t ++ 34 :: r := rfl
    rw [hd, hs]
    simp only
    have hlen : 2 + 1 + t.length + 1 = (ETag.mk true t).written.length := by simp [written_weak]; omega
    rw [← e1, hlen, List.take_left, List.drop_left]
  | false =>
    have e1 : (ETag.mk false t).written ++ r = 34 :: (t ++ 34 :: r) := by simp [written_strong]
    unfold scanTrimmed
    have hp : hasPrefix (34 :: (t ++ 34 :: r)) b!"W/" = false := rfl
    rw [e1]
    simp only [hp, Bool.false_eq_true, if_false]
    rw [if_pos (show (34 :: (t ++ 34 :: r))[0]? = some 34 from rfl)]
    have hd : (34 :: (t ++ 34 :: r)).drop (0 + 1) = t ++ 34 :: r := rfl
    rw [hd, hs]
    simp only
    have hlen : 0 + 1 + t.length + 1 = (ETag.mk false t).written.length := by simp [written_strong]; omega
    rw [← e1, hlen, List.take_left, List.drop_left]

/-- C58: a tag is found exactly if the text starts, after white space, with a well-formed tag; the result is the tag as
written and the text behind it, without the white space at the end. -/
theorem C58_scan (s : Str) :
    (∀ e r, e ≠ [] → (scanETag s = .ret (e, r) ↔ ∃ tag : ETag, tag.Valid ∧ e = tag.written ∧ Trimmed s (e ++ r))) ∧
    (scanETag s = .ret ([], []) ↔ ∀ tag : ETag, tag.Valid → ∀ r, ¬ Trimmed s (tag.written ++ r)) ∧
    ∃ p, scanETag s = .ret p ∧ (p.1 = [] → p.2 = []) := by
  rw [scanETag_ret]
  refine ⟨?_, ?_, _, rfl, scanTrimmed_rest _⟩
  · intro e r he
    constructor
    · intro h
      injection h with h
      obtain ⟨tag, h1, h2, h3⟩ := scanTrimmed_tag (trimString s) (by rw [h]; exact he)
      rw [h] at h2 h3
      simp only at h2 h3
      exact ⟨tag, h1, h2, by rw [h2, ← h3]; exact trimString_trimmed s⟩
    · rintro ⟨tag, h1, rfl, h3⟩
      rw [trimString_eq h3, scanTrimmed_written tag h1 r]
  · constructor
    · intro h tag hv r ht
      rw [trimString_eq ht, scanTrimmed_written tag hv r] at h
      injection h with h
      injection h with h _
      exact written_ne_nil tag h
    · intro h
      by_cases he : (scanTrimmed (trimString s)).1 = []
      · have h2 := scanTrimmed_rest _ he
        generalize scanTrimmed (trimString s) = p at he h2
        obtain ⟨a, b⟩ := p
        simp only at he h2
        rw [he, h2]
      · obtain ⟨tag, h1, h2, h3⟩ := scanTrimmed_tag _ he
        exact absurd (h3 ▸ trimString_trimmed s) (h tag h1 _)

example : scanETag b!" \"abc\" , W/\"d\" " = .ret (b!"\"abc\"", b!" , W/\"d\"") := by decide +kernel

/-! ### Lists of tags -/

theorem written_last (e : ETag) : e.written.getLast? = some 34 := by
  unfold ETag.written
  rw [← List.append_assoc, List.getLast?_append]
  rfl

theorem written_head (e : ETag) : e.written.head? = some 34 ∨ e.written.head? = some 87 := by
  obtain ⟨weak, t⟩ := e
  cases weak <;> simp [ETag.written]

/-- White space at the end does not reach into a prefix that does not end with white space. -/
theorem prefix_before_space {s r p rest : Str} (h : s ++ r = p ++ rest) (hr : ∀ c ∈ r, Space c) {x : UInt8}
    (hp : p.getLast? = some x) (hx : ¬ Space x) : ∃ rest', s = p ++ rest' ∧ rest = rest' ++ r := by
  rcases List.append_eq_append_iff.1 h with ⟨q, h1, h2⟩ | ⟨q, h1, h2⟩
  · -- p = s ++ q, r = q ++ rest
    cases hq : q with
    | nil => subst hq; exact ⟨[], by simpa using h1.symm, by simpa using h2.symm⟩
    | cons y ys =>
      exfalso
      have hqne : q ≠ [] := by rw [hq]; simp
      obtain ⟨z, hz⟩ : ∃ z, q.getLast? = some z := by
        cases hz : q.getLast? with
        | none => exact absurd (List.getLast?_eq_none_iff.1 hz) hqne
        | some z => exact ⟨z, rfl⟩
      rw [h1, List.getLast?_append, hz] at hp
      have hzx : z = x := by simpa using hp
      subst hzx
      exact hx (hr _ (by rw [h2]; exact List.mem_append_left _ (List.mem_of_getLast? hz)))
  · exact ⟨q, h1, h2⟩

/-- White space at the start belongs to the separators. -/
theorem suffix_after_space {l s sep rest : Str} (h : l ++ s = sep ++ rest) (hl : ∀ c ∈ l, Space c) {x : UInt8}
    (hp : rest.head? = some x) (hx : ¬ Space x) : ∃ sep', s = sep' ++ rest ∧ sep = l ++ sep' := by
  rcases List.append_eq_append_iff.1 h with ⟨q, h1, h2⟩ | ⟨q, h1, h2⟩
  · exact ⟨q, h2, h1⟩
  · -- l = sep ++ q, rest = q ++ s
    cases hq : q with
    | nil => subst hq; exact ⟨[], by simpa using h2.symm, by simpa using h1.symm⟩
    | cons y ys =>
      exfalso
      rw [h2, hq] at hp
      injection hp with hp
      exact hx (hl x (by rw [h1, hq, ← hp]; simp))

theorem not_space_star : ¬ Space 42 := by unfold Space; decide
theorem not_space_quote : ¬ Space 34 := by unfold Space; decide
theorem not_space_W : ¬ Space 87 := by unfold Space; decide

theorem Lists.pad_left {l s : Str} {x : Entry} (hl : ∀ c ∈ l, Space c) (h : Lists s x) : Lists (l ++ s) x := by
  have hsep : ∀ sep, Separators sep → Separators (l ++ sep) := by
    intro sep hs c hc
    rcases List.mem_append.1 hc with hc | hc
    · exact .inl (hl c hc)
    · exact hs c hc
  cases h with
  | @star sep rest hs => rw [← List.append_assoc]; exact .star (hsep _ hs)
  | @here sep rest e hs hv => rw [← List.append_assoc, ← List.append_assoc]; exact .here (hsep _ hs) hv
  | @later sep rest e x hs hv h => rw [← List.append_assoc, ← List.append_assoc]; exact .later (hsep _ hs) hv h

theorem Lists.unpad_left {l s : Str} {x : Entry} (hl : ∀ c ∈ l, Space c) (h : Lists (l ++ s) x) : Lists s x := by
  have hsep : ∀ sep, Separators (l ++ sep) → Separators sep := fun sep hs c hc => hs c (List.mem_append_right _ hc)
  generalize hu : l ++ s = u at h
  cases h with
  | @star sep rest hs =>
    obtain ⟨sep', rfl, rfl⟩ := suffix_after_space hu hl rfl not_space_star
    exact .star (hsep _ hs)
  | @here sep rest e hs hv =>
    rw [List.append_assoc] at hu
    rcases written_head e with hh | hh
    · obtain ⟨sep', rfl, rfl⟩ := suffix_after_space hu hl (x := 34) (by simp [hh]) not_space_quote
      rw [← List.append_assoc]; exact .here (hsep _ hs) hv
    · obtain ⟨sep', rfl, rfl⟩ := suffix_after_space hu hl (x := 87) (by simp [hh]) not_space_W
      rw [← List.append_assoc]; exact .here (hsep _ hs) hv
  | @later sep rest e x hs hv h =>
    rw [List.append_assoc] at hu
    rcases written_head e with hh | hh
    · obtain ⟨sep', rfl, rfl⟩ := suffix_after_space hu hl (x := 34) (by simp [hh]) not_space_quote
      rw [← List.append_assoc]; exact .later (hsep _ hs) hv h
    · obtain ⟨sep', rfl, rfl⟩ := suffix_after_space hu hl (x := 87) (by simp [hh]) not_space_W
      rw [← List.append_assoc]; exact .later (hsep _ hs) hv h

theorem Lists.pad_right {s r : Str} {x : Entry} (h : Lists s x) : Lists (s ++ r) x := by
  induction h with
  | star hs => rw [List.append_assoc, List.cons_append]; exact .star hs
  | here hs hv => rw [List.append_assoc]; exact .here hs hv
  | later hs hv _ ih => rw [List.append_assoc]; exact .later hs hv ih

theorem Lists.unpad_right {s r : Str} {x : Entry} (hr : ∀ c ∈ r, Space c) (h : Lists (s ++ r) x) : Lists s x := by
  generalize hu : s ++ r = u at h
  induction h generalizing s with
  | @star sep rest hs =>
    have : s ++ r = (sep ++ [42]) ++ rest := by rw [hu]; simp
    obtain ⟨rest', rfl, -⟩ := prefix_before_space this hr (x := 42) (by simp) not_space_star
    rw [List.append_assoc]; exact .star hs
  | @here sep rest e hs hv =>
    obtain ⟨rest', rfl, -⟩ := prefix_before_space hu hr (x := 34)
      (by rw [List.getLast?_append, written_last]; rfl) not_space_quote
    exact .here hs hv
  | @later sep rest e x hs hv _ ih =>
    obtain ⟨rest', rfl, hrest⟩ := prefix_before_space hu hr (x := 34)
      (by rw [List.getLast?_append, written_last]; rfl) not_space_quote
    exact .later hs hv (ih hrest.symm)

theorem Lists.trim {s t : Str} {x : Entry} (h : Trimmed s t) : Lists s x ↔ Lists t x := by
  obtain ⟨l, r, rfl, hl, hr, -, -⟩ := h
  constructor
  · intro h; exact Lists.unpad_left hl (Lists.unpad_right hr h)
  · intro h; exact Lists.pad_right (Lists.pad_left hl h)

/-- The list starts with a byte that is neither white space nor a comma. -/
theorem Lists.first {c : UInt8} {t : Str} {x : Entry} (hc : ¬ Space c) (hcomma : c ≠ 44) (h : Lists (c :: t) x) :
    (c = 42 ∧ x = .star) ∨ ∃ (e : ETag) (rest : Str), e.Valid ∧ c :: t = e.written ++ rest ∧ (x = .tag e ∨ Lists rest x) := by
  have hsep : ∀ {sep rest : Str}, c :: t = sep ++ rest → Separators sep → sep = [] := by
    intro sep rest h hs
    cases sep with
    | nil => rfl
    | cons y ys =>
      injection h with h _
      subst h
      rcases hs c (List.mem_cons_self ..) with h | h
      · exact absurd h hc
      · exact absurd h hcomma
  generalize hu : c :: t = u at h
  cases h with
  | @star sep rest hs =>
    have := hsep hu hs
    subst this
    injection hu with h1 _
    exact .inl ⟨h1, rfl⟩
  | @here sep rest e hs hv =>
    rw [List.append_assoc] at hu
    have := hsep hu hs
    subst this
    exact .inr ⟨e, rest, hv, by rw [← hu] at *; simpa using hu, .inl rfl⟩
  | @later sep rest e x hs hv h =>
    rw [List.append_assoc] at hu
    have := hsep hu hs
    subst this
    exact .inr ⟨e, rest, hv, by simpa using hu, .inr h⟩

theorem Lists.comma {t : Str} {x : Entry} : Lists (44 :: t) x ↔ Lists t x := by
  have h44 : ∀ {sep : Str}, Separators sep → Separators (44 :: sep) := by
    intro sep hs c hc
    rcases List.mem_cons.1 hc with rfl | hc
    · exact .inr rfl
    · exact hs c hc
  have hun : ∀ {sep rest : Str} {y : UInt8}, 44 :: t = sep ++ rest → rest.head? = some y → y ≠ 44 →
      ∃ sep', sep = 44 :: sep' ∧ t = sep' ++ rest := by
    intro sep rest y h hh hy
    cases sep with
    | nil => subst h; injection hh with hh; exact absurd hh.symm hy
    | cons z zs => injection h with h1 h2; exact ⟨zs, by rw [h1], h2⟩
  constructor
  · intro h
    generalize hu : 44 :: t = u at h
    cases h with
    | @star sep rest hs =>
      obtain ⟨sep', rfl, rfl⟩ := hun hu rfl (by decide)
      exact .star fun c hc => hs c (List.mem_cons_of_mem _ hc)
    | @here sep rest e hs hv =>
      rw [List.append_assoc] at hu
      rcases written_head e with hh | hh <;>
      · obtain ⟨sep', rfl, rfl⟩ := hun hu (by simp only [List.head?_append, hh]; rfl) (by decide)
        rw [← List.append_assoc]
        exact .here (fun c hc => hs c (List.mem_cons_of_mem _ hc)) hv
    | @later sep rest e x hs hv h =>
      rw [List.append_assoc] at hu
      rcases written_head e with hh | hh <;>
      · obtain ⟨sep', rfl, rfl⟩ := hun hu (by simp only [List.head?_append, hh]; rfl) (by decide)
        rw [← List.append_assoc]
        exact .later (fun c hc => hs c (List.mem_cons_of_mem _ hc)) hv h
  · intro h
    cases h with
    | star hs => exact .star (h44 hs)
    | here hs hv => exact .here (h44 hs) hv
    | later hs hv h => exact .later (h44 hs) hv h

theorem trimString_length (s : Str) : (trimString s).length ≤ s.length := by
  obtain ⟨l, r, h, -⟩ := trimString_trimmed s
  have := congrArg List.length h
  simp only [List.length_append] at this
  omega

/-- The loop of the two header checks: it ends, and finds a match iff the list has one. -/
theorem etagLoop_ret (isMatch : Str → Bool) : ∀ (fuel : Nat) (im : Str), im.length < fuel →
    ∃ b, etagLoop isMatch fuel im = .ret b ∧
      (b = true ↔ Lists im .star ∨ ∃ e, Lists im (.tag e) ∧ isMatch e.written = true) := by
  intro fuel
  induction fuel with
  | zero => intro im h; omega
  | succ fuel ih =>
    intro im hf
    have htr := trimString_trimmed im
    have hlen := trimString_length im
    simp only [Lists.trim htr]
    unfold etagLoop
    cases hu : trimString im with
    | nil =>
      refine ⟨false, rfl, ?_⟩
      simp only [Bool.false_eq_true, false_iff]
      have hno : ∀ x, ¬ Lists [] x := by
        intro x h
        generalize hn : ([] : Str) = u at h
        cases h with
        | star => simp at hn
        | @here sep rest e => have := written_ne_nil e; simp [this] at hn
        | @later sep rest e => have := written_ne_nil e; simp [this] at hn
      rintro (h | ⟨e, h, -⟩)
      · exact hno _ h
      · exact hno _ h
    | cons c t =>
      rw [hu] at htr hlen
      have hlen' : t.length < fuel := by simp only [List.length_cons] at hlen; omega
      have hc : ¬ Space c := by
        obtain ⟨l, r, -, -, -, hh, -⟩ := htr
        exact hh c rfl
      simp only
      by_cases h44 : c = 44
      · subst h44
        rw [if_pos rfl]
        simp only [Lists.comma]
        exact ih t hlen'
      · rw [if_neg h44]
        by_cases h42 : c = 42
        · subst h42
          rw [if_pos rfl]
          refine ⟨true, rfl, ?_⟩
          simp only [true_iff]
          exact .inl (.star (sep := []) (by intro c hc; cases hc))
        · rw [if_neg h42]
          have hself : Trimmed (c :: t) (c :: t) := by
            obtain ⟨l, r, -, -, -, h1, h2⟩ := htr
            exact ⟨[], [], by simp, by simp, by simp, h1, h2⟩
          rw [scanETag_ret, trimString_eq hself]
          simp only [Outcome.bind_ret]
          by_cases he : (scanTrimmed (c :: t)).1 = []
          · rw [if_pos he]
            refine ⟨false, rfl, ?_⟩
            simp only [Bool.false_eq_true, false_iff]
            have hno : ∀ x, ¬ Lists (c :: t) x := by
              intro x h
              rcases Lists.first hc h44 h with ⟨h, -⟩ | ⟨e, rest, hv, h1, -⟩
              · exact h42 h
              · rw [h1, scanTrimmed_written e hv rest] at he
                exact written_ne_nil e he
            rintro (h | ⟨e, h, -⟩)
            · exact hno _ h
            · exact hno _ h
          · rw [if_neg he]
            obtain ⟨e, hv, h1, h2⟩ := scanTrimmed_tag _ he
            rw [h1]
            generalize (scanTrimmed (c :: t)).2 = rest at h2
            have hl : ∀ x, Lists (c :: t) x ↔ x = .tag e ∨ Lists rest x := by
              intro x
              constructor
              · intro h
                rcases Lists.first hc h44 h with ⟨h, -⟩ | ⟨e', rest', hv', h1', h3⟩
                · exact absurd h h42
                · have e1 := scanTrimmed_written e hv rest
                  rw [← h2, h1', scanTrimmed_written e' hv' rest'] at e1
                  injection e1 with e2 e3
                  subst e3
                  have : e' = e := by
                    obtain ⟨w, a⟩ := e
                    obtain ⟨w', a'⟩ := e'
                    cases w <;> cases w' <;> simp [ETag.written] at e2 ⊢
                    all_goals exact e2
                  rw [← this]; exact h3
              · rintro (rfl | h)
                · rw [h2]; exact .here (sep := []) (by intro c hc; cases hc) hv
                · rw [h2]; exact .later (sep := []) (by intro c hc; cases hc) hv h
            simp only [hl]
            cases hm : isMatch e.written with
            | true =>
              rw [if_pos rfl]
              exact ⟨true, rfl, by simp only [true_iff]; exact .inr ⟨e, .inl rfl, hm⟩⟩
            | false =>
              rw [if_neg (by simp)]
              have hlr : rest.length < fuel := by
                have h3 := congrArg List.length h2
                rw [List.length_append, List.length_cons] at h3
                rw [List.length_cons] at hlen
                have : 0 < e.written.length := List.length_pos_iff.2 (written_ne_nil e)
                omega
              obtain ⟨b, hb, hb2⟩ := ih rest hlr
              refine ⟨b, hb, hb2.trans ?_⟩
              constructor
              · rintro (h | ⟨e', h, h3⟩)
                · exact .inl (.inr h)
                · exact .inr ⟨e', .inr h, h3⟩
              · rintro ((h | h) | ⟨e', h | h, h3⟩)
                · cases h
                · exact .inl h
                · injection h with h; subst h; rw [hm] at h3; cases h3
                · exact .inr ⟨e', h, h3⟩

/-! ### The headers -/

theorem strong_match (e : ETag) (hv : e.Valid) (t : Str) :
    etagStrongMatch e.written t = true ↔ ∃ e', HasTag t e' ∧ Strong e e' := by
  unfold etagStrongMatch HasTag Strong
  obtain ⟨weak, a⟩ := e
  cases weak with
  | true =>
    simp only [written_weak, Bool.and_eq_true, beq_iff_eq]
    constructor
    · rintro ⟨-, h⟩; simp at h
    · rintro ⟨e', -, -, h⟩; cases h
  | false =>
    constructor
    · intro h
      rw [Bool.and_eq_true, beq_iff_eq] at h
      exact ⟨_, ⟨h.1.symm, hv⟩, rfl, rfl⟩
    · rintro ⟨e', ⟨h, -⟩, rfl, -⟩
      rw [h]
      simp [written_strong]

theorem trimPrefix_weak (a : Str) (w : Bool) : trimPrefix (ETag.mk w a).written b!"W/" = 34 :: (a ++ [34]) := by
  cases w with
  | true => simp [written_weak, trimPrefix, hasPrefix]
  | false =>
    have : hasPrefix (34 :: (a ++ [34])) b!"W/" = false := rfl
    rw [written_strong, trimPrefix, this]; rfl

theorem weak_match (e : ETag) (hv : e.Valid) (t : Str) :
    etagWeakMatch e.written t = true ↔ ∃ e', HasTag t e' ∧ Weak e e' := by
  unfold etagWeakMatch HasTag Weak
  obtain ⟨weak, a⟩ := e
  rw [trimPrefix_weak, beq_iff_eq]
  constructor
  · intro h
    unfold trimPrefix at h
    cases hp : hasPrefix t b!"W/" with
    | true =>
      rw [hp] at h
      simp only [if_true] at h
      obtain ⟨v, hv'⟩ := List.isPrefixOf_iff_prefix.1 hp
      subst hv'
      refine ⟨⟨true, a⟩, ⟨?_, hv⟩, rfl⟩
      rw [written_weak, h]; rfl
    | false =>
      rw [hp] at h
      simp only [Bool.false_eq_true, if_false] at h
      exact ⟨⟨false, a⟩, ⟨h.symm, hv⟩, rfl⟩
  · rintro ⟨⟨w, b⟩, ⟨h, -⟩, h2⟩
    simp only at h2
    subst h2
    rw [h, trimPrefix_weak]

theorem Lists.valid {s : Str} {x : Entry} (h : Lists s x) : ∀ e, x = .tag e → e.Valid := by
  induction h with
  | star => intro e h; cases h
  | here _ hv => intro e h; injection h with h; subst h; exact hv
  | later _ _ _ ih => exact ih

theorem anyMatch_strong (im t : Str) : (Lists im .star ∨ ∃ e, Lists im (.tag e) ∧ etagStrongMatch e.written t = true) ↔
    AnyMatch Strong im t := by
  unfold AnyMatch
  constructor
  · rintro (h | ⟨e, h, h2⟩)
    · exact .inl h
    · obtain ⟨e', h3, h4⟩ := (strong_match e (Lists.valid h e rfl) t).1 h2
      exact .inr ⟨e, e', h, h3, h4⟩
  · rintro (h | ⟨e, e', h, h3, h4⟩)
    · exact .inl h
    · exact .inr ⟨e, h, (strong_match e (Lists.valid h e rfl) t).2 ⟨e', h3, h4⟩⟩

theorem anyMatch_weak (im t : Str) : (Lists im .star ∨ ∃ e, Lists im (.tag e) ∧ etagWeakMatch e.written t = true) ↔
    AnyMatch Weak im t := by
  unfold AnyMatch
  constructor
  · rintro (h | ⟨e, h, h2⟩)
    · exact .inl h
    · obtain ⟨e', h3, h4⟩ := (weak_match e (Lists.valid h e rfl) t).1 h2
      exact .inr ⟨e, e', h, h3, h4⟩
  · rintro (h | ⟨e, e', h, h3, h4⟩)
    · exact .inl h
    · exact .inr ⟨e, h, (weak_match e (Lists.valid h e rfl) t).2 ⟨e', h3, h4⟩⟩

/-- C58: the check of an If-Match list ends, and finds a match iff the list contains '*' or a tag strongly equal to the
tag of the content. -/
theorem C58_ifMatch (r : HttpReq) (w : HttpResp) :
    ∃ c, checkIfMatch r w = .ret c ∧ (c = .none ↔ r.header b!"If-Match" = []) ∧
      (c = .true ↔ r.header b!"If-Match" ≠ [] ∧ AnyMatch Strong (r.header b!"If-Match") (w.peek b!"Etag")) := by
  unfold checkIfMatch
  simp only
  generalize r.header b!"If-Match" = im
  by_cases h : im = []
  · rw [if_pos h]; exact ⟨.none, rfl, by simp [h], by simp [h]⟩
  · rw [if_neg h]
    obtain ⟨b, hb, hb2⟩ := etagLoop_ret (fun e => etagStrongMatch e (w.peek b!"Etag")) (im.length + 1) im (by omega)
    rw [hb, Outcome.bind_ret, ← anyMatch_strong]
    refine ⟨_, rfl, ?_, ?_⟩
    · cases b <;> simp [h]
    · rw [← hb2]; cases b <;> simp [h]

/-- C58: likewise If-None-Match, with the weak comparison. -/
theorem C58_ifNoneMatch (r : HttpReq) (w : HttpResp) :
    ∃ c, checkIfNoneMatch r w = .ret c ∧ (c = .none ↔ r.header b!"If-None-Match" = []) ∧
      (c = .false ↔ r.header b!"If-None-Match" ≠ [] ∧ AnyMatch Weak (r.header b!"If-None-Match") (w.peek b!"Etag")) := by
  unfold checkIfNoneMatch
  simp only
  generalize r.header b!"If-None-Match" = im
  by_cases h : im = []
  · rw [if_pos h]; exact ⟨.none, rfl, by simp [h], by simp [h]⟩
  · rw [if_neg h]
    obtain ⟨b, hb, hb2⟩ := etagLoop_ret (fun e => etagWeakMatch e (w.peek b!"Etag")) (im.length + 1) im (by omega)
    rw [hb, Outcome.bind_ret, ← anyMatch_weak]
    refine ⟨_, rfl, ?_, ?_⟩
    · cases b <;> simp [h]
    · rw [← hb2]; cases b <;> simp [h]

example : AnyMatch Weak b!"\"x\", W/\"y\"" b!"\"y\"" := by
  refine .inr ⟨⟨true, b!"y"⟩, ⟨false, b!"y"⟩, ?_, ⟨rfl, ?_⟩, rfl⟩
  · exact .later (sep := []) (e := ⟨false, b!"x"⟩) (rest := b!", W/\"y\"") (by intro c hc; cases hc)
      (by intro c hc; revert c; unfold TagByte; decide)
      (.here (sep := b!", ") (rest := []) (e := ⟨true, b!"y"⟩) (by unfold Separators Space; decide) (by intro c hc; revert c; unfold TagByte; decide))
  · intro c hc; revert c; unfold TagByte; decide

/-! ### C57 -/

/-- The question a request asks about content with a modification time. -/
def question (lib : TimeLib) (r : HttpReq) (w : HttpResp) (modTime : Int) : Question where
  method := r.method
  ifMatch := r.header b!"If-Match"
  ifUnmodifiedSince := r.header b!"If-Unmodified-Since"
  ifNoneMatch := r.header b!"If-None-Match"
  ifModifiedSince := r.header b!"If-Modified-Since"
  ifRange := r.header b!"If-Range"
  etag := w.peek b!"Etag"
  modTime := modTime
  date := lib.parse

theorem isZeroTime_iff (lib : TimeLib) (r : HttpReq) (w : HttpResp) (t : Int) : isZeroTime t = true ↔ ¬ (question lib r w t).Known := by
  unfold isZeroTime Question.Known question goZeroTime
  simp only [Bool.or_eq_true, beq_iff_eq]
  omega

theorem unmodified_false (lib : TimeLib) (r : HttpReq) (w : HttpResp) (t : Int) (h : r.header b!"If-Match" = []) :
    checkIfUnmodifiedSince lib r t = .false ↔ (question lib r w t).ModifiedSince := by
  unfold checkIfUnmodifiedSince Question.ModifiedSince
  have hz := isZeroTime_iff lib r w t
  show _ ↔ r.header b!"If-Match" = [] ∧ r.header b!"If-Unmodified-Since" ≠ [] ∧ _ ∧ ∃ d, lib.parse (r.header b!"If-Unmodified-Since") = some d ∧ _
  by_cases h1 : r.header b!"If-Unmodified-Since" = [] ∨ isZeroTime t = true
  · rw [if_pos h1]
    constructor
    · intro h; cases h
    · rintro ⟨-, h2, h3, -⟩
      rcases h1 with h1 | h1
      · exact absurd h1 h2
      · exact absurd h3 (hz.1 h1)
  · rw [if_neg h1]
    rw [not_or, hz, Classical.not_not] at h1
    cases hp : lib.parse (r.header b!"If-Unmodified-Since") with
    | none => simp
    | some d =>
      simp only
      have e : (question lib r w t).second = truncSecond t := rfl
      simp only [e]
      by_cases hlt : truncSecond t < d ∨ truncSecond t = d
      · rw [if_pos hlt]
        constructor
        · intro h; cases h
        · rintro ⟨-, -, -, d', hd, h3⟩
          injection hd with hd
          omega
      · rw [if_neg hlt]
        simp only [true_iff]
        exact ⟨h, h1.1, h1.2, d, rfl, by omega⟩

theorem modified_false (lib : TimeLib) (r : HttpReq) (w : HttpResp) (t : Int) (h : r.header b!"If-None-Match" = []) :
    checkIfModifiedSince lib r t = .false ↔ (question lib r w t).NotModified := by
  unfold checkIfModifiedSince Question.NotModified
  have hz := isZeroTime_iff lib r w t
  show _ ↔ r.header b!"If-None-Match" = [] ∧ (r.method = b!"GET" ∨ r.method = b!"HEAD") ∧
    r.header b!"If-Modified-Since" ≠ [] ∧ _ ∧ ∃ d, lib.parse (r.header b!"If-Modified-Since") = some d ∧ _
  by_cases hm : r.method ≠ b!"GET" ∧ r.method ≠ b!"HEAD"
  · rw [if_pos hm]
    constructor
    · intro h; cases h
    · rintro ⟨-, h2 | h2, -⟩
      · exact absurd h2 hm.1
      · exact absurd h2 hm.2
  · rw [if_neg hm]
    have hm' : r.method = b!"GET" ∨ r.method = b!"HEAD" := by
      by_cases hg : r.method = b!"GET"
      · exact .inl hg
      · exact .inr (Classical.not_not.1 fun hh => hm ⟨hg, hh⟩)
    by_cases h1 : r.header b!"If-Modified-Since" = [] ∨ isZeroTime t = true
    · rw [if_pos h1]
      constructor
      · intro h; cases h
      · rintro ⟨-, -, h2, h3, -⟩
        rcases h1 with h1 | h1
        · exact absurd h1 h2
        · exact absurd h3 (hz.1 h1)
    · rw [if_neg h1]
      rw [not_or, hz, Classical.not_not] at h1
      cases hp : lib.parse (r.header b!"If-Modified-Since") with
      | none => simp
      | some d =>
        simp only
        have e : (question lib r w t).second = truncSecond t := rfl
        simp only [e]
        by_cases hlt : truncSecond t < d ∨ truncSecond t = d
        · rw [if_pos hlt]
          simp only [true_iff]
          exact ⟨h, hm', h1.1, h1.2, d, rfl, by omega⟩
        · rw [if_neg hlt]
          constructor
          · intro h; cases h
          · rintro ⟨-, -, -, -, d', hd, h3⟩
            injection hd with hd
            omega

theorem startsWithTag_iff (s : Str) (e : ETag) : Question.StartsWithTag s e ↔ e.Valid ∧ (scanTrimmed (trimString s)).1 = e.written := by
  unfold Question.StartsWithTag
  refine and_congr_right fun hv => ?_
  obtain ⟨l, r, hs, hl, hr, -, -⟩ := trimString_trimmed s
  constructor
  · rintro ⟨sp, rest, hsp, h⟩
    have key : ∃ rest', trimString s = e.written ++ rest' := by
      have h1 : l ++ (trimString s ++ r) = sp ++ (e.written ++ rest) := by rw [← List.append_assoc, ← List.append_assoc, ← hs, h]
      have htrim := trimString_trimmed s
      obtain ⟨r', hr', h2⟩ : ∃ r', (∀ c ∈ r', Space c) ∧ trimString s ++ r' = e.written ++ rest := by
        have hx : ∃ x, (e.written ++ rest).head? = some x ∧ ¬ Space x := by
          rcases written_head e with hh | hh
          · exact ⟨34, by simp [hh], not_space_quote⟩
          · exact ⟨87, by simp [hh], not_space_W⟩
        obtain ⟨x, hx, hxs⟩ := hx
        obtain ⟨sep', h3, h4⟩ := suffix_after_space h1 hl hx hxs
        -- trimString s ++ r = sep' ++ (e.written ++ rest), sep' spaces; the trimmed text starts with no space
        cases sep' with
        | nil => exact ⟨r, hr, h3⟩
        | cons y ys =>
          exfalso
          have hy : Space y := hsp y (by rw [h4]; simp)
          cases ht : trimString s with
          | nil =>
            rw [ht, List.nil_append] at h3
            have : x ∈ r := by rw [h3]; exact List.mem_append_right _ (List.mem_of_mem_head? hx)
            exact hxs (hr x this)
          | cons z zs =>
            rw [ht] at h3
            injection h3 with h3 _
            obtain ⟨_, _, -, -, -, hh, -⟩ := htrim
            exact hh z (by rw [ht]; rfl) (h3 ▸ hy)
      obtain ⟨rest', h3, -⟩ := prefix_before_space h2 hr' (written_last e) not_space_quote
      exact ⟨rest', h3⟩
    obtain ⟨rest', h3⟩ := key
    rw [h3, scanTrimmed_written e hv rest']
  · intro h
    obtain ⟨e', hv', h1, h2⟩ := scanTrimmed_tag (trimString s) (by rw [h]; exact written_ne_nil e)
    refine ⟨l, (scanTrimmed (trimString s)).2 ++ r, hl, ?_⟩
    rw [← h, h1, List.append_assoc l, ← List.append_assoc e'.written, ← h2, ← List.append_assoc]
    exact hs

theorem range_false (lib : TimeLib) (r : HttpReq) (w : HttpResp) (t : Int) :
    ∃ c, checkIfRange lib r w t = .ret c ∧ (c = .false ↔ (question lib r w t).RangeFails) := by
  unfold checkIfRange Question.RangeFails
  show ∃ c, _ ∧ (_ ↔ (r.method = b!"GET" ∨ r.method = b!"HEAD") ∧ r.header b!"If-Range" ≠ [] ∧
    ¬ (∃ e, Question.StartsWithTag (r.header b!"If-Range") e ∧ HasTag (w.peek b!"Etag") e ∧ e.weak = false) ∧
    ¬ ((∀ e, ¬ Question.StartsWithTag (r.header b!"If-Range") e) ∧ t ≠ -62135596800 * 10 ^ 9 ∧
        ∃ d, lib.parse (r.header b!"If-Range") = some d ∧ d / 10 ^ 9 = t / 10 ^ 9))
  simp only
  generalize r.header b!"If-Range" = ir
  generalize w.peek b!"Etag" = etag
  by_cases hm : r.method = b!"GET" ∨ r.method = b!"HEAD"
  · rw [if_pos hm]
    by_cases hir : ir = []
    · rw [if_pos hir]; exact ⟨.none, rfl, by simp [hir]⟩
    · rw [if_neg hir, scanETag_ret, Outcome.bind_ret]
      by_cases he : (scanTrimmed (trimString ir)).1 = []
      · have hno : ∀ e, ¬ Question.StartsWithTag ir e := by
          intro e h
          rw [startsWithTag_iff, he] at h
          exact written_ne_nil e h.2.symm
        rw [if_neg (by simp [he])]
        have hno' : ¬ (∃ e, Question.StartsWithTag ir e ∧ HasTag etag e ∧ e.weak = false) := by
          rintro ⟨e, h, -⟩; exact hno e h
        have hz : (t = goZeroTime) ↔ t = -62135596800 * 10 ^ 9 := by unfold goZeroTime; omega
        by_cases hzt : t = goZeroTime
        · rw [if_pos hzt]
          refine ⟨.false, rfl, ?_⟩
          simp only [true_iff]
          exact ⟨hm, hir, hno', fun h => h.2.1 (hz.1 hzt)⟩
        · rw [if_neg hzt]
          cases hp : lib.parse ir with
          | none =>
            refine ⟨.false, rfl, ?_⟩
            simp only [true_iff]
            refine ⟨hm, hir, hno', ?_⟩
            rintro ⟨-, -, d, hd, -⟩
            cases hd
          | some d =>
            refine ⟨_, rfl, ?_⟩
            have hu : (unixSeconds d = unixSeconds t) ↔ d / 10 ^ 9 = t / 10 ^ 9 := Iff.rfl
            by_cases hd : unixSeconds d = unixSeconds t
            · rw [if_pos hd]
              constructor
              · intro h; cases h
              · rintro ⟨-, -, -, h⟩
                exact absurd ⟨hno, fun h => hzt (hz.2 h), d, rfl, hu.1 hd⟩ h
            · rw [if_neg hd]
              simp only [true_iff]
              refine ⟨hm, hir, hno', ?_⟩
              rintro ⟨-, -, d', h1, h2⟩
              injection h1 with h1
              subst h1
              exact hd (hu.2 h2)
      · rw [if_pos he]
        refine ⟨_, rfl, ?_⟩
        obtain ⟨e, hv, h1, -⟩ := scanTrimmed_tag _ he
        have hst : Question.StartsWithTag ir e := (startsWithTag_iff ir e).2 ⟨hv, h1⟩
        have hsecond : ¬ ((∀ e, ¬ Question.StartsWithTag ir e) ∧ t ≠ -62135596800 * 10 ^ 9 ∧
            ∃ d, lib.parse ir = some d ∧ d / 10 ^ 9 = t / 10 ^ 9) := fun h => h.1 e hst
        rw [h1]
        cases hs : etagStrongMatch e.written etag with
        | true =>
          obtain ⟨e', h2, h3, h4⟩ := (strong_match e hv etag).1 hs
          subst h3
          simp only [if_true]
          constructor
          · intro h; cases h
          · rintro ⟨-, -, h, -⟩
            exact absurd ⟨e, hst, h2, h4⟩ h
        | false =>
          simp only [Bool.false_eq_true, if_false, true_iff]
          refine ⟨hm, hir, ?_, hsecond⟩
          rintro ⟨e', h2, h3, h4⟩
          have h5 := (startsWithTag_iff ir e').1 h2
          have : etagStrongMatch e'.written etag = true := (strong_match e' h5.1 etag).2 ⟨e', h3, rfl, h4⟩
          rw [← h5.2, h1, hs] at this
          cases this
  · rw [if_neg hm]
    exact ⟨.none, rfl, by simp [hm]⟩

/-- C57: what becomes of a conditional request. The first result is `none` when the request has been answered and
otherwise the Range header that remains in force. -/
theorem C57_conditions (lib : TimeLib) (r : HttpReq) (w : HttpResp) (modTime : Int) :
    let q := question lib r w modTime
    ((q.MatchFails ∨ q.ModifiedSince) → checkPreconditions lib r w modTime = .ret (none, w.code 412)) ∧
    (¬ (q.MatchFails ∨ q.ModifiedSince) →
      (q.NoneMatchFails → q.Safe → checkPreconditions lib r w modTime = .ret (none, writeNotModified w)) ∧
      (q.NoneMatchFails → ¬ q.Safe → checkPreconditions lib r w modTime = .ret (none, w.code 412)) ∧
      (¬ q.NoneMatchFails → q.NotModified → checkPreconditions lib r w modTime = .ret (none, writeNotModified w)) ∧
      (¬ q.NoneMatchFails → ¬ q.NotModified → q.RangeFails → checkPreconditions lib r w modTime = .ret (some [], w)) ∧
      (¬ q.NoneMatchFails → ¬ q.NotModified → ¬ q.RangeFails →
        checkPreconditions lib r w modTime = .ret (some (r.header b!"Range"), w))) := by
  simp only
  obtain ⟨c1, h1, h1n, h1t⟩ := C58_ifMatch r w
  have hfirst : ((if c1 = .none then checkIfUnmodifiedSince lib r modTime else c1) = .false) ↔
      ((question lib r w modTime).MatchFails ∨ (question lib r w modTime).ModifiedSince) := by
    by_cases hc : c1 = .none
    · rw [if_pos hc, unmodified_false lib r w modTime (h1n.1 hc)]
      constructor
      · exact .inr
      · rintro (h | h)
        · exact absurd (h1n.1 hc) h.1
        · exact h
    · rw [if_neg hc]
      have hne : r.header b!"If-Match" ≠ [] := fun h => hc (h1n.2 h)
      constructor
      · intro hf
        refine .inl ⟨hne, fun h => ?_⟩
        rw [h1t.2 ⟨hne, h⟩] at hf
        cases hf
      · rintro (h | h)
        · cases hcc : c1 with
          | none => exact absurd hcc hc
          | false => rfl
          | true => exact absurd (h1t.1 hcc).2 h.2
        · exact absurd h.1 hne
  constructor
  · intro h
    unfold checkPreconditions
    rw [h1, Outcome.bind_ret]
    simp only
    rw [if_pos (hfirst.2 h)]
  · intro h
    have hpre : checkPreconditions lib r w modTime = checkNone lib r w modTime := by
      unfold checkPreconditions
      rw [h1, Outcome.bind_ret]
      simp only
      rw [if_neg (fun hh => h (hfirst.1 hh))]
    rw [hpre]
    unfold checkNone
    obtain ⟨c2, h2, h2n, h2f⟩ := C58_ifNoneMatch r w
    have h2f' : c2 = .false ↔ (question lib r w modTime).NoneMatchFails := h2f
    rw [h2, Outcome.bind_ret]
    have hrange : ((question lib r w modTime).RangeFails → rangeHeader lib r w modTime = .ret (some [], w)) ∧
        (¬ (question lib r w modTime).RangeFails → rangeHeader lib r w modTime = .ret (some (r.header b!"Range"), w)) := by
      obtain ⟨c3, h3, h3f⟩ := range_false lib r w modTime
      unfold rangeHeader
      simp only
      by_cases hr : r.header b!"Range" = []
      · rw [if_neg (by simp [hr]), hr]
        exact ⟨fun _ => rfl, fun _ => rfl⟩
      · rw [if_pos hr, h3, Outcome.bind_ret]
        constructor
        · intro hh; rw [if_pos (h3f.2 hh)]
        · intro hh; rw [if_neg (fun hc => hh (h3f.1 hc))]
    have hrest : ∀ (hno : ¬ (question lib r w modTime).NoneMatchFails) (hnm : ¬ (question lib r w modTime).NotModified),
        noneResult lib r w modTime c2 = rangeHeader lib r w modTime := by
      intro hno hnm
      cases hc : c2 with
      | false => exact absurd (h2f'.1 hc) hno
      | true => rfl
      | none =>
        simp only [noneResult]
        rw [if_neg (fun hm => hnm ((modified_false lib r w modTime (h2n.1 hc)).1 hm))]
    refine ⟨?_, ?_, ?_, ?_, ?_⟩
    · intro hn hs
      rw [h2f'.2 hn]
      exact if_pos hs
    · intro hn hs
      rw [h2f'.2 hn]
      exact if_neg hs
    · intro hn hm
      have hc : c2 = .none := h2n.2 hm.1
      rw [hc]
      exact if_pos ((modified_false lib r w modTime (h2n.1 hc)).2 hm)
    · intro hn hm hr
      rw [hrest hn hm]; exact hrange.1 hr
    · intro hn hm hr
      rw [hrest hn hm]; exact hrange.2 hr

/-- C57: a 304 answer has no content headers, no Last-Modified if there is a tag, and nothing else changes. -/
theorem C57_not_modified (w : HttpResp) :
    (writeNotModified w).status = 304 ∧ (writeNotModified w).body = w.body ∧
    (∀ k, k = b!"Content-Type" ∨ k = b!"Content-Length" ∨ k = b!"Content-Encoding" → (writeNotModified w).peek k = []) ∧
    (w.peek b!"Etag" ≠ [] → (writeNotModified w).peek b!"Last-Modified" = []) ∧
    (w.peek b!"Etag" = [] → (writeNotModified w).peek b!"Last-Modified" = w.peek b!"Last-Modified") ∧
    (∀ k, k ≠ b!"Content-Type" → k ≠ b!"Content-Length" → k ≠ b!"Content-Encoding" → k ≠ b!"Last-Modified" →
      (writeNotModified w).peek k = w.peek k) := by
  have hdel : ∀ (w : HttpResp) (k k' : Str), (w.del k).peek k' = if k' = k then [] else w.peek k' := by
    intro w k k'
    unfold HttpResp.del HttpResp.peek
    simp only [GoMap.get?_erase]
    split <;> rfl
  have hpeek : ∀ k, (writeNotModified w).peek k =
      if k = b!"Content-Type" ∨ k = b!"Content-Length" ∨ k = b!"Content-Encoding" ∨
        (k = b!"Last-Modified" ∧ w.peek b!"Etag" ≠ []) then [] else w.peek k := by
    intro k
    have hcode : ∀ (w : HttpResp) c, (w.code c).peek k = w.peek k := fun _ _ => rfl
    unfold writeNotModified
    simp only [hcode]
    have he : (((w.del b!"Content-Type").del b!"Content-Length").del b!"Content-Encoding").peek b!"Etag" = w.peek b!"Etag" := by
      rw [hdel, if_neg (by decide), hdel, if_neg (by decide), hdel, if_neg (by decide)]
    rw [he]
    by_cases hE : w.peek b!"Etag" = []
    · rw [if_neg (by simp [hE])]
      simp only [hdel, hE]
      by_cases h1 : k = b!"Content-Type"
      · simp [h1]
      · by_cases h2 : k = b!"Content-Length"
        · simp [h2]
        · by_cases h3 : k = b!"Content-Encoding"
          · simp [h3]
          · simp [h1, h2, h3]
    · rw [if_pos (by simpa using hE)]
      simp only [hdel]
      by_cases h1 : k = b!"Content-Type"
      · simp [h1]
      · by_cases h2 : k = b!"Content-Length"
        · simp [h2]
        · by_cases h3 : k = b!"Content-Encoding"
          · simp [h3]
          · by_cases h4 : k = b!"Last-Modified"
            · simp [h4, hE]
            · simp [h1, h2, h3, h4]
  refine ⟨rfl, ?_, ?_, ?_, ?_, ?_⟩
  · unfold writeNotModified
    simp only
    split <;> rfl
  · rintro k (h | h | h) <;> rw [hpeek, if_pos (by simp [h])]
  · intro h; rw [hpeek, if_pos (by simp [h])]
  · intro h; rw [hpeek, if_neg (by simp [h])]
  · intro k h1 h2 h3 h4; rw [hpeek, if_neg (by simp [h1, h2, h3, h4])]

/-- C57: content without an entity tag, as the file server's, is matched by '*' only. -/
theorem anyMatch_no_tag (same : ETag → ETag → Prop) (list : Str) : AnyMatch same list [] ↔ Lists list .star := by
  unfold AnyMatch HasTag
  constructor
  · rintro (h | ⟨e, e', -, ⟨h, -⟩, -⟩)
    · exact h
    · exact absurd h.symm (written_ne_nil e')
  · exact .inl

section Examples
/-- A request with one or two headers. -/
def condReq (m k v k' v' : Str) : HttpReq := ⟨m, b!"/", b!"/", fun h => if h = k then v else if h = k' then v' else []⟩
/-- Dates are "1", "2", …: seconds. -/
def condLib : TimeLib := ⟨fun s => (parseInt64 s).map (· * 1000000000), fun _ => b!"date"⟩

example : checkPreconditions condLib (condReq b!"GET" b!"If-Match" b!"\"x\"" b!"If-Unmodified-Since" b!"9") .fresh 5000000001
    = .ret (none, HttpResp.fresh.code 412) := by decide +kernel
example : checkPreconditions condLib (condReq b!"GET" b!"If-Match" b!" , *" b!"If-Unmodified-Since" b!"1") .fresh 5000000001
    = .ret (some [], .fresh) := by decide +kernel
example : checkPreconditions condLib (condReq b!"GET" b!"If-Unmodified-Since" b!"4" [] []) .fresh 5000000001
    = .ret (none, HttpResp.fresh.code 412) := by decide +kernel
example : checkPreconditions condLib (condReq b!"HEAD" b!"If-Modified-Since" b!"5" b!"Range" b!"bytes=0-") .fresh 5000000001
    = .ret (none, writeNotModified .fresh) := by decide +kernel
example : checkPreconditions condLib (condReq b!"POST" b!"If-None-Match" b!"*" [] []) .fresh 5000000001
    = .ret (none, HttpResp.fresh.code 412) := by decide +kernel
example : checkPreconditions condLib (condReq b!"GET" b!"If-Range" b!"4" b!"Range" b!"bytes=0-") .fresh 5000000001
    = .ret (some [], .fresh) := by decide +kernel
example : checkPreconditions condLib (condReq b!"GET" b!"If-Range" b!"5" b!"Range" b!"bytes=0-") .fresh 5000000001
    = .ret (some b!"bytes=0-", .fresh) := by decide +kernel
end Examples

end Verif
