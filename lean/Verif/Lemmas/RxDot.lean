import Verif.Base.Rx
/-
Expressions whose prefix also has dots: what "^" + prefix + "/.*" matches then.
-/
namespace Verif

/-- Plain text and dots. -/
inductive DotText : Str → Prop
  | nil : DotText []
  | ascii {c : UInt8} {t : Str} : rxOrdinary c = true → DotText t → DotText (c :: t)
  | other {cs t : Str} : 2 ≤ cs.length → rxRuneLen cs = cs.length → cs ≠ rxReplacement → DotText t → DotText (cs ++ t)
  | dot {t : Str} : DotText t → DotText (46 :: t)

theorem PlainText.dotText {s : Str} (h : PlainText s) : DotText s := by
  induction h with
  | nil => exact .nil
  | ascii h _ ih => exact .ascii h ih
  | other h1 h2 h3 _ ih => exact .other h1 h2 h3 ih

theorem dotText_plain {s : Str} (h : DotText s) (hd : (46 : UInt8) ∉ s) : PlainText s := by
  induction h with
  | nil => exact .nil
  | ascii h _ ih => exact .ascii h (ih fun hm => hd (List.mem_cons_of_mem _ hm))
  | other h1 h2 h3 _ ih => exact .other h1 h2 h3 (ih fun hm => hd (List.mem_append_right _ hm))
  | dot _ _ => exact absurd (List.mem_cons_self ..) hd

/-- The text of a token, a dot written as `x`. -/
def RxTok.text (x : Str) : RxTok → Str
  | .lit cs => cs
  | .any => x

theorem rxCont_high {lo hi : UInt8} {s : Str} {i : Nat} (hlo : 128 ≤ lo) (h : rxCont lo hi s i = true) : ∃ d, s[i]? = some d ∧ d ≠ 46 := by
  unfold rxCont at h
  cases hs : s[i]? with
  | none => rw [hs] at h; cases h
  | some c =>
    rw [hs] at h
    refine ⟨c, rfl, ?_⟩
    rintro rfl
    have := (of_decide_eq_true h).1
    exact absurd (UInt8.le_trans hlo this) (by decide)

/-- No byte of a longer character is a dot. -/
theorem rune_no_dot {cs : Str} (h2 : 2 ≤ cs.length) (h : rxRuneLen cs = cs.length) : (46 : UInt8) ∉ cs := by
  intro hm
  obtain ⟨i, hi, he⟩ := List.getElem_of_mem hm
  have he : cs[i]? = some 46 := by rw [List.getElem?_eq_getElem hi, he]
  cases cs with
  | nil => simp at h2
  | cons c t =>
    have hhigh : ¬ c < 128 := runeLen_high (by rw [h]; exact h2)
    have h0 : i ≠ 0 := by
      rintro rfl
      simp only [List.getElem?_cons_zero, Option.some.injEq] at he
      subst he
      exact hhigh (by decide)
    unfold rxRuneLen at h
    dsimp only at h
    have no : ∀ {lo hi : UInt8} {k : Nat}, 128 ≤ lo → rxCont lo hi (c :: t) k = true → i ≠ k := by
      intro lo hi k hlo hk e
      subst e
      obtain ⟨d, hd, hd'⟩ := rxCont_high hlo hk
      rw [he] at hd
      exact hd' (Option.some.inj hd).symm
    split at h
    · omega
    · split at h
      · split at h
        · rename_i hx
          have := no (by decide) hx
          omega
        · omega
      · split at h
        · have hlo : 128 ≤ (if c = 0xE0 then (0xA0 : UInt8) else 0x80) := by split <;> decide
          generalize (if c = 0xE0 then (0xA0 : UInt8) else 0x80) = lo at h hlo
          generalize (if c = 0xED then (0x9F : UInt8) else 0xBF) = hi at h
          split at h
          · rename_i hx
            rw [Bool.and_eq_true] at hx
            have a1 := no hlo hx.1
            have a2 := no (by decide) hx.2
            omega
          · omega
        · split at h
          · have hlo : 128 ≤ (if c = 0xF0 then (0x90 : UInt8) else 0x80) := by split <;> decide
            generalize (if c = 0xF0 then (0x90 : UInt8) else 0x80) = lo at h hlo
            generalize (if c = 0xF4 then (0x8F : UInt8) else 0xBF) = hi at h
            split at h
            · rename_i hx
              rw [Bool.and_eq_true, Bool.and_eq_true] at hx
              have a1 := no hlo hx.1.1
              have a2 := no (by decide) hx.1.2
              have a3 := no (by decide) hx.2
              omega
            · omega
          · omega

/-- The parts of plain text with dots. -/
theorem rxParts_dot {lit : Str} (h : DotText lit) : ∃ toks : List RxTok, lit = (toks.map (RxTok.text b!".")).flatten ∧
    (46 ∈ lit → RxTok.any ∈ toks) ∧
    ∀ (rest : Str) (n : Nat) (ps : List RxPart), rest.head? ≠ some 42 → ∀ m, lit.length + n ≤ m →
      (∀ m', n ≤ m' → rxParts m' rest = some ps) → rxParts m (lit ++ rest) = some (toks.map (fun k => ⟨k, false⟩) ++ ps) := by
  induction h with
  | nil => exact ⟨[], rfl, fun h => absurd h (List.not_mem_nil), fun rest n ps _ m hm hall => hall m (by simpa using hm)⟩
  | @ascii c t hc ht ih =>
    obtain ⟨toks, e, hd, ih⟩ := ih
    unfold rxOrdinary at hc
    rw [Bool.and_eq_true, decide_eq_true_eq, Bool.not_eq_true'] at hc
    have h46 : c ≠ 46 := by rintro rfl; exact absurd hc.2 (by decide)
    refine ⟨.lit [c] :: toks, by rw [e]; rfl, fun hm => ?_, fun rest n ps h42 m hm hall => ?_⟩
    · rcases List.mem_cons.1 hm with h | h
      · exact absurd h.symm h46
      · exact List.mem_cons_of_mem _ (hd h)
    obtain ⟨m, rfl⟩ : ∃ k, m = k + 1 := ⟨m - 1, by simp only [List.length_cons] at hm; omega⟩
    have hrec := ih rest n ps h42 m (by simp only [List.length_cons] at hm; omega) hall
    have htok : rxTok (c :: (t ++ rest)) = some (.lit [c], t ++ rest) := by
      unfold rxTok
      dsimp only
      rw [if_neg h46, if_pos hc.1, if_neg (by rw [hc.2]; decide)]
    have hh : (t ++ rest).head? ≠ some 42 := dot_head ht rest h42
    rw [List.cons_append, rxParts, htok]
    dsimp only
    split
    · rename_i heq
      rw [heq] at hh
      exact absurd rfl hh
    · rw [hrec]; rfl
  | @other cs t h2 hl hne ht ih =>
    obtain ⟨toks, e, hd, ih⟩ := ih
    refine ⟨.lit cs :: toks, by rw [e]; rfl, fun hm => ?_, fun rest n ps h42 m hm hall => ?_⟩
    · rcases List.mem_append.1 hm with h | h
      · exact absurd h (rune_no_dot h2 hl)
      · exact List.mem_cons_of_mem _ (hd h)
    obtain ⟨m, rfl⟩ : ∃ k, m = k + 1 := ⟨m - 1, by simp only [List.length_append] at hm; omega⟩
    have hrec := ih rest n ps h42 m (by simp only [List.length_append] at hm; omega) hall
    have hlen := runeLen_append cs (t ++ rest) h2 hl
    have hh : (t ++ rest).head? ≠ some 42 := dot_head ht rest h42
    cases cs with
    | nil => simp at h2
    | cons c cs =>
      have hhigh : ¬ c < 128 := runeLen_high (by rw [hl]; exact h2)
      have h46 : c ≠ 46 := by rintro rfl; exact hhigh (by decide)
      have htok : rxTok (c :: (cs ++ (t ++ rest))) = some (.lit (c :: cs), t ++ rest) := by
        rw [List.cons_append] at hlen
        unfold rxTok
        dsimp only
        rw [if_neg h46, if_neg hhigh, hlen]
        have ht : (c :: (cs ++ (t ++ rest))).take (c :: cs).length = c :: cs := by
          rw [← List.cons_append, List.take_left]
        have hd : (c :: (cs ++ (t ++ rest))).drop (c :: cs).length = t ++ rest := by
          rw [← List.cons_append, List.drop_left]
        rw [ht, hd, if_neg]
        rintro (h1 | h1)
        · omega
        · exact hne h1
      rw [List.append_assoc, List.cons_append, rxParts, htok]
      dsimp only
      split
      · rename_i heq
        rw [heq] at hh
        exact absurd rfl hh
      · rw [hrec]; rfl
  | @dot t ht ih =>
    obtain ⟨toks, e, hd, ih⟩ := ih
    refine ⟨.any :: toks, by rw [e]; rfl, fun _ => List.mem_cons_self .., fun rest n ps h42 m hm hall => ?_⟩
    obtain ⟨m, rfl⟩ : ∃ k, m = k + 1 := ⟨m - 1, by simp only [List.length_cons] at hm; omega⟩
    have hrec := ih rest n ps h42 m (by simp only [List.length_cons] at hm; omega) hall
    have htok : rxTok (46 :: (t ++ rest)) = some (.any, t ++ rest) := rfl
    have hh : (t ++ rest).head? ≠ some 42 := dot_head ht rest h42
    rw [List.cons_append, rxParts, htok]
    dsimp only
    split
    · rename_i heq
      rw [heq] at hh
      exact absurd rfl hh
    · rw [hrec]; rfl
where
  dot_head {t : Str} (ht : DotText t) (rest : Str) (h42 : rest.head? ≠ some 42) : (t ++ rest).head? ≠ some 42 := by
    cases ht with
    | nil => exact h42
    | @ascii c t hc _ =>
      simp only [List.cons_append, List.head?_cons, ne_eq, Option.some.injEq]
      rintro rfl
      exact absurd hc (by decide)
    | @other cs t h2 hl _ _ =>
      cases cs with
      | nil => simp at h2
      | cons c cs =>
        simp only [List.cons_append, List.head?_cons, ne_eq, Option.some.injEq]
        rintro rfl
        exact runeLen_high (by rw [hl]; exact h2) (by decide)
    | dot _ => simp

/-- Tokens match their text, with any ASCII character but a newline for a dot. -/
theorem rxHere_text (x : UInt8) (h1 : x ≠ 10) (h2 : x < 128) (ps : List RxPart) (t : Str) (h : rxHere ps t = true) : ∀ toks : List RxTok,
    rxHere (toks.map (fun k => ⟨k, false⟩) ++ ps) ((toks.map (RxTok.text [x])).flatten ++ t) = true
  | [] => by simpa using h
  | .lit cs :: toks => by
    have : cs.isPrefixOf (cs ++ ((toks.map (RxTok.text [x])).flatten ++ t)) = true := by
      rw [List.isPrefixOf_iff_prefix]; exact ⟨_, rfl⟩
    simp only [List.map_cons, List.cons_append, List.flatten_cons, RxTok.text, List.append_assoc, rxHere, rxStep, Bool.false_eq_true, if_false,
      this, if_true, List.drop_left]
    exact rxHere_text x h1 h2 ps t h toks
  | .any :: toks => by
    have hl : ∀ r, rxRuneLen (x :: r) = 1 := by
      intro r
      unfold rxRuneLen
      dsimp only
      rw [if_pos (UInt8.lt_of_lt_of_le h2 (by decide))]
    simp only [List.map_cons, List.cons_append, List.flatten_cons, RxTok.text, List.append_assoc, rxHere, rxStep, Bool.false_eq_true, if_false,
      h1, hl, List.drop_succ_cons, List.drop_zero, List.nil_append]
    exact rxHere_text x h1 h2 ps t h toks

/-- Writing another character for the dots changes a text with a dot, but not its length. -/
theorem text_other (x : UInt8) (hx : x ≠ 46) : ∀ toks : List RxTok,
    (toks.map (RxTok.text [x])).flatten.length = (toks.map (RxTok.text b!".")).flatten.length ∧
    (RxTok.any ∈ toks → (toks.map (RxTok.text [x])).flatten ≠ (toks.map (RxTok.text b!".")).flatten)
  | [] => ⟨rfl, fun h => absurd h (List.not_mem_nil)⟩
  | .lit cs :: toks => by
    obtain ⟨i1, i2⟩ := text_other x hx toks
    simp only [List.map_cons, List.flatten_cons, RxTok.text, List.length_append, i1, true_and, List.mem_cons, reduceCtorEq, false_or, ne_eq,
      List.append_cancel_left_eq]
    exact i2
  | .any :: toks => by
    obtain ⟨i1, _⟩ := text_other x hx toks
    simp only [List.map_cons, List.flatten_cons, RxTok.text, List.length_append, List.cons_append, List.nil_append, List.length_cons, i1, true_and]
    exact fun _ e => hx (List.cons.inj e).1

/-- "^" + prefix + "/.*" for a prefix with dots: it matches whatever begins with the prefix and a slash; and if there is a dot, also
something that does not, and that has any other ASCII character (but a newline) for the dots. -/
theorem rx_dots (lit : Str) (h : DotText lit) :
    ∃ rx, rxCompile (b!"^" ++ lit ++ b!"/.*") = some rx ∧
      (∀ s, (lit ++ b!"/") <+: s → rxMatchString rx s = true) ∧
      (46 ∈ lit → ∀ x : UInt8, x ≠ 10 → x ≠ 46 → x < 128 →
        ∃ lit' : Str, lit'.length = lit.length ∧ lit' ≠ lit ∧ ∀ s, (lit' ++ b!"/") <+: s → rxMatchString rx s = true) := by
  obtain ⟨toks, e, hd, hp⟩ := rxParts_dot h
  have h2 : ∀ m, 2 ≤ m → rxParts m b!"/.*" = some [⟨.lit b!"/", false⟩, ⟨.any, true⟩] := by
    intro m hm
    obtain ⟨m, rfl⟩ : ∃ k, m = k + 2 := ⟨m - 2, by omega⟩
    cases m <;> rfl
  have hany : ∀ t, rxHere [⟨.lit b!"/", false⟩, ⟨.any, true⟩] (b!"/" ++ t) = true := by
    intro t
    have : ∀ n t, rxStar RxTok.any (rxHere []) n t = true := by
      intro n t
      cases n <;> simp [rxStar, rxHere]
    exact this t.length t
  refine ⟨_, hp b!"/.*" 2 _ (by decide) _ (by simp [List.length_append]) h2, ?_, ?_⟩
  · rintro s ⟨v, rfl⟩
    unfold rxMatchString
    rw [List.append_assoc, e]
    exact rxHere_text 46 (by decide) (by decide) _ _ (hany v) toks
  · intro hm x hx hx' hx2
    obtain ⟨t1, t2⟩ := text_other x hx' toks
    refine ⟨(toks.map (RxTok.text [x])).flatten, by rw [t1, ← e], by rw [e]; exact t2 (hd hm), ?_⟩
    rintro s ⟨v, rfl⟩
    unfold rxMatchString
    rw [List.append_assoc]
    exact rxHere_text x hx hx2 _ _ (hany v) toks

end Verif
