import Verif.Base.Str
/-
The fragment of Go's package regexp (external) that the expressions of the static routes use when their prefix is plain
text: expressions that begin with '^' and go on with characters that stand for themselves, '.', and '*' after one of these.
`rxCompile` is `none` outside of the fragment.  `MatchString` is unanchored at the end.
-/
namespace Verif

/-- A character of the expression: itself (the bytes of its UTF-8 form), or '.', which is any character but a newline.  External (package regexp): called in static.go:51 and static_embed.go:58. -/
inductive RxTok where
  | lit (cs : Str)
  | any
  deriving DecidableEq, Repr

/-- A character, or any number of them.  External (package regexp): called in static.go:51 and static_embed.go:58. -/
structure RxPart where
  tok : RxTok
  star : Bool
  deriving DecidableEq, Repr

/-- The characters with a meaning in expressions: \ . + * ? ( ) | [ { ^ $ (syntax.parse; ']' and '}' alone stand for themselves, and so does
a '{' that does not begin a count, but this is outside of the fragment).  External (package regexp): called in static.go:51 and static_embed.go:58. -/
def rxSpecial (c : UInt8) : Bool := [92, 46, 43, 42, 63, 40, 41, 124, 91, 123, 94, 36].contains c

/-- ASCII characters that stand for themselves.  External (package regexp): called in static.go:51 and static_embed.go:58. -/
def rxOrdinary (c : UInt8) : Bool := decide (c < 128) && ! rxSpecial c

/-- Is this a continuation byte (between the bounds)?.  External (package regexp): called in static.go:51 and static_embed.go:58. -/
def rxCont (lo hi : UInt8) (s : Str) (i : Nat) : Bool :=
  match s[i]? with
  | some c => decide (lo ≤ c ∧ c ≤ hi)
  | none => false

/-- The number of bytes of the first character (`utf8.DecodeRune`; 1 for an invalid byte).  External (package regexp): called in static.go:51 and static_embed.go:58. -/
def rxRuneLen (s : Str) : Nat :=
  match s with
  | [] => 0
  | c :: _ =>
    if c < 0xC2 then 1
    else if c ≤ 0xDF then if rxCont 0x80 0xBF s 1 then 2 else 1
    else if c ≤ 0xEF then
      if rxCont (if c = 0xE0 then 0xA0 else 0x80) (if c = 0xED then 0x9F else 0xBF) s 1 && rxCont 0x80 0xBF s 2 then 3 else 1
    else if c ≤ 0xF4 then
      if rxCont (if c = 0xF0 then 0x90 else 0x80) (if c = 0xF4 then 0x8F else 0xBF) s 1 && rxCont 0x80 0xBF s 2 &&
        rxCont 0x80 0xBF s 3 then 4 else 1
    else 1

/-- U+FFFD, which as a literal also matches invalid bytes; outside of the fragment.  External (package regexp): called in static.go:51 and static_embed.go:58. -/
def rxReplacement : Str := [0xEF, 0xBF, 0xBD]

/-- The first character of an expression and what follows; `none`: an operator, or text that is not UTF-8.  External (package regexp): called in static.go:51 and static_embed.go:58. -/
def rxTok (s : Str) : Option (RxTok × Str) :=
  match s with
  | [] => none
  | c :: t =>
    if c = 46 then some (.any, t)
    else if c < 128 then if rxSpecial c then none else some (.lit [c], t)
    else if rxRuneLen s = 1 ∨ s.take (rxRuneLen s) = rxReplacement then none
    else some (.lit (s.take (rxRuneLen s)), s.drop (rxRuneLen s))

/-- The characters of an expression, with their stars; `n` bounds their number.  External (package regexp): called in static.go:51 and static_embed.go:58. -/
def rxParts : Nat → Str → Option (List RxPart)
  | _, [] => some []
  | 0, _ => none
  | n + 1, c :: s =>
    match rxTok (c :: s) with
    | none => none
    | some (k, t) =>
      match t with
      | 42 :: t => (rxParts n t).map fun ps => ⟨k, true⟩ :: ps
      | t => (rxParts n t).map fun ps => ⟨k, false⟩ :: ps

/-- `regexp.Compile`.  External (package regexp): called in static.go:51 and static_embed.go:58. -/
def rxCompile : Str → Option (List RxPart)
  | 94 :: t => rxParts t.length t
  | _ => none

/-- What is left of a text after a character has been matched at its beginning.  External (package regexp): called in reg_tree.go:46. -/
def rxStep : RxTok → Str → Option Str
  | .lit cs, s => if cs.isPrefixOf s then some (s.drop cs.length) else none
  | .any, d :: t => if d = 10 then none else some ((d :: t).drop (rxRuneLen (d :: t)))
  | .any, [] => none

/-- At most `n` of a character, then the rest.  External (package regexp): called in reg_tree.go:46. -/
def rxStar (k : RxTok) (rest : Str → Bool) : Nat → Str → Bool
  | 0, s => rest s
  | n + 1, s =>
    rest s || match rxStep k s with
      | some t => rxStar k rest n t
      | none => false

/-- Match at the beginning of a text.  External (package regexp): called in reg_tree.go:46. -/
def rxHere : List RxPart → Str → Bool
  | [], _ => true
  | p :: ps, s =>
    if p.star then rxStar p.tok (rxHere ps) s.length s
    else match rxStep p.tok s with
      | some t => rxHere ps t
      | none => false

/-- `Regexp.MatchString`.  External (package regexp): called in reg_tree.go:46. -/
def rxMatchString (rx : List RxPart) (s : Str) : Bool := rxHere rx s

/-- Plain text: ASCII characters that stand for themselves, and other characters in UTF-8 (except U+FFFD).  Describes prefixes given to StaticFile (static.go:42) and StaticFileFS (static_embed.go:43). -/
inductive PlainText : Str → Prop
  | nil : PlainText []
  | ascii {c : UInt8} {t : Str} : rxOrdinary c = true → PlainText t → PlainText (c :: t)
  | other {cs t : Str} : 2 ≤ cs.length → rxRuneLen cs = cs.length → cs ≠ rxReplacement → PlainText t → PlainText (cs ++ t)

theorem plain_ascii (s : Str) (h : ∀ c ∈ s, rxOrdinary c = true) : PlainText s := by
  induction s with
  | nil => exact .nil
  | cons c t ih => exact .ascii (h c (List.mem_cons_self ..)) (ih fun x hx => h x (List.mem_cons_of_mem _ hx))

theorem rxCont_append {lo hi : UInt8} {s : Str} {i : Nat} (r : Str) (h : rxCont lo hi s i = true) : rxCont lo hi (s ++ r) i = true := by
  unfold rxCont at h ⊢
  cases hs : s[i]? with
  | none => rw [hs] at h; cases h
  | some c =>
    rw [hs] at h
    rw [List.getElem?_append_left (List.getElem?_eq_some_iff.1 hs).1, hs]
    exact h

/-- The length of a whole character does not depend on what follows. -/
theorem runeLen_append (cs r : Str) (h2 : 2 ≤ cs.length) (h : rxRuneLen cs = cs.length) : rxRuneLen (cs ++ r) = cs.length := by
  cases cs with
  | nil => simp at h2
  | cons c t =>
    rw [← h]
    have h1 : rxRuneLen (c :: t) ≠ 1 := by omega
    unfold rxRuneLen at h1 ⊢
    dsimp only [List.cons_append] at h1 ⊢
    split
    · rename_i hc; exact absurd (if_pos hc) h1
    · rename_i hc
      rw [if_neg hc] at h1
      split
      · rename_i hd
        rw [if_pos hd] at h1
        split at h1
        · rename_i hx; simp only [show rxCont 0x80 0xBF (c :: (t ++ r)) 1 = true from rxCont_append r hx, hx]
        · exact absurd rfl h1
      · rename_i hd
        rw [if_neg hd] at h1
        split
        · rename_i he
          rw [if_pos he] at h1
          generalize (if c = 0xE0 then (0xA0 : UInt8) else 0x80) = lo at h1 ⊢
          generalize (if c = 0xED then (0x9F : UInt8) else 0xBF) = hi at h1 ⊢
          split at h1
          · rename_i hx
            rw [Bool.and_eq_true] at hx
            have a1 := rxCont_append r hx.1
            have a2 := rxCont_append r hx.2
            rw [List.cons_append] at a1 a2
            simp only [a1, a2, hx.1, hx.2]
          · exact absurd rfl h1
        · rename_i he
          rw [if_neg he] at h1
          split
          · rename_i hf
            rw [if_pos hf] at h1
            generalize (if c = 0xF0 then (0x90 : UInt8) else 0x80) = lo at h1 ⊢
            generalize (if c = 0xF4 then (0x8F : UInt8) else 0xBF) = hi at h1 ⊢
            split at h1
            · rename_i hx
              rw [Bool.and_eq_true, Bool.and_eq_true] at hx
              have a1 := rxCont_append r hx.1.1
              have a2 := rxCont_append r hx.1.2
              have a3 := rxCont_append r hx.2
              rw [List.cons_append] at a1 a2 a3
              simp only [a1, a2, a3, hx.1.1, hx.1.2, hx.2]
            · exact absurd rfl h1
          · rename_i hf
            rw [if_neg hf] at h1

theorem runeLen_high {c : UInt8} {t : Str} (h : 2 ≤ rxRuneLen (c :: t)) : ¬ c < 128 := by
  intro hc
  unfold rxRuneLen at h
  dsimp only at h
  rw [if_pos (UInt8.lt_of_lt_of_le hc (by decide))] at h
  omega

/-- The parts of plain text. -/
theorem rxParts_plain {lit : Str} (h : PlainText lit) : ∃ toks : List Str, lit = toks.flatten ∧
    ∀ (rest : Str) (n : Nat) (ps : List RxPart), rest.head? ≠ some 42 → rxParts n rest = some ps → ∀ m, lit.length + n ≤ m →
      (∀ m', n ≤ m' → rxParts m' rest = some ps) → rxParts m (lit ++ rest) = some (toks.map (fun cs => ⟨.lit cs, false⟩) ++ ps) := by
  induction h with
  | nil => exact ⟨[], rfl, fun rest n ps _ _ m hm hall => hall m (by simpa using hm)⟩
  | @ascii c t hc ht ih =>
    obtain ⟨toks, e, ih⟩ := ih
    refine ⟨[c] :: toks, by rw [e]; rfl, fun rest n ps h42 hp m hm hall => ?_⟩
    obtain ⟨m, rfl⟩ : ∃ k, m = k + 1 := ⟨m - 1, by simp only [List.length_cons] at hm; omega⟩
    have hrec := ih rest n ps h42 hp m (by simp only [List.length_cons] at hm; omega) hall
    unfold rxOrdinary at hc
    rw [Bool.and_eq_true, decide_eq_true_eq, Bool.not_eq_true'] at hc
    have h46 : c ≠ 46 := by rintro rfl; exact absurd hc.2 (by decide)
    have htok : rxTok (c :: (t ++ rest)) = some (.lit [c], t ++ rest) := by
      unfold rxTok
      dsimp only
      rw [if_neg h46, if_pos hc.1, if_neg (by rw [hc.2]; decide)]
    have hh : (t ++ rest).head? ≠ some 42 := plain_head ht rest h42
    rw [List.cons_append, rxParts, htok]
    dsimp only
    split
    · rename_i heq
      rw [heq] at hh
      exact absurd rfl hh
    · rw [hrec]; rfl
  | @other cs t h2 hl hne ht ih =>
    obtain ⟨toks, e, ih⟩ := ih
    refine ⟨cs :: toks, by rw [e]; rfl, fun rest n ps h42 hp m hm hall => ?_⟩
    obtain ⟨m, rfl⟩ : ∃ k, m = k + 1 := ⟨m - 1, by simp only [List.length_append] at hm; omega⟩
    have hrec := ih rest n ps h42 hp m (by simp only [List.length_append] at hm; omega) hall
    have hlen := runeLen_append cs (t ++ rest) h2 hl
    have hh : (t ++ rest).head? ≠ some 42 := plain_head ht rest h42
    cases cs with
    | nil => simp at h2
    | cons c cs =>
      have hhigh : ¬ c < 128 := runeLen_high (by rw [hl]; exact h2)
      have h46 : c ≠ 46 := by rintro rfl; exact hhigh (by decide)
      have htok : rxTok (c :: (cs ++ (t ++ rest))) = some (.lit (c :: cs), t ++ rest) := by
        rw [List.cons_append] at hlen
        unfold rxTok
        dsimp only
        rw [if_neg h46, if_neg hhigh, hlen]
        have ht : (c :: (cs ++ (t ++ rest))).take (c :: cs).length = c :: cs := by
          rw [← List.cons_append, List.take_left]
        have hd : (c :: (cs ++ (t ++ rest))).drop (c :: cs).length = t ++ rest := by
          rw [← List.cons_append, List.drop_left]
        rw [ht, hd, if_neg]
        rintro (h1 | h1)
        · omega
        · exact hne h1
      rw [List.append_assoc, List.cons_append, rxParts, htok]
      dsimp only
      split
      · rename_i heq
        rw [heq] at hh
        exact absurd rfl hh
      · rw [hrec]; rfl
where
  plain_head {t : Str} (ht : PlainText t) (rest : Str) (h42 : rest.head? ≠ some 42) : (t ++ rest).head? ≠ some 42 := by
    cases ht with
    | nil => exact h42
    | @ascii c t hc _ =>
      simp only [List.cons_append, List.head?_cons, ne_eq, Option.some.injEq]
      rintro rfl
      exact absurd hc (by decide)
    | @other cs t h2 hl _ _ =>
      cases cs with
      | nil => simp at h2
      | cons c cs =>
        simp only [List.cons_append, List.head?_cons, ne_eq, Option.some.injEq]
        rintro rfl
        exact runeLen_high (by rw [hl]; exact h2) (by decide)

theorem rxHere_lits : ∀ (toks : List Str) (ps : List RxPart) (s : Str),
    rxHere (toks.map (fun cs => ⟨.lit cs, false⟩) ++ ps) s = true ↔ ∃ t, s = toks.flatten ++ t ∧ rxHere ps t = true
  | [], ps, s => by simp
  | cs :: toks, ps, s => by
    simp only [List.map_cons, List.cons_append, rxHere, rxStep, Bool.false_eq_true, if_false]
    by_cases h : cs.isPrefixOf s = true
    · obtain ⟨u, rfl⟩ := List.isPrefixOf_iff_prefix.1 h
      rw [if_pos h]
      simp only [List.drop_left]
      rw [rxHere_lits toks ps u]
      simp [List.append_assoc]
    · rw [if_neg h]
      simp only [Bool.false_eq_true, false_iff]
      rintro ⟨t, rfl, -⟩
      apply h
      rw [List.isPrefixOf_iff_prefix]
      simp [List.append_assoc]

/-- The meaning of "^" + text + "/.*" for plain text: the text and a slash are a prefix. -/
theorem rx_literal (lit : Str) (h : PlainText lit) :
    ∃ rx, rxCompile (b!"^" ++ lit ++ b!"/.*") = some rx ∧
      ∀ s, rxMatchString rx s = true ↔ (lit ++ b!"/") <+: s := by
  obtain ⟨toks, e, hp⟩ := rxParts_plain h
  have h2 : ∀ m, 2 ≤ m → rxParts m b!"/.*" = some [⟨.lit b!"/", false⟩, ⟨.any, true⟩] := by
    intro m hm
    obtain ⟨m, rfl⟩ : ∃ k, m = k + 2 := ⟨m - 2, by omega⟩
    cases m <;> rfl
  refine ⟨_, hp b!"/.*" 2 _ (by decide) (h2 2 (by omega)) _ (by simp [List.length_append]) h2, fun s => ?_⟩
  unfold rxMatchString
  rw [rxHere_lits]
  have hany : ∀ t, rxHere [⟨.any, true⟩] t = true := by
    intro t
    have : ∀ n t, rxStar RxTok.any (rxHere []) n t = true := by
      intro n t
      cases n <;> simp [rxStar, rxHere]
    exact this t.length t
  constructor
  · rintro ⟨t, rfl, ht⟩
    simp only [rxHere, rxStep, Bool.false_eq_true, if_false] at ht
    split at ht
    · rename_i u hu
      split at hu
      · rename_i hpre
        obtain ⟨v, rfl⟩ := List.isPrefixOf_iff_prefix.1 hpre
        exact ⟨v, by rw [e, List.append_assoc]⟩
      · cases hu
    · cases ht
  · rintro ⟨v, rfl⟩
    refine ⟨b!"/" ++ v, by rw [e, List.append_assoc], ?_⟩
    have : (b!"/").isPrefixOf (b!"/" ++ v) = true := by rw [List.isPrefixOf_iff_prefix]; exact ⟨v, rfl⟩
    simp only [rxHere, rxStep, Bool.false_eq_true, if_false, this, if_true]
    exact hany _

/-- "/файлы" is plain text. -/
example : PlainText b!"/файлы" :=
  .ascii (by decide) (.other (cs := [0xD1, 0x84]) (by decide) (by decide) (by decide) (.other (cs := [0xD0, 0xB0]) (by decide) (by decide) (by decide)
    (.other (cs := [0xD0, 0xB9]) (by decide) (by decide) (by decide) (.other (cs := [0xD0, 0xBB]) (by decide) (by decide) (by decide)
      (.other (cs := [0xD1, 0x8B]) (by decide) (by decide) (by decide) .nil)))))

end Verif
