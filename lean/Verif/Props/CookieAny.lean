import Verif.Spec.CookieAny
import Verif.Props.Cookie
/-
C83 for arbitrary Cookie headers.
-/
namespace Verif
open Spec

theorem trims_unique {s t t' : Str} (h : Trims s t) (h' : Trims s t') : t = t' := by
  have key : ∀ {s t : Str}, Trims s t → trimByte 32 s = t := by
    rintro s t ⟨⟨m, n, rfl⟩, hh, hl⟩
    unfold trimByte trimLeftByte
    have drop : ∀ (m : Nat) (x : Str), List.dropWhile (· == (32 : UInt8)) (List.replicate m 32 ++ x) = List.dropWhile (· == 32) x := by
      intro m x
      induction m with
      | zero => rfl
      | succ m ih => rw [List.replicate_succ, List.cons_append, List.dropWhile_cons, if_pos (by decide), ih]
    have stop : ∀ (x : Str), x.head? ≠ some 32 → List.dropWhile (· == (32 : UInt8)) x = x := by
      intro x hx
      cases x with
      | nil => rfl
      | cons a x =>
        rw [List.dropWhile_cons, if_neg]
        intro e
        exact hx (by rw [eq_of_beq e]; rfl)
    rw [List.append_assoc, drop]
    unfold rdropWhile
    cases t with
    | nil =>
      have := drop n []
      rw [List.append_nil] at this
      rw [List.nil_append, this]; rfl
    | cons a t =>
      rw [stop (a :: t ++ List.replicate n 32) (by rw [List.cons_append]; exact hh), List.reverse_append, List.reverse_replicate, drop,
        stop _ (by rw [List.head?_reverse]; exact hl), List.reverse_reverse]
  rw [← key h, ← key h']

theorem trims_trim (s : Str) : Trims s (trimByte 32 s) := by
  have left : ∀ x : Str, ∃ m, x = List.replicate m 32 ++ List.dropWhile (· == (32 : UInt8)) x ∧ (List.dropWhile (· == (32 : UInt8)) x).head? ≠ some 32 := by
    intro x
    induction x with
    | nil => exact ⟨0, rfl, by simp⟩
    | cons a x ih =>
      rw [List.dropWhile_cons]
      by_cases h : a = 32
      · subst h
        obtain ⟨m, h1, h2⟩ := ih
        rw [if_pos (by decide)]
        exact ⟨m + 1, by rw [List.replicate_succ, List.cons_append, ← h1], h2⟩
      · rw [if_neg (by simpa using h)]
        exact ⟨0, rfl, by simpa using h⟩
  unfold trimByte trimLeftByte rdropWhile
  obtain ⟨m, h1, h2⟩ := left s
  generalize List.dropWhile (· == (32 : UInt8)) s = u at h1 h2
  obtain ⟨n, h3, h4⟩ := left u.reverse
  generalize List.dropWhile (· == (32 : UInt8)) u.reverse = v at h3 h4
  have h5 : u = v.reverse ++ List.replicate n 32 := by
    rw [← List.reverse_reverse u, h3, List.reverse_append, List.reverse_replicate]
  refine ⟨⟨m, n, by rw [h1, h5, List.append_assoc]⟩, ?_, ?_⟩
  · intro e
    apply h2
    rw [h5]
    cases hv : v.reverse with
    | nil => rw [hv] at e; cases e
    | cons a t => rw [hv] at e; exact e
  · rw [List.getLast?_reverse]; exact h4

theorem trims_iff {s t : Str} : Trims s t ↔ trimByte 32 s = t :=
  ⟨fun h => trims_unique (trims_trim s) h, fun h => h ▸ trims_trim s⟩

theorem unquotes_iff {v x : Str} :
    Unquotes v x ↔ (if v.length > 1 ∧ v.head? = some 34 ∧ v.getLast? = some 34 then (v.drop 1).dropLast else v) = x := by
  have shape : (v.length > 1 ∧ v.head? = some 34 ∧ v.getLast? = some 34) ↔ ∃ w, v = b!"\"" ++ w ++ b!"\"" := by
    constructor
    · rintro ⟨h1, h2, h3⟩
      cases v with
      | nil => cases h2
      | cons a t =>
        cases h2
        have hne : t ≠ [] := by rintro rfl; simp at h1
        obtain ⟨u, x, rfl⟩ : ∃ u x, t = u ++ [x] := ⟨t.dropLast, t.getLast hne, (List.dropLast_concat_getLast hne).symm⟩
        rw [← List.cons_append, List.getLast?_append] at h3
        cases h3
        exact ⟨u, rfl⟩
    · rintro ⟨w, rfl⟩
      exact ⟨by simp, by simp, by rw [List.getLast?_append]; rfl⟩
  constructor
  · rintro (⟨_⟩ | ⟨_, h⟩)
    · rw [if_pos (shape.2 ⟨_, rfl⟩)]; simp
    · rw [if_neg]; rintro h'; obtain ⟨w, e⟩ := shape.1 h'; exact h w e
  · split
    · rename_i h
      obtain ⟨w, rfl⟩ := shape.1 h
      rintro rfl
      have : ((b!"\"" ++ w ++ b!"\"").drop 1).dropLast = w := by simp
      rw [this]; exact .quoted w
    · rename_i h
      rintro rfl
      exact .plain v fun w e => h (shape.2 ⟨w, e⟩)

theorem decode_says {s x : Str} : (∃ v, Trims s v ∧ Unquotes v x) ↔ decodeCookieArg true s = x := by
  unfold decodeCookieArg
  simp only [true_and]
  constructor
  · rintro ⟨v, h1, h2⟩; rw [trims_iff.1 h1]; exact unquotes_iff.1 h2
  · intro h; exact ⟨_, trims_trim s, unquotes_iff.2 h⟩

theorem decode_trims {s x : Str} : Trims s x ↔ decodeCookieArg false s = x := by
  unfold decodeCookieArg
  simp only [Bool.false_eq_true, false_and, if_false]
  exact trims_iff

theorem says_iff {s k v : Str} : PieceSays s k v ↔ scanPair s = (k, v) := by
  constructor
  · rintro (⟨h, ha, hb, hv⟩ | ⟨h, ha, hv⟩)
    · rename_i a b w
      unfold scanPair
      have e : a ++ b!"=" ++ b = a ++ 61 :: b := by simp
      rw [e, if_pos (by simp), takeWhile_until b h, dropWhile_until b h, decode_trims.1 ha]
      rw [List.drop_succ_cons, List.drop_zero, decode_says.1 ⟨_, hb, hv⟩]
    · unfold scanPair
      rw [if_neg h, decode_says.1 ⟨_, ha, hv⟩]
  · unfold scanPair
    split
    · rename_i h
      obtain ⟨a, b, rfl, hn⟩ := List.eq_append_cons_of_mem h
      rw [takeWhile_until b hn, dropWhile_until b hn, List.drop_succ_cons, List.drop_zero]
      intro e
      obtain ⟨e1, e2⟩ := Prod.mk.inj e
      obtain ⟨w, h1, h2⟩ := decode_says.2 e2
      have e : a ++ 61 :: b = a ++ b!"=" ++ b := by simp
      rw [e]
      exact .named hn (decode_trims.2 e1) h1 h2
    · rename_i h
      intro e
      obtain ⟨e1, e2⟩ := Prod.mk.inj e
      obtain ⟨w, h1, h2⟩ := decode_says.2 e2
      subst e1
      exact .bare h h1 h2

theorem between_iff {s : Str} {l : List Str} : Between s l ↔ splitByte 59 s = l := by
  constructor
  · intro h
    induction h with
    | last h => exact splitByte_single 59 _ h
    | more h ht ih =>
      rename_i s t l
      have e : s ++ b!";" ++ t = s ++ 59 :: t := by simp
      rw [e, splitByte_append 59 s t h, ih]
  · rintro rfl
    generalize hn : s.length = n
    induction n using Nat.strongRecOn generalizing s with
    | ind n ih =>
      by_cases h : (59 : UInt8) ∈ s
      · obtain ⟨a, b, rfl, hn'⟩ := List.eq_append_cons_of_mem h
        rw [splitByte_append 59 a b hn']
        have e : a ++ 59 :: b = a ++ b!";" ++ b := by simp
        rw [e]
        refine .more hn' (ih b.length ?_ rfl)
        rw [← hn, List.length_append, List.length_cons]; omega
      · rw [splitByte_single 59 s h]; exact .last h

theorem allSay_iff {l : List Str} {cs : List (Str × Str)} : AllSay l cs ↔ l.map scanPair = cs := by
  constructor
  · intro h
    induction h with
    | nil => rfl
    | cons h t ih => rw [List.map_cons, says_iff.1 h, ih]
  · rintro rfl
    induction l with
    | nil => exact .nil
    | cons s l ih => exact .cons (says_iff.2 rfl) ih

theorem headersSay_iff {hs : List Str} {cs : List (Str × Str)} :
    HeadersSay hs cs ↔ hs.flatMap (fun h => (splitByte 59 h).map scanPair) = cs := by
  constructor
  · intro h
    induction h with
    | nil => rfl
    | cons hb ha t ih => rw [List.flatMap_cons, between_iff.1 hb, allSay_iff.1 ha, ih]
  · rintro rfl
    induction hs with
    | nil => exact .nil
    | cons h hs ih => exact .cons (between_iff.2 rfl) (allSay_iff.2 rfl) ih

theorem firstOf_iff {name v : Str} {l : List (Str × Str)} :
    FirstOf name l v ↔ argsPeek (l.filter fun p => p.1 ≠ [] ∨ p.2 ≠ []) name = some v := by
  unfold argsPeek
  induction l with
  | nil => exact ⟨fun h => (by cases h), fun h => (by cases h)⟩
  | cons p l ih =>
    obtain ⟨k, w⟩ := p
    rw [List.filter_cons]
    by_cases hk : k = [] ∧ w = []
    · obtain ⟨rfl, rfl⟩ := hk
      rw [if_neg (by simp), ← ih]
      constructor
      · rintro (⟨h⟩ | ⟨_, t⟩)
        · simp at h
        · exact t
      · exact .later (.inr ⟨rfl, rfl⟩)
    · have hk' : k ≠ [] ∨ w ≠ [] := by
        by_cases h : k = []
        · exact .inr fun e => hk ⟨h, e⟩
        · exact .inl h
      rw [if_pos (by simpa using hk'), List.find?_cons]
      by_cases h : k = name
      · subst h
        simp only [decide_true, Option.map_some, Option.some.injEq]
        constructor
        · rintro (⟨_⟩ | ⟨h, _⟩)
          · rfl
          · rcases h with h | h
            · exact absurd rfl h
            · exact absurd h hk
        · rintro rfl; exact .here hk'
      · simp only [h, decide_false]
        rw [← ih]
        constructor
        · rintro (⟨_⟩ | ⟨_, t⟩)
          · exact absurd rfl h
          · exact t
        · exact .later (.inl h)

/-- **C83** (every header).  Whatever the Cookie headers of the request are, they say one thing; Cookie returns an error
exactly if they have no cookie with the name or its value is empty, and otherwise name and value that the *value* of the
first such cookie says when it is read as a cookie once more. -/
theorem C83_any (headers : List Str) (name : Str) :
    ∃ cs, HeadersSay headers cs ∧ (∀ cs', HeadersSay headers cs' → cs' = cs) ∧
      (cookieCall headers name = none ↔ ∀ v, FirstOf name cs v → v = []) ∧
      (∀ k w, cookieCall headers name = some (k, w) ↔ ∃ v, FirstOf name cs v ∧ v ≠ [] ∧ PieceSays v k w) := by
  refine ⟨_, headersSay_iff.2 rfl, fun cs' h => (headersSay_iff.1 h).symm, ?_⟩
  have hc : requestCookies headers = (headers.flatMap fun h => (splitByte 59 h).map scanPair).filter fun p => p.1 ≠ [] ∨ p.2 ≠ [] := by
    unfold requestCookies parseRequestCookies
    induction headers with
    | nil => rfl
    | cons h hs ih => rw [List.flatMap_cons, List.flatMap_cons, List.filter_append, ih]
  simp only [firstOf_iff, says_iff]
  rw [← hc]
  unfold cookieCall
  cases hp : argsPeek (requestCookies headers) name with
  | none => simp
  | some v =>
    have hv : (59 : UInt8) ∉ v := by
      unfold argsPeek at hp
      rw [Option.map_eq_some_iff] at hp
      obtain ⟨p, h1, rfl⟩ := hp
      exact requestCookies_no_semicolon headers p (List.mem_of_find?_eq_some h1)
    simp only [Option.some.injEq, forall_eq']
    by_cases hne : v = []
    · subst hne; simp
    · rw [if_neg (by simpa using hne), parseCookie, if_neg hne, takeWhile_none hv]
      constructor
      · simp [hne]
      · intro k w
        rw [Option.some.injEq]
        exact ⟨fun h => ⟨v, rfl, hne, h⟩, by rintro ⟨_, rfl, -, h⟩; exact h⟩

/-- A header no client should send: a quote alone, an empty piece, something without a name, a name in spaces. -/
example : cookieCall [b!" a = \" ;; x; \"b\" = \"c=d\"", b!"a=2"] b!"a" = some ([], b!"\"") ∧
    cookieCall [b!" a = \" ;; x; \"b\" = \"c=d\"", b!"a=2"] b!"\"b\"" = some (b!"c", b!"d") ∧
    cookieCall [b!" a = \" ;; x; \"b\" = \"c=d\"", b!"a=2"] [] = some ([], b!"x") := by decide
example : HeadersSay [b!" a = \" ;; x"] [(b!"a", b!"\""), ([], []), ([], b!"x")] := headersSay_iff.2 (by decide)

end Verif
