import Verif.Base.Path
import Verif.Base.FastPath
import Verif.Lemmas.SplitPath
/-
Paths as lists of segments: `path.Clean` and fasthttp's `normalizePath`.
-/
namespace Verif

/-- "/a/b" for ["a", "b"]. -/
def ofSegs (l : List Str) : Str := l.flatMap (fun s => 47 :: s)

def NoSlash (l : List Str) : Prop := ∀ s ∈ l, (47 : UInt8) ∉ s

@[simp] theorem ofSegs_nil : ofSegs [] = [] := rfl
@[simp] theorem ofSegs_cons (s : Str) (l : List Str) : ofSegs (s :: l) = 47 :: s ++ ofSegs l := rfl
@[simp] theorem ofSegs_append (a b : List Str) : ofSegs (a ++ b) = ofSegs a ++ ofSegs b := by
  unfold ofSegs; rw [List.flatMap_append]

theorem ofSegs_join (l : List Str) (h : l ≠ []) : ofSegs l = 47 :: joinByte 47 l := by
  induction l with
  | nil => exact absurd rfl h
  | cons a t ih =>
    cases t with
    | nil => simp [joinByte]
    | cons b t => rw [ofSegs_cons, ih (by simp)]; simp [joinByte]

theorem splitByte_ne (c : UInt8) (s : Str) : splitByte c s ≠ [] := by
  induction s with
  | nil => simp [splitByte]
  | cons a t ih =>
    unfold splitByte
    split
    · simp
    · split <;> simp

theorem joinByte_splitByte' (c : UInt8) (s : Str) : joinByte c (splitByte c s) = s := by
  induction s with
  | nil => rfl
  | cons a t ih =>
    unfold splitByte
    by_cases h : a = c
    · rw [if_pos h]
      have := splitByte_ne c t
      revert ih this
      cases splitByte c t with
      | nil => intro _ h; exact absurd rfl h
      | cons x y => intro ih _; simp [joinByte, ih, h]
    · rw [if_neg h]
      revert ih
      have := splitByte_ne c t
      revert this
      cases splitByte c t with
      | nil => intro h; exact absurd rfl h
      | cons x y =>
        intro _ ih
        cases y with
        | nil => simpa [joinByte] using ih
        | cons y z => simpa [joinByte] using ih

/-- Every path that starts with a slash has its segments. -/
theorem ofSegs_split (t : Str) : ofSegs (splitByte 47 t) = 47 :: t := by
  rw [ofSegs_join _ (splitByte_ne 47 t), joinByte_splitByte']

theorem split_ofSegs (l : List Str) (hne : l ≠ []) (h : NoSlash l) : splitByte 47 (ofSegs l) = [] :: l := by
  rw [ofSegs_join l hne]
  show splitByte 47 (47 :: joinByte 47 l) = _
  unfold splitByte
  rw [if_pos rfl, splitByte_join 47 l hne h]

theorem ofSegs_inj {a b : List Str} (ha : a ≠ []) (hb : b ≠ []) (h1 : NoSlash a) (h2 : NoSlash b) (h : ofSegs a = ofSegs b) :
    a = b := by
  have h' := split_ofSegs a ha h1
  rw [h, split_ofSegs b hb h2] at h'
  exact (List.cons.inj h').2.symm

theorem length_ofSegs (l : List Str) : l.length ≤ (ofSegs l).length := by
  induction l with
  | nil => simp
  | cons a t ih => simp; omega

/-! ### Percent escapes -/

/-- Some '%' is followed by two hex digits. -/
def HasEsc (p : Str) : Prop := ∃ a x y b, p = a ++ 37 :: x :: y :: b ∧ (hexVal x).isSome ∧ (hexVal y).isSome

theorem hasEsc_cons {c : UInt8} {p : Str} (h : HasEsc p) : HasEsc (c :: p) := by
  obtain ⟨a, x, y, b, rfl, h⟩ := h; exact ⟨c :: a, x, y, b, rfl, h⟩

theorem hasEsc_append_left {q p : Str} (h : HasEsc p) : HasEsc (q ++ p) := by
  obtain ⟨a, x, y, b, rfl, h⟩ := h; exact ⟨q ++ a, x, y, b, by simp, h⟩

theorem hasEsc_append_right {q p : Str} (h : HasEsc p) : HasEsc (p ++ q) := by
  obtain ⟨a, x, y, b, rfl, h⟩ := h; exact ⟨a, x, y, b ++ q, by simp, h⟩

theorem percentDecode_id (p : Str) (h : ¬ HasEsc p) : percentDecode p = p := by
  induction p using percentDecode.induct with
  | case1 => rfl
  | case2 => rfl
  | case3 => rfl
  | case4 x y t a b hy hx ih => exact absurd ⟨[], x, y, t, rfl, by simp [hx], by simp [hy]⟩ h
  | case5 x y t hn ih =>
    unfold percentDecode
    rw [if_pos rfl]
    split
    · rename_i a b h1 h2; exact absurd h2 (hn a b h1)
    · rw [ih (fun hh => h (hasEsc_cons hh))]
  | case6 c x y t hc ih =>
    unfold percentDecode
    rw [if_neg hc, ih (fun hh => h (hasEsc_cons hh))]

theorem percentDecode_length (p : Str) : (percentDecode p).length ≤ p.length := by
  induction p using percentDecode.induct with
  | case1 => simp [percentDecode]
  | case2 => simp [percentDecode]
  | case3 => simp [percentDecode]
  | case4 x y t a b hx hy ih => unfold percentDecode; simp [hx, hy]; omega
  | case5 x y t hn ih =>
    unfold percentDecode
    rw [if_pos rfl]
    split
    · rename_i a b h1 h2; exact absurd h2 (hn a b h1)
    · simp at ih ⊢; omega
  | case6 c x y t hc ih => unfold percentDecode; rw [if_neg hc]; simp at ih ⊢; omega

theorem percentDecode_shorter (p : Str) (h : HasEsc p) : (percentDecode p).length < p.length := by
  induction p using percentDecode.induct with
  | case1 => obtain ⟨a, x, y, b, hp, _⟩ := h; exact absurd (congrArg List.length hp) (by simp)
  | case2 => obtain ⟨a, x, y, b, hp, _⟩ := h; exact absurd (congrArg List.length hp) (by simp; omega)
  | case3 => obtain ⟨a, x, y, b, hp, _⟩ := h; exact absurd (congrArg List.length hp) (by simp; omega)
  | case4 x y t a b hx hy ih =>
    have := percentDecode_length t
    unfold percentDecode; simp [hx, hy]; omega
  | case5 x y t hn ih =>
    unfold percentDecode
    rw [if_pos rfl]
    split
    · rename_i a b h1 h2; exact absurd h2 (hn a b h1)
    · have : HasEsc (x :: y :: t) := by
        obtain ⟨a, u, v, b, hp, h1, h2⟩ := h
        cases a with
        | nil =>
          simp at hp
          obtain ⟨rfl, rfl, rfl⟩ := hp
          obtain ⟨a, ha⟩ := Option.isSome_iff_exists.mp h1
          obtain ⟨b, hb⟩ := Option.isSome_iff_exists.mp h2
          exact absurd hb (hn a b ha)
        | cons c a => simp at hp; exact ⟨a, u, v, b, by simp [hp.2], h1, h2⟩
      have := ih this
      simp at this ⊢; omega
  | case6 c x y t hc ih =>
    unfold percentDecode; rw [if_neg hc]
    have : HasEsc (x :: y :: t) := by
      obtain ⟨a, u, v, b, hp, h1, h2⟩ := h
      cases a with
      | nil => simp at hp; exact absurd hp.1 hc
      | cons c a => simp at hp; exact ⟨a, u, v, b, by simp [hp.2], h1, h2⟩
    have := ih this
    simp at this ⊢; omega

theorem hexVal_slash : hexVal 47 = none := by decide

/-- An escape lies within one segment. -/
theorem hasEsc_segs (l : List Str) (h : HasEsc (ofSegs l)) : ∃ s ∈ l, HasEsc s := by
  induction l with
  | nil => obtain ⟨a, x, y, b, hp, _⟩ := h; exact absurd (congrArg List.length hp) (by simp)
  | cons s t ih =>
    obtain ⟨a, x, y, b, hp, h1, h2⟩ := h
    rw [ofSegs_cons] at hp
    cases a with
    | nil => simp at hp
    | cons c a =>
      simp at hp
      obtain ⟨-, hp⟩ := hp
      rw [List.append_eq_append_iff] at hp
      obtain ⟨m, hm, ht⟩ | ⟨m, hm, ht⟩ := hp
      · obtain ⟨u, hu, he⟩ := ih ⟨m, x, y, b, ht, h1, h2⟩
        exact ⟨u, by simp [hu], he⟩
      · -- s = a ++ m, m ++ ofSegs t = 37 :: x :: y :: b
        match m, ht with
        | [], ht =>
          simp at ht
          obtain ⟨u, hu, he⟩ := ih ⟨[], x, y, b, ht.symm, h1, h2⟩
          exact ⟨u, by simp [hu], he⟩
        | [c1], ht =>
          simp at ht
          cases t with
          | nil => simp at ht
          | cons t1 t2 => simp at ht; rw [ht.2.1, hexVal_slash] at h1; simp at h1
        | [c1, c2], ht =>
          simp at ht
          cases t with
          | nil => simp at ht
          | cons t1 t2 => simp at ht; rw [ht.2.2.1, hexVal_slash] at h2; simp at h2
        | c1 :: c2 :: c3 :: m, ht =>
          simp at ht
          obtain ⟨rfl, rfl, rfl, rfl⟩ := ht
          exact ⟨s, by simp, a, x, y, m, by rw [hm], h1, h2⟩

theorem hasEsc_of_seg {l : List Str} {s : Str} (hs : s ∈ l) (h : HasEsc s) : HasEsc (ofSegs l) := by
  obtain ⟨a, b, rfl⟩ := List.append_of_mem hs
  rw [ofSegs_append, ofSegs_cons]
  exact hasEsc_append_left (hasEsc_append_right (hasEsc_cons h))

/-! ### `normalizePath` on segments -/

/-- "/m/". -/
def pat (m : Str) : Str := 47 :: m ++ [47]

theorem indexOf_append (m x y : Str) (hx : (47 : UInt8) ∉ x) :
    indexOf (pat m) (x ++ y) = (indexOf (pat m) y).map (· + x.length) := by
  induction x with
  | nil => simp
  | cons c x ih =>
    simp at hx
    show indexOf (pat m) (c :: (x ++ y)) = _
    rw [indexOf]
    have : (pat m).isPrefixOf (c :: (x ++ y)) = false := by
      simp only [pat, List.cons_append, List.isPrefixOf_cons_cons]
      have : ((47 : UInt8) == c) = false := by simpa using hx.1
      rw [this]; rfl
    rw [this]
    simp only [Bool.false_eq_true, if_false]
    rw [ih hx.2, Option.map_map]
    congr 1

theorem pat_prefix (m s : Str) (t : List Str) (hm : (47 : UInt8) ∉ m) (hs : (47 : UInt8) ∉ s) :
    (pat m).isPrefixOf (ofSegs (s :: t)) = true ↔ s = m ∧ t ≠ [] := by
  rw [List.isPrefixOf_iff_prefix, ofSegs_cons]
  constructor
  · rintro ⟨r, hr⟩
    simp [pat] at hr
    cases t with
    | nil =>
      simp at hr
      have : (47 : UInt8) ∈ s := by rw [← hr]; simp
      exact absurd this hs
    | cons u t =>
      rw [ofSegs_cons] at hr
      have h1 := splitByte_append 47 m r hm
      rw [hr] at h1
      rw [List.cons_append, splitByte_append 47 s _ hs] at h1
      exact ⟨(List.cons.inj h1).1, by simp⟩
  · rintro ⟨rfl, ht⟩
    cases t with
    | nil => exact absurd rfl ht
    | cons u t => exact ⟨u ++ ofSegs t, by simp [pat]⟩

theorem indexOf_segs (m s : Str) (t : List Str) (hm : (47 : UInt8) ∉ m) (hs : (47 : UInt8) ∉ s) :
    indexOf (pat m) (ofSegs (s :: t)) =
      if s = m ∧ t ≠ [] then some 0 else (indexOf (pat m) (ofSegs t)).map (· + (s.length + 1)) := by
  have hp := pat_prefix m s t hm hs
  rw [ofSegs_cons, List.cons_append] at hp ⊢
  rw [indexOf]
  by_cases h : s = m ∧ t ≠ []
  · rw [if_pos h, if_pos (hp.mpr h)]
  · rw [if_neg h, if_neg (fun hh => h (hp.mp hh)), indexOf_append m s _ hs, Option.map_map]
    congr 1

theorem indexOf_nil (m : Str) : indexOf (pat m) [] = none := by
  unfold indexOf
  rfl

/-- The first occurrence of "/m/": the first segment `m` that is not the last one. -/
theorem indexOf_cases (m : Str) (hm : (47 : UInt8) ∉ m) (l : List Str) (hl : NoSlash l) :
    (indexOf (pat m) (ofSegs l) = none ∧ ∀ A B, l = A ++ m :: B → B = []) ∨
    ∃ A B, l = A ++ m :: B ∧ B ≠ [] ∧ indexOf (pat m) (ofSegs l) = some (ofSegs A).length ∧ m ∉ A := by
  induction l with
  | nil => exact Or.inl ⟨indexOf_nil m, fun A B h => by simp at h⟩
  | cons s t ih =>
    have hs : (47 : UInt8) ∉ s := hl s (by simp)
    rw [indexOf_segs m s t hm hs]
    by_cases h : s = m ∧ t ≠ []
    · rw [if_pos h]
      exact Or.inr ⟨[], t, by simp [h.1], h.2, rfl, by simp⟩
    · rw [if_neg h]
      rcases ih (fun x hx => hl x (by simp [hx])) with ⟨hn, hA⟩ | ⟨A, B, rfl, hB, hi, hmin⟩
      · refine Or.inl ⟨by rw [hn]; rfl, fun A B hAB => ?_⟩
        cases A with
        | nil =>
          simp at hAB
          obtain ⟨rfl, rfl⟩ := hAB
          by_cases ht : t = []
          · exact ht
          · exact absurd ⟨rfl, ht⟩ h
        | cons a A => simp at hAB; exact hA A B hAB.2
      · refine Or.inr ⟨s :: A, B, by simp, hB, ?_, ?_⟩
        · rw [hi]
          simp
          omega
        · intro hm'
          simp at hm'
          rcases hm' with rfl | hm'
          · exact h ⟨rfl, by simp⟩
          · exact hmin hm'

/-- Segments other than the last that satisfy `P`. -/
def InnerSegs (P : Str → Prop) (l : List Str) : Prop := ∀ A s B, l = A ++ s :: B → B ≠ [] → P s

theorem InnerSegs.remove {P : Str → Prop} {A B C : List Str} (h : InnerSegs P (A ++ C ++ B)) (hB : B ≠ []) : InnerSegs P (A ++ B) := by
  intro X s Y hXY hY
  have : s ∈ A ∨ ∃ X', B = X' ++ s :: Y := by
    rw [List.append_eq_append_iff] at hXY
    obtain ⟨m, h1, h2⟩ | ⟨m, h1, h2⟩ := hXY
    · exact Or.inr ⟨m, h2⟩
    · cases m with
      | nil => simp at h2; exact Or.inr ⟨[], h2.symm⟩
      | cons c m => simp at h2; left; rw [h1, h2.1]; simp
  rcases this with hs | ⟨X', hX⟩
  · obtain ⟨U, V, rfl⟩ := List.append_of_mem hs
    exact h U s (V ++ C ++ B) (by simp) (by simp [hB])
  · exact h (A ++ C ++ X') s Y (by rw [hX]; simp) hY

theorem InnerSegs.tail {P : Str → Prop} {s : Str} {l : List Str} (h : InnerSegs P (s :: l)) : InnerSegs P l :=
  fun A t B hl hB => h (s :: A) t B (by rw [hl]; rfl) hB

theorem InnerSegs.cons {P : Str → Prop} {s : Str} {l : List Str} (hs : P s) (h : InnerSegs P l) : InnerSegs P (s :: l) := by
  intro A t B hl hB
  cases A with
  | nil => simp at hl; exact hl.1 ▸ hs
  | cons a A => simp at hl; exact h A t B hl.2 hB

theorem InnerSegs.head {P : Str → Prop} {s : Str} {l : List Str} (h : InnerSegs P (s :: l)) (hl : l ≠ []) : P s :=
  h [] s l rfl hl

theorem innerSegs_single {P : Str → Prop} (s : Str) : InnerSegs P [s] := by
  intro A t B h hB
  cases A with
  | nil => simp at h; exact absurd h.2 hB
  | cons a A => simp at h

theorem dedupSlash_single (s : Str) (hs : (47 : UInt8) ∉ s) : dedupSlash (47 :: s) = 47 :: s := by
  have key : ∀ s : Str, (47 : UInt8) ∉ s → dedupSlash s = s := by
    intro s
    induction s with
    | nil => intro _; rfl
    | cons c t ih =>
      intro h
      simp at h
      cases t with
      | nil => rfl
      | cons d t =>
        rw [dedupSlash]
        try simp only
        rw [if_neg (fun hh => h.1 hh.1.symm), ih h.2]
  cases s with
  | nil => rfl
  | cons d t =>
    rw [dedupSlash]
    simp only
    simp at hs
    rw [if_neg (fun hh => hs.1 hh.2.symm), key (d :: t) (by simp; exact hs)]

theorem dedupSlash_append (x y : Str) (hx : (47 : UInt8) ∉ x) : dedupSlash (x ++ y) = x ++ dedupSlash y := by
  induction x with
  | nil => rfl
  | cons c x ih =>
    simp at hx
    show dedupSlash (c :: (x ++ y)) = c :: (x ++ dedupSlash y)
    rw [dedupSlash.eq_def]
    cases hxy : x ++ y with
    | nil =>
      have hx0 : x = [] := by simp at hxy; exact hxy.1
      have hy0 : y = [] := by simp at hxy; exact hxy.2
      subst hx0; subst hy0; rfl
    | cons d t =>
      simp only
      rw [if_neg (fun hh => hx.1 hh.1.symm), ← hxy, ih hx.2]

/-- The same elements after resolving "." and "..", from wherever one starts, and the same last segment. -/
def SameWalk (l' l : List Str) : Prop :=
  (∀ out, l'.foldl (cleanStep true) out = l.foldl (cleanStep true) out) ∧ l'.getLast? = l.getLast?

theorem SameWalk.refl (l : List Str) : SameWalk l l := ⟨fun _ => rfl, rfl⟩
theorem SameWalk.trans {a b c : List Str} (h : SameWalk a b) (k : SameWalk b c) : SameWalk a c :=
  ⟨fun out => (h.1 out).trans (k.1 out), h.2.trans k.2⟩

theorem cleanStep_pop (out : List Str) (a : Str) (h1 : a ≠ []) (h2 : a ≠ b!".") (h3 : a ≠ b!"..") :
    cleanStep true (cleanStep true out a) b!".." = out := by
  have : cleanStep true out a = a :: out := by
    unfold cleanStep
    rw [if_neg (by rw [not_or]; exact ⟨h1, h2⟩), if_neg h3]
  rw [this]
  unfold cleanStep
  rw [if_neg (by decide), if_pos rfl]
  simp only
  rw [if_neg h3]

theorem getLast?_skip {α : Type} (A B : List α) (hB : B ≠ []) : (A ++ B).getLast? = B.getLast? := by
  rw [List.getLast?_append]
  cases h : B.getLast? with
  | none => rw [List.getLast?_eq_none_iff] at h; exact absurd h hB
  | some x => rfl
theorem getLast?_skip' {α : Type} (a : α) (B : List α) (hB : B ≠ []) : (a :: B).getLast? = B.getLast? :=
  getLast?_skip [a] B hB

/-- "remove duplicate slashes" drops the empty segments, except the last one. -/
theorem dedupSlash_segs (l : List Str) (hne : l ≠ []) (hl : NoSlash l) :
    ∃ l', l' ≠ [] ∧ NoSlash l' ∧ (∀ s ∈ l', s ∈ l) ∧ dedupSlash (ofSegs l) = ofSegs l' ∧ InnerSegs (· ≠ []) l' ∧
      (InnerSegs (· ≠ []) l → l' = l) ∧ SameWalk l' l := by
  induction l with
  | nil => exact absurd rfl hne
  | cons s t ih =>
    cases t with
    | nil =>
      refine ⟨[s], by simp, hl, fun x hx => hx, ?_, innerSegs_single s, fun _ => rfl, SameWalk.refl _⟩
      simpa using dedupSlash_single s (hl s (by simp))
    | cons u t =>
      have hs := hl s (by simp)
      obtain ⟨l', h1, h2, h3, h4, h5, h6, h7⟩ := ih (by simp) (fun x hx => hl x (by simp [hx]))
      cases s with
      | nil =>
        refine ⟨l', h1, h2, fun x hx => by simp [h3 x hx], ?_, h5, fun h => absurd rfl (h.head (by simp)), ?_⟩
        rotate_left
        · refine ⟨fun out => ?_, by rw [h7.2]; simp⟩
          rw [h7.1]; rfl
        rw [← h4]
        show dedupSlash (47 :: 47 :: (u ++ ofSegs t)) = dedupSlash (47 :: (u ++ ofSegs t))
        rw [dedupSlash]
        simp
      | cons c s =>
        refine ⟨(c :: s) :: l', by simp, ?_, ?_, ?_, h5.cons (by simp), fun h => by rw [h6 h.tail],
          ⟨fun out => by rw [List.foldl_cons, h7.1]; rfl, by
            rw [List.getLast?_cons_cons, ← h7.2]
            cases l' with
            | nil => exact absurd rfl h1
            | cons a l' => rw [List.getLast?_cons_cons]⟩⟩
        · intro x hx; simp at hx; rcases hx with rfl | hx
          · exact hs
          · exact h2 x hx
        · intro x hx; simp at hx; rcases hx with rfl | hx
          · simp
          · simp [h3 x hx]
        · rw [ofSegs_cons, ofSegs_cons (c :: s) l', ← h4]
          show dedupSlash (47 :: c :: (s ++ ofSegs (u :: t))) = 47 :: (c :: s ++ dedupSlash (ofSegs (u :: t)))
          rw [dedupSlash]
          simp only
          simp at hs
          rw [if_neg (fun hh => hs.1 hh.2.symm)]
          have := dedupSlash_append (c :: s) (ofSegs (u :: t)) (by simp; exact hs)
          simp only [List.cons_append] at this ⊢
          rw [this]

theorem take_append_len (a b : Str) : (a ++ b).take a.length = a := by simp
theorem drop_append_len (a b : Str) (n : Nat) : (a ++ b).drop (a.length + n) = b.drop n := by
  rw [List.drop_append]; simp

/-- "remove /./ parts". -/
theorem removeDot_segs (l : List Str) (hne : l ≠ []) (hl : NoSlash l) (n : Nat) (hn : l.length ≤ n)
    (hd : InnerSegs (· ≠ []) l) :
    ∃ l', l' ≠ [] ∧ NoSlash l' ∧ (∀ s ∈ l', s ∈ l) ∧ removeDot n (ofSegs l) = ofSegs l' ∧
      InnerSegs (fun s => s ≠ [] ∧ s ≠ b!".") l' ∧ (InnerSegs (· ≠ b!".") l → l' = l) ∧ SameWalk l' l := by
  induction n generalizing l with
  | zero => cases l with
    | nil => exact absurd rfl hne
    | cons a t => simp at hn
  | succ n ih =>
    rw [removeDot]
    rcases indexOf_cases b!"." (by decide) l hl with ⟨hi, hA⟩ | ⟨A, B, rfl, hB, hi, hmin⟩
    · have hi' : indexOf b!"/./" (ofSegs l) = none := hi
      rw [hi']
      refine ⟨l, hne, hl, fun s hs => hs, rfl, fun A s B hAB hB => ⟨hd A s B hAB hB, fun h => ?_⟩, fun _ => rfl, SameWalk.refl _⟩
      exact hB (hA A B (h ▸ hAB))
    · have hi' : indexOf b!"/./" (ofSegs (A ++ b!"." :: B)) = some (ofSegs A).length := hi
      rw [hi']
      have he : (ofSegs (A ++ b!"." :: B)).take (ofSegs A).length ++ (ofSegs (A ++ b!"." :: B)).drop ((ofSegs A).length + 2) =
          ofSegs (A ++ B) := by
        rw [ofSegs_append, take_append_len, drop_append_len, ofSegs_append]
        rfl
      simp only
      rw [he]
      have hsub : ∀ s ∈ A ++ B, s ∈ A ++ b!"." :: B := by
        intro s hs; simp at hs ⊢; rcases hs with hs | hs <;> simp [hs]
      obtain ⟨l', h1, h2, h3, h4, h5, h6, h7⟩ := ih (A ++ B) (by simp [hB]) (fun s hs => hl s (hsub s hs))
        (by simp at hn ⊢; omega)
        (InnerSegs.remove (C := [b!"."]) (by simpa using hd) hB)
      exact ⟨l', h1, h2, fun s hs => hsub s (h3 s hs), h4, h5, fun h => absurd rfl (h A b!"." B rfl hB),
        h7.trans ⟨fun out => by simp [cleanStep], by rw [getLast?_skip A B hB, getLast?_skip A _ (by simp), getLast?_skip' _ B hB]⟩⟩

theorem lastIndexByte_split (a s : Str) (hs : (47 : UInt8) ∉ s) : lastIndexByte 47 (a ++ 47 :: s) = some a.length := by
  unfold lastIndexByte indexByte
  have : (a ++ 47 :: s).reverse = s.reverse ++ 47 :: a.reverse := by simp
  rw [this, List.findIdx?_append]
  have h1 : List.findIdx? (fun x : UInt8 => x == 47) s.reverse = none := by
    rw [List.findIdx?_eq_none_iff]
    intro x hx
    simp at hx ⊢
    intro h; exact hs (h ▸ hx)
  rw [h1]
  simp [List.findIdx?_cons]

theorem lastIndexByte_eq_none (s : Str) (hs : (47 : UInt8) ∉ s) : lastIndexByte 47 s = none := by
  unfold lastIndexByte indexByte
  have h1 : List.findIdx? (fun x : UInt8 => x == 47) s.reverse = none := by
    rw [List.findIdx?_eq_none_iff]
    intro x hx
    simp at hx ⊢
    intro h; exact hs (h ▸ hx)
  rw [h1]

/-- "remove /foo/../ parts". -/
theorem removeDotDot_segs (l : List Str) (hne : l ≠ []) (hl : NoSlash l) (n : Nat) (hn : l.length ≤ n)
    (hd : InnerSegs (fun s => s ≠ [] ∧ s ≠ b!".") l) :
    ∃ l', l' ≠ [] ∧ NoSlash l' ∧ (∀ s ∈ l', s ∈ l) ∧ removeDotDot n (ofSegs l) = ofSegs l' ∧
      InnerSegs (fun s => (s ≠ [] ∧ s ≠ b!".") ∧ s ≠ b!"..") l' ∧ (InnerSegs (· ≠ b!"..") l → l' = l) ∧
      l'.foldl (cleanStep true) [] = l.foldl (cleanStep true) [] ∧ l'.getLast? = l.getLast? := by
  induction n generalizing l with
  | zero => cases l with
    | nil => exact absurd rfl hne
    | cons a t => simp at hn
  | succ n ih =>
    rw [removeDotDot]
    rcases indexOf_cases b!".." (by decide) l hl with ⟨hi, hA⟩ | ⟨A, B, rfl, hB, hi, hmin⟩
    · have hi' : indexOf b!"/../" (ofSegs l) = none := hi
      rw [hi']
      refine ⟨l, hne, hl, fun s hs => hs, rfl, fun A s B hAB hB => ⟨hd A s B hAB hB, fun h => ?_⟩, fun _ => rfl, rfl, rfl⟩
      exact hB (hA A B (h ▸ hAB))
    · have hi' : indexOf b!"/../" (ofSegs (A ++ b!".." :: B)) = some (ofSegs A).length := hi
      rw [hi']
      simp only
      have hdrop : (ofSegs (A ++ b!".." :: B)).drop ((ofSegs A).length + 3) = ofSegs B := by
        rw [ofSegs_append, drop_append_len]; rfl
      have htake : (ofSegs (A ++ b!".." :: B)).take (ofSegs A).length = ofSegs A := by
        rw [ofSegs_append, take_append_len]
      rw [hdrop]
      -- the segment before ".." goes too
      have hcut : ∃ A' C, A = A' ++ C ∧ (C = [] ∧ A' = [] ∨ ∃ a, C = [a]) ∧ (ofSegs (A ++ b!".." :: B)).take (lastSlash (ofSegs (A ++ b!".." :: B)) (ofSegs A).length) = ofSegs A' := by
        unfold lastSlash
        rw [htake]
        rcases List.eq_nil_or_concat A with rfl | ⟨A', a, rfl⟩
        · exact ⟨[], [], rfl, Or.inl ⟨rfl, rfl⟩, rfl⟩
        · refine ⟨A', [a], by simp, Or.inr ⟨a, rfl⟩, ?_⟩
          have ha : (47 : UInt8) ∉ a := hl a (by simp)
          have : ofSegs (A'.concat a) = ofSegs A' ++ 47 :: a := by simp
          rw [this, lastIndexByte_split _ _ ha]
          simp only [Option.getD_some]
          rw [List.concat_eq_append, List.append_assoc, ofSegs_append, take_append_len]
      obtain ⟨A', C, rfl, hC, hcut⟩ := hcut
      rw [hcut, ← ofSegs_append]
      have hsub : ∀ s ∈ A' ++ B, s ∈ A' ++ C ++ b!".." :: B := by
        intro s hs; simp at hs ⊢; rcases hs with hs | hs <;> simp [hs]
      obtain ⟨l', h1, h2, h3, h4, h5, h6, h7, h8⟩ := ih (A' ++ B) (by simp [hB]) (fun s hs => hl s (hsub s hs))
        (by simp at hn ⊢; omega)
        (InnerSegs.remove (C := C ++ [b!".."]) (by simpa using hd) hB)
      exact ⟨l', h1, h2, fun s hs => hsub s (h3 s hs), h4, h5, fun h => absurd rfl (h (A' ++ C) b!".." B rfl hB), by
          rw [h7]
          rcases hC with ⟨rfl, rfl⟩ | ⟨a, rfl⟩
          · rfl
          · have ha := hd A' a (b!".." :: B) (by simp) (by simp)
            have ha2 : a ≠ b!".." := fun h => hmin (by simp [h])
            simp only [List.foldl_append, List.foldl_cons, List.foldl_nil]
            rw [cleanStep_pop _ a ha.1 ha.2 ha2], by
          rw [h8, getLast?_skip A' B hB, getLast?_skip (A' ++ C) _ (by simp), getLast?_skip' _ B hB]⟩

/-- What `normalizePath` leaves: no empty segment and no "." except at the end, and no ".." at all. -/
def Normal (l : List Str) : Prop := l ≠ [] ∧ NoSlash l ∧ InnerSegs (fun s => s ≠ [] ∧ s ≠ b!".") l ∧ b!".." ∉ l

theorem suffix_dotdot (A : List Str) (s : Str) (hs : (47 : UInt8) ∉ s) :
    hasSuffix (ofSegs (A ++ [s])) b!"/.." = true ↔ s = b!".." := by
  unfold hasSuffix
  rw [List.isSuffixOf_iff_suffix]
  have he : ofSegs (A ++ [s]) = ofSegs A ++ 47 :: s := by simp
  rw [he]
  constructor
  · rintro ⟨r, hr⟩
    have h1 := lastIndexByte_split (ofSegs A) s hs
    have h2 := lastIndexByte_split r b!".." (by decide)
    have hr' : r ++ 47 :: b!".." = ofSegs A ++ 47 :: s := hr
    rw [hr', h1] at h2
    have hlen := Option.some.inj h2
    have := List.append_inj hr' hlen.symm
    have h3 := this.2
    simp only [List.cons.injEq, true_and] at h3
    exact h3.symm
  · rintro rfl; exact ⟨ofSegs A, rfl⟩

/-- "remove trailing /foo/..". -/
theorem trailing_segs (l : List Str) (hne : l ≠ []) (hl : NoSlash l)
    (hd : InnerSegs (fun s => (s ≠ [] ∧ s ≠ b!".") ∧ s ≠ b!"..") l) :
    ∃ l', Normal l' ∧ (∀ s ∈ l', s ∈ l ∨ s = []) ∧ trailingDotDot (ofSegs l) = ofSegs l' ∧ (b!".." ∉ l → l' = l) ∧
      l'.foldl (cleanStep true) [] = l.foldl (cleanStep true) [] ∧ (∀ e, e ≠ [] ∧ e ≠ b!".." → (l'.getLast? = some e ↔ l.getLast? = some e)) := by
  obtain ⟨A, s, rfl⟩ : ∃ A s, l = A ++ [s] := by
    rcases List.eq_nil_or_concat l with h | ⟨A, s, h⟩
    · exact absurd h hne
    · exact ⟨A, s, by simp [h]⟩
  have hs : (47 : UInt8) ∉ s := hl s (by simp)
  have hA : ∀ a ∈ A, a ≠ [] ∧ a ≠ b!"." ∧ a ≠ b!".." := by
    intro a ha
    obtain ⟨U, V, rfl⟩ := List.append_of_mem ha
    have := hd U a (V ++ [s]) (by simp) (by simp)
    exact ⟨this.1.1, this.1.2, this.2⟩
  unfold trailingDotDot
  by_cases h : s = b!".."
  · rw [if_pos ((suffix_dotdot A s hs).mpr h)]
    subst h
    have hlen : (ofSegs (A ++ [b!".."])).length - 3 = (ofSegs A).length := by simp
    have htake : (ofSegs (A ++ [b!".."])).take (ofSegs A).length = ofSegs A := by
      rw [ofSegs_append, take_append_len]
    rw [hlen, htake]
    rcases List.eq_nil_or_concat A with rfl | ⟨A', a, rfl⟩
    · have : lastIndexByte 47 (ofSegs []) = none := by decide
      rw [this]
      refine ⟨[[]], ⟨by simp, by intro s hs; simp at hs; simp [hs], innerSegs_single _, by decide⟩, by simp, rfl, ?_, by decide, ?_⟩
      · intro h; exact absurd (by simp) h
      · rintro e ⟨e1, e2⟩
        simp
        exact ⟨fun h => absurd h e1, fun h => absurd h.symm e2⟩
    · have ha : (47 : UInt8) ∉ a := hl a (by simp)
      have he : ofSegs (A'.concat a) = ofSegs A' ++ 47 :: a := by simp
      rw [he, lastIndexByte_split _ _ ha]
      refine ⟨A' ++ [[]], ⟨by simp, ?_, ?_, ?_⟩, ?_, ?_, ?_, ?_, ?_⟩
      · intro x hx; simp at hx; rcases hx with hx | rfl
        · exact hl x (by simp [hx])
        · simp
      · intro U x V hUV hV
        have : x ∈ A' := by
          rw [List.append_eq_append_iff] at hUV
          obtain ⟨m, h1, h2⟩ | ⟨m, h1, h2⟩ := hUV
          · cases m with
            | nil => simp at h2; exact absurd h2.2 hV
            | cons c m => simp at h2
          · cases m with
            | nil => simp at h2; exact absurd h2.2 hV
            | cons c m => simp at h2; rw [h1, h2.1]; simp
        have := hA x (by simp [this])
        exact ⟨this.1, this.2.1⟩
      · intro hm
        simp at hm
        exact (hA _ (by simp [hm])).2.2 rfl
      · intro x hx; simp at hx; rcases hx with hx | rfl
        · left; simp [hx]
        · right; rfl
      · simp only
        have : ofSegs (A'.concat a ++ [b!".."]) = (ofSegs A' ++ [47]) ++ (a ++ ofSegs [b!".."]) := by simp
        rw [this]
        have h2 : (ofSegs A').length + 1 = (ofSegs A' ++ [47]).length := by simp
        rw [h2, take_append_len]
        simp
      · intro h; exact absurd (by simp) h
      · have ha3 := hA a (by simp)
        simp only [List.concat_eq_append, List.foldl_append, List.foldl_cons, List.foldl_nil]
        rw [cleanStep_pop _ a ha3.1 ha3.2.1 ha3.2.2]
        rfl
      · rintro e ⟨e1, e2⟩
        simp
        exact ⟨fun h => absurd h e1, fun h => absurd h.symm e2⟩
  · rw [if_neg (fun hh => h ((suffix_dotdot A s hs).mp hh))]
    refine ⟨A ++ [s], ⟨hne, hl, fun U x V hUV hV => (hd U x V hUV hV).1, ?_⟩, fun x hx => Or.inl hx, rfl, fun _ => rfl, rfl, fun _ _ => Iff.rfl⟩
    intro hm
    simp at hm
    rcases hm with hm | hm
    · exact (hA _ hm).2.2 rfl
    · exact h hm.symm

theorem InnerSegs.mono {P Q : Str → Prop} {l : List Str} (h : InnerSegs P l) (hpq : ∀ s, P s → Q s) : InnerSegs Q l :=
  fun A s B h1 h2 => hpq s (h A s B h1 h2)

/-- The steps of `normalizePath` after decoding, on segments. -/
theorem normalize_steps (l : List Str) (hne : l ≠ []) (hl : NoSlash l) :
    ∃ l', Normal l' ∧ (∀ s ∈ l', s ∈ l ∨ s = []) ∧
      (let d := dedupSlash (ofSegs l)
       let d := removeDot d.length d
       let d := removeDotDot d.length d
       trailingDotDot d) = ofSegs l' ∧ (Normal l → l' = l) ∧
      l'.foldl (cleanStep true) [] = l.foldl (cleanStep true) [] ∧
      (∀ e, e ≠ [] ∧ e ≠ b!".." → (l'.getLast? = some e ↔ l.getLast? = some e)) := by
  obtain ⟨l1, a1, a2, a3, a4, a5, a6, a7⟩ := dedupSlash_segs l hne hl
  obtain ⟨l2, b1, b2, b3, b4, b5, b6, b7⟩ := removeDot_segs l1 a1 a2 (ofSegs l1).length (length_ofSegs l1) a5
  obtain ⟨l3, c1, c2, c3, c4, c5, c6, c7, c8⟩ := removeDotDot_segs l2 b1 b2 (ofSegs l2).length (length_ofSegs l2) b5
  obtain ⟨l4, d1, d2, d3, d4, d5, d6⟩ := trailing_segs l3 c1 c2 c5
  refine ⟨l4, d1, fun s hs => ?_, ?_, fun hn => ?_, by rw [d5, c7, b7.1, a7.1], fun e he => by rw [d6 e he, c8, b7.2, a7.2]⟩
  · rcases d2 s hs with h | h
    · exact Or.inl (a3 s (b3 s (c3 s h)))
    · exact Or.inr h
  · simp only
    rw [a4, b4, c4, d3]
  · have e1 := a6 (hn.2.2.1.mono fun s h => h.1)
    subst e1
    have e2 := b6 (hn.2.2.1.mono fun s h => h.2)
    subst e2
    have e3 := c6 (fun A s B hAB _ h => hn.2.2.2 (by rw [hAB, h]; simp))
    subst e3
    exact d4 hn.2.2.2

/-- The result of `normalizePath` is a normal path, with the elements one gets by resolving "." and ".." in the decoded
path, and its last segment. -/
theorem normalizePath_walk (src : Str) : ∃ l, Normal l ∧ normalizePath src = ofSegs l ∧
    l.foldl (cleanStep true) [] = (splitByte 47 (percentDecode src)).foldl (cleanStep true) [] ∧
    (∀ e, e ≠ [] ∧ e ≠ b!".." → (l.getLast? = some e ↔ (splitByte 47 (percentDecode src)).getLast? = some e)) := by
  have : ∃ t, addLeadingSlash src ++ percentDecode src = 47 :: t ∧ (percentDecode src = t ∨ percentDecode src = 47 :: t) := by
    unfold addLeadingSlash
    by_cases h : hasPrefix src b!"/"
    · rw [if_pos h]
      match src with
      | [] => simp [hasPrefix] at h
      | [c] => simp [hasPrefix] at h; exact ⟨[], by simp [percentDecode, h], by simp [percentDecode, h]⟩
      | [c, d] => simp [hasPrefix] at h; exact ⟨[d], by simp [percentDecode, h], by simp [percentDecode, h]⟩
      | c :: x :: y :: t =>
        simp [hasPrefix] at h
        subst h
        exact ⟨percentDecode (x :: y :: t), by simp [percentDecode], by simp [percentDecode]⟩
    · rw [if_neg h]; exact ⟨percentDecode src, rfl, Or.inl rfl⟩
  obtain ⟨t, ht, hcase⟩ := this
  have hs := ofSegs_split t
  obtain ⟨l', h1, h2, h3, h4, h5⟩ := normalize_steps (splitByte 47 t) (splitByte_ne 47 t) (splitByte_not_mem 47 t)
  refine ⟨l', h1, ?_, ?_, ?_⟩
  · unfold normalizePath
    rw [ht, ← hs]
    exact h3
  · rw [h5.1]
    rcases hcase with h | h
    · rw [h]
    · rw [h, splitByte, if_pos rfl, List.foldl_cons]; rfl
  · intro e he
    rw [h5.2 e he]
    rcases hcase with h | h
    · rw [h]
    · rw [h, splitByte, if_pos rfl, getLast?_skip' _ _ (splitByte_ne 47 t)]

/-- The result of `normalizePath` is a normal path. -/
theorem normalizePath_normal (src : Str) : ∃ l, Normal l ∧ normalizePath src = ofSegs l :=
  let ⟨l, h1, h2, _⟩ := normalizePath_walk src
  ⟨l, h1, h2⟩

/-- A normal path without escapes is left alone. -/
theorem normalizePath_id (l : List Str) (hn : Normal l) (he : ¬ HasEsc (ofSegs l)) : normalizePath (ofSegs l) = ofSegs l := by
  have hp : hasPrefix (ofSegs l) b!"/" = true := by
    cases l with
    | nil => exact absurd rfl hn.1
    | cons a t => simp [hasPrefix]
  obtain ⟨l', h1, h2, h3, h4, h5⟩ := normalize_steps l hn.1 hn.2.1
  unfold normalizePath addLeadingSlash
  rw [if_pos hp, percentDecode_id _ he]
  simp only [List.nil_append]
  simp only at h3
  rw [h3, h4 hn]

theorem dedupSlash_length (s : Str) : (dedupSlash s).length ≤ s.length := by
  induction s with
  | nil => simp [dedupSlash]
  | cons c t ih =>
    cases t with
    | nil => simp [dedupSlash]
    | cons d t =>
      rw [dedupSlash]
      try simp only
      split
      · simp at ih ⊢; omega
      · simp at ih ⊢; omega

theorem removeDot_length (n : Nat) (b : Str) : (removeDot n b).length ≤ b.length := by
  induction n generalizing b with
  | zero => simp [removeDot]
  | succ n ih =>
    rw [removeDot]
    split
    · exact Nat.le_refl _
    · refine Nat.le_trans (ih _) ?_
      simp; omega

theorem removeDotDot_length (n : Nat) (b : Str) : (removeDotDot n b).length ≤ b.length := by
  induction n generalizing b with
  | zero => simp [removeDotDot]
  | succ n ih =>
    rw [removeDotDot]
    split
    · exact Nat.le_refl _
    · rename_i k _
      refine Nat.le_trans (ih _) ?_
      have : lastSlash b k ≤ k := by
        unfold lastSlash lastIndexByte
        split
        · simp
        · simp; omega
      simp; omega

theorem trailingDotDot_length (b : Str) (h : b ≠ []) : (trailingDotDot b).length ≤ b.length := by
  unfold trailingDotDot
  split
  · split
    · cases b with
      | nil => exact absurd rfl h
      | cons a t => simp
    · simp; omega
  · exact Nat.le_refl _

/-- Decoding an escape shortens the path. -/
theorem normalizePath_shorter (p : Str) (h : hasPrefix p b!"/" = true) (he : HasEsc p) :
    (normalizePath p).length < p.length := by
  have h1 := percentDecode_shorter p he
  have hal : addLeadingSlash p = [] := by unfold addLeadingSlash; rw [if_pos h]
  have key : normalizePath p = trailingDotDot (removeDotDot (removeDot (dedupSlash (percentDecode p)).length
      (dedupSlash (percentDecode p))).length (removeDot (dedupSlash (percentDecode p)).length
      (dedupSlash (percentDecode p)))) := by
    unfold normalizePath
    rw [hal, List.nil_append]
  rw [key]
  have h2 := dedupSlash_length (percentDecode p)
  have h3 := removeDot_length (dedupSlash (percentDecode p)).length (dedupSlash (percentDecode p))
  have h4 := removeDotDot_length (removeDot (dedupSlash (percentDecode p)).length (dedupSlash (percentDecode p))).length
    (removeDot (dedupSlash (percentDecode p)).length (dedupSlash (percentDecode p)))
  generalize hb : removeDotDot (removeDot (dedupSlash (percentDecode p)).length (dedupSlash (percentDecode p))).length
    (removeDot (dedupSlash (percentDecode p)).length (dedupSlash (percentDecode p))) = b at h4 ⊢
  by_cases hbe : b = []
  · subst hbe
    have : trailingDotDot [] = [] := by decide
    rw [this]
    have : p ≠ [] := by intro hp; subst hp; exact absurd h1 (by decide)
    exact List.length_pos_iff.mpr this
  · have h5 := trailingDotDot_length b hbe
    omega

/-- A normal path is stable exactly when it has no escapes. -/
theorem normalizePath_stable (l : List Str) (hn : Normal l) : normalizePath (ofSegs l) = ofSegs l ↔ ¬ HasEsc (ofSegs l) := by
  constructor
  · intro h he
    have hp : hasPrefix (ofSegs l) b!"/" = true := by
      cases l with
      | nil => exact absurd rfl hn.1
      | cons a t => simp [hasPrefix]
    have := normalizePath_shorter _ hp he
    rw [h] at this
    exact absurd this (Nat.lt_irrefl _)
  · exact normalizePath_id l hn

/-! ### `path.Clean` on segments -/

/-- A proper path element. -/
def GoodSeg (s : Str) : Prop := s ≠ [] ∧ s ≠ b!"." ∧ s ≠ b!".." ∧ (47 : UInt8) ∉ s

theorem cleanStep_good (out : List Str) (s : Str) (h : ∀ x ∈ out, GoodSeg x) (hs : (47 : UInt8) ∉ s) :
    ∀ x ∈ cleanStep true out s, GoodSeg x := by
  unfold cleanStep
  by_cases h1 : s = [] ∨ s = b!"."
  · rw [if_pos h1]; exact h
  · rw [if_neg h1]
    by_cases h2 : s = b!".."
    · rw [if_pos h2]
      cases out with
      | nil => simp
      | cons a t =>
        simp only
        rw [if_neg (h a (by simp)).2.2.1]
        exact fun x hx => h x (by simp [hx])
    · rw [if_neg h2]
      intro x hx
      simp at hx
      rcases hx with rfl | hx
      · exact ⟨fun h => h1 (Or.inl h), fun h => h1 (Or.inr h), h2, hs⟩
      · exact h x hx

theorem foldl_clean_good (l : List Str) (out : List Str) (h : ∀ x ∈ out, GoodSeg x) (hl : NoSlash l) :
    ∀ x ∈ l.foldl (cleanStep true) out, GoodSeg x := by
  induction l generalizing out with
  | nil => exact h
  | cons s t ih => exact ih _ (cleanStep_good out s h (hl s (by simp))) (fun x hx => hl x (by simp [hx]))

/-- The elements of a cleaned rooted path. -/
theorem cleanSegs_good (p : Str) : ∀ s ∈ cleanSegs true p, GoodSeg s := by
  intro s hs
  unfold cleanSegs at hs
  rw [List.mem_reverse] at hs
  exact foldl_clean_good _ [] (by simp) (splitByte_not_mem 47 p) s hs

/-- Elements that survive when there is no "..". -/
def keepSeg (s : Str) : Bool := !(s == [] || s == b!".")

theorem foldl_clean_plain (r : Bool) (l : List Str) (out : List Str) (h : b!".." ∉ l) :
    l.foldl (cleanStep r) out = (l.filter keepSeg).reverse ++ out := by
  induction l generalizing out with
  | nil => rfl
  | cons s t ih =>
    simp only [List.mem_cons, not_or] at h
    rw [List.foldl_cons, ih _ h.2]
    unfold cleanStep
    by_cases h1 : s = [] ∨ s = b!"."
    · rw [if_pos h1, List.filter_cons_of_neg (by unfold keepSeg; rcases h1 with rfl | rfl <;> decide)]
    · rw [if_neg h1, if_neg (fun hh => h.1 hh.symm), List.filter_cons_of_pos (by
        unfold keepSeg; simp at h1 ⊢; exact h1)]
      simp

theorem keepSeg_good {s : Str} (h : keepSeg s = true) (h2 : s ≠ b!"..") (h3 : (47 : UInt8) ∉ s) : GoodSeg s := by
  unfold keepSeg at h
  simp at h
  exact ⟨h.1, h.2, h2, h3⟩

theorem filter_good (l : List Str) (h : ∀ s ∈ l, GoodSeg s) : l.filter keepSeg = l := by
  rw [List.filter_eq_self]
  intro s hs
  have := h s hs
  unfold keepSeg
  simp; exact ⟨this.1, this.2.1⟩

/-- Cleaning a rooted path without "..". -/
theorem pathClean_plain (l : List Str) (hne : l ≠ []) (hl : NoSlash l) (h : b!".." ∉ l) :
    pathClean (ofSegs l) = 47 :: joinByte 47 (l.filter keepSeg) := by
  have hp : hasPrefix (ofSegs l) b!"/" = true := by
    cases l with
    | nil => exact absurd rfl hne
    | cons a t => simp [hasPrefix]
  have hn : ofSegs l ≠ [] := by
    cases l with
    | nil => exact absurd rfl hne
    | cons a t => simp
  unfold pathClean
  rw [if_neg hn, if_pos hp]
  unfold cleanSegs
  rw [split_ofSegs l hne hl, foldl_clean_plain true ([] :: l) [] (by simp; exact h)]
  have : (([] : Str) :: l).filter keepSeg = l.filter keepSeg := List.filter_cons_of_neg (by decide)
  rw [this]
  simp

theorem normal_good (l : List Str) (hne : l ≠ []) (h : ∀ s ∈ l, GoodSeg s) : Normal l :=
  ⟨hne, fun s hs => (h s hs).2.2.2, fun A s B hAB _ => by
    have := h s (by rw [hAB]; simp)
    exact ⟨this.1, this.2.1⟩, fun hm => (h _ hm).2.2.1 rfl⟩

end Verif
