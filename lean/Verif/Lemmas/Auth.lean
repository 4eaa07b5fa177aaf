import Verif.Lemmas.Base64
import Verif.Lemmas.SplitPath
/-
getUserPassword and Check, characterised.
-/
namespace Verif
open Spec

theorem indexByte_none {c : UInt8} {s : Str} : indexByte c s = none ↔ c ∉ s := by
  unfold indexByte
  rw [List.findIdx?_eq_none_iff]
  constructor
  · intro h hm; have := h c hm; simp at this
  · intro h x hx
    simp only [beq_eq_false_iff_ne, ne_eq]
    rintro rfl; exact h hx

theorem indexByte_append {c : UInt8} {a b : Str} (h : c ∉ a) : indexByte c (a ++ c :: b) = some a.length := by
  unfold indexByte
  induction a with
  | nil => simp [List.findIdx?_cons]
  | cons x a ih =>
    have hx : x ≠ c := by rintro rfl; exact h (by simp)
    simp only [List.cons_append, List.findIdx?_cons]
    have : (x == c) = false := by simpa using hx
    rw [this, ih (fun hm => h (by simp [hm]))]
    simp

/-- Every string with a `c` splits at the first one. -/
theorem split_first {c : UInt8} {s : Str} (h : c ∈ s) : ∃ a b, s = a ++ c :: b ∧ c ∉ a := by
  induction s with
  | nil => simp at h
  | cons x s ih =>
    by_cases hx : x = c
    · subst hx; exact ⟨[], s, rfl, by simp⟩
    · have : c ∈ s := by simpa [Ne.symm hx] using h
      obtain ⟨a, b, rfl, ha⟩ := ih this
      exact ⟨x :: a, b, rfl, by simp [ha, Ne.symm hx]⟩

theorem splitByte_head (c : UInt8) (s : Str) : (splitByte c s).head? = some (s.takeWhile (· != c)) := by
  induction s with
  | nil => rfl
  | cons x s ih =>
    by_cases hx : x = c
    · subst hx; simp [splitByte]
    · simp only [splitByte, hx, if_false]
      cases hsp : splitByte c s with
      | nil => rw [hsp] at ih; simp at ih
      | cons h t =>
        rw [hsp] at ih
        simp only [List.head?_cons, Option.some.injEq] at ih
        simp [hx, ih]

theorem spelling_no_space : ∀ s ∈ basicSpellings, (32 : UInt8) ∉ s := by decide +kernel

/-- A header that does not carry a text with a ':' gives no user. -/
theorem gup_carries {u : Str → Str} {header raw rest : Str} (h : Carries header (raw ++ 58 :: rest)) (hr : 58 ∉ raw) :
    getUserPassword u header = (toLower u raw, rest.takeWhile (· != 58)) := by
  obtain ⟨scheme, text, rfl, hs, hd⟩ := h
  unfold getUserPassword
  rw [if_neg (by simp), indexByte_append (spelling_no_space _ hs)]
  simp only [List.take_left]
  have h1 : scheme.length + 1 = (scheme ++ [(32 : UInt8)]).length := by simp
  have h2 : (scheme ++ 32 :: text).drop (scheme.length + 1) = text := by
    have : scheme ++ 32 :: text = (scheme ++ [32]) ++ text := by simp
    rw [this, h1, List.drop_left]
  rw [h2, (equalFold_basic scheme).2 hs, hd]
  simp only [if_true]
  rw [splitByte_append 58 raw rest hr]
  have := splitByte_head 58 rest
  cases hsp : splitByte 58 rest with
  | nil => rw [hsp] at this; simp at this
  | cons a t =>
    rw [hsp] at this
    simp only [List.head?_cons, Option.some.injEq] at this
    rw [this]

theorem gup_none {u : Str → Str} {header : Str} (h : ¬ ∃ raw rest, Carries header (raw ++ 58 :: rest) ∧ 58 ∉ raw) :
    getUserPassword u header = ([], []) := by
  unfold getUserPassword
  split
  · rfl
  · cases hi : indexByte 32 header with
    | none => rfl
    | some i =>
      have hm : 32 ∈ header := by
        by_cases hm : 32 ∈ header
        · exact hm
        · rw [indexByte_none.2 hm] at hi; simp at hi
      obtain ⟨a, b, rfl, ha⟩ := split_first hm
      rw [indexByte_append ha] at hi
      simp only [Option.some.injEq] at hi
      subst hi
      have h1 : a.length + 1 = (a ++ [(32 : UInt8)]).length := by simp
      have h2 : (a ++ 32 :: b).drop (a.length + 1) = b := by
        have : a ++ 32 :: b = (a ++ [32]) ++ b := by simp
        rw [this, h1, List.drop_left]
      simp only [List.take_left, h2]
      split
      · rename_i hf
        cases hd : b64Decode b with
        | none => rfl
        | some dec =>
          simp only
          by_cases hc : (58 : UInt8) ∈ dec
          · exfalso
            obtain ⟨raw, rest, rfl, hr⟩ := split_first hc
            exact h ⟨raw, rest, ⟨a, b, rfl, (equalFold_basic a).1 hf, hd⟩, hr⟩
          · rw [splitByte_single 58 dec hc]
      · rfl

/-- What `getUserPassword` returns. -/
theorem gup_cases (u : Str → Str) (header : Str) :
    (∃ user pass, Credentials u header user pass ∧ getUserPassword u header = (user, pass)) ∨
    ((¬ ∃ user pass, Credentials u header user pass) ∧ getUserPassword u header = ([], [])) := by
  by_cases h : ∃ raw rest, Carries header (raw ++ 58 :: rest) ∧ 58 ∉ raw
  · obtain ⟨raw, rest, h1, h2⟩ := h
    exact Or.inl ⟨_, _, ⟨raw, rest, h1, h2, rfl, rfl⟩, gup_carries h1 h2⟩
  · refine Or.inr ⟨?_, gup_none h⟩
    rintro ⟨_, _, raw, rest, h1, h2, _⟩
    exact h ⟨raw, rest, h1, h2⟩

theorem gup_of_credentials {u : Str → Str} {header user pass : Str} (h : Credentials u header user pass) :
    getUserPassword u header = (user, pass) := by
  obtain ⟨raw, rest, h1, h2, rfl, rfl⟩ := h
  exact gup_carries h1 h2

/-- The decision. -/
theorem decision_iff (u : Str → Str) (roles : GoMap Str Str) (header : Str) :
    (decide ((getUserPassword u header).1 ≠ []) &&
      decide ((roles.get? (getUserPassword u header).1).getD [] = (getUserPassword u header).2)) = true ↔
    Accepted u roles header := by
  rw [Bool.and_eq_true, decide_eq_true_eq, decide_eq_true_eq]
  constructor
  · rintro ⟨h1, h2⟩
    rcases gup_cases u header with ⟨user, pass, h3, h4⟩ | ⟨_, h4⟩
    · rw [h4] at h1 h2
      exact ⟨user, pass, h3, h1, h2⟩
    · rw [h4] at h1; simp at h1
  · rintro ⟨user, pass, h1, h2, h3⟩
    rw [gup_of_credentials h1]
    exact ⟨h2, h3⟩

theorem authOf_header (ops : List AuthOp) : ∀ h : BaseAuth, (ops.foldl BaseAuth.op h).header = challenge ops h.header := by
  induction ops with
  | nil => intro h; rfl
  | cons op ops ih =>
    intro h
    rw [List.foldl_cons, ih]
    cases op <;> rfl

/-- The fields are what the calls said. -/
theorem fold_said (ops : List AuthOp) : ∀ h : BaseAuth,
    (ops.foldl BaseAuth.op h).use = saidUse ops h.use ∧ (ops.foldl BaseAuth.op h).roles = saidRoles ops h.roles ∧
    (ops.foldl BaseAuth.op h).checkAccess = saidAccess ops h.checkAccess ∧
    (if (ops.foldl BaseAuth.op h).useLogFunc then some (ops.foldl BaseAuth.op h).logNil else none) =
      saidLog ops (if h.useLogFunc then some h.logNil else none) := by
  induction ops with
  | nil => intro h; exact ⟨rfl, rfl, rfl, rfl⟩
  | cons op ops ih =>
    intro h
    rw [List.foldl_cons]
    obtain ⟨h1, h2, h3, h4⟩ := ih (h.op op)
    rw [h1, h2, h3, h4]
    cases op <;> exact ⟨rfl, rfl, rfl, rfl⟩

theorem authOf_said (ops : List AuthOp) :
    (authOf ops).use = saidUse ops false ∧ (authOf ops).roles = saidRoles ops [] ∧
    (authOf ops).checkAccess = saidAccess ops (some fun _ => true) ∧
    (if (authOf ops).useLogFunc then some (authOf ops).logNil else none) = saidLog ops none :=
  fold_said ops newBaseAuth

end Verif
