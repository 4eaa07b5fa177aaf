import Verif.Spec.Ctx
/-
The heap of contexts refines the value semantics of Spec/Ctx.lean.
-/
namespace Verif
open Spec

/-- Every context owns a map no other context has. -/
def CtxInv {ν : Type} (h : CtxHeap ν) (s : List (Str → Option ν)) (b : List Bool) : Prop :=
  h.ctxs.length = s.length ∧ h.ctxs.length = b.length ∧ h.maps.length = h.ctxs.length ∧
    ∀ (i : Nat) (c : CtxObj), h.ctxs[i]? = some c → c.data = i ∧ c.hasLogger = !(b[i]?.getD false) ∧ c.hasCancel = !(b[i]?.getD false) ∧
      ∀ (m : Str → Option ν), s[i]? = some m → ∀ k, GoMap.get? ((h.maps[i]?).getD []) k = m k

theorem copy_get {ν : Type} (m : GoMap Str ν) (acc : GoMap Str ν) (k : Str)
    (hn : (m.map (·.1)).Nodup) :
    GoMap.get? (m.foldl (fun d e => GoMap.set d e.1 e.2) acc) k = (GoMap.get? m k).or (GoMap.get? acc k) := by
  induction m generalizing acc with
  | nil => simp [GoMap.get?]
  | cons e t ih =>
    simp only [List.map_cons, List.nodup_cons] at hn
    rw [List.foldl_cons, ih _ hn.2, GoMap.get?_cons, GoMap.get?_set]
    by_cases h : e.1 = k
    · subst h
      have : GoMap.get? t e.1 = none := by
        unfold GoMap.get?
        simp only [Option.map_eq_none_iff, List.find?_eq_none, decide_eq_true_eq]
        intro x hx he
        exact hn.1 (List.mem_map.2 ⟨x, hx, he⟩)
      rw [this]; simp
    · rw [if_neg h, if_neg (fun e => h e.symm)]

theorem set_nodup {ν : Type} (m : GoMap Str ν) (k : Str) (v : ν) (h : (m.map (·.1)).Nodup) :
    ((GoMap.set m k v).map (·.1)).Nodup := by
  unfold GoMap.set
  rw [List.map_cons, List.nodup_cons]
  constructor
  · simp
  · exact (List.filter_sublist.map _).nodup h

def MapsOk {ν : Type} (h : CtxHeap ν) : Prop := ∀ m ∈ h.maps, (m.map (·.1)).Nodup

theorem copy_nodup {ν : Type} (m acc : GoMap Str ν) (h : (acc.map (·.1)).Nodup) :
    ((m.foldl (fun d e => GoMap.set d e.1 e.2) acc).map (·.1)).Nodup := by
  induction m generalizing acc with
  | nil => exact h
  | cons e t ih => exact ih _ (set_nodup _ _ _ h)

theorem mem_modify {α : Type} (l : List α) (i : Nat) (f : α → α) (x : α) (h : x ∈ l.modify i f) :
    x ∈ l ∨ ∃ y ∈ l, x = f y := by
  obtain ⟨j, hj⟩ := List.mem_iff_getElem?.1 h
  rw [List.getElem?_modify] at hj
  cases hl : l[j]? with
  | none => rw [hl] at hj; simp at hj
  | some y =>
    rw [hl] at hj
    simp only [Option.map_eq_map, Option.map_some, Option.some.injEq] at hj
    split at hj
    · exact Or.inr ⟨y, List.mem_of_getElem? hl, hj.symm⟩
    · exact Or.inl (hj ▸ List.mem_of_getElem? hl)

/-- Changing the flags of one context keeps everything. -/
theorem CtxInv.flags {ν : Type} {h : CtxHeap ν} {s : List (Str → Option ν)} {b : List Bool} (hi : CtxInv h s b)
    (j : Nat) (f : CtxObj → CtxObj) (hf : ∀ c, (f c).data = c.data ∧ (f c).hasLogger = c.hasLogger ∧ (f c).hasCancel = c.hasCancel) :
    CtxInv { h with ctxs := h.ctxs.modify j f } s b := by
  obtain ⟨h1, h2, h3, h4⟩ := hi
  refine ⟨by simpa using h1, by simpa using h2, by simpa using h3, ?_⟩
  intro i c hc
  simp only [List.getElem?_modify] at hc
  cases hl : h.ctxs[i]? with
  | none => rw [hl] at hc; simp at hc
  | some c0 =>
    rw [hl] at hc
    simp only [Option.map_eq_map, Option.map_some, Option.some.injEq] at hc
    obtain ⟨a1, a2, a3, a4⟩ := h4 i c0 hl
    split at hc
    · subst hc
      rw [(hf c0).1, (hf c0).2.1, (hf c0).2.2]
      exact ⟨a1, a2, a3, a4⟩
    · subst hc; exact ⟨a1, a2, a3, a4⟩

theorem ctxStep_inv {ν : Type} (h : CtxHeap ν) (s : List (Str → Option ν)) (b : List Bool) (o : CtxOp ν)
    (hi : CtxInv h s b) (hm : MapsOk h) :
    CtxInv (ctxStep h o).1 (dataStep s o) (clonedStep b o) ∧ MapsOk (ctxStep h o).1 := by
  cases o with
  | new =>
    obtain ⟨h1, h2, h3, h4⟩ := hi
    refine ⟨⟨by simp [ctxStep, dataStep, h1], by simp [ctxStep, clonedStep, h2], by simp [ctxStep, h3], ?_⟩, ?_⟩
    · intro i c hc
      simp only [ctxStep, dataStep, clonedStep] at hc ⊢
      by_cases hlt : i < h.ctxs.length
      · rw [List.getElem?_append_left hlt] at hc
        rw [List.getElem?_append_left (by omega), List.getElem?_append_left (by omega),
          List.getElem?_append_left (by omega)]
        exact h4 i c hc
      · have hle : i < (h.ctxs ++ [(⟨0, h.maps.length, false, false, false, true, true⟩ : CtxObj)]).length :=
          (List.getElem?_eq_some_iff.1 hc).1
        simp at hle
        have : i = h.ctxs.length := by omega
        subst this
        simp only [List.getElem?_append_right (Nat.le_refl _), Nat.sub_self, List.getElem?_cons_zero,
          Option.some.injEq] at hc
        subst hc
        rw [List.getElem?_append_right (by omega), List.getElem?_append_right (by omega),
          List.getElem?_append_right (by omega)]
        simp [h3, h1, h2]
        rw [← h2, ← h1, Nat.sub_self]
        simp
    · intro m hm'
      simp only [ctxStep, List.mem_append, List.mem_singleton] at hm'
      rcases hm' with hm' | rfl
      · exact hm m hm'
      · simp
  | clone j =>
    obtain ⟨h1, h2, h3, h4⟩ := hi
    simp only [ctxStep, dataStep, clonedStep]
    cases hc0 : h.ctxs[j]? with
    | none =>
      have hj : ¬ j < h.ctxs.length := by simpa using hc0
      have : s[j]? = none := by simp; omega
      rw [this, if_neg (by omega)]
      exact ⟨⟨h1, h2, h3, h4⟩, hm⟩
    | some c0 =>
      have hj : j < h.ctxs.length := (List.getElem?_eq_some_iff.1 hc0).1
      obtain ⟨m0, hm0⟩ : ∃ m0, s[j]? = some m0 := by
        cases hs : s[j]? with
        | none => simp at hs; omega
        | some m0 => exact ⟨m0, rfl⟩
      rw [hm0, if_pos (by omega)]
      obtain ⟨a1, -, -, a4⟩ := h4 j c0 hc0
      refine ⟨⟨by simp [h1], by simp [h2], by simp [h3], ?_⟩, ?_⟩
      · intro i c hc
        simp only at hc ⊢
        by_cases hlt : i < h.ctxs.length
        · rw [List.getElem?_append_left hlt] at hc
          rw [List.getElem?_append_left (by omega), List.getElem?_append_left (by omega),
            List.getElem?_append_left (by omega)]
          exact h4 i c hc
        · have hle := (List.getElem?_eq_some_iff.1 hc).1
          simp at hle
          have : i = h.ctxs.length := by omega
          subst this
          simp only [List.getElem?_append_right (Nat.le_refl _), Nat.sub_self, List.getElem?_cons_zero,
            Option.some.injEq] at hc
          subst hc
          rw [List.getElem?_append_right (by omega), List.getElem?_append_right (by omega),
            List.getElem?_append_right (by omega)]
          simp only [h3, h1, h2, Nat.sub_self, List.getElem?_cons_zero, Option.getD_some, Bool.not_true, true_and,
            Option.some.injEq]
          rw [← h2, h1, Nat.sub_self]
          simp only [List.getElem?_cons_zero, Option.getD_some, Bool.not_true, Option.some.injEq, forall_eq', true_and]
          intro k
          rw [copy_get]
          · rw [a1]; simp [a4 m0 hm0 k]
          · rw [a1]
            cases hmj : h.maps[j]? with
            | none => simp
            | some m => exact hm m (List.mem_of_getElem? hmj)
      · intro m hm'
        simp only [List.mem_append, List.mem_singleton] at hm'
        rcases hm' with hm' | rfl
        · exact hm m hm'
        · exact copy_nodup _ _ (by simp)
  | set j k v =>
    obtain ⟨h1, h2, h3, h4⟩ := hi
    simp only [ctxStep, dataStep, clonedStep]
    cases hc0 : h.ctxs[j]? with
    | none =>
      have hj : ¬ j < h.ctxs.length := by simpa using hc0
      have : s.modify j (fun (m : Str → Option ν) x => if x = k then some v else m x) = s :=
        List.modify_eq_self (by omega)
      rw [this]
      exact ⟨⟨h1, h2, h3, h4⟩, hm⟩
    | some c0 =>
      have hj : j < h.ctxs.length := (List.getElem?_eq_some_iff.1 hc0).1
      have a1 := (h4 j c0 hc0).1
      refine ⟨⟨by simpa using h1, h2, by simpa using h3, ?_⟩, ?_⟩
      · intro i c hc
        simp only at hc ⊢
        obtain ⟨b1, b2, b3, b4⟩ := h4 i c hc
        refine ⟨b1, b2, b3, ?_⟩
        intro m hm' x
        rw [List.getElem?_modify] at hm' ⊢
        have hi : i < h.ctxs.length := (List.getElem?_eq_some_iff.1 hc).1
        obtain ⟨m1, hm1⟩ : ∃ m1, s[i]? = some m1 := by
          cases hs : s[i]? with
          | none => simp at hs; omega
          | some m0 => exact ⟨m0, rfl⟩
        obtain ⟨g1, hg1⟩ : ∃ g1, h.maps[i]? = some g1 := by
          cases hs : h.maps[i]? with
          | none => simp at hs; omega
          | some m0 => exact ⟨m0, rfl⟩
        have b5 := b4 m1 hm1
        rw [hg1, Option.getD_some] at b5
        rw [hm1] at hm'
        rw [hg1, a1]
        simp only [Option.map_eq_map, Option.map_some, Option.some.injEq, Option.getD_some] at hm' ⊢
        by_cases hij : j = i
        · rw [if_pos hij] at hm' ⊢
          subst hm'
          rw [GoMap.get?_set, b5]
        · rw [if_neg hij] at hm' ⊢
          subst hm'
          exact b5 x
      · intro m hm'
        rcases mem_modify _ _ _ _ hm' with hm' | ⟨y, hy, rfl⟩
        · exact hm m hm'
        · exact set_nodup _ _ _ (hm y hy)
  | setSameSite j m => exact ⟨hi.flags j _ fun c => ⟨rfl, rfl, rfl⟩, hm⟩
  | stop j =>
    simp only [ctxStep]
    cases hc0 : h.ctxs[j]? with
    | none => exact ⟨hi, hm⟩
    | some c0 => exact ⟨hi.flags j _ fun c => ⟨rfl, rfl, rfl⟩, hm⟩
  | abort j =>
    simp only [ctxStep]
    cases hc0 : h.ctxs[j]? with
    | none => exact ⟨hi, hm⟩
    | some c0 => exact ⟨hi.flags j _ fun c => ⟨rfl, rfl, rfl⟩, hm⟩
  | skipMain j =>
    simp only [ctxStep]
    cases hc0 : h.ctxs[j]? with
    | none => exact ⟨hi, hm⟩
    | some c0 => exact ⟨hi.flags j _ fun c => ⟨rfl, rfl, rfl⟩, hm⟩

theorem ctxRun_inv {ν : Type} (ops : List (CtxOp ν)) :
    CtxInv (ctxRun ops) (dataOf ops) (clonedOf ops) ∧ MapsOk (ctxRun ops) := by
  have : ∀ (ops : List (CtxOp ν)) h s b, CtxInv h s b ∧ MapsOk h →
      CtxInv (ops.foldl (fun h o => (ctxStep h o).1) h) (ops.foldl dataStep s) (ops.foldl clonedStep b) ∧
        MapsOk (ops.foldl (fun h o => (ctxStep h o).1) h) := by
    intro ops
    induction ops with
    | nil => intro h s b hi; exact hi
    | cons o t ih => intro h s b hi; exact ih _ _ _ (ctxStep_inv h s b o hi.1 hi.2)
  exact this ops ⟨[], []⟩ [] [] ⟨⟨rfl, rfl, rfl, by simp⟩, by simp [MapsOk]⟩


end Verif
