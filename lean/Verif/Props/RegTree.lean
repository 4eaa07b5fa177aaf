import Verif.Model.RegTree
import Verif.Props.Routing
/-
Properties C12 (rest), C13, C14, C15: regular-expression routes and the combined lookup.
-/
namespace Verif
set_option linter.unusedSectionVars false
open Spec
variable {σ ρ : Type} [DecidableEq ρ]

/-- The nine methods the table is created with. -/
def nineMethods : List Method :=
  [b!"GET", b!"HEAD", b!"POST", b!"PUT", b!"PATCH", b!"DELETE", b!"CONNECT", b!"OPTIONS", b!"TRACE"]

/-- Methods under which a regular expression can be registered. -/
def rxMethods : List Method := nineMethods ++ [b!"GETPOST", b!"GETHEAD"]

/-- The order Go happens to visit a map in: any permutation of its entries. -/
def AnyOrder (visit : GoMap ρ (Option σ) → List (ρ × Option σ)) : Prop := ∀ l, (visit l).Perm l

/-! #### Invariants of the table -/

/-- No duplicate keys. -/
def GoMap.Nodup {κ ν : Type} (m : GoMap κ ν) : Prop := (m.map (·.1)).Nodup

theorem GoMap.nodup_set {κ ν : Type} [DecidableEq κ] {m : GoMap κ ν} (h : m.Nodup) (k : κ) (v : ν) :
    (GoMap.set m k v).Nodup := by
  unfold GoMap.Nodup GoMap.set at *
  simp only [List.map_cons, List.nodup_cons, List.mem_map, List.mem_filter, ne_eq, decide_not,
    Bool.not_eq_true', decide_eq_false_iff_not, not_exists, not_and, and_imp]
  refine ⟨fun x _ hx => hx, ?_⟩
  exact h.sublist ((List.filter_sublist (l := m)).map _)

theorem GoMap.mem_iff {κ ν : Type} [DecidableEq κ] {m : GoMap κ ν} (h : m.Nodup) (k : κ) (v : ν) :
    (k, v) ∈ m ↔ m.get? k = some v := by
  induction m with
  | nil => simp
  | cons e m ih =>
    unfold GoMap.Nodup at h
    simp only [List.map_cons, List.nodup_cons] at h
    rw [GoMap.get?_cons]
    by_cases hk : e.1 = k
    · subst hk
      simp only [if_true, Option.some.injEq, List.mem_cons]
      constructor
      · rintro (h' | h')
        · rw [← h']
        · exact absurd (List.mem_map.2 ⟨_, h', rfl⟩) h.1
      · rintro rfl; exact Or.inl rfl
    · simp only [hk, if_false, List.mem_cons]
      rw [← ih h.2]
      constructor
      · rintro (h' | h')
        · exact absurd (by rw [← h']) hk
        · exact h'
      · exact Or.inr

/-- The state of the table after a history: the nine methods have maps without duplicate keys, in
which an expression maps to its latest covering registration. -/
structure TableInv (hist : List (RxReg ρ σ)) (t : RegTable ρ σ) : Prop where
  dom : ∀ m, (t.get? m).isSome = true ↔ m ∈ nineMethods
  nodup : ∀ m inner, t.get? m = some inner → GoMap.Nodup inner
  entry : ∀ m inner rx, t.get? m = some inner → inner.get? rx =
    (hist.reverse.find? fun r => decide (r.rx = rx) && covers r.method m).map fun r => some r.set

theorem regAssign_get (t : RegTable ρ σ) (m : Method) (rx : ρ) (s : Option σ) (h : (t.get? m).isSome = true) :
    ∃ inner, t.get? m = some inner ∧ regAssign t m rx s = (t.set m (inner.set rx s), false) := by
  obtain ⟨inner, hi⟩ := Option.isSome_iff_exists.1 h
  exact ⟨inner, hi, by simp [regAssign, hi]⟩

theorem nine_get : ∀ m ∈ nineMethods, m ≠ b!"GETPOST" ∧ m ≠ b!"GETHEAD" := by decide +kernel

/-- One successful registration. -/
theorem regAdd_inv (hist : List (RxReg ρ σ)) (t : RegTable ρ σ) (h : TableInv hist t) (r : RxReg ρ σ) :
    (r.method ∈ rxMethods → (regAdd t r.method r.rx (some r.set)).2 = false) ∧
    (r.method ∉ rxMethods → regAdd t r.method r.rx (some r.set) = (t, true)) ∧
    TableInv (hist ++ [r]) (regAdd t r.method r.rx (some r.set)).1 := by
  have hGet : (t.get? mGet).isSome = true := (h.dom _).2 (by decide +kernel)
  have e1 : mGetPost = b!"GETPOST" := rfl
  have e2 : mGetHead = b!"GETHEAD" := rfl
  -- effect of one assignment on the entries
  have one : ∀ (hist' : List (RxReg ρ σ)) (t : RegTable ρ σ) (m0 : Method) (inner : GoMap ρ (Option σ)),
      t.get? m0 = some inner → (∀ m, (t.get? m).isSome = true ↔ m ∈ nineMethods) →
      (∀ m i, t.get? m = some i → GoMap.Nodup i) →
      (∀ m, ((t.set m0 (inner.set r.rx (some r.set))).get? m).isSome = true ↔ m ∈ nineMethods) ∧
      (∀ m i, (t.set m0 (inner.set r.rx (some r.set))).get? m = some i → GoMap.Nodup i) ∧
      (∀ m i, (t.set m0 (inner.set r.rx (some r.set))).get? m = some i →
        (m = m0 ∧ i = inner.set r.rx (some r.set)) ∨ (m ≠ m0 ∧ t.get? m = some i)) := by
    intro _ t m0 inner hin hdom hnd
    refine ⟨?_, ?_, ?_⟩
    · intro m
      rw [GoMap.get?_set]
      by_cases hm : m = m0
      · subst hm; rw [if_pos rfl, ← hdom m, hin]; simp
      · rw [if_neg hm]; exact hdom m
    · intro m i hi
      rw [GoMap.get?_set] at hi
      by_cases hm : m = m0
      · rw [if_pos hm] at hi
        simp only [Option.some.injEq] at hi
        subst hi; exact GoMap.nodup_set (hnd m0 inner hin) _ _
      · rw [if_neg hm] at hi; exact hnd m i hi
    · intro m i hi
      rw [GoMap.get?_set] at hi
      by_cases hm : m = m0
      · rw [if_pos hm] at hi
        simp only [Option.some.injEq] at hi
        exact Or.inl ⟨hm, hi.symm⟩
      · rw [if_neg hm] at hi; exact Or.inr ⟨hm, hi⟩
  have find_app : ∀ (m : Method) (rx : ρ), ((hist ++ [r]).reverse.find? fun r => decide (r.rx = rx) && covers r.method m)
      = if r.rx = rx ∧ covers r.method m = true then some r
        else hist.reverse.find? fun r => decide (r.rx = rx) && covers r.method m := by
    intro m rx
    simp only [List.reverse_append, List.reverse_singleton, List.singleton_append, List.find?_cons]
    by_cases hc : r.rx = rx ∧ covers r.method m = true
    · simp [hc.1, hc.2]
    · rw [if_neg hc]
      have : (decide (r.rx = rx) && covers r.method m) = false := by
        rw [Bool.and_eq_false_iff]
        by_cases h1 : r.rx = rx
        · right; simpa [h1] using hc
        · left; simpa using h1
      rw [this]
  -- two assignments
  have two : ∀ m1 : Method, m1 ∈ nineMethods → m1 ≠ mGet →
      (∀ m, covers r.method m = true ↔ (m = mGet ∨ m = m1)) →
      ∃ (i1 i2 : GoMap ρ (Option σ)), regAssign t mGet r.rx (some r.set) = (GoMap.set t mGet (GoMap.set i1 r.rx (some r.set)), false) ∧
        regAssign (GoMap.set t mGet (GoMap.set i1 r.rx (some r.set))) m1 r.rx (some r.set)
          = (GoMap.set (GoMap.set t mGet (GoMap.set i1 r.rx (some r.set))) m1 (GoMap.set i2 r.rx (some r.set)), false) ∧
        TableInv (hist ++ [r]) (GoMap.set (GoMap.set t mGet (GoMap.set i1 r.rx (some r.set))) m1 (GoMap.set i2 r.rx (some r.set))) := by
    intro m1 hm1 hne hcov
    obtain ⟨i1, hi1, ha1⟩ := regAssign_get t mGet r.rx (some r.set) hGet
    obtain ⟨d1, n1, c1⟩ := one hist t mGet i1 hi1 h.dom h.nodup
    obtain ⟨i2, hi2, ha2⟩ := regAssign_get _ m1 r.rx (some r.set) ((d1 m1).2 hm1)
    obtain ⟨d2, n2, c2⟩ := one hist _ m1 i2 hi2 d1 n1
    refine ⟨i1, i2, ha1, ha2, d2, n2, ?_⟩
    intro m inner rx hin
    rw [find_app]
    have hi2' : t.get? m1 = some i2 := by
      rcases c1 m1 i2 hi2 with ⟨he, _⟩ | ⟨_, h'⟩
      · exact absurd he hne
      · exact h'
    rcases c2 m inner hin with ⟨rfl, rfl⟩ | ⟨hm, hin'⟩
    · rw [GoMap.get?_set]
      by_cases hrx : rx = r.rx
      · rw [if_pos hrx, if_pos ⟨hrx.symm, (hcov m).2 (Or.inr rfl)⟩]; rfl
      · rw [if_neg hrx, if_neg (fun h' => hrx h'.1.symm)]; exact h.entry m i2 rx hi2'
    · rcases c1 m inner hin' with ⟨rfl, rfl⟩ | ⟨hm', hin''⟩
      · rw [GoMap.get?_set]
        by_cases hrx : rx = r.rx
        · rw [if_pos hrx, if_pos ⟨hrx.symm, (hcov mGet).2 (Or.inl rfl)⟩]; rfl
        · rw [if_neg hrx, if_neg (fun h' => hrx h'.1.symm)]; exact h.entry mGet i1 rx hi1
      · rw [if_neg (fun h' => by rcases (hcov m).1 h'.2 with h'' | h''; exact hm' h''; exact hm h'')]
        exact h.entry m inner rx hin''
  by_cases hgp : r.method = mGetPost
  · obtain ⟨i1, i2, a1, a2, inv⟩ := two mPost (by decide +kernel) (by decide +kernel) (by
      intro m
      rw [hgp, e1]
      exact (covers_exact m).1)
    have hr : regAdd t r.method r.rx (some r.set) = (GoMap.set (GoMap.set t mGet (GoMap.set i1 r.rx (some r.set))) mPost (GoMap.set i2 r.rx (some r.set)), false) := by
      simp only [regAdd, hgp, if_true, a1, a2]
    rw [hr]
    refine ⟨fun _ => rfl, fun hn => absurd ?_ hn, inv⟩
    rw [hgp]; decide +kernel
  · by_cases hgh : r.method = mGetHead
    · obtain ⟨i1, i2, a1, a2, inv⟩ := two mHead (by decide +kernel) (by decide +kernel) (by
        intro m
        rw [hgh, e2]
        exact (covers_exact m).2.1)
      have hr : regAdd t r.method r.rx (some r.set) = (GoMap.set (GoMap.set t mGet (GoMap.set i1 r.rx (some r.set))) mHead (GoMap.set i2 r.rx (some r.set)), false) := by
        unfold regAdd
        rw [if_neg hgp, if_pos hgh]
        simp only [a1, a2]
      rw [hr]
      refine ⟨fun _ => rfl, fun hn => absurd ?_ hn, inv⟩
      rw [hgh]; decide +kernel
    · have hcov : ∀ m, covers r.method m = true ↔ m = r.method := fun m => (covers_exact m).2.2 r.method hgp hgh
      have hr : regAdd t r.method r.rx (some r.set) = regAssign t r.method r.rx (some r.set) := by
        unfold regAdd
        rw [if_neg hgp, if_neg hgh]
      rw [hr]
      by_cases hmem : r.method ∈ nineMethods
      · obtain ⟨i1, hi1, ha1⟩ := regAssign_get t r.method r.rx (some r.set) ((h.dom _).2 hmem)
        obtain ⟨d1, n1, c1⟩ := one hist t r.method i1 hi1 h.dom h.nodup
        rw [ha1]
        refine ⟨fun _ => rfl, fun hn => absurd (by simp [rxMethods, hmem]) hn, d1, n1, ?_⟩
        intro m inner rx hin
        rw [find_app]
        rcases c1 m inner hin with ⟨rfl, rfl⟩ | ⟨hm, hin'⟩
        · rw [GoMap.get?_set]
          by_cases hrx : rx = r.rx
          · rw [if_pos hrx, if_pos ⟨hrx.symm, (hcov _).2 rfl⟩]; rfl
          · rw [if_neg hrx, if_neg (fun h' => hrx h'.1.symm)]; exact h.entry _ i1 rx hi1
        · rw [if_neg (fun h' => hm ((hcov m).1 h'.2))]; exact h.entry m inner rx hin'
      · have hnone : t.get? r.method = none := by
          cases hg : t.get? r.method with
          | none => rfl
          | some i => exact absurd ((h.dom _).1 (by simp [hg])) hmem
        have hra : regAssign t r.method r.rx (some r.set) = (t, true) := by simp [regAssign, hnone]
        rw [hra]
        refine ⟨fun hin => ?_, fun _ => rfl, h.dom, h.nodup, ?_⟩
        · exfalso
          simp only [rxMethods, List.mem_append, List.mem_cons, List.not_mem_nil, or_false] at hin
          rcases hin with hin | hin | hin
          · exact hmem hin
          · exact hgp hin
          · exact hgh hin
        · intro m inner rx hin
          rw [find_app, if_neg, h.entry m inner rx hin]
          rintro ⟨_, hc⟩
          have := (hcov m).1 hc
          subst this
          rw [hnone] at hin; simp at hin

theorem tableInv_new : TableInv ([] : List (RxReg ρ σ)) newRegTree := by
  have hd : ∀ m, ((newRegTree : RegTable ρ σ).get? m).isSome = true ↔ m ∈ nineMethods := by
    intro m
    constructor
    · intro h
      obtain ⟨i, hi⟩ := Option.isSome_iff_exists.1 h
      unfold GoMap.get? at hi
      rw [Option.map_eq_some_iff] at hi
      obtain ⟨e, he, _⟩ := hi
      have h1 := List.mem_of_find?_eq_some he
      have h2 := List.find?_some he
      simp only [decide_eq_true_eq] at h2
      rw [← h2]
      have hk : ∀ e ∈ (newRegTree : RegTable ρ σ), e.1 ∈ nineMethods := by
        intro e he
        simp only [newRegTree, List.mem_cons, List.not_mem_nil, or_false] at he
        rcases he with rfl | rfl | rfl | rfl | rfl | rfl | rfl | rfl | rfl <;> (dsimp only; decide +kernel)
      exact hk e h1
    · intro h
      simp only [nineMethods, List.mem_cons, List.not_mem_nil, or_false] at h
      rcases h with rfl | rfl | rfl | rfl | rfl | rfl | rfl | rfl | rfl <;> rfl
  have hv : ∀ m i, (newRegTree : RegTable ρ σ).get? m = some i → i = [] := by
    intro m i hi
    unfold GoMap.get? at hi
    rw [Option.map_eq_some_iff] at hi
    obtain ⟨e, he, rfl⟩ := hi
    have h1 := List.mem_of_find?_eq_some he
    simp only [newRegTree, List.mem_cons, List.not_mem_nil, or_false] at h1
    rcases h1 with rfl | rfl | rfl | rfl | rfl | rfl | rfl | rfl | rfl <;> rfl
  refine ⟨hd, ?_, ?_⟩
  · intro m i hi; rw [hv m i hi]; exact List.nodup_nil
  · intro m i rx hi; rw [hv m i hi]; rfl

theorem tableInv (hist : List (RxReg ρ σ)) : TableInv hist (regOf hist) := by
  have key : ∀ (l pre : List (RxReg ρ σ)) (t : RegTable ρ σ), TableInv pre t →
      TableInv (pre ++ l) (l.foldl (fun t r => (regAdd t r.method r.rx (some r.set)).1) t) := by
    intro l
    induction l with
    | nil => intro pre t h; simpa using h
    | cons r l ih =>
      intro pre t h
      have := ih (pre ++ [r]) _ (regAdd_inv pre t h r).2.2
      simpa using this
  simpa [regOf] using key hist [] newRegTree tableInv_new

/-! ### C13 -/

/-- Entries visited. -/
theorem visit_mem {visit : GoMap ρ (Option σ) → List (ρ × Option σ)} (hv : AnyOrder visit)
    {hist : List (RxReg ρ σ)} {m : Method} {inner : GoMap ρ (Option σ)} (hi : (regOf hist).get? m = some inner)
    (rx : ρ) (s : Option σ) : (rx, s) ∈ visit inner ↔
      ∃ r, (hist.reverse.find? fun r => decide (r.rx = rx) && covers r.method m) = some r ∧ s = some r.set := by
  have inv := tableInv hist
  rw [(hv inner).mem_iff, GoMap.mem_iff (inv.nodup m inner hi), inv.entry m inner rx hi, Option.map_eq_some_iff]
  constructor
  · rintro ⟨r, h1, h2⟩; exact ⟨r, h1, h2.symm⟩
  · rintro ⟨r, h1, h2⟩; exact ⟨r, h1, h2.symm⟩

/-- Which methods can be asked for. -/
theorem covers_nine {r m : Method} (h : covers r m = true) (hr : r ∈ rxMethods) : m ∈ nineMethods := by
  by_cases h1 : r = b!"GETPOST"
  · subst h1; rcases ((covers_exact m).1).1 h with rfl | rfl <;> decide +kernel
  · by_cases h2 : r = b!"GETHEAD"
    · subst h2; rcases ((covers_exact m).2.1).1 h with rfl | rfl <;> decide +kernel
    · have := ((covers_exact m).2.2 r h1 h2).1 h
      subst this
      simp only [rxMethods, List.mem_append, List.mem_cons, List.not_mem_nil, or_false] at hr
      rcases hr with hr | hr | hr
      · exact hr
      · exact absurd hr h1
      · exact absurd hr h2

/-- C13.  Whatever the order of visiting: found iff some registered expression for the method matches;
and what is found is the latest registration (covering the method) of some matching expression. -/
theorem C13_found_iff (hist : List (RxReg ρ σ)) (hm : ∀ r ∈ hist, r.method ∈ rxMethods)
    (rxMatch : ρ → Str → Bool) (visit : GoMap ρ (Option σ) → List (ρ × Option σ)) (hv : AnyOrder visit)
    (m : Method) (path : Str) (buf : Args) :
    let res := regFind rxMatch visit (regOf hist) m path buf
    (res.found = true ↔ ∃ r ∈ hist, covers r.method m = true ∧ rxMatch r.rx path = true) ∧
    (res.found = true → ∃ r, rxMatch r.rx path = true ∧ res.set = some r.set ∧
      (hist.reverse.find? fun x => decide (x.rx = r.rx) && covers x.method m) = some r) ∧
    res.args = [] := by
  intro res
  have inv := tableInv hist
  cases hg : (regOf hist).get? m with
  | none =>
    have hres : res = ⟨none, false, []⟩ := by simp [res, regFind, hg, FindResult.notFound, argsReset]
    have hnot : ¬ ∃ r ∈ hist, covers r.method m = true ∧ rxMatch r.rx path = true := by
      rintro ⟨r, hr, hc, _⟩
      have := (inv.dom m).2 (covers_nine hc (hm r hr))
      rw [hg] at this; simp at this
    simp [hres, hnot]
  | some inner =>
    have hvm := fun rx s => visit_mem hv hg rx s
    cases hf : (visit inner).find? fun e => rxMatch e.1 path with
    | none =>
      have hres : res = ⟨none, false, []⟩ := by simp [res, regFind, hg, hf, FindResult.notFound, argsReset]
      have hnot : ¬ ∃ r ∈ hist, covers r.method m = true ∧ rxMatch r.rx path = true := by
        rintro ⟨r, hr, hc, hx⟩
        cases hl : hist.reverse.find? fun x => decide (x.rx = r.rx) && covers x.method m with
        | none =>
          rw [List.find?_eq_none] at hl
          have := hl r (by simpa using hr)
          simp [hc] at this
        | some r' =>
          have := (hvm r.rx (some r'.set)).2 ⟨r', hl, rfl⟩
          rw [List.find?_eq_none] at hf
          have := hf _ this
          simp [hx] at this
      simp [hres, hnot]
    | some e =>
      have hres : res = ⟨e.2, true, []⟩ := by simp [res, regFind, hg, hf, argsReset]
      have hem := List.mem_of_find?_eq_some hf
      have hex := List.find?_some hf
      obtain ⟨r, h1, h2⟩ := (hvm e.1 e.2).1 hem
      have hrm : r ∈ hist := by simpa using List.mem_of_find?_eq_some h1
      have hrp := List.find?_some h1
      simp only [Bool.and_eq_true, decide_eq_true_eq] at hrp
      have hrx : rxMatch r.rx path = true := by rw [hrp.1]; exact hex
      rw [hres]
      refine ⟨⟨fun _ => ⟨r, hrm, hrp.2, hrx⟩, fun _ => rfl⟩, fun _ => ⟨r, hrx, h2, ?_⟩, rfl⟩
      rw [hrp.1]; exact h1

/-- C13.  If exactly one registered expression (for the method) matches, the answer does not depend on
the order: it is the latest registration of that expression. -/
theorem C13_determined (hist : List (RxReg ρ σ)) (hm : ∀ r ∈ hist, r.method ∈ rxMethods)
    (rxMatch : ρ → Str → Bool) (visit : GoMap ρ (Option σ) → List (ρ × Option σ)) (hv : AnyOrder visit)
    (m : Method) (path : Str) (buf : Args) (r : RxReg ρ σ)
    (hlast : (hist.reverse.find? fun x => decide (x.rx = r.rx) && covers x.method m) = some r)
    (hmatch : rxMatch r.rx path = true)
    (huniq : ∀ o ∈ hist, covers o.method m = true → rxMatch o.rx path = true → o.rx = r.rx) :
    regFind rxMatch visit (regOf hist) m path buf = ⟨some r.set, true, []⟩ := by
  obtain ⟨h1, h2, h3⟩ := C13_found_iff hist hm rxMatch visit hv m path buf
  have hrm : r ∈ hist := by simpa using List.mem_of_find?_eq_some hlast
  have hrp := List.find?_some hlast
  simp only [Bool.and_eq_true, decide_eq_true_eq, true_and] at hrp
  have hf := h1.2 ⟨r, hrm, hrp, hmatch⟩
  obtain ⟨r', g1, g2, g3⟩ := h2 hf
  have hr'm : r' ∈ hist := by simpa using List.mem_of_find?_eq_some g3
  have hr'p := List.find?_some g3
  simp only [Bool.and_eq_true, decide_eq_true_eq, true_and] at hr'p
  have he := huniq r' hr'm hr'p g1
  rw [he, hlast] at g3
  simp only [Option.some.injEq] at g3
  subst g3
  generalize regFind rxMatch visit (regOf hist) m path buf = res at h3 hf g2
  cases res; simp_all

/-- C13.  The answers that are possible, over all orders in which the table can be visited, are exactly the latest
registrations of the expressions that match. -/
theorem C13_possible (hist : List (RxReg ρ σ)) (hm : ∀ r ∈ hist, r.method ∈ rxMethods)
    (rxMatch : ρ → Str → Bool) (m : Method) (path : Str) (buf : Args) (s : Option σ) :
    (∃ visit, AnyOrder visit ∧ regFind rxMatch visit (regOf hist) m path buf = ⟨s, true, []⟩) ↔
      ∃ r, rxMatch r.rx path = true ∧ s = some r.set ∧
        (hist.reverse.find? fun x => decide (x.rx = r.rx) && covers x.method m) = some r := by
  constructor
  · rintro ⟨visit, hv, h⟩
    obtain ⟨-, h2, -⟩ := C13_found_iff hist hm rxMatch visit hv m path buf
    rw [h] at h2
    exact h2 rfl
  · rintro ⟨r, h1, h2, h3⟩
    have inv := tableInv hist
    have hrm : r ∈ hist := by simpa using List.mem_of_find?_eq_some h3
    have hrp := List.find?_some h3
    simp only [Bool.and_eq_true, decide_eq_true_eq, true_and] at hrp
    cases hg : (regOf hist).get? m with
    | none =>
      have := (inv.dom m).2 (covers_nine hrp (hm r hrm))
      rw [hg] at this; simp at this
    | some inner =>
      have hmem : (r.rx, s) ∈ inner :=
        (visit_mem (visit := fun l => l) (fun l => List.Perm.refl l) hg r.rx s).2 ⟨r, h3, h2⟩
      classical
      refine ⟨fun l => if (r.rx, s) ∈ l then (r.rx, s) :: List.erase l (r.rx, s) else l, fun l => ?_, ?_⟩
      · show (if _ then _ else _ : List _).Perm l
        split
        · next h => exact (List.perm_cons_erase h).symm
        · exact List.Perm.refl l
      · unfold regFind
        simp only
        rw [hg]
        simp only
        rw [if_pos hmem, List.find?_cons_of_pos (by exact h1)]
        rfl

/-- Two expressions (numbers standing for pointers), a re-registration, reverse visiting order. -/
example :
    let hist : List (RxReg Nat Nat) := [⟨b!"GETPOST", 1, 10⟩, ⟨b!"GET", 2, 20⟩, ⟨b!"POST", 1, 11⟩]
    (∀ r ∈ hist, r.method ∈ rxMethods) ∧
    AnyOrder (List.reverse : GoMap Nat (Option Nat) → List (Nat × Option Nat)) ∧
    regFind (fun rx _ => rx == 1) List.reverse (regOf hist) b!"POST" b!"/x" [(b!"k", b!"v")] = ⟨some 11, true, []⟩ ∧
    regFind (fun rx _ => rx == 1) List.reverse (regOf hist) b!"GET" b!"/x" [] = ⟨some 10, true, []⟩ :=
  ⟨by decide +kernel, fun l => List.reverse_perm l, by decide +kernel, by decide +kernel⟩

/-! ### C14 and C12 for the combined lookup -/

/-- C14.  The server's answer is the tree's if it has one; otherwise that of the regular expressions;
not found only if both fail. -/
theorem C14_tree_first (rxMatch : ρ → Str → Bool) (visit : GoMap ρ (Option σ) → List (ρ × Option σ))
    (tree : Node σ) (regs : RegTable ρ σ) (m : Method) (path : Str) (buf : Args) :
    ∃ rt, treeFind tree m path buf = .ret rt ∧
      (rt.found = true → serverFind rxMatch visit tree regs m path buf = .ret rt) ∧
      (rt.found = false → serverFind rxMatch visit tree regs m path buf
        = .ret (regFind rxMatch visit regs m path [])) ∧
      (∀ res, serverFind rxMatch visit tree regs m path buf = .ret res →
        (res.found = false ↔ rt.found = false ∧ (regFind rxMatch visit regs m path []).found = false)) := by
  obtain ⟨rt, hrt⟩ : ∃ rt, treeFind tree m path buf = .ret rt := ⟨_, treeFind_eq _ _ _ _⟩
  have hreg : ∀ a, regFind rxMatch visit regs m path a = regFind rxMatch visit regs m path [] := fun _ => rfl
  have hnf : ∀ a, (regFind rxMatch visit regs m path a).found = false →
      FindResult.notFound (regFind rxMatch visit regs m path a).args = regFind rxMatch visit regs m path a := by
    intro a h
    revert h
    unfold regFind
    split
    · intro _; rfl
    · split
      · intro h; simp at h
      · intro _; rfl
  have hB : rt.found = false → serverFind rxMatch visit tree regs m path buf
      = .ret (regFind rxMatch visit regs m path []) := by
    intro h
    simp only [serverFind, hrt, Outcome.bind_ret, h, Bool.false_eq_true, if_false]
    rw [hreg]
    split
    · rfl
    · rename_i h'; rw [hnf _ (by simpa using h')]
  have hA : rt.found = true → serverFind rxMatch visit tree regs m path buf = .ret rt := by
    intro h; simp [serverFind, hrt, h]
  refine ⟨rt, hrt, hA, hB, ?_⟩
  intro res hres
  cases hf : rt.found with
  | true =>
    rw [hA hf] at hres
    simp only [Outcome.ret.injEq] at hres
    subst hres; simp [hf]
  | false =>
    rw [hB hf] at hres
    simp only [Outcome.ret.injEq] at hres
    subst hres; simp

/-- C12, combined lookup: the final buffer does not depend on its previous contents, and is empty when
nothing is found or a regular expression answered. -/
theorem C12_server_buffer (rxMatch : ρ → Str → Bool) (visit : GoMap ρ (Option σ) → List (ρ × Option σ))
    (tree : Node σ) (regs : RegTable ρ σ) (m : Method) (path : Str) (buf buf' : Args) :
    serverFind rxMatch visit tree regs m path buf = serverFind rxMatch visit tree regs m path buf' ∧
    ∀ res, serverFind rxMatch visit tree regs m path buf = .ret res →
      (res.found = false ∨ (∀ rt, treeFind tree m path buf = .ret rt → rt.found = false)) → res.args = [] := by
  refine ⟨by unfold serverFind; rw [(C12_buffer_overwritten tree m path buf buf').1], ?_⟩
  intro res hres hcase
  obtain ⟨rt, hrt, hA, hB, hC⟩ := C14_tree_first rxMatch visit tree regs m path buf
  have hfalse : rt.found = false := by
    rcases hcase with h | h
    · exact ((hC res hres).1 h).1
    · exact h rt hrt
  rw [hB hfalse] at hres
  simp only [Outcome.ret.injEq] at hres
  subst hres
  unfold regFind
  split
  · rfl
  · split <;> rfl

example :
    let t := treeOf [(⟨b!"GET", b!"/a/:x", 1⟩ : Reg Nat)]
    let g := regOf [(⟨b!"GET", 7, 2⟩ : RxReg Nat Nat)]
    serverFind (fun _ _ => true) id t g b!"GET" b!"/a/5" [(b!"q", b!"q")] = .ret ⟨some 1, true, [(b!"x", b!"5")]⟩ ∧
    serverFind (fun _ _ => true) id t g b!"GET" b!"/b" [(b!"q", b!"q")] = .ret ⟨some 2, true, []⟩ ∧
    serverFind (fun _ _ => true) id t g b!"PUT" b!"/b" [(b!"q", b!"q")] = .ret ⟨none, false, []⟩ := by
  decide +kernel

/-! ### C15 -/

/-- C15.  On every reachable table, registering an expression succeeds exactly for the eleven
supported method strings; otherwise it panics and the table is unchanged. -/
theorem C15_unsupported_method (hist : List (RxReg ρ σ)) (m : Method) (rx : ρ) (s : σ) :
    (m ∈ rxMethods ↔ (regAdd (regOf hist) m rx (some s)).2 = false) ∧
    (m ∉ rxMethods → regAdd (regOf hist) m rx (some s) = (regOf hist, true)) := by
  obtain ⟨h1, h2, _⟩ := regAdd_inv hist (regOf hist) (tableInv hist) ⟨m, rx, s⟩
  refine ⟨⟨h1, fun h => ?_⟩, h2⟩
  by_cases hm : m ∈ rxMethods
  · exact hm
  · rw [h2 hm] at h; simp at h

example : b!"get" ∉ rxMethods ∧ b!"GETPOST" ∈ rxMethods ∧
    regAdd (regOf [(⟨b!"GET", 7, 2⟩ : RxReg Nat Nat)]) b!"get" 7 (some 3)
      = (regOf [(⟨b!"GET", 7, 2⟩ : RxReg Nat Nat)], true) := by decide +kernel

/-- C15, on any table (RegTree and its field are exported: a program may make its own): adding an expression panics exactly
if the table lacks a method the registration is for, and leaves the entries of all methods it is not for as they are. -/
theorem C15_any_table (t : RegTable ρ σ) (m : Method) (rx : ρ) (s : Option σ) :
    ((regAdd t m rx s).2 = true ↔ ∃ k, covers m k = true ∧ t.get? k = none) ∧
    (∀ k, covers m k = false → (regAdd t m rx s).1.get? k = t.get? k) ∧
    ((regAdd t m rx s).2 = false → ∀ k, covers m k = true →
      ∃ inner, t.get? k = some inner ∧ (regAdd t m rx s).1.get? k = some (inner.set rx s)) := by
  have pair : ∀ (a b : Method) (r : RegTable ρ σ × Bool), a ≠ b →
      (∀ t', regAssign t a rx s = (t', true) → r = (t', true)) →
      (∀ t', regAssign t a rx s = (t', false) → r = regAssign t' b rx s) →
      (r.2 = true ↔ ∃ k, (k = a ∨ k = b) ∧ t.get? k = none) ∧
      (∀ k, ¬ (k = a ∨ k = b) → r.1.get? k = t.get? k) ∧
      (r.2 = false → ∀ k, (k = a ∨ k = b) → ∃ inner, t.get? k = some inner ∧ r.1.get? k = some (inner.set rx s)) := by
    intro a b r hab r1 r2
    unfold regAssign at r1 r2
    cases ha : t.get? a with
    | none =>
      rw [ha] at r1
      rw [r1 _ rfl]
      refine ⟨⟨fun _ => ⟨a, .inl rfl, ha⟩, fun _ => rfl⟩, fun k _ => rfl, fun h => by cases h⟩
    | some i =>
      rw [ha] at r2
      have r2 := r2 _ rfl
      rw [GoMap.get?_set_ne _ _ (Ne.symm hab)] at r2
      cases hb : t.get? b with
      | none =>
        rw [hb] at r2
        subst r2
        refine ⟨⟨fun _ => ⟨b, .inr rfl, hb⟩, fun _ => rfl⟩, fun k hk => ?_, fun h => by cases h⟩
        exact GoMap.get?_set_ne _ _ fun e => hk (.inl e)
      | some j =>
        rw [hb] at r2
        subst r2
        refine ⟨⟨fun h => (by cases h), ?_⟩, fun k hk => ?_, ?_⟩
        · rintro ⟨k, rfl | rfl, h⟩
          · rw [ha] at h; cases h
          · rw [hb] at h; cases h
        · dsimp only
          rw [GoMap.get?_set_ne _ _ fun e => hk (.inr e), GoMap.get?_set_ne _ _ fun e => hk (.inl e)]
        · rintro - k (rfl | rfl)
          · exact ⟨i, ha, by dsimp only; rw [GoMap.get?_set_ne _ _ hab, GoMap.get?_set_self]⟩
          · exact ⟨j, hb, GoMap.get?_set_self ..⟩
  have e1 : mGetPost = b!"GETPOST" := rfl
  have e2 : mGetHead = b!"GETHEAD" := rfl
  by_cases h1 : m = b!"GETPOST"
  · subst h1
    have := pair mGet mPost (regAdd t b!"GETPOST" rx s) (by decide)
      (fun t' e => by simp [regAdd, e1, e]) (fun t' e => by simp [regAdd, e1, e])
    simpa [covers, mGet, mPost] using this
  · by_cases h2 : m = b!"GETHEAD"
    · subst h2
      have := pair mGet mHead (regAdd t b!"GETHEAD" rx s) (by decide)
        (fun t' e => by simp [regAdd, e1, e2, e]) (fun t' e => by simp [regAdd, e1, e2, e])
      simpa [covers, mGet, mHead] using this
    · simp only [regAdd, covers, e1, e2, h1, h2, if_false, decide_eq_true_eq, decide_eq_false_iff_not]
      unfold regAssign
      cases ha : t.get? m with
      | none =>
        refine ⟨⟨fun _ => ⟨m, rfl, ha⟩, fun _ => rfl⟩, fun k _ => rfl, fun h => by cases h⟩
      | some i =>
        refine ⟨⟨fun h => (by cases h), ?_⟩, fun k hk => GoMap.get?_set_ne _ _ hk, ?_⟩
        · rintro ⟨k, rfl, h⟩
          rw [ha] at h; cases h
        · rintro - k rfl
          exact ⟨i, ha, GoMap.get?_set_self ..⟩

/-- A table of the program's own: without HEAD, registering for GET and HEAD panics after the GET entry was made. -/
example : regAdd ([(b!"GET", [])] : RegTable Nat Nat) b!"GETHEAD" 7 (some 1) = ([(b!"GET", [(7, some 1)])], true) := by decide +kernel

end Verif
