import Verif.Lemmas.Clash
import Verif.Spec.Deadlock
/-
Requests that wait for each other in a circle, and an order of the sets if there is no circle.
-/
namespace Verif
open Spec

/-! ### No circle: an order -/

theorem rank_of_no_circle (E : Nat → Nat → Prop) : ∀ (n : Nat) (V : List Nat), V.length ≤ n →
    (∀ S : List Nat, S ≠ [] → ¬ ∀ s ∈ S, ∃ t ∈ S, E s t) →
    ∃ r : Nat → Nat, (∀ s, r s ≤ n) ∧ ∀ s ∈ V, ∀ t ∈ V, E s t → r s < r t
  | 0, V, hV, _ => by
    have : V = [] := List.length_eq_zero_iff.1 (by omega)
    subst this
    exact ⟨fun _ => 0, fun _ => Nat.le_refl _, fun s hs => by cases hs⟩
  | n + 1, V, hV, h => by
    by_cases hn : V = []
    · subst hn
      exact ⟨fun _ => 0, fun _ => by omega, fun s hs => by cases hs⟩
    · obtain ⟨s, hs⟩ := Classical.not_forall.1 (h V hn)
      obtain ⟨hmem, hno⟩ := Classical.not_imp.1 hs
      have hlt : (V.filter (fun u => decide (u ≠ s))).length < V.length := by
        rcases Nat.lt_or_ge (V.filter (fun u => decide (u ≠ s))).length V.length with h1 | h1
        · exact h1
        · exfalso
          have := List.length_filter_eq_length_iff.1 (Nat.le_antisymm (List.length_filter_le ..) h1) s hmem
          simp at this
      obtain ⟨r, hr1, hr2⟩ := rank_of_no_circle E n (V.filter (fun u => decide (u ≠ s))) (by omega) h
      refine ⟨fun u => if u = s then n + 1 else r u, fun u => ?_, fun u hu v hv e => ?_⟩
      · by_cases k : u = s
        · simp [k]
        · have := hr1 u
          simp only [if_neg k]; omega
      · have hus : u ≠ s := fun k => hno ⟨v, hv, k ▸ e⟩
        simp only [if_neg hus]
        by_cases k : v = s
        · have := hr1 u
          simp only [if_pos k]; omega
        · simp only [if_neg k]
          exact hr2 u (by simp [hu, hus]) v (by simp [hv, k]) e

/-! ### A goroutine on its own -/

/-- Goroutine `i` holds `H`; of the others, `R` are readers and none is a writer. -/
structure Alone (s : RaceSt) (i : Nat) (H : Held) (R : Mtx → List Nat) : Prop where
  wr : ∀ m, s.writer m = if (m, true) ∈ H then some i else none
  rd : ∀ m, s.readers m = (if (m, false) ∈ H then [i] else []) ++ R m
  nodup : (H.map Prod.fst).Nodup

theorem alone_start {s : RaceSt} {i : Nat} {R : Mtx → List Nat} (h1 : ∀ m, s.writer m = none) (h2 : ∀ m, s.readers m = R m) : Alone s i [] R :=
  ⟨fun m => by simp [h1], fun m => by simp [h2], by simp⟩

theorem alone_step {rk : Mtx → Nat} {s : RaceSt} {i : Nat} {H H' : Held} {R : Mtx → List Nat} {e : Acc} {es : List Acc}
    (h : Alone s i H R) (hi : s.rest[i]? = some (e :: es)) (ho : ord1 rk H e = some H') (hR : ∀ m, e = .lock m → R m = []) :
    ∃ s', raceStep s i = some s' ∧ s'.rest = s.rest.set i es ∧ Alone s' i H' R := by
  have fresh : ∀ {m}, (∀ p ∈ H, rk p.1 < rk m) → ∀ b, (m, b) ∉ H := fun k b hm => Nat.lt_irrefl _ (k _ hm)
  have fresh' : ∀ {m}, (∀ p ∈ H, rk p.1 < rk m) → m ∉ H.map Prod.fst := by
    intro m k hm
    obtain ⟨p, hp, rfl⟩ := List.mem_map.1 hm
    exact Nat.lt_irrefl _ (k _ hp)
  have hn : H.Nodup := by
    have := h.nodup
    rw [List.Nodup, List.pairwise_map] at this
    exact this.imp fun k e => k (congrArg _ e)
  cases e with
  | lock m =>
    simp only [ord1] at ho
    split at ho <;> cases ho
    rename_i k
    have hw : s.writer m = none := by rw [h.wr, if_neg (fresh k true)]
    have hr : s.readers m = [] := by rw [h.rd, if_neg (fresh k false), hR m rfl]; rfl
    refine ⟨_, by unfold raceStep; rw [hi]; simp only [hw, hr, and_self, if_true]; rfl, rfl, fun x => ?_, fun x => ?_, ?_⟩
    · dsimp only
      by_cases e : x = m
      · subst e; rw [updMtx_same]; simp
      · rw [updMtx_other _ _ e, h.wr]; simp [e]
    · dsimp only; rw [h.rd]; simp
    · exact List.nodup_cons.2 ⟨fresh' k, h.nodup⟩
  | rlock m =>
    simp only [ord1] at ho
    split at ho <;> cases ho
    rename_i k
    have hw : s.writer m = none := by rw [h.wr, if_neg (fresh k true)]
    refine ⟨_, by unfold raceStep; rw [hi]; simp only [hw, if_true]; rfl, rfl, fun x => ?_, fun x => ?_, ?_⟩
    · dsimp only; rw [h.wr]; simp
    · dsimp only
      by_cases e : x = m
      · subst e; rw [updMtx_same, h.rd, if_neg (fresh k false)]; simp
      · rw [updMtx_other _ _ e, h.rd]; simp [e]
    · exact List.nodup_cons.2 ⟨fresh' k, h.nodup⟩
  | unlock m =>
    simp only [ord1] at ho
    split at ho <;> cases ho
    rename_i k
    have hno : (m, true) ∉ H.erase (m, true) := fun c => (hn.mem_erase_iff.1 c).1 rfl
    refine ⟨_, by unfold raceStep; rw [hi], rfl, fun x => ?_, fun x => ?_, ?_⟩
    · dsimp only
      by_cases e : x = m
      · subst e; rw [updMtx_same, if_neg hno]
      · rw [updMtx_other _ _ e, h.wr]; simp only [List.mem_erase_of_ne (show (x, true) ≠ (m, true) by simp [e])]
    · dsimp only; rw [h.rd]; simp only [List.mem_erase_of_ne (show (x, false) ≠ (m, true) by simp)]
    · exact erase_fst_nodup h.nodup _
  | runlock m =>
    simp only [ord1] at ho
    split at ho <;> cases ho
    rename_i k
    have hno : (m, false) ∉ H.erase (m, false) := fun c => (hn.mem_erase_iff.1 c).1 rfl
    refine ⟨_, by unfold raceStep; rw [hi], rfl, fun x => ?_, fun x => ?_, ?_⟩
    · dsimp only; rw [h.wr]; simp only [List.mem_erase_of_ne (show (x, true) ≠ (m, false) by simp)]
    · dsimp only
      by_cases e : x = m
      · subst e; rw [updMtx_same, if_neg hno, h.rd, if_pos k]; simp
      · rw [updMtx_other _ _ e, h.rd]; simp only [List.mem_erase_of_ne (show (x, false) ≠ (m, false) by simp [e])]
    · exact erase_fst_nodup h.nodup _
  | rd x => cases ho; exact ⟨{ s with rest := s.rest.set i es }, by unfold raceStep; rw [hi], rfl, h.wr, h.rd, h.nodup⟩
  | wr x => cases ho; exact ⟨{ s with rest := s.rest.set i es }, by unfold raceStep; rw [hi], rfl, h.wr, h.rd, h.nodup⟩

theorem alone_run {rk : Mtx → Nat} {i : Nat} {R : Mtx → List Nat} {v : List Acc} : ∀ {w : List Acc} {s : RaceSt} {H K : Held},
    Alone s i H R → s.rest[i]? = some (w ++ v) → ord rk H w = some K → (∀ m, .lock m ∈ w → R m = []) →
    ∃ sched, (raceOn s sched).rest = s.rest.set i v ∧ Alone (raceOn s sched) i K R
  | [], s, H, K, h, hi, ho, _ => by
    cases ho
    refine ⟨[], ?_, h⟩
    show s.rest = s.rest.set i v
    rw [List.nil_append] at hi
    obtain ⟨hlt, e⟩ := List.getElem?_eq_some_iff.1 hi
    rw [← e, List.set_getElem_self]
  | e :: w, s, H, K, h, hi, ho, hR => by
    simp only [ord] at ho
    obtain ⟨H1, h1, h2⟩ := Option.bind_eq_some_iff.1 ho
    obtain ⟨s', hs, hrest, h'⟩ := alone_step h hi h1 (fun m hm => hR m (by rw [hm]; exact List.mem_cons_self ..))
    have hlt : i < s.rest.length := (List.getElem?_eq_some_iff.mp hi).1
    obtain ⟨sched, g1, g2⟩ := alone_run (v := v) h' (by rw [hrest, List.getElem?_set_self hlt]; rfl) h2
      (fun m hm => hR m (List.mem_cons_of_mem _ hm))
    refine ⟨i :: sched, ?_, ?_⟩
    · show (raceOn ((raceStep s i).getD s) sched).rest = _
      rw [hs, Option.getD_some, g1, hrest, List.set_set]
    · show Alone (raceOn ((raceStep s i).getD s) sched) i K R
      rw [hs]; exact g2

/-! ### Waiting in a circle -/

/-- Each set of `S` has a reader that waits for a set of `S`; `I` says which goroutine. -/
def Jammed (S : List Nat) (I : Nat → Nat) (s : RaceSt) : Prop :=
  ∀ u ∈ S, I u ∈ s.readers (.set u) ∧ ∃ t ∈ S, ∃ es, s.rest[I u]? = some (.lock (.set t) :: es)

theorem jammed_step {S : List Nat} {I : Nat → Nat} {s s' : RaceSt} {j : Nat} (h : Jammed S I s) (hs : raceStep s j = some s') : Jammed S I s' := by
  have hj : ∀ u ∈ S, I u ≠ j := by
    intro u hu e
    obtain ⟨-, t, ht, es, hr⟩ := h u hu
    obtain ⟨hm, -⟩ := h t ht
    rw [e] at hr
    unfold raceStep at hs
    rw [hr] at hs
    simp only at hs
    split at hs
    · rename_i k; rw [k.2] at hm; cases hm
    · cases hs
  unfold raceStep at hs
  split at hs
  case h_2 => cases hs
  case h_1 e es hi =>
    have rest : ∀ u ∈ S, (s.rest.set j es)[I u]? = s.rest[I u]? := fun u hu => List.getElem?_set_ne (fun e => hj u hu e.symm)
    have mk : ∀ (w : Mtx → Option Nat) (r : Mtx → List Nat), (∀ u ∈ S, I u ∈ s.readers (.set u) → I u ∈ r (.set u)) →
        Jammed S I ⟨s.rest.set j es, w, r⟩ := by
      intro w r hr u hu
      obtain ⟨h1, t, ht, es', h2⟩ := h u hu
      exact ⟨hr u hu h1, t, ht, es', by show (s.rest.set j es)[I u]? = _; rw [rest u hu]; exact h2⟩
    cases e <;> simp only at hs
    case lock m => split at hs <;> cases hs; exact mk _ _ fun _ _ k => k
    case rlock m =>
      split at hs <;> cases hs
      refine mk _ _ fun u _ k => ?_
      by_cases e : Mtx.set u = m
      · subst e; rw [updMtx_same]; exact List.mem_cons_of_mem _ k
      · rw [updMtx_other _ _ e]; exact k
    case runlock m =>
      cases hs
      refine mk _ _ fun u hu k => ?_
      by_cases e : Mtx.set u = m
      · subst e; rw [updMtx_same]; exact (List.mem_erase_of_ne (hj u hu)).2 k
      · rw [updMtx_other _ _ e]; exact k
    all_goals (cases hs; exact mk _ _ fun _ _ k => k)

theorem jammed_on {S : List Nat} {I : Nat → Nat} : ∀ (sched : List Nat) {s : RaceSt}, Jammed S I s → Jammed S I (raceOn s sched)
  | [], _, h => h
  | j :: t, s, h => by
    show Jammed S I (raceOn ((raceStep s j).getD s) t)
    refine jammed_on t ?_
    cases hs : raceStep s j with
    | none => exact h
    | some s' => exact jammed_step h hs

end Verif
