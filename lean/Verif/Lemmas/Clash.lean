import Verif.Spec.Clash
import Verif.Lemmas.Races
/-
Goroutines that take mutexes in order and release the one taken last first: they can race exactly if two of them have accesses that clash.
-/
namespace Verif
open Spec

/-- The mutexes held after `e`; `none` if `e` takes a mutex out of order (or below `r`) or does not release the one taken last. -/
def lifo1 (r : Nat) (held : Held) : Acc → Option Held
  | .lock m => if (∀ p ∈ held, mtxRank p.1 < mtxRank m) ∧ r ≤ mtxRank m then some ((m, true) :: held) else none
  | .unlock m => if held.head? = some (m, true) then some held.tail else none
  | .rlock m => if (∀ p ∈ held, mtxRank p.1 < mtxRank m) ∧ r ≤ mtxRank m then some ((m, false) :: held) else none
  | .runlock m => if held.head? = some (m, false) then some held.tail else none
  | .rd _ => some held
  | .wr _ => some held

def lifo (r : Nat) : Held → List Acc → Option Held
  | held, [] => some held
  | held, e :: es => (lifo1 r held e).bind fun h => lifo r h es

theorem lifo_append (r : Nat) (a b : List Acc) (held : Held) : lifo r held (a ++ b) = (lifo r held a).bind fun h => lifo r h b := by
  induction a generalizing held with
  | nil => rfl
  | cons e es ih =>
    simp only [List.cons_append, lifo]
    cases lifo1 r held e with
    | none => rfl
    | some h => simpa using ih h

theorem lifo_append_same {r : Nat} {a b : List Acc} {h : Held} (ha : lifo r h a = some h) : lifo r h (a ++ b) = lifo r h b := by
  rw [lifo_append, ha]; rfl

theorem lifo_flatMap_same {α : Type} {r : Nat} {h : Held} {f : α → List Acc} {l : List α}
    (hl : ∀ x ∈ l, lifo r h (f x) = some h) : lifo r h (l.flatMap f) = some h := by
  induction l with
  | nil => rfl
  | cons a l ih =>
    rw [List.flatMap_cons, lifo_append_same (hl a (by simp))]
    exact ih fun x hx => hl x (by simp [hx])

theorem lifo_flatten_same {r : Nat} {h : Held} {l : List (List Acc)}
    (hl : ∀ x ∈ l, lifo r h x = some h) : lifo r h l.flatten = some h := by
  have := lifo_flatMap_same (f := id) hl
  simpa [List.flatMap_id] using this

theorem lifo_map_same {α : Type} {r : Nat} {h : Held} {f : α → Acc} {l : List α}
    (hl : ∀ x ∈ l, lifo1 r h (f x) = some h) : lifo r h (l.map f) = some h := by
  induction l with
  | nil => rfl
  | cons a l ih =>
    simp only [List.map_cons, lifo, hl a (by simp), Option.bind_some]
    exact ih fun x hx => hl x (by simp [hx])

theorem lifo_cons {r : Nat} {h T : Held} {e : Acc} {es : List Acc} (hs : lifo r h (e :: es) = some T) :
    ∃ h', lifo1 r h e = some h' ∧ lifo r h' es = some T := by
  simp only [lifo] at hs
  cases hq : lifo1 r h e with
  | none => rw [hq] at hs; cases hs
  | some h' => rw [hq] at hs; exact ⟨h', rfl, hs⟩

/-- Taking a mutex. -/
def acq (x : Mtx × Bool) : Acc := if x.2 then .lock x.1 else .rlock x.1

/-- What `lifo1` accepts. -/
theorem lifo1_cases {r : Nat} {h h' : Held} {e : Acc} (hs : lifo1 r h e = some h') :
    (∃ x, e = acq x ∧ h' = x :: h ∧ (∀ p ∈ h, mtxRank p.1 < mtxRank x.1) ∧ r ≤ mtxRank x.1) ∨
    (∃ m, e = .unlock m ∧ h = (m, true) :: h') ∨ (∃ m, e = .runlock m ∧ h = (m, false) :: h') ∨
    ((∃ x, e = .rd x ∨ e = .wr x) ∧ h' = h) := by
  cases e <;> simp only [lifo1] at hs
  case lock m =>
    split at hs
    · rename_i hc
      cases hs
      exact .inl ⟨(m, true), rfl, rfl, hc.1, hc.2⟩
    · cases hs
  case rlock m =>
    split at hs
    · rename_i hc
      cases hs
      exact .inl ⟨(m, false), rfl, rfl, hc.1, hc.2⟩
    · cases hs
  case unlock m =>
    split at hs
    · rename_i hc
      cases hs
      cases h with
      | nil => cases hc
      | cons p t => cases hc; exact .inr (.inl ⟨m, rfl, rfl⟩)
    · cases hs
  case runlock m =>
    split at hs
    · rename_i hc
      cases hs
      cases h with
      | nil => cases hc
      | cons p t => cases hc; exact .inr (.inr (.inl ⟨m, rfl, rfl⟩))
    · cases hs
  case rd x => cases hs; exact .inr (.inr (.inr ⟨⟨x, .inl rfl⟩, rfl⟩))
  case wr x => cases hs; exact .inr (.inr (.inr ⟨⟨x, .inr rfl⟩, rfl⟩))

theorem lifo1_acq {r : Nat} {h : Held} {x : Mtx × Bool} (h1 : ∀ p ∈ h, mtxRank p.1 < mtxRank x.1) (h2 : r ≤ mtxRank x.1) :
    lifo1 r h (acq x) = some (x :: h) := by
  obtain ⟨m, b⟩ := x
  cases b <;> simp only [acq, lifo1, Bool.false_eq_true, if_false, if_true] <;> exact if_pos ⟨h1, h2⟩

/-- The last time the lowest of the mutexes held in the end is taken. -/
theorem lifo_split {r : Nat} {x : Mtx × Bool} {T' : Held} : ∀ {u : List Acc} {S : Held}, lifo r S u = some (T' ++ [x]) →
    (∃ w u', u = w ++ acq x :: u' ∧ lifo r S w = some [] ∧ r ≤ mtxRank x.1 ∧ lifo (mtxRank x.1 + 1) [] u' = some T') ∨
    (∃ S', S = S' ++ [x] ∧ lifo (mtxRank x.1 + 1) S' u = some T')
  | [], S, h => by
    simp only [lifo, Option.some.injEq] at h
    exact .inr ⟨T', h, rfl⟩
  | e :: es, S, h => by
    obtain ⟨S1, h1, h2⟩ := lifo_cons h
    rcases lifo_split h2 with ⟨w, u', rfl, hw, hr, hu⟩ | ⟨S1', rfl, h3⟩
    · refine .inl ⟨e :: w, u', rfl, ?_, hr, hu⟩
      simp only [lifo, h1, Option.bind_some, hw]
    · rcases lifo1_cases h1 with ⟨y, rfl, he, ha, hb⟩ | ⟨m, rfl, he⟩ | ⟨m, rfl, he⟩ | ⟨hx, he⟩
      · cases S1' with
        | nil =>
          simp only [List.nil_append, List.cons.injEq] at he
          obtain ⟨rfl, rfl⟩ := he
          exact .inl ⟨[], es, rfl, rfl, hb, h3⟩
        | cons z S' =>
          simp only [List.cons_append, List.cons.injEq] at he
          obtain ⟨rfl, rfl⟩ := he
          refine .inr ⟨S', rfl, ?_⟩
          simp only [lifo]
          rw [lifo1_acq (fun p hp => ha p (List.mem_append_left _ hp)) (ha x (List.mem_append_right _ (List.mem_singleton.2 rfl)))]
          exact h3
      · refine .inr ⟨(m, true) :: S1', he, ?_⟩
        simp only [lifo, lifo1, List.head?_cons, if_true, List.tail_cons, Option.bind_some]
        exact h3
      · refine .inr ⟨(m, false) :: S1', he, ?_⟩
        simp only [lifo, lifo1, List.head?_cons, if_true, List.tail_cons, Option.bind_some]
        exact h3
      · refine .inr ⟨S1', he.symm, ?_⟩
        obtain ⟨y, rfl | rfl⟩ := hx <;> exact h3

/-- What two goroutines hold, and nobody else holds anything. -/
structure TwoHold (s : RaceSt) (i j : Nat) (fi fj : Held) : Prop where
  wr : ∀ m, s.writer m = if (m, true) ∈ fi then some i else if (m, true) ∈ fj then some j else none
  rd : ∀ m k, k ∈ s.readers m ↔ (k = i ∧ (m, false) ∈ fi) ∨ (k = j ∧ (m, false) ∈ fj)
  nodup : ∀ m, (s.readers m).Nodup
  srt : fi.Pairwise fun p q => mtxRank q.1 < mtxRank p.1
  srt' : fj.Pairwise fun p q => mtxRank q.1 < mtxRank p.1
  cmp : ∀ m e e', (m, e) ∈ fi → (m, e') ∈ fj → e = false ∧ e' = false

theorem TwoHold.symm {s : RaceSt} {i j : Nat} {fi fj : Held} (h : TwoHold s i j fi fj) : TwoHold s j i fj fi := by
  refine ⟨fun m => ?_, fun m k => ?_, h.nodup, h.srt', h.srt, fun m e e' h1 h2 => (h.cmp m e' e h2 h1).symm⟩
  · rw [h.wr m]
    by_cases h1 : (m, true) ∈ fi
    · by_cases h2 : (m, true) ∈ fj
      · exact absurd (h.cmp m _ _ h1 h2).1 (by decide)
      · rw [if_pos h1, if_neg h2, if_pos h1]
    · by_cases h2 : (m, true) ∈ fj
      · rw [if_neg h1, if_pos h2, if_pos h2]
      · rw [if_neg h1, if_neg h2, if_neg h2, if_neg h1]
  · rw [h.rd m k]; exact Or.comm

/-- Goroutine `i` on its own for one event. -/
theorem twoHold_step {s : RaceSt} {i j : Nat} (hij : i ≠ j) {r : Nat} {S S' K fj : Held} {e : Acc} {es : List Acc}
    (h : TwoHold s i j (S ++ K) fj) (hi : s.rest[i]? = some (e :: es)) (hl : lifo1 r S e = some S') (hK : ∀ p ∈ K, mtxRank p.1 < r)
    (hfree : ∀ x, e = acq x → ∀ e', (x.1, e') ∈ fj → x.2 = false ∧ e' = false) :
    ∃ s', raceStep s i = some s' ∧ s'.rest = s.rest.set i es ∧ TwoHold s' i j (S' ++ K) fj := by
  rcases lifo1_cases hl with ⟨⟨m, b⟩, rfl, rfl, ha, hb⟩ | ⟨m, rfl, rfl⟩ | ⟨m, rfl, rfl⟩ | ⟨hx, rfl⟩
  · have hrank : ∀ p ∈ S ++ K, mtxRank p.1 < mtxRank m := by
      intro p hp
      rcases List.mem_append.1 hp with hp | hp
      · exact ha p hp
      · exact Nat.lt_of_lt_of_le (hK p hp) hb
    have hno : ∀ b', (m, b') ∉ S ++ K := fun b' hm => Nat.lt_irrefl _ (hrank _ hm)
    have hfr := hfree (m, b) rfl
    have hcmp : ∀ k e e', (k, e) ∈ (m, b) :: (S ++ K) → (k, e') ∈ fj → e = false ∧ e' = false := by
      intro k e e' h1 h2
      rcases List.mem_cons.1 h1 with h1 | h1
      · cases h1; exact hfr e' h2
      · exact h.cmp k e e' h1 h2
    have hsrt : ((m, b) :: (S ++ K)).Pairwise fun p q => mtxRank q.1 < mtxRank p.1 := List.pairwise_cons.2 ⟨hrank, h.srt⟩
    cases b with
    | true =>
      have hfj : ∀ e', (m, e') ∉ fj := fun e' hm => Bool.noConfusion (hfr e' hm).1
      have hw : s.writer m = none := by rw [h.wr m, if_neg (hno true), if_neg (hfj true)]
      have hr : s.readers m = [] := by
        apply List.eq_nil_iff_forall_not_mem.2
        intro k hk
        rcases (h.rd m k).1 hk with ⟨-, hk⟩ | ⟨-, hk⟩
        · exact hno false hk
        · exact hfj false hk
      refine ⟨⟨s.rest.set i es, updMtx s.writer m (some i), s.readers⟩, by unfold raceStep; rw [hi]; exact if_pos ⟨hw, hr⟩, rfl, ⟨fun k => ?_, fun k l => ?_, h.nodup, hsrt, h.srt', hcmp⟩⟩
      · dsimp only
        by_cases hk : k = m
        · subst hk
          rw [updMtx_same, List.cons_append, if_pos (List.mem_cons_self ..)]
        · rw [updMtx_other _ _ hk, h.wr k]
          have : (k, true) ∈ (m, true) :: S ++ K ↔ (k, true) ∈ S ++ K := by simp [hk]
          simp only [this]
      · dsimp only
        rw [h.rd k l]
        simp
    | false =>
      have hw : s.writer m = none := by
        rw [h.wr m, if_neg (hno true), if_neg (fun hm => Bool.noConfusion (hfr true hm).2)]
      refine ⟨⟨s.rest.set i es, s.writer, updMtx s.readers m (i :: s.readers m)⟩, by unfold raceStep; rw [hi]; exact if_pos hw, rfl, ⟨fun k => ?_, fun k l => ?_, fun k => ?_, hsrt, h.srt', hcmp⟩⟩
      · dsimp only
        rw [h.wr k]
        simp
      · dsimp only
        by_cases hk : k = m
        · subst hk
          rw [updMtx_same]
          simp only [List.mem_cons, List.cons_append, true_or, and_true]
          rw [h.rd k l]
          constructor
          · rintro (rfl | h1 | h1)
            · exact .inl rfl
            · exact .inl h1.1
            · exact .inr h1
          · rintro (rfl | h1)
            · exact .inl rfl
            · exact .inr (.inr h1)
        · rw [updMtx_other _ _ hk, h.rd k l]
          simp [hk]
      · dsimp only
        by_cases hk : k = m
        · subst hk
          rw [updMtx_same, List.nodup_cons]
          refine ⟨fun hm => ?_, h.nodup k⟩
          rcases (h.rd k i).1 hm with ⟨-, h1⟩ | ⟨h1, -⟩
          · exact hno false h1
          · exact hij h1
        · rw [updMtx_other _ _ hk]; exact h.nodup k
  · have hsrt := h.srt
    simp only [List.cons_append, List.pairwise_cons] at hsrt
    have hno : ∀ b', (m, b') ∉ S' ++ K := fun b' hm => Nat.lt_irrefl _ (hsrt.1 _ hm)
    have hfj : ∀ e', (m, e') ∉ fj := fun e' hm => absurd (h.cmp m true e' (List.mem_cons_self ..) hm).1 (by decide)
    refine ⟨⟨s.rest.set i es, updMtx s.writer m none, s.readers⟩, by unfold raceStep; rw [hi], rfl, ⟨fun k => ?_, fun k l => ?_, h.nodup, hsrt.2, h.srt',
      fun k e e' h1 h2 => h.cmp k e e' (List.mem_cons_of_mem _ h1) h2⟩⟩
    · dsimp only
      by_cases hk : k = m
      · subst hk
        rw [updMtx_same, if_neg (hno true), if_neg (hfj true)]
      · rw [updMtx_other _ _ hk, h.wr k]
        have : (k, true) ∈ (m, true) :: S' ++ K ↔ (k, true) ∈ S' ++ K := by simp [hk]
        simp only [this]
    · dsimp only
      rw [h.rd k l]
      simp
  · have hsrt := h.srt
    simp only [List.cons_append, List.pairwise_cons] at hsrt
    have hno : ∀ b', (m, b') ∉ S' ++ K := fun b' hm => Nat.lt_irrefl _ (hsrt.1 _ hm)
    refine ⟨⟨s.rest.set i es, s.writer, updMtx s.readers m ((s.readers m).erase i)⟩, by unfold raceStep; rw [hi], rfl, ⟨fun k => ?_, fun k l => ?_, fun k => ?_, hsrt.2, h.srt',
      fun k e e' h1 h2 => h.cmp k e e' (List.mem_cons_of_mem _ h1) h2⟩⟩
    · dsimp only
      rw [h.wr k]
      simp
    · dsimp only
      by_cases hk : k = m
      · subst hk
        rw [updMtx_same, (h.nodup k).mem_erase_iff, h.rd k l]
        simp only [hno false, and_false, false_or, List.cons_append, List.mem_cons, true_or, and_true]
        constructor
        · rintro ⟨h1, h2 | h2⟩
          · exact absurd h2 h1
          · exact h2
        · rintro ⟨rfl, h2⟩
          exact ⟨fun e => hij e.symm, .inr ⟨rfl, h2⟩⟩
      · rw [updMtx_other _ _ hk, h.rd k l]
        simp [hk]
    · dsimp only
      by_cases hk : k = m
      · subst hk; rw [updMtx_same]; exact (h.nodup k).erase i
      · rw [updMtx_other _ _ hk]; exact h.nodup k
  · refine ⟨{ s with rest := s.rest.set i es }, ?_, rfl, ⟨h.wr, h.rd, h.nodup, h.srt, h.srt', h.cmp⟩⟩
    obtain ⟨x, rfl | rfl⟩ := hx <;> (unfold raceStep; rw [hi])

/-- The state after more of an interleaving. -/
def raceOn (s : RaceSt) (sched : List Nat) : RaceSt := sched.foldl (fun s i => (raceStep s i).getD s) s

theorem raceOn_append (s : RaceSt) (a b : List Nat) : raceOn s (a ++ b) = raceOn (raceOn s a) b := by
  unfold raceOn; rw [List.foldl_append]

/-- Goroutine `i` on its own for some events. -/
theorem twoHold_run {i j : Nat} (hij : i ≠ j) {r : Nat} {K fj : Held} (hK : ∀ p ∈ K, mtxRank p.1 < r) {v : List Acc} :
    ∀ {w : List Acc} {s : RaceSt} {S T : Held}, TwoHold s i j (S ++ K) fj → s.rest[i]? = some (w ++ v) → lifo r S w = some T →
      (∀ x e', acq x ∈ w → (x.1, e') ∈ fj → x.2 = false ∧ e' = false) →
      ∃ sched, (raceOn s sched).rest = s.rest.set i v ∧ TwoHold (raceOn s sched) i j (T ++ K) fj
  | [], s, S, T, h, hi, hl, _ => by
    cases hl
    refine ⟨[], ?_, h⟩
    show s.rest = s.rest.set i v
    rw [List.nil_append] at hi
    obtain ⟨hlt, e⟩ := List.getElem?_eq_some_iff.1 hi
    rw [← e, List.set_getElem_self]
  | e :: w, s, S, T, h, hi, hl, hf => by
    obtain ⟨S1, h1, h2⟩ := lifo_cons hl
    obtain ⟨s', hs, hrest, h'⟩ := twoHold_step hij h hi h1 hK (fun x hx e' => hf x e' (by rw [hx]; exact List.mem_cons_self ..))
    have hlt : i < s.rest.length := (List.getElem?_eq_some_iff.mp hi).1
    obtain ⟨sched, g1, g2⟩ := twoHold_run hij hK (v := v) h' (by rw [hrest, List.getElem?_set_self hlt]; rfl) h2
      (fun x e' hx => hf x e' (List.mem_cons_of_mem _ hx))
    refine ⟨i :: sched, ?_, ?_⟩
    · show (raceOn ((raceStep s i).getD s) sched).rest = _
      rw [hs, Option.getD_some, g1, hrest, List.set_set]
    · show TwoHold (raceOn ((raceStep s i).getD s) sched) i j (T ++ K) fj
      rw [hs]; exact g2

/-- The mutexes taken have a rank of at least `r`. -/
theorem lifo_rank {r : Nat} {x : Mtx × Bool} : ∀ {w : List Acc} {S T : Held}, lifo r S w = some T → acq x ∈ w → r ≤ mtxRank x.1
  | [], _, _, _, hx => by cases hx
  | e :: w, S, T, hl, hx => by
    obtain ⟨S1, h1, h2⟩ := lifo_cons hl
    rcases List.mem_cons.1 hx with rfl | hx
    · obtain ⟨m, b⟩ := x
      cases b <;> simp only [acq, Bool.false_eq_true, if_false, if_true, lifo1] at h1 <;>
      · split at h1
        · rename_i hc; exact hc.2
        · cases h1
    · exact lifo_rank h2 hx

/-- A goroutine before one of the mutexes that it will hold in the end (or with all of them): what it does until then, and that mutex. -/
inductive Parked : List Acc → Held → Prop
  | done : Parked [] []
  | next {x : Mtx × Bool} {u : List Acc} {T : Held} : lifo (mtxRank x.1 + 1) [] u = some T → Parked (acq x :: u) (T ++ [x])

/-- Going on to the next such mutex. -/
theorem parked_of {r : Nat} {u : List Acc} {T : Held} (h : lifo r [] u = some T) :
    ∃ w u', u = w ++ u' ∧ lifo r [] w = some [] ∧ Parked u' T ∧ ∀ x u'', u' = acq x :: u'' → r ≤ mtxRank x.1 := by
  rcases List.eq_nil_or_concat T with rfl | ⟨T', x, rfl⟩
  · exact ⟨u, [], by simp, h, .done, fun x u'' e => by cases e⟩
  · rw [List.concat_eq_append] at h ⊢
    rcases lifo_split h with ⟨w, u', rfl, hw, hr, hu⟩ | ⟨S', he, -⟩
    · refine ⟨w, acq x :: u', rfl, hw, .next hu, fun y u'' e => ?_⟩
      have : acq x = acq y := (List.cons.inj e).1
      obtain ⟨m, b⟩ := x
      obtain ⟨m', b'⟩ := y
      cases b <;> cases b' <;> simp [acq] at this
      · rw [← this]; exact hr
      · rw [← this]; exact hr
    · cases S' <;> cases he

theorem acq_inj {x y : Mtx × Bool} (h : acq x = acq y) : x = y := by
  obtain ⟨m, b⟩ := x
  obtain ⟨m', b'⟩ := y
  cases b <;> cases b' <;> simp [acq] at h
  · rw [h]
  · rw [h]

/-- Taking that mutex and going on to the next one. -/
theorem advance {i j : Nat} (hij : i ≠ j) {s : RaceSt} {x : Mtx × Bool} {u v : List Acc} {T Ki Kj : Held}
    (hu : lifo (mtxRank x.1 + 1) [] u = some T) (h : TwoHold s i j Ki Kj) (hi : s.rest[i]? = some (acq x :: u ++ v))
    (hKi : ∀ p ∈ Ki, mtxRank p.1 < mtxRank x.1) (hKj : ∀ p ∈ Kj, mtxRank p.1 ≤ mtxRank x.1)
    (hc : ∀ e', (x.1, e') ∈ Kj → x.2 = false ∧ e' = false) :
    ∃ sched u', Parked u' T ∧ (raceOn s sched).rest = s.rest.set i (u' ++ v) ∧ TwoHold (raceOn s sched) i j (x :: Ki) Kj ∧
      ∀ y u'', u' = acq y :: u'' → mtxRank x.1 < mtxRank y.1 := by
  obtain ⟨w, u', rfl, hw, hp, hr⟩ := parked_of hu
  obtain ⟨s1, e1, e2, e3⟩ := twoHold_step hij (S := []) (K := Ki) (r := mtxRank x.1) h hi
    (lifo1_acq (fun p hp => by cases hp) (Nat.le_refl _)) hKi (fun y hy e' => by rw [← acq_inj hy]; exact hc e')
  have hlt : i < s.rest.length := (List.getElem?_eq_some_iff.mp hi).1
  obtain ⟨sched, g1, g2⟩ := twoHold_run hij (r := mtxRank x.1 + 1) (K := x :: Ki) (fj := Kj) (v := u' ++ v) (w := w) (s := s1) (S := []) (T := [])
    (by
      intro p hp
      rcases List.mem_cons.1 hp with rfl | hp
      · exact Nat.lt_succ_self _
      · exact Nat.lt_succ_of_lt (hKi p hp))
    e3 (by rw [e2, List.getElem?_set_self hlt]; exact congrArg some (List.append_assoc w u' v)) hw
    (fun y e' hy hm => absurd (hKj _ hm) (by have := lifo_rank hw hy; simp only; omega))
  refine ⟨i :: sched, u', hp, ?_, ?_, fun y u'' e => hr y u'' e⟩
  · show (raceOn ((raceStep s i).getD s) sched).rest = _
    rw [e1, Option.getD_some, g1, e2, List.set_set]
  · show TwoHold (raceOn ((raceStep s i).getD s) sched) i j (x :: Ki) Kj
    rw [e1]; exact g2

/-- Two goroutines on their way to places where they hold `T` and `G` besides `Ki` and `Kj`: if no mutex keeps these apart, both get there. -/
theorem meet {i j : Nat} (hij : i ≠ j) {vi vj : List Acc} : ∀ (n : Nat) {s : RaceSt} {u w : List Acc} {T G Ki Kj : Held}, T.length + G.length ≤ n →
    Parked u T → Parked w G → TwoHold s i j Ki Kj → s.rest[i]? = some (u ++ vi) → s.rest[j]? = some (w ++ vj) →
    (∀ x u', u = acq x :: u' → (∀ p ∈ Ki, mtxRank p.1 < mtxRank x.1) ∧ ∀ p ∈ Kj, mtxRank p.1 ≤ mtxRank x.1) →
    (∀ x w', w = acq x :: w' → (∀ p ∈ Kj, mtxRank p.1 < mtxRank x.1) ∧ ∀ p ∈ Ki, mtxRank p.1 ≤ mtxRank x.1) →
    (∀ m e e', (m, e) ∈ T ++ Ki → (m, e') ∈ G ++ Kj → e = false ∧ e' = false) →
    ∃ sched, (raceOn s sched).rest[i]? = some vi ∧ (raceOn s sched).rest[j]? = some vj := by
  intro n
  induction n with
  | zero =>
    intro s u w T G Ki Kj hn hu hw h hi hj _ _ _
    cases hu with
    | done =>
      cases hw with
      | done => exact ⟨[], hi, hj⟩
      | next h => simp at hn
    | next h => simp at hn
  | succ n ih =>
    intro s u w T G Ki Kj hn hu hw h hi hj ri rj hc
    have hli : i < s.rest.length := (List.getElem?_eq_some_iff.mp hi).1
    have hlj : j < s.rest.length := (List.getElem?_eq_some_iff.mp hj).1
    -- one of them goes on, the one with the lower next mutex
    have goI : ∀ (x : Mtx × Bool) (u' : List Acc) (T' : Held), u = acq x :: u' → T = T' ++ [x] → lifo (mtxRank x.1 + 1) [] u' = some T' →
        (∀ y w', w = acq y :: w' → mtxRank x.1 ≤ mtxRank y.1) →
        ∃ sched, (raceOn s sched).rest[i]? = some vi ∧ (raceOn s sched).rest[j]? = some vj := by
      intro x u' T' eu eT hl hmin
      subst eu eT
      obtain ⟨r1, r2⟩ := ri x u' rfl
      obtain ⟨sched, u2, hp, hrest, h2, hr2⟩ := advance hij hl h hi r1 r2
        (fun e' hm => hc x.1 x.2 e' (by simp) (List.mem_append_right _ hm))
      obtain ⟨more, g1, g2⟩ := ih (T := T') (G := G) (by simp only [List.length_append, List.length_singleton] at hn; omega) hp hw h2
        (by rw [hrest, List.getElem?_set_self hli]) (by rw [hrest, List.getElem?_set_ne hij]; exact hj)
        (by
          intro y u3 e
          have := hr2 y u3 e
          refine ⟨fun p hp => ?_, fun p hp => Nat.le_trans (r2 p hp) (Nat.le_of_lt this)⟩
          rcases List.mem_cons.1 hp with rfl | hp
          · exact this
          · exact Nat.lt_trans (r1 p hp) this)
        (by
          intro y w' e
          obtain ⟨q1, q2⟩ := rj y w' e
          refine ⟨q1, fun p hp => ?_⟩
          rcases List.mem_cons.1 hp with rfl | hp
          · exact hmin y w' e
          · exact q2 p hp)
        (by
          intro m e e' h1 h2
          refine hc m e e' ?_ h2
          simp only [List.mem_append, List.mem_cons, List.not_mem_nil, or_false] at h1 ⊢
          rcases h1 with h1 | h1 | h1
          · exact .inl (.inl h1)
          · exact .inl (.inr h1)
          · exact .inr h1)
      exact ⟨sched ++ more, by rw [raceOn_append]; exact g1, by rw [raceOn_append]; exact g2⟩
    have goJ : ∀ (x : Mtx × Bool) (w' : List Acc) (G' : Held), w = acq x :: w' → G = G' ++ [x] → lifo (mtxRank x.1 + 1) [] w' = some G' →
        (∀ y u', u = acq y :: u' → mtxRank x.1 ≤ mtxRank y.1) →
        ∃ sched, (raceOn s sched).rest[i]? = some vi ∧ (raceOn s sched).rest[j]? = some vj := by
      intro x w' G' ew eG hl hmin
      subst ew eG
      obtain ⟨r1, r2⟩ := rj x w' rfl
      obtain ⟨sched, w2, hp, hrest, h2, hr2⟩ := advance (fun e => hij e.symm) hl h.symm hj r1 r2
        (fun e' hm => (hc x.1 e' x.2 (List.mem_append_right _ hm) (by simp)).symm)
      obtain ⟨more, g1, g2⟩ := ih (T := T) (G := G') (by simp only [List.length_append, List.length_singleton] at hn; omega) hu hp h2.symm
        (by rw [hrest, List.getElem?_set_ne (fun e => hij e.symm)]; exact hi) (by rw [hrest, List.getElem?_set_self hlj])
        (by
          intro y u' e
          obtain ⟨q1, q2⟩ := ri y u' e
          refine ⟨q1, fun p hp => ?_⟩
          rcases List.mem_cons.1 hp with rfl | hp
          · exact hmin y u' e
          · exact q2 p hp)
        (by
          intro y u3 e
          have := hr2 y u3 e
          refine ⟨fun p hp => ?_, fun p hp => Nat.le_trans (r2 p hp) (Nat.le_of_lt this)⟩
          rcases List.mem_cons.1 hp with rfl | hp
          · exact this
          · exact Nat.lt_trans (r1 p hp) this)
        (by
          intro m e e' h1 h2
          refine hc m e e' h1 ?_
          simp only [List.mem_append, List.mem_cons, List.not_mem_nil, or_false] at h2 ⊢
          rcases h2 with h1 | h1 | h1
          · exact .inl (.inl h1)
          · exact .inl (.inr h1)
          · exact .inr h1)
      exact ⟨sched ++ more, by rw [raceOn_append]; exact g1, by rw [raceOn_append]; exact g2⟩
    cases hu with
    | done =>
      cases hw with
      | done => exact ⟨[], hi, hj⟩
      | @next y w' G' hl => exact goJ y w' G' rfl rfl hl (fun z u' e => by cases e)
    | @next x u' T' hl =>
      cases hw with
      | done => exact goI x u' T' rfl rfl hl (fun z u' e => by cases e)
      | @next y w' G' hl' =>
        by_cases hxy : mtxRank x.1 ≤ mtxRank y.1
        · refine goI x u' T' rfl rfl hl (fun z w'' e => ?_)
          rw [← acq_inj (List.cons.inj e).1]; exact hxy
        · refine goJ y w' G' rfl rfl hl' (fun z w'' e => ?_)
          rw [← acq_inj (List.cons.inj e).1]; omega

/-- Two goroutines get to places at the same time, if no mutex keeps the ones held there apart. -/
theorem meet_init {progs : List (List Acc)} {i j : Nat} (hij : i ≠ j) {a b vi vj : List Acc} {T G : Held}
    (hi : progs[i]? = some (a ++ vi)) (hj : progs[j]? = some (b ++ vj)) (ha : lifo 0 [] a = some T) (hb : lifo 0 [] b = some G)
    (hc : ∀ m e e', (m, e) ∈ T → (m, e') ∈ G → e = false ∧ e' = false) :
    ∃ sched, (raceRun progs sched).rest[i]? = some vi ∧ (raceRun progs sched).rest[j]? = some vj := by
  have h0 : TwoHold (raceInit progs) i j [] [] :=
    ⟨fun m => by simp [raceInit], fun m k => by simp [raceInit], fun m => by simp [raceInit], .nil, .nil, fun m e e' h => by cases h⟩
  obtain ⟨w1, u1, rfl, hw1, hp1, -⟩ := parked_of ha
  obtain ⟨w2, u2, rfl, hw2, hp2, -⟩ := parked_of hb
  have hli : i < progs.length := (List.getElem?_eq_some_iff.mp hi).1
  have hlj : j < progs.length := (List.getElem?_eq_some_iff.mp hj).1
  obtain ⟨s1, a1, a2⟩ := twoHold_run hij (r := 0) (K := []) (fj := []) (v := u1 ++ vi) (w := w1) (s := raceInit progs) (S := []) (T := [])
    (fun p hp => by cases hp) h0 (by rw [← List.append_assoc]; exact hi) hw1 (fun x e' _ hm => by cases hm)
  have hrest0 : (raceInit progs).rest = progs := rfl
  rw [hrest0] at a1
  obtain ⟨s2, b1, b2⟩ := twoHold_run (fun e => hij e.symm) (r := 0) (K := []) (fj := []) (v := u2 ++ vj) (w := w2) (s := raceOn (raceInit progs) s1)
    (S := []) (T := []) (fun p hp => by cases hp) a2.symm
    (by rw [a1, List.getElem?_set_ne hij, ← List.append_assoc]; exact hj) hw2 (fun x e' _ hm => by cases hm)
  obtain ⟨s3, c1, c2⟩ := meet hij (vi := vi) (vj := vj) _ (Nat.le_refl _) hp1 hp2 b2.symm
    (by rw [b1, a1, List.getElem?_set_ne (fun e => hij e.symm), List.getElem?_set_self hli])
    (by rw [b1, a1, List.getElem?_set_self (by simpa using hlj)])
    (fun x u' _ => ⟨fun p hp => (by cases hp), fun p hp => (by cases hp)⟩) (fun x u' _ => ⟨fun p hp => (by cases hp), fun p hp => (by cases hp)⟩)
    (by simpa using hc)
  have hrun : raceRun progs (s1 ++ (s2 ++ s3)) = raceOn (raceOn (raceOn (raceInit progs) s1) s2) s3 := by
    rw [← raceOn_append, ← raceOn_append]; rfl
  exact ⟨s1 ++ (s2 ++ s3), by rw [hrun]; exact c1, by rw [hrun]; exact c2⟩

/-- Where a use happens. -/
theorem uses_split {r : Nat} {a : Use} : ∀ {es : List Acc} {S : Held}, (lifo r S es).isSome → a ∈ uses S es →
    ∃ p v, es = p ++ (if a.write then .wr a.loc else .rd a.loc) :: v ∧ lifo r S p = some a.locks
  | [], _, _, h => by cases h
  | e :: es, S, hl, h => by
    obtain ⟨T, hl⟩ := Option.isSome_iff_exists.1 hl
    obtain ⟨S1, h1, h2⟩ := lifo_cons hl
    have later : a ∈ uses S1 es → ∃ p v, e :: es = p ++ (if a.write then .wr a.loc else .rd a.loc) :: v ∧ lifo r S p = some a.locks := by
      intro h
      obtain ⟨p, v, e1, e2⟩ := uses_split (by rw [h2]; rfl) h
      refine ⟨e :: p, v, by rw [e1]; rfl, ?_⟩
      simp only [lifo, h1, Option.bind_some]
      exact e2
    rcases lifo1_cases h1 with ⟨⟨m, b⟩, rfl, rfl, -, -⟩ | ⟨m, rfl, rfl⟩ | ⟨m, rfl, rfl⟩ | ⟨⟨x, rfl | rfl⟩, rfl⟩
    · cases b <;> exact later h
    · simp only [uses, List.erase_cons_head] at h; exact later h
    · simp only [uses, List.erase_cons_head] at h; exact later h
    · simp only [uses, List.mem_cons] at h
      rcases h with rfl | h
      · exact ⟨[], es, rfl, rfl⟩
      · exact later h
    · simp only [uses, List.mem_cons] at h
      rcases h with rfl | h
      · exact ⟨[], es, rfl, rfl⟩
      · exact later h

/-- Goroutines with uses that clash can race. -/
theorem race_of_clash {progs : List (List Acc)} (hl : ∀ es ∈ progs, lifo 0 [] es = some []) {i j : Nat} (hij : i ≠ j) {p q : List Acc}
    (hi : progs[i]? = some p) (hj : progs[j]? = some q) (h : Clash p q) : ∃ sched k l x, Racing (raceRun progs sched) k l x := by
  obtain ⟨a, ha, b, hb, hloc, hwr, hlocks⟩ := h
  obtain ⟨p1, p2, rfl, g1⟩ := uses_split (by rw [hl _ (List.mem_of_getElem? hi)]; rfl) ha
  obtain ⟨q1, q2, rfl, g2⟩ := uses_split (by rw [hl _ (List.mem_of_getElem? hj)]; rfl) hb
  obtain ⟨sched, h1, h2⟩ := meet_init hij hi hj g1 g2 (fun m e e' h1 h2 => hlocks (m, e) h1 (m, e') h2 rfl)
  rw [← hloc] at h2
  cases hwa : a.write with
  | true =>
    rw [hwa, if_pos rfl] at h1
    refine ⟨sched, i, j, a.loc, hij, ⟨_, h1⟩, q2, ?_⟩
    cases hwb : b.write with
    | true => rw [hwb, if_pos rfl] at h2; exact .inl h2
    | false => rw [hwb, if_neg (by decide)] at h2; exact .inr h2
  | false =>
    have hwb : b.write = true := by rcases hwr with h | h; · rw [hwa] at h; cases h
                                    · exact h
    rw [hwa, if_neg (by decide)] at h1
    rw [hwb, if_pos rfl] at h2
    exact ⟨sched, j, i, a.loc, fun e => hij e.symm, ⟨_, h2⟩, p2, .inr h1⟩

/-! ### The other direction -/

/-- The mutexes recorded for every goroutine are held, and what it has still to do uses what the program uses. -/
structure Tracks (progs : List (List Acc)) (s : RaceSt) (f : Nat → Held) : Prop where
  ok : ∀ (i : Nat) es, s.rest[i]? = some es → (lifo 0 (f i) es).isSome ∧ ∃ es0, progs[i]? = some es0 ∧ ∀ a ∈ uses (f i) es, a ∈ uses [] es0
  srt : ∀ i, (f i).Pairwise fun p q => mtxRank q.1 < mtxRank p.1
  wr : ∀ m i, (m, true) ∈ f i → s.writer m = some i
  rd : ∀ m i, (m, false) ∈ f i → i ∈ s.readers m
  excl : ∀ m, s.writer m ≠ none → s.readers m = []

theorem tracks_init {progs : List (List Acc)} (hl : ∀ es ∈ progs, lifo 0 [] es = some []) : Tracks progs (raceInit progs) (fun _ => []) :=
  ⟨fun i es hi => ⟨by rw [hl es (List.mem_of_getElem? hi)]; rfl, es, hi, fun a ha => ha⟩, fun _ => .nil, fun m i h => (by cases h),
    fun m i h => (by cases h), fun m h => absurd rfl h⟩

theorem tracks_step {progs : List (List Acc)} {s s' : RaceSt} {f : Nat → Held} {i : Nat} (h : Tracks progs s f) (hs : raceStep s i = some s') :
    ∃ f', Tracks progs s' f' := by
  unfold raceStep at hs
  split at hs
  case h_2 => cases hs
  case h_1 e es hi =>
    obtain ⟨hl, es0, hp, hu⟩ := h.ok i _ hi
    obtain ⟨T, hl⟩ := Option.isSome_iff_exists.1 hl
    obtain ⟨S1, h1, h2⟩ := lifo_cons hl
    have hlt : i < s.rest.length := (List.getElem?_eq_some_iff.mp hi).1
    let f' : Nat → Held := fun j => if j = i then S1 else f j
    have fi : f' i = S1 := if_pos rfl
    have fj : ∀ j, j ≠ i → f' j = f j := fun j hj => if_neg hj
    -- what does not depend on the mutexes
    have mk : ∀ (w : Mtx → Option Nat) (r : Mtx → List Nat), (∀ a ∈ uses S1 es, a ∈ uses (f i) (e :: es)) →
        S1.Pairwise (fun p q => mtxRank q.1 < mtxRank p.1) →
        (∀ m, (m, true) ∈ S1 → w m = some i) → (∀ m, (m, false) ∈ S1 → i ∈ r m) →
        (∀ m j, j ≠ i → s.writer m = some j → w m = some j) → (∀ m j, j ≠ i → j ∈ s.readers m → j ∈ r m) →
        (∀ m, w m ≠ none → r m = []) → ∃ f', Tracks progs ⟨s.rest.set i es, w, r⟩ f' := by
      intro w r hu' hsrt hw hr hw' hr' hx
      refine ⟨f', fun j es' hj => ?_, fun j => ?_, fun m j hm => ?_, fun m j hm => ?_, hx⟩
      · by_cases e : j = i
        · subst e
          rw [List.getElem?_set_self hlt] at hj
          cases hj
          rw [fi]
          exact ⟨by rw [h2]; rfl, es0, hp, fun a ha => hu a (hu' a ha)⟩
        · rw [List.getElem?_set_ne (fun e' => e e'.symm)] at hj
          rw [fj j e]
          exact h.ok j es' hj
      · by_cases e : j = i
        · rw [e, fi]; exact hsrt
        · rw [fj j e]; exact h.srt j
      · by_cases e : j = i
        · rw [e, fi] at hm; rw [e]; exact hw m hm
        · rw [fj j e] at hm; exact hw' m j e (h.wr m j hm)
      · by_cases e : j = i
        · rw [e, fi] at hm; rw [e]; exact hr m hm
        · rw [fj j e] at hm; exact hr' m j e (h.rd m j hm)
    have hsrt := h.srt i
    rcases lifo1_cases h1 with ⟨⟨m, b⟩, rfl, rfl, ha, -⟩ | ⟨m, rfl, he⟩ | ⟨m, rfl, he⟩ | ⟨hx, rfl⟩
    · cases b with
      | true =>
        simp only [acq, if_true] at hs
        split at hs
        · rename_i hc
          cases hs
          refine mk _ _ (fun a h => h) (List.pairwise_cons.2 ⟨ha, hsrt⟩) (fun k hk => ?_) (fun k hk => ?_) (fun k j hj hk => ?_)
            (fun k j _ hk => hk) (fun k hk => ?_)
          · by_cases e : k = m
            · rw [e, updMtx_same]
            · rw [updMtx_other _ _ e]
              rcases List.mem_cons.1 hk with hk | hk
              · cases hk; exact absurd rfl e
              · exact h.wr k i hk
          · rcases List.mem_cons.1 hk with hk | hk
            · cases hk
            · exact h.rd k i hk
          · by_cases e : k = m
            · rw [e, hc.1] at hk; cases hk
            · rw [updMtx_other _ _ e]; exact hk
          · by_cases e : k = m
            · rw [e]; exact hc.2
            · rw [updMtx_other _ _ e] at hk; exact h.excl k hk
        · cases hs
      | false =>
        simp only [acq, Bool.false_eq_true, if_false] at hs
        split at hs
        · rename_i hc
          cases hs
          refine mk _ _ (fun a h => h) (List.pairwise_cons.2 ⟨ha, hsrt⟩) (fun k hk => ?_) (fun k hk => ?_) (fun k j hj hk => hk)
            (fun k j _ hk => ?_) (fun k hk => ?_)
          · rcases List.mem_cons.1 hk with hk | hk
            · cases hk
            · exact h.wr k i hk
          · by_cases e : k = m
            · rw [e, updMtx_same]; exact List.mem_cons_self ..
            · rw [updMtx_other _ _ e]
              rcases List.mem_cons.1 hk with hk | hk
              · cases hk; exact absurd rfl e
              · exact h.rd k i hk
          · by_cases e : k = m
            · subst e; rw [updMtx_same]; exact List.mem_cons_of_mem _ hk
            · rw [updMtx_other _ _ e]; exact hk
          · by_cases e : k = m
            · rw [e] at hk; exact absurd hc hk
            · rw [updMtx_other _ _ e]; exact h.excl k hk
        · cases hs
    · cases hs
      rw [he] at hsrt
      have hno : ∀ b', (m, b') ∉ S1 := fun b' hm => Nat.lt_irrefl (mtxRank m) ((List.pairwise_cons.1 hsrt).1 (m, b') hm)
      have hwm : s.writer m = some i := h.wr m i (by rw [he]; exact List.mem_cons_self ..)
      refine mk _ _ (fun a h => by rw [he]; simp only [uses, List.erase_cons_head]; exact h) (List.pairwise_cons.1 hsrt).2 (fun k hk => ?_)
        (fun k hk => h.rd k i (by rw [he]; exact List.mem_cons_of_mem _ hk)) (fun k j hj hk => ?_) (fun k j _ hk => hk) (fun k hk => ?_)
      · have e : k ≠ m := fun e => hno true (e ▸ hk)
        rw [updMtx_other _ _ e]; exact h.wr k i (by rw [he]; exact List.mem_cons_of_mem _ hk)
      · have e : k ≠ m := by rintro rfl; rw [hwm] at hk; cases hk; exact hj rfl
        rw [updMtx_other _ _ e]; exact hk
      · by_cases e : k = m
        · rw [e, updMtx_same] at hk; exact absurd rfl hk
        · rw [updMtx_other _ _ e] at hk; exact h.excl k hk
    · cases hs
      rw [he] at hsrt
      have hno : ∀ b', (m, b') ∉ S1 := fun b' hm => Nat.lt_irrefl (mtxRank m) ((List.pairwise_cons.1 hsrt).1 (m, b') hm)
      refine mk _ _ (fun a h => by rw [he]; simp only [uses, List.erase_cons_head]; exact h) (List.pairwise_cons.1 hsrt).2
        (fun k hk => h.wr k i (by rw [he]; exact List.mem_cons_of_mem _ hk)) (fun k hk => ?_) (fun k j hj hk => hk) (fun k j hj hk => ?_)
        (fun k hk => ?_)
      · have e : k ≠ m := fun e => hno false (e ▸ hk)
        rw [updMtx_other _ _ e]; exact h.rd k i (by rw [he]; exact List.mem_cons_of_mem _ hk)
      · by_cases e : k = m
        · subst e; rw [updMtx_same]; exact (List.mem_erase_of_ne hj).2 hk
        · rw [updMtx_other _ _ e]; exact hk
      · by_cases e : k = m
        · subst e; rw [updMtx_same, h.excl k hk]; rfl
        · rw [updMtx_other _ _ e]; exact h.excl k hk
    · have : s' = ⟨s.rest.set i es, s.writer, s.readers⟩ := by
        obtain ⟨x, rfl | rfl⟩ := hx <;> cases hs <;> rfl
      rw [this]
      refine mk _ _ (fun a h => ?_) hsrt (fun k hk => h.wr k i hk) (fun k hk => h.rd k i hk) (fun k j _ hk => hk) (fun k j _ hk => hk) h.excl
      obtain ⟨x, rfl | rfl⟩ := hx <;> exact List.mem_cons_of_mem _ h

theorem tracks_run {progs : List (List Acc)} (hl : ∀ es ∈ progs, lifo 0 [] es = some []) (sched : List Nat) :
    ∃ f, Tracks progs (raceRun progs sched) f := by
  have key : ∀ (sched : List Nat) {s : RaceSt} {f : Nat → Held}, Tracks progs s f → ∃ f', Tracks progs (raceOn s sched) f' := by
    intro sched
    induction sched with
    | nil => intro s f h; exact ⟨f, h⟩
    | cons i t ih =>
      intro s f h
      show ∃ f', Tracks progs (raceOn ((raceStep s i).getD s) t) f'
      cases hst : raceStep s i with
      | none => exact ih h
      | some s' =>
        obtain ⟨f', h'⟩ := tracks_step h hst
        exact ih h'
  exact key sched (tracks_init hl)

/-- Goroutines that can race have uses that clash. -/
theorem clash_of_race {progs : List (List Acc)} (hl : ∀ es ∈ progs, lifo 0 [] es = some []) {sched : List Nat} {i j : Nat} {x : Loc}
    (h : Racing (raceRun progs sched) i j x) : ∃ p q, progs[i]? = some p ∧ progs[j]? = some q ∧ Clash p q := by
  obtain ⟨hij, ⟨ei, hi⟩, ej, hj⟩ := h
  obtain ⟨f, inv⟩ := tracks_run hl sched
  obtain ⟨-, p, hp, up⟩ := inv.ok i _ hi
  have ha : (⟨x, true, f i⟩ : Use) ∈ uses [] p := up _ (by simp [uses])
  have hlocks : ∀ m e e', (m, e) ∈ f i → (m, e') ∈ f j → e = false ∧ e' = false := by
    intro m e e' h1 h2
    cases e with
    | true =>
      have w1 := inv.wr m i h1
      cases e' with
      | true =>
        have w2 := inv.wr m j h2
        rw [w1] at w2; cases w2; exact absurd rfl hij
      | false =>
        have w2 := inv.rd m j h2
        rw [inv.excl m (by rw [w1]; simp)] at w2; cases w2
    | false =>
      cases e' with
      | true =>
        have w1 := inv.rd m i h1
        have w2 := inv.wr m j h2
        rw [inv.excl m (by rw [w2]; simp)] at w1; cases w1
      | false => exact ⟨rfl, rfl⟩
  have key : ∀ (b : Bool) (es : List Acc), (raceRun progs sched).rest[j]? = some es → (⟨x, b, f j⟩ : Use) ∈ uses (f j) es →
      ∃ p q, progs[i]? = some p ∧ progs[j]? = some q ∧ Clash p q := by
    intro b es hes hb
    obtain ⟨-, q, hq, uq⟩ := inv.ok j _ hes
    exact ⟨p, q, hp, hq, _, ha, _, uq _ hb, rfl, .inl rfl, fun y hy z hz hyz => hlocks y.1 y.2 z.2 hy (by rw [hyz]; exact hz)⟩
  rcases hj with hj | hj
  · exact key true _ hj (by simp [uses])
  · exact key false _ hj (by simp [uses])

/-- Goroutines that take mutexes in order, and release the one taken last first, race exactly if two of them have uses that clash. -/
theorem raceFree_iff {progs : List (List Acc)} (hl : ∀ es ∈ progs, lifo 0 [] es = some []) :
    RaceFree progs ↔ ∀ (i j : Nat) p q, i ≠ j → progs[i]? = some p → progs[j]? = some q → ¬ Clash p q := by
  constructor
  · intro hf i j p q hij hi hj hc
    obtain ⟨sched, k, l, x, hr⟩ := race_of_clash hl hij hi hj hc
    exact hf sched k l x hr
  · intro hc sched i j x hr
    obtain ⟨p, q, hp, hq, h⟩ := clash_of_race hl hr
    exact hc i j p q hr.1 hp hq h

end Verif
