import Verif.Spec.Races
/-
The lockset argument: goroutines that access every location only while holding the mutex that guards it do not race.
-/
namespace Verif

/-- How a location is protected. -/
inductive Guard where
  /-- nobody writes it -/
  | never
  /-- written under the write lock of `m`, read under a lock of `m` -/
  | by (m : Mtx)
  /-- accessed by goroutine `i` only -/
  | own (i : Nat)

abbrev Held := List (Mtx × Bool)

/-- The mutexes goroutine `i` holds after `e`; `none` if `e` breaks the discipline `g`. -/
def chk1 (g : Loc → Guard) (i : Nat) (held : Held) : Acc → Option Held
  | .lock m => if (m, true) ∈ held ∨ (m, false) ∈ held then none else some ((m, true) :: held)
  | .unlock m => if (m, true) ∈ held then some (held.erase (m, true)) else none
  | .rlock m => if (m, true) ∈ held ∨ (m, false) ∈ held then none else some ((m, false) :: held)
  | .runlock m => if (m, false) ∈ held then some (held.erase (m, false)) else none
  | .rd x => match g x with
    | .never => some held
    | .by m => if (m, true) ∈ held ∨ (m, false) ∈ held then some held else none
    | .own k => if k = i then some held else none
  | .wr x => match g x with
    | .never => none
    | .by m => if (m, true) ∈ held then some held else none
    | .own k => if k = i then some held else none

def chk (g : Loc → Guard) (i : Nat) : Held → List Acc → Option Held
  | held, [] => some held
  | held, e :: es => (chk1 g i held e).bind fun h => chk g i h es

theorem chk_append (g : Loc → Guard) (i : Nat) (a b : List Acc) (held : Held) :
    chk g i held (a ++ b) = (chk g i held a).bind fun h => chk g i h b := by
  induction a generalizing held with
  | nil => rfl
  | cons e es ih =>
    simp only [List.cons_append, chk]
    cases chk1 g i held e with
    | none => rfl
    | some h => simpa using ih h

theorem chk_append_same {g : Loc → Guard} {i : Nat} {a b : List Acc} {h : Held}
    (ha : chk g i h a = some h) : chk g i h (a ++ b) = chk g i h b := by
  rw [chk_append, ha]; rfl

theorem chk_flatMap_same {α : Type} {g : Loc → Guard} {i : Nat} {h : Held} {f : α → List Acc} {l : List α}
    (hl : ∀ x ∈ l, chk g i h (f x) = some h) : chk g i h (l.flatMap f) = some h := by
  induction l with
  | nil => rfl
  | cons a l ih =>
    rw [List.flatMap_cons, chk_append_same (hl a (by simp))]
    exact ih fun x hx => hl x (by simp [hx])

theorem chk_flatten_same {g : Loc → Guard} {i : Nat} {h : Held} {l : List (List Acc)}
    (hl : ∀ x ∈ l, chk g i h x = some h) : chk g i h l.flatten = some h := by
  have := chk_flatMap_same (f := id) hl
  simpa [List.flatMap_id] using this

theorem chk_map_same {α : Type} {g : Loc → Guard} {i : Nat} {h : Held} {f : α → Acc} {l : List α}
    (hl : ∀ x ∈ l, chk1 g i h (f x) = some h) : chk g i h (l.map f) = some h := by
  induction l with
  | nil => rfl
  | cons a l ih =>
    simp only [List.map_cons, chk, hl a (by simp), Option.bind_some]
    exact ih fun x hx => hl x (by simp [hx])

/-- The mutexes a goroutine is recorded to hold are the ones it holds. -/
structure HoldsInv (g : Loc → Guard) (s : RaceSt) (i : Nat) (es : List Acc) (held : Held) : Prop where
  ok : (chk g i held es).isSome
  nodup : (held.map Prod.fst).Nodup
  wr : ∀ m, (m, true) ∈ held → s.writer m = some i
  rd : ∀ m, (m, false) ∈ held → i ∈ s.readers m

structure RaceInv (g : Loc → Guard) (s : RaceSt) : Prop where
  thr : ∀ (i : Nat) es, s.rest[i]? = some es → ∃ held, HoldsInv g s i es held
  excl : ∀ m, s.writer m ≠ none → s.readers m = []

theorem raceInv_init {g : Loc → Guard} {progs : List (List Acc)}
    (h : ∀ (i : Nat) es, progs[i]? = some es → (chk g i [] es).isSome) : RaceInv g (raceInit progs) :=
  ⟨fun i es hi => ⟨[], h i es hi, by simp, by simp, by simp⟩, fun m hm => absurd rfl hm⟩

theorem held_not_both {held : Held} (h : (held.map Prod.fst).Nodup) {m : Mtx} {b : Bool} (hm : (m, b) ∈ held) :
    ∀ m' b', (m', b') ∈ held.erase (m, b) → m' ≠ m := by
  induction held with
  | nil => cases hm
  | cons p t ih =>
    intro m' b' hm'
    simp only [List.map_cons, List.nodup_cons] at h
    by_cases hp : p = (m, b)
    · subst hp
      simp only [List.erase_cons_head] at hm'
      intro e; subst e
      exact h.1 (List.mem_map.mpr ⟨(m', b'), hm', rfl⟩)
    · have hmt : (m, b) ∈ t := by
        rcases List.mem_cons.mp hm with e | e
        · exact absurd e.symm hp
        · exact e
      rw [List.erase_cons_tail (by simpa using hp)] at hm'
      rcases List.mem_cons.mp hm' with e | e
      · intro e'
        apply h.1
        rw [← e]
        exact List.mem_map.mpr ⟨(m, b), hmt, e'.symm⟩
      · exact ih h.2 hmt m' b' e

theorem erase_fst_nodup {held : Held} (h : (held.map Prod.fst).Nodup) (p : Mtx × Bool) :
    ((held.erase p).map Prod.fst).Nodup :=
  h.sublist ((List.erase_sublist).map _)

theorem mem_of_mem_erase' {held : Held} {p q : Mtx × Bool} (h : p ∈ held.erase q) : p ∈ held := List.mem_of_mem_erase h

theorem updMtx_same {α : Type} (f : Mtx → α) (m : Mtx) (v : α) : updMtx f m v m = v := by simp [updMtx]

theorem updMtx_other {α : Type} (f : Mtx → α) {m k : Mtx} (v : α) (h : k ≠ m) : updMtx f m v k = f k := by simp [updMtx, h]

theorem raceInv_step {g : Loc → Guard} {s s' : RaceSt} {i : Nat} (h : RaceInv g s) (hs : raceStep s i = some s') :
    RaceInv g s' := by
  unfold raceStep at hs
  split at hs
  case h_2 => cases hs
  case h_1 e es hi =>
    obtain ⟨held, hh⟩ := h.thr i _ hi
    have hok := hh.ok
    simp only [chk] at hok
    obtain ⟨held', hc⟩ : ∃ h', chk1 g i held e = some h' := by
      cases hq : chk1 g i held e with
      | none => rw [hq] at hok; simp at hok
      | some a => exact ⟨a, rfl⟩
    rw [hc] at hok
    simp only [Option.bind_some] at hok
    have hlt : i < s.rest.length := by
      have := List.getElem?_eq_some_iff.mp hi; exact this.1
    -- the other goroutines keep what they hold
    have other : ∀ (w : Mtx → Option Nat) (r : Mtx → List Nat) (hlen : Held),
        HoldsInv g ⟨s.rest.set i es, w, r⟩ i es hlen →
        (∀ (j : Nat), j ≠ i → ∀ m, s.writer m = some j → w m = some j) →
        (∀ (j : Nat), j ≠ i → ∀ m, j ∈ s.readers m → j ∈ r m) →
        (∀ m, w m ≠ none → r m = []) → RaceInv g ⟨s.rest.set i es, w, r⟩ := by
      intro w r hnew hmine hw hr hex
      refine ⟨fun j es' hj => ?_, hex⟩
      by_cases hji : j = i
      · subst hji
        rw [List.getElem?_set_self hlt] at hj
        cases hj
        exact ⟨hnew, hmine⟩
      · rw [List.getElem?_set_ne (fun e => hji e.symm)] at hj
        obtain ⟨hd, k⟩ := h.thr j es' hj
        exact ⟨hd, k.ok, k.nodup, fun m hm => hw j hji m (k.wr m hm), fun m hm => hr j hji m (k.rd m hm)⟩
    cases e with
    | lock m =>
      simp only at hs
      split at hs
      case isFalse => cases hs
      case isTrue hfree =>
        cases hs
        simp only [chk1] at hc
        split at hc
        case isTrue => cases hc
        case isFalse hnot =>
          cases hc
          refine other _ _ ((m, true) :: held) ⟨hok, ?_, ?_, ?_⟩ ?_ ?_ ?_
          · simp only [List.map_cons, List.nodup_cons]
            refine ⟨fun hm => ?_, hh.nodup⟩
            obtain ⟨⟨m', b⟩, hb, e⟩ := List.mem_map.mp hm
            simp only at e; subst e
            cases b
            · exact hnot (.inr hb)
            · exact hnot (.inl hb)
          · intro m' hm'
            simp only
            by_cases e : m' = m
            · subst e; exact updMtx_same ..
            · rw [updMtx_other _ _ e]
              apply hh.wr
              simpa [e] using hm'
          · intro m' hm'
            apply hh.rd
            simpa using hm'
          · intro j hj m' hm'
            by_cases e : m' = m
            · subst e; rw [hfree.1] at hm'; cases hm'
            · rw [updMtx_other _ _ e]; exact hm'
          · intro j _ m' hm'; exact hm'
          · intro m' hm'
            by_cases e : m' = m
            · subst e; exact hfree.2
            · rw [updMtx_other _ _ e] at hm'; exact h.excl _ hm'
    | unlock m =>
      cases hs
      simp only [chk1] at hc
      split at hc
      case isFalse => cases hc
      case isTrue hm =>
        cases hc
        have hne := held_not_both hh.nodup hm
        refine other _ _ (held.erase (m, true)) ⟨hok, erase_fst_nodup hh.nodup _, ?_, ?_⟩ ?_ ?_ ?_
        · intro m' hm'
          simp only
          rw [updMtx_other _ _ (hne m' true hm')]
          exact hh.wr _ (mem_of_mem_erase' hm')
        · intro m' hm'; exact hh.rd _ (mem_of_mem_erase' hm')
        · intro j hj m' hm'
          by_cases e : m' = m
          · subst e; rw [hh.wr _ hm] at hm'; cases hm'; exact absurd rfl hj
          · rw [updMtx_other _ _ e]; exact hm'
        · intro j _ m' hm'; exact hm'
        · intro m' hm'
          by_cases e : m' = m
          · subst e; rw [updMtx_same] at hm'; exact absurd rfl hm'
          · rw [updMtx_other _ _ e] at hm'; exact h.excl _ hm'
    | rlock m =>
      simp only at hs
      split at hs
      case isFalse => cases hs
      case isTrue hfree =>
        cases hs
        simp only [chk1] at hc
        split at hc
        case isTrue => cases hc
        case isFalse hnot =>
          cases hc
          refine other _ _ ((m, false) :: held) ⟨hok, ?_, ?_, ?_⟩ ?_ ?_ ?_
          · simp only [List.map_cons, List.nodup_cons]
            refine ⟨fun hm => ?_, hh.nodup⟩
            obtain ⟨⟨m', b⟩, hb, e⟩ := List.mem_map.mp hm
            simp only at e; subst e
            cases b
            · exact hnot (.inr hb)
            · exact hnot (.inl hb)
          · intro m' hm'
            apply hh.wr
            simpa using hm'
          · intro m' hm'
            simp only
            by_cases e : m' = m
            · subst e; rw [updMtx_same]; simp
            · rw [updMtx_other _ _ e]
              apply hh.rd
              simpa [e] using hm'
          · intro j _ m' hm'; exact hm'
          · intro j _ m' hm'
            by_cases e : m' = m
            · subst e; rw [updMtx_same]; exact List.mem_cons_of_mem _ hm'
            · rw [updMtx_other _ _ e]; exact hm'
          · intro m' hm'
            by_cases e : m' = m
            · subst e; exact absurd hfree hm'
            · rw [updMtx_other _ _ e]; exact h.excl _ hm'
    | runlock m =>
      cases hs
      simp only [chk1] at hc
      split at hc
      case isFalse => cases hc
      case isTrue hm =>
        cases hc
        have hne := held_not_both hh.nodup hm
        refine other _ _ (held.erase (m, false)) ⟨hok, erase_fst_nodup hh.nodup _, ?_, ?_⟩ ?_ ?_ ?_
        · intro m' hm'; exact hh.wr _ (mem_of_mem_erase' hm')
        · intro m' hm'
          simp only
          rw [updMtx_other _ _ (hne m' false hm')]
          exact hh.rd _ (mem_of_mem_erase' hm')
        · intro j _ m' hm'; exact hm'
        · intro j hj m' hm'
          by_cases e : m' = m
          · subst e; rw [updMtx_same]; exact (List.mem_erase_of_ne hj).mpr hm'
          · rw [updMtx_other _ _ e]; exact hm'
        · intro m' hm'
          by_cases e : m' = m
          · subst e; rw [updMtx_same, h.excl _ hm']; rfl
          · rw [updMtx_other _ _ e]; exact h.excl _ hm'
    | rd x =>
      cases hs
      have : held' = held := by
        simp only [chk1] at hc
        split at hc
        · cases hc; rfl
        · split at hc <;> cases hc; rfl
        · split at hc <;> cases hc; rfl
      subst this
      exact other _ _ held' ⟨hok, hh.nodup, hh.wr, hh.rd⟩ (fun _ _ _ k => k) (fun _ _ _ k => k) h.excl
    | wr x =>
      cases hs
      have : held' = held := by
        simp only [chk1] at hc
        split at hc
        · cases hc
        · split at hc <;> cases hc; rfl
        · split at hc <;> cases hc; rfl
      subst this
      exact other _ _ held' ⟨hok, hh.nodup, hh.wr, hh.rd⟩ (fun _ _ _ k => k) (fun _ _ _ k => k) h.excl

theorem raceInv_run {g : Loc → Guard} {progs : List (List Acc)}
    (h : ∀ (i : Nat) es, progs[i]? = some es → (chk g i [] es).isSome) (sched : List Nat) :
    RaceInv g (raceRun progs sched) := by
  unfold raceRun
  generalize hs : raceInit progs = s
  have h0 : RaceInv g s := hs ▸ raceInv_init h
  clear hs
  induction sched generalizing s with
  | nil => exact h0
  | cons i t ih =>
    apply ih
    show RaceInv g ((raceStep s i).getD s)
    cases hst : raceStep s i with
    | none => exact h0
    | some s' => exact raceInv_step h0 hst

/-- Programs that keep to one discipline do not race. -/
theorem raceFree_of_chk (g : Loc → Guard) {progs : List (List Acc)}
    (h : ∀ (i : Nat) es, progs[i]? = some es → (chk g i [] es).isSome) : Spec.RaceFree progs := by
  intro sched i j x ⟨hij, ⟨ei, hi⟩, ej, hj⟩
  have inv := raceInv_run h sched
  obtain ⟨hdi, ki⟩ := inv.thr i _ hi
  have oki := ki.ok
  simp only [chk, chk1] at oki
  have key : ∀ es, (raceRun progs sched).rest[j]? = some es → (∃ t, es = .wr x :: t ∨ es = .rd x :: t) → False := by
    intro es hes ht
    obtain ⟨hdj, kj⟩ := inv.thr j _ hes
    have okj := kj.ok
    cases hg : g x with
    | never => rw [hg] at oki; simp at oki
    | own k =>
      rw [hg] at oki
      simp only at oki
      have e1 : k = i := by
        by_cases e : k = i
        · exact e
        · rw [if_neg e] at oki; simp at oki
      rcases ht with ⟨t, e | e⟩ <;> subst e <;> simp only [chk, chk1, hg] at okj <;>
      · have e2 : k = j := by
          by_cases e : k = j
          · exact e
          · rw [if_neg e] at okj; simp at okj
        exact hij (e1.symm.trans e2)
    | «by» m =>
      rw [hg] at oki
      simp only at oki
      have e1 : (m, true) ∈ hdi := by
        by_cases e : (m, true) ∈ hdi
        · exact e
        · rw [if_neg e] at oki; simp at oki
      have hw := ki.wr m e1
      have hj' : (m, true) ∈ hdj ∨ (m, false) ∈ hdj := by
        rcases ht with ⟨t, e | e⟩ <;> subst e <;> simp only [chk, chk1, hg] at okj
        · by_cases e : (m, true) ∈ hdj
          · exact .inl e
          · rw [if_neg e] at okj; simp at okj
        · by_cases e : (m, true) ∈ hdj ∨ (m, false) ∈ hdj
          · exact e
          · rw [if_neg e] at okj; simp at okj
      rcases hj' with e | e
      · have := kj.wr m e
        rw [hw] at this
        cases this; exact hij rfl
      · have h1 := kj.rd m e
        rw [inv.excl m (by rw [hw]; simp)] at h1
        cases h1
  rcases hj with hj | hj
  · exact key _ hj ⟨ej, .inl rfl⟩
  · exact key _ hj ⟨ej, .inr rfl⟩

/-! ### Lock order -/

/-- The order in which the API takes mutexes it holds together. -/
def mtxRank : Mtx → Nat
  | .set _ => 0 | .router _ => 1 | .node _ => 2 | .logger _ => 3 | .config _ => 4

theorem mtxRank_le (m : Mtx) : mtxRank m ≤ 4 := by cases m <;> simp [mtxRank]

section Order
variable {rk : Mtx → Nat}

/-- The mutexes held after `e`; `none` if `e` takes a mutex out of order or releases one that is not held. -/
def ord1 (rk : Mtx → Nat) (held : Held) : Acc → Option Held
  | .lock m => if ∀ p ∈ held, rk p.1 < rk m then some ((m, true) :: held) else none
  | .unlock m => if (m, true) ∈ held then some (held.erase (m, true)) else none
  | .rlock m => if ∀ p ∈ held, rk p.1 < rk m then some ((m, false) :: held) else none
  | .runlock m => if (m, false) ∈ held then some (held.erase (m, false)) else none
  | .rd _ => some held
  | .wr _ => some held

def ord (rk : Mtx → Nat) : Held → List Acc → Option Held
  | held, [] => some held
  | held, e :: es => (ord1 rk held e).bind fun h => ord rk h es

theorem ord_append (a b : List Acc) (held : Held) : ord rk held (a ++ b) = (ord rk held a).bind fun h => ord rk h b := by
  induction a generalizing held with
  | nil => rfl
  | cons e es ih =>
    simp only [List.cons_append, ord]
    cases ord1 rk held e with
    | none => rfl
    | some h => simpa using ih h

theorem ord_append_same {a b : List Acc} {h : Held} (ha : ord rk h a = some h) : ord rk h (a ++ b) = ord rk h b := by
  rw [ord_append, ha]; rfl

theorem ord_flatMap_same {α : Type} {h : Held} {f : α → List Acc} {l : List α}
    (hl : ∀ x ∈ l, ord rk h (f x) = some h) : ord rk h (l.flatMap f) = some h := by
  induction l with
  | nil => rfl
  | cons a l ih =>
    rw [List.flatMap_cons, ord_append_same (hl a (by simp))]
    exact ih fun x hx => hl x (by simp [hx])

theorem ord_flatten_same {h : Held} {l : List (List Acc)}
    (hl : ∀ x ∈ l, ord rk h x = some h) : ord rk h l.flatten = some h := by
  have := ord_flatMap_same (f := id) hl
  simpa [List.flatMap_id] using this

theorem ord_map_same {α : Type} {h : Held} {f : α → Acc} {l : List α}
    (hl : ∀ x ∈ l, ord1 rk h (f x) = some h) : ord rk h (l.map f) = some h := by
  induction l with
  | nil => rfl
  | cons a l ih =>
    simp only [List.map_cons, ord, hl a (by simp), Option.bind_some]
    exact ih fun x hx => hl x (by simp [hx])

structure OrdInv (rk : Mtx → Nat) (s : RaceSt) (f : Nat → Held) : Prop where
  ok : ∀ (i : Nat) es, s.rest[i]? = some es → ord rk (f i) es = some []
  nodup : ∀ i, ((f i).map Prod.fst).Nodup
  wr : ∀ m j, s.writer m = some j → (m, true) ∈ f j ∧ j < s.rest.length
  rd : ∀ m j, j ∈ s.readers m → (m, false) ∈ f j ∧ j < s.rest.length
  rnodup : ∀ m, (s.readers m).Nodup

theorem not_mem_of_rank {held : Held} {m : Mtx} (h : ∀ p ∈ held, rk p.1 < rk m) (b : Bool) : (m, b) ∉ held :=
  fun hm => Nat.lt_irrefl _ (h _ hm)

theorem ordInv_step {s s' : RaceSt} {i : Nat} {f : Nat → Held} (h : OrdInv rk s f) (hs : raceStep s i = some s') :
    ∃ f', OrdInv rk s' f' := by
  unfold raceStep at hs
  split at hs
  case h_2 => cases hs
  case h_1 e es hi =>
    have hok := h.ok i _ hi
    simp only [ord] at hok
    obtain ⟨held', hc⟩ : ∃ h', ord1 rk (f i) e = some h' := by
      cases hq : ord1 rk (f i) e with
      | none => rw [hq] at hok; simp at hok
      | some a => exact ⟨a, rfl⟩
    rw [hc] at hok
    simp only [Option.bind_some] at hok
    have hlt : i < s.rest.length := (List.getElem?_eq_some_iff.mp hi).1
    refine ⟨fun j => if j = i then held' else f j, ?_⟩
    have hok' : ∀ (j : Nat) es', (s.rest.set i es)[j]? = some es' → ord rk (if j = i then held' else f j) es' = some [] := by
      intro j es' hj
      by_cases hji : j = i
      · subst hji
        rw [List.getElem?_set_self hlt] at hj
        cases hj
        simpa using hok
      · rw [List.getElem?_set_ne (fun e => hji e.symm)] at hj
        simpa [hji] using h.ok j es' hj
    have hlen : (s.rest.set i es).length = s.rest.length := by simp
    have mk : ∀ (w : Mtx → Option Nat) (r : Mtx → List Nat), (held'.map Prod.fst).Nodup →
        (∀ m j, w m = some j → (m, true) ∈ (if j = i then held' else f j) ∧ j < s.rest.length) →
        (∀ m j, j ∈ r m → (m, false) ∈ (if j = i then held' else f j) ∧ j < s.rest.length) →
        (∀ m, (r m).Nodup) → OrdInv rk ⟨s.rest.set i es, w, r⟩ (fun j => if j = i then held' else f j) := by
      intro w r hn hw hr hrn
      refine ⟨hok', fun j => ?_, ?_, ?_, hrn⟩
      · by_cases e : j = i
        · simpa [e] using hn
        · simpa [e] using h.nodup j
      · intro m j hm; rw [hlen]; exact hw m j hm
      · intro m j hm; rw [hlen]; exact hr m j hm
    have old : ∀ (b : Bool) m j, (m, b) ∈ f j → (j = i → (m, b) ∈ held') → (m, b) ∈ (if j = i then held' else f j) := by
      intro b m j hm hi'
      by_cases e : j = i
      · rw [if_pos e]; exact hi' e
      · rw [if_neg e]; exact hm
    have notfst : ∀ {held : Held} {m : Mtx}, (∀ p ∈ held, rk p.1 < rk m) → m ∉ held.map Prod.fst := by
      intro held m hr hm
      obtain ⟨p, hp, e⟩ := List.mem_map.mp hm
      have := hr p hp
      rw [e] at this
      exact Nat.lt_irrefl _ this
    cases e with
    | lock m =>
      simp only at hs
      split at hs
      case isFalse => cases hs
      case isTrue hfree =>
        cases hs
        simp only [ord1] at hc
        split at hc
        case isFalse => cases hc
        case isTrue hr =>
          cases hc
          refine mk _ _ ?_ ?_ ?_ h.rnodup
          · simp only [List.map_cons, List.nodup_cons]
            exact ⟨notfst hr, h.nodup i⟩
          · intro m' j hm
            by_cases e : m' = m
            · subst e
              rw [updMtx_same] at hm; cases hm
              exact ⟨by simp, hlt⟩
            · rw [updMtx_other _ _ e] at hm
              have := h.wr m' j hm
              exact ⟨old _ _ _ this.1 fun e => List.mem_cons_of_mem _ (e ▸ this.1), this.2⟩
          · intro m' j hm
            have := h.rd m' j hm
            exact ⟨old _ _ _ this.1 fun e => List.mem_cons_of_mem _ (e ▸ this.1), this.2⟩
    | unlock m =>
      cases hs
      simp only [ord1] at hc
      split at hc
      case isFalse => cases hc
      case isTrue hm0 =>
        cases hc
        refine mk _ _ (erase_fst_nodup (h.nodup i) _) ?_ ?_ h.rnodup
        · intro m' j hm
          by_cases e : m' = m
          · subst e; rw [updMtx_same] at hm; cases hm
          · rw [updMtx_other _ _ e] at hm
            have := h.wr m' j hm
            refine ⟨old _ _ _ this.1 fun e' => ?_, this.2⟩
            exact (List.mem_erase_of_ne (by simpa using e)).mpr (e' ▸ this.1)
        · intro m' j hm
          have := h.rd m' j hm
          refine ⟨old _ _ _ this.1 fun e' => ?_, this.2⟩
          exact (List.mem_erase_of_ne (by simp)).mpr (e' ▸ this.1)
    | rlock m =>
      simp only at hs
      split at hs
      case isFalse => cases hs
      case isTrue hfree =>
        cases hs
        simp only [ord1] at hc
        split at hc
        case isFalse => cases hc
        case isTrue hr =>
          cases hc
          refine mk _ _ ?_ ?_ ?_ ?_
          · simp only [List.map_cons, List.nodup_cons]
            exact ⟨notfst hr, h.nodup i⟩
          · intro m' j hm
            have := h.wr m' j hm
            exact ⟨old _ _ _ this.1 fun e => List.mem_cons_of_mem _ (e ▸ this.1), this.2⟩
          · intro m' j hm
            by_cases e : m' = m
            · subst e
              rw [updMtx_same] at hm
              rcases List.mem_cons.mp hm with e | hm
              · subst e; exact ⟨by simp, hlt⟩
              · have := h.rd m' j hm
                exact ⟨old _ _ _ this.1 fun e => List.mem_cons_of_mem _ (e ▸ this.1), this.2⟩
            · rw [updMtx_other _ _ e] at hm
              have := h.rd m' j hm
              exact ⟨old _ _ _ this.1 fun e => List.mem_cons_of_mem _ (e ▸ this.1), this.2⟩
          · intro m'
            by_cases e : m' = m
            · subst e
              rw [updMtx_same, List.nodup_cons]
              exact ⟨fun hi' => not_mem_of_rank hr false (h.rd m' i hi').1, h.rnodup m'⟩
            · rw [updMtx_other _ _ e]; exact h.rnodup m'
    | runlock m =>
      cases hs
      simp only [ord1] at hc
      split at hc
      case isFalse => cases hc
      case isTrue hm0 =>
        cases hc
        refine mk _ _ (erase_fst_nodup (h.nodup i) _) ?_ ?_ ?_
        · intro m' j hm
          have := h.wr m' j hm
          refine ⟨old _ _ _ this.1 fun e' => ?_, this.2⟩
          exact (List.mem_erase_of_ne (by simp)).mpr (e' ▸ this.1)
        · intro m' j hm
          by_cases e : m' = m
          · subst e
            rw [updMtx_same] at hm
            have hji : j ≠ i := by
              intro e; subst e
              exact absurd hm (h.rnodup m').not_mem_erase
            have := h.rd m' j (List.mem_of_mem_erase hm)
            exact ⟨old _ _ _ this.1 fun e' => absurd e' hji, this.2⟩
          · rw [updMtx_other _ _ e] at hm
            have := h.rd m' j hm
            refine ⟨old _ _ _ this.1 fun e' => ?_, this.2⟩
            exact (List.mem_erase_of_ne (by simpa using e)).mpr (e' ▸ this.1)
        · intro m'
          by_cases e : m' = m
          · subst e; rw [updMtx_same]; exact (h.rnodup m').sublist List.erase_sublist
          · rw [updMtx_other _ _ e]; exact h.rnodup m'
    | rd x =>
      cases hs; cases hc
      refine mk _ _ (h.nodup i) ?_ ?_ h.rnodup
      · intro m j hm; exact ⟨old _ _ _ (h.wr m j hm).1 fun e => e ▸ (h.wr m j hm).1, (h.wr m j hm).2⟩
      · intro m j hm; exact ⟨old _ _ _ (h.rd m j hm).1 fun e => e ▸ (h.rd m j hm).1, (h.rd m j hm).2⟩
    | wr x =>
      cases hs; cases hc
      refine mk _ _ (h.nodup i) ?_ ?_ h.rnodup
      · intro m j hm; exact ⟨old _ _ _ (h.wr m j hm).1 fun e => e ▸ (h.wr m j hm).1, (h.wr m j hm).2⟩
      · intro m j hm; exact ⟨old _ _ _ (h.rd m j hm).1 fun e => e ▸ (h.rd m j hm).1, (h.rd m j hm).2⟩

theorem ordInv_init {progs : List (List Acc)} (h : ∀ es ∈ progs, ord rk [] es = some []) :
    OrdInv rk (raceInit progs) (fun _ => []) :=
  ⟨fun i es hi => h es (List.mem_of_getElem? hi), by simp, by simp [raceInit], by simp [raceInit], by simp [raceInit]⟩

theorem ordInv_run {s : RaceSt} {f : Nat → Held} (h : OrdInv rk s f) (sched : List Nat) :
    ∃ f', OrdInv rk (sched.foldl (fun s i => (raceStep s i).getD s) s) f' := by
  induction sched generalizing s f with
  | nil => exact ⟨f, h⟩
  | cons i t ih =>
    simp only [List.foldl_cons]
    cases hst : raceStep s i with
    | none => simpa using ih h
    | some s' =>
      obtain ⟨f', h'⟩ := ordInv_step h hst
      simpa using ih h'

/-- Somebody can go on, without waiting for anybody. -/
theorem ordInv_progress {B : Nat} (hB : ∀ m, rk m ≤ B) {s : RaceSt} {f : Nat → Held} (h : OrdInv rk s f) :
    ∀ (n i : Nat) e es, s.rest[i]? = some (e :: es) → (∀ m, e = .lock m ∨ e = .rlock m → B - rk m < n) →
    ∃ j, Spec.CanGo s j := by
  intro n
  induction n with
  | zero =>
    intro i e es hi hn
    refine ⟨i, e, es, hi, fun m hm => absurd (hn m hm) (by omega)⟩
  | succ n ih =>
    intro i e es hi hn
    by_cases hgo : ∀ m, e = .lock m ∨ e = .rlock m → s.writer m = none ∧ s.readers m = []
    · exact ⟨i, e, es, hi, hgo⟩
    · -- somebody holds `m`
      obtain ⟨m, hm⟩ := Classical.not_forall.mp hgo
      obtain ⟨he, hbusy⟩ := Classical.not_imp.mp hm
      obtain ⟨k, b, hk, hlt⟩ : ∃ k b, (m, b) ∈ f k ∧ k < s.rest.length := by
        by_cases hw : s.writer m = none
        · have : s.readers m ≠ [] := fun e => hbusy ⟨hw, e⟩
          obtain ⟨k, hk⟩ := List.exists_mem_of_ne_nil _ this
          exact ⟨k, false, h.rd m k hk⟩
        · obtain ⟨k, hk⟩ := Option.ne_none_iff_exists'.mp hw
          exact ⟨k, true, h.wr m k hk⟩
      have hkr := h.ok k _ (List.getElem?_eq_getElem hlt)
      cases hr : s.rest[k] with
      | nil =>
        rw [hr] at hkr
        simp only [ord, Option.some.injEq] at hkr
        rw [hkr] at hk; cases hk
      | cons e' es' =>
        refine ih k e' es' (by rw [List.getElem?_eq_getElem hlt, hr]) fun m' he' => ?_
        have hrank : rk m < rk m' := by
          rw [hr] at hkr
          simp only [ord] at hkr
          rcases he' with e1 | e1 <;> subst e1 <;> simp only [ord1] at hkr
          · by_cases hq : ∀ p ∈ f k, rk p.1 < rk m'
            · exact hq _ hk
            · rw [if_neg hq] at hkr; simp at hkr
          · by_cases hq : ∀ p ∈ f k, rk p.1 < rk m'
            · exact hq _ hk
            · rw [if_neg hq] at hkr; simp at hkr
        have := hn m he
        have := hB m'
        omega

theorem canGo_step {s : RaceSt} {i : Nat} (h : Spec.CanGo s i) : ∃ s', raceStep s i = some s' := by
  obtain ⟨e, es, hi, hm⟩ := h
  unfold raceStep
  rw [hi]
  cases e with
  | lock m => simp [hm m (.inl rfl)]
  | rlock m => simp [hm m (.inr rfl)]
  | unlock m => exact ⟨_, rfl⟩
  | runlock m => exact ⟨_, rfl⟩
  | rd x => exact ⟨_, rfl⟩
  | wr x => exact ⟨_, rfl⟩

/-- The number of events that remain. -/
def restSize (s : RaceSt) : Nat := (s.rest.map List.length).sum

theorem sum_set_lt {l : List (List Acc)} {i : Nat} {e : Acc} {es : List Acc} (h : l[i]? = some (e :: es)) :
    ((l.set i es).map List.length).sum < (l.map List.length).sum := by
  induction l generalizing i with
  | nil => simp at h
  | cons a t ih =>
    cases i with
    | zero => simp at h; subst h; simp
    | succ i =>
      simp at h
      have := ih h
      simp only [List.set_cons_succ, List.map_cons, List.sum_cons]; omega

theorem restSize_step {s s' : RaceSt} {i : Nat} (h : raceStep s i = some s') : restSize s' < restSize s := by
  unfold raceStep at h
  split at h
  case h_2 => cases h
  case h_1 e es hi =>
    have := sum_set_lt hi
    cases e <;> simp only at h
    case lock m => split at h <;> cases h; exact this
    case rlock m => split at h <;> cases h; exact this
    all_goals cases h; exact this

theorem length_le_sum {l : List (List Acc)} {es : List Acc} (h : es ∈ l) : es.length ≤ (l.map List.length).sum := by
  induction l with
  | nil => cases h
  | cons a t ih =>
    simp only [List.map_cons, List.sum_cons]
    rcases List.mem_cons.mp h with e | e
    · subst e; omega
    · have := ih e; omega

theorem ordInv_finish {B : Nat} (hB : ∀ m, rk m ≤ B) (n : Nat) : ∀ {s : RaceSt} {f : Nat → Held}, OrdInv rk s f → restSize s ≤ n →
    ∃ sched : List Nat, ∀ es ∈ (sched.foldl (fun s i => (raceStep s i).getD s) s).rest, es = [] := by
  induction n with
  | zero =>
    intro s f _ hn
    refine ⟨[], fun es hes => ?_⟩
    simp only [List.foldl_nil] at hes
    have : es.length ≤ restSize s := by
      unfold restSize
      exact length_le_sum hes
    exact List.length_eq_zero_iff.mp (by omega)
  | succ n ih =>
    intro s f h hn
    by_cases hall : ∀ es ∈ s.rest, es = []
    · exact ⟨[], hall⟩
    · obtain ⟨es, hes⟩ := Classical.not_forall.mp hall
      obtain ⟨hmem, hne⟩ := Classical.not_imp.mp hes
      obtain ⟨i, hi⟩ := List.getElem?_of_mem hmem
      cases es with
      | nil => exact absurd rfl hne
      | cons e es =>
        obtain ⟨j, hj⟩ := ordInv_progress hB h (B + 1) i e es hi (fun m _ => by omega)
        obtain ⟨s', hs'⟩ := canGo_step hj
        obtain ⟨f', h'⟩ := ordInv_step h hs'
        obtain ⟨sched, hsched⟩ := ih h' (by have := restSize_step hs'; omega)
        exact ⟨j :: sched, by simpa [hs'] using hsched⟩

/-- Programs that take mutexes in order can always go on to their ends. -/
theorem noDeadlock_of_ord {B : Nat} (hB : ∀ m, rk m ≤ B) {progs : List (List Acc)} (h : ∀ es ∈ progs, ord rk [] es = some []) : Spec.NoDeadlock progs := by
  intro sched
  obtain ⟨f, hf⟩ := ordInv_run (ordInv_init h) sched
  refine ⟨?_, ?_⟩
  · intro i e es hi
    exact ordInv_progress hB hf (B + 1) i e es hi (fun m _ => by omega)
  · obtain ⟨more, hmore⟩ := ordInv_finish hB _ hf (Nat.le_refl _)
    refine ⟨more, ?_⟩
    unfold raceRun
    rw [List.foldl_append]
    exact hmore

end Order

end Verif
