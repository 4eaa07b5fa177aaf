import Verif.Props.GroupProg
/-
C104, exactly: which requests may hang at a goroutine limit.
-/
namespace Verif
open Spec

/-- How many goroutines can still come to stand before EGGo at the same time. -/
def gpStanding (s : GPSt) : Nat := standingFrom (s.progs.map standing).sum s.main

theorem standingFrom_acc (f : GFn) (acc : Nat) : acc ≤ standingFrom acc f := by
  induction f generalizing acc with
  | ret => exact Nat.le_refl _
  | go c r _ ih => exact Nat.le_trans (Nat.le_add_right ..) (ih _)
  | tryGo => exact Nat.le_refl _
  | wait r _ => exact Nat.le_max_left ..

theorem standingFrom_mono (f : GFn) (a b : Nat) (h : a ≤ b) : standingFrom a f ≤ standingFrom b f := by
  induction f generalizing a b with
  | ret => exact h
  | go c r _ ih => exact ih _ _ (by omega)
  | tryGo => exact h
  | wait r _ => simp only [standingFrom]; omega

/-- The functions of the request do not call EGTryGo. -/
def NoTry (s : GPSt) : Prop := noTry s.main = true ∧ ∀ f ∈ s.progs, noTry f = true

/-- Functions without EGTryGo and EGWait that nobody can stand in just return. -/
theorem standing_zero (f : GFn) (ht : noTry f = true) (hw : noWait f = true) (h : standing f = 0) : f = .ret := by
  cases f with
  | ret => rfl
  | go c r => simp only [standing] at h; omega
  | tryGo c y n => cases ht
  | wait r => cases hw

section
variable {n : Nat} {s s' : GPSt}

/-- The steps of a request without EGTryGo, one by one. -/
inductive GPMove (s : GPSt) : GPSt → Prop where
  | mainGo (c r : GFn) (h : s.main = .go c r) (hr : groupRoom s.grp = true) :
      GPMove s ⟨groupSpawn s.grp, r, s.progs ++ [c]⟩
  | mainWait (r : GFn) (h : s.main = .wait r) (hd : ∀ g ∈ s.grp.gs, g = .done) : GPMove s ⟨s.grp, r, s.progs⟩
  | go (k : Nat) (c r : GFn) (hp : s.grp.gs[k]? = some .running) (hf : s.progs[k]? = some (.go c r)) (hr : groupRoom s.grp = true) :
      GPMove s ⟨groupSpawn s.grp, s.main, (s.progs ++ [c]).set k r⟩
  | other (g : GroupSt) : GPMove s ⟨g, s.main, s.progs⟩

theorem gpMove_of_step (hi : GPInv (some n) s) (hn : NoTry s) (t : Option Nat) (h : gpStep s t = some s') : GPMove s s' := by
  cases t with
  | none =>
    simp only [gpStep] at h
    cases hm : s.main with
    | ret => rw [hm] at h; cases h
    | go c r =>
      rw [hm] at h
      simp only [gpCall, groupStep] at h
      cases hr : groupRoom s.grp with
      | false => simp [hr] at h
      | true =>
        simp only [hr, if_true, Option.some.injEq] at h
        subst h
        exact .mainGo c r hm hr
    | tryGo c y z =>
      have := hn.1
      rw [hm] at this
      cases this
    | wait r =>
      rw [hm] at h
      simp only [gpCall, groupStep] at h
      split at h
      · rename_i g b hg
        split at hg <;> cases hg
        rename_i hd
        cases h
        refine .mainWait r hm fun g hg => ?_
        simpa using List.all_eq_true.1 hd g hg
      · cases h
  | some k =>
    simp only [gpStep] at h
    split at h
    · split at h
      · cases h; exact .other _
      · cases h
    · rename_i f hne hp hf
      cases f with
      | ret => exact absurd rfl hne
      | go c r =>
        simp only [gpCall, groupStep] at h
        cases hr : groupRoom s.grp with
        | false => simp [hr] at h
        | true =>
          simp only [hr, if_true, Option.some.injEq] at h
          subst h
          exact .go k c r hp hf hr
      | tryGo c y z =>
        have := hn.2 _ (List.mem_of_getElem? hf)
        cases this
      | wait r =>
        have := hi.quiet _ (List.mem_of_getElem? hf)
        cases this
    · split at h
      · cases h; exact .other _
      · cases h
    · cases h

theorem gpMove_noTry (hn : NoTry s) (h : GPMove s s') : NoTry s' := by
  obtain ⟨h1, h2⟩ := hn
  cases h with
  | mainGo c r hm hr =>
    rw [hm, noTry, Bool.and_eq_true] at h1
    refine ⟨h1.2, fun f hf => ?_⟩
    rcases List.mem_append.1 hf with hf | hf
    · exact h2 f hf
    · rw [List.mem_singleton.1 hf]; exact h1.1
  | mainWait r hm hd =>
    rw [hm, noTry] at h1
    exact ⟨h1, h2⟩
  | go k c r hp hf hr =>
    have h3 := h2 _ (List.mem_of_getElem? hf)
    rw [noTry, Bool.and_eq_true] at h3
    refine ⟨h1, fun f hf => ?_⟩
    rcases List.mem_or_eq_of_mem_set hf with hf | rfl
    · rcases List.mem_append.1 hf with hf | hf
      · exact h2 f hf
      · rw [List.mem_singleton.1 hf]; exact h3.1
    · exact h3.2
  | other g => exact ⟨h1, h2⟩

/-- A goroutine makes its call. -/
theorem standing_set {ps : List GFn} {k : Nat} {c r : GFn} (h : ps[k]? = some (.go c r)) :
    (((ps ++ [c]).set k r).map standing).sum + max 1 (standing c + standing r) =
      (ps.map standing).sum + standing c + standing r := by
  have hk : (ps ++ [c])[k]? = some (.go c r) := by
    rw [List.getElem?_append_left (List.getElem?_eq_some_iff.1 h).1, h]
  have := sum_map_set standing r hk
  simp only [standing, List.map_append, List.sum_append, List.map_cons, List.map_nil, List.sum_cons, List.sum_nil] at this
  omega

/-- All done, nothing left. -/
theorem standing_done (hi : GPInv (some n) s) (hd : ∀ g ∈ s.grp.gs, g = .done) : (s.progs.map standing).sum = 0 := by
  have h : ∀ x ∈ s.progs.map standing, x = 0 := by
    intro x hx
    obtain ⟨f, hf, rfl⟩ := List.mem_map.1 hx
    obtain ⟨k, hk⟩ := List.mem_iff_getElem?.1 hf
    have hkl : k < s.grp.gs.length := by rw [← hi.len]; exact (List.getElem?_eq_some_iff.1 hk).1
    have hp := List.getElem?_eq_getElem hkl
    have hdone := hd _ (List.mem_of_getElem? hp)
    rw [hi.fin k _ f hp (by rw [hdone]; intro h; cases h) hk]
    rfl
  generalize s.progs.map standing = l at h
  induction l with
  | nil => rfl
  | cons x l ih =>
    rw [List.sum_cons, h x (List.mem_cons_self ..), ih fun y hy => h y (List.mem_cons_of_mem _ hy)]

theorem gpMove_standing (hi : GPInv (some n) s) (h : GPMove s s') : gpStanding s' ≤ gpStanding s := by
  unfold gpStanding
  cases h with
  | mainGo c r hm hr =>
    rw [hm]
    simp [standingFrom]
  | mainWait r hm hd =>
    rw [hm, standing_done hi hd]
    simp only [standingFrom]
    omega
  | go k c r hp hf hr =>
    dsimp only
    have := standing_set hf
    exact standingFrom_mono _ _ _ (by omega)
  | other g => exact Nat.le_refl _

/-- Goroutines that stand before EGGo are counted. -/
theorem busy_le_standing {gs : List GPhase} {ps : List GFn} (hl : ps.length = gs.length)
    (h : ∀ k : Nat, ∀ p f, gs[k]? = some p → p ≠ .done → ps[k]? = some f → ∃ c r, f = .go c r) :
    gs.countP (· != .done) ≤ (ps.map standing).sum := by
  induction gs generalizing ps with
  | nil => simp
  | cons p gs ih =>
    cases ps with
    | nil => cases hl
    | cons f ps =>
      have h1 := ih (ps := ps) (by simpa using hl) fun k p' f' hp hd hf => h (k + 1) p' f' (by simpa using hp) hd (by simpa using hf)
      have h2 := h 0 p f rfl
      simp only [List.countP_cons, List.map_cons, List.sum_cons]
      by_cases hd : p = .done
      · subst hd; simp; omega
      · obtain ⟨c, r, rfl⟩ := h2 hd rfl
        simp [standing, hd]
        omega

/-- If every goroutine stands before its last EGGo, of a function that just returns, they are as many as are counted. -/
theorem standing_le_busy {gs : List GPhase} {ps : List GFn} (hl : ps.length = gs.length)
    (h : ∀ k : Nat, ∀ p f, gs[k]? = some p → ps[k]? = some f → (p = .done ∧ f = .ret) ∨ standing f ≤ 1 ∧ p ≠ .done) :
    (ps.map standing).sum ≤ gs.countP (· != .done) := by
  induction gs generalizing ps with
  | nil =>
    cases ps with
    | nil => simp
    | cons f ps => cases hl
  | cons p gs ih =>
    cases ps with
    | nil => cases hl
    | cons f ps =>
      have h1 := ih (ps := ps) (by simpa using hl) fun k p' f' hp hf => h (k + 1) p' f' (by simpa using hp) (by simpa using hf)
      have h2 := h 0 p f rfl rfl
      simp only [List.countP_cons, List.map_cons, List.sum_cons]
      rcases h2 with ⟨rfl, rfl⟩ | ⟨h2, h3⟩
      · simp [standing]; omega
      · simp [h3]; omega

/-- Somebody moves so that as many can still come to stand as the limit allows, unless they do already. -/
theorem gp_towards (hn : NoTry s) (hi : GPInv (some n) s) (hpos : 0 < n) (hs : n ≤ gpStanding s) :
    ((∀ t, gpStep s t = none) ∧ ¬ gpOver s) ∨ ∃ t s', gpStep s t = some s' ∧ n ≤ gpStanding s' := by
  obtain ⟨g1, g2⟩ : GroupInv n s.grp := hi.lim
  -- returns and ends
  by_cases hret : ∃ k : Nat, s.grp.gs[k]? = some .running ∧ s.progs[k]? = some .ret
  · obtain ⟨k, hp, hf⟩ := hret
    refine .inr ⟨some k, { s with grp := ⟨s.grp.sem, s.grp.gs.set k .returned⟩ }, ?_, hs⟩
    simp only [gpStep, hp, hf, groupStep, if_true]
  by_cases hrel : ∃ k : Nat, s.grp.gs[k]? = some .returned
  · obtain ⟨k, hp⟩ := hrel
    have hb : groupBusy s.grp ≠ 0 := fun h0 => by
      have := groupBusy_zero.1 h0 _ (List.mem_of_getElem? hp)
      cases this
    obtain ⟨b, hb⟩ := Nat.exists_eq_succ_of_ne_zero hb
    refine .inr ⟨some k, { s with grp := ⟨some (n, b), s.grp.gs.set k .done⟩ }, ?_, hs⟩
    simp only [gpStep, hp, groupStep, if_true, g1, hb]
  -- everybody stands or is done
  have each : ∀ k : Nat, ∀ p f, s.grp.gs[k]? = some p → s.progs[k]? = some f →
      (p = .done ∧ f = .ret) ∨ p = .running ∧ ∃ c r, f = .go c r := by
    intro k p f hp hf
    cases p with
    | done => exact .inl ⟨rfl, hi.fin k _ f hp (by intro h; cases h) hf⟩
    | returned => exact absurd ⟨k, hp⟩ hrel
    | running =>
      refine .inr ⟨rfl, ?_⟩
      cases f with
      | ret => exact absurd ⟨k, hp, hf⟩ hret
      | go c r => exact ⟨c, r, rfl⟩
      | tryGo c y z =>
        have := hn.2 _ (List.mem_of_getElem? hf)
        cases this
      | wait r =>
        have := hi.quiet _ (List.mem_of_getElem? hf)
        cases this
  have busyEq : groupBusy s.grp = s.grp.gs.countP (· != .done) := rfl
  by_cases hroom : groupBusy s.grp < n
  · right
    have hr : groupRoom s.grp = true := by simp [groupRoom, g1, hroom]
    have stepGo : ∀ (k : Nat) (c r : GFn), s.grp.gs[k]? = some .running → s.progs[k]? = some (.go c r) →
        gpStep s (some k) = some ⟨groupSpawn s.grp, s.main, (s.progs ++ [c]).set k r⟩ := by
      intro k c r hp hf
      simp only [gpStep, hp, hf, gpCall, groupStep, hr, if_true]
    by_cases hmore : ∃ (k : Nat) (c r : GFn), s.grp.gs[k]? = some .running ∧ s.progs[k]? = some (.go c r) ∧ 1 ≤ standing c + standing r
    · obtain ⟨k, c, r, hp, hf, h1⟩ := hmore
      refine ⟨some k, _, stepGo k c r hp hf, ?_⟩
      have := standing_set hf
      refine Nat.le_trans hs (standingFrom_mono _ _ _ ?_)
      dsimp only
      omega
    · have hle : (s.progs.map standing).sum ≤ groupBusy s.grp := by
        rw [busyEq]
        refine standing_le_busy hi.len fun k p f hp hf => ?_
        rcases each k p f hp hf with h | ⟨rfl, c, r, rfl⟩
        · exact .inl h
        · refine .inr ⟨?_, by intro h; cases h⟩
          have : ¬ 1 ≤ standing c + standing r := fun h => hmore ⟨k, c, r, hp, hf, h⟩
          simp only [standing]
          omega
      cases hm : s.main with
      | ret =>
        unfold gpStanding at hs
        rw [hm] at hs
        simp only [standingFrom] at hs
        omega
      | tryGo c y z =>
        have := hn.1
        rw [hm] at this
        cases this
      | go c r =>
        refine ⟨none, ⟨groupSpawn s.grp, r, s.progs ++ [c]⟩, ?_, ?_⟩
        · simp only [gpStep, hm, gpCall, groupStep, hr, if_true]
        · unfold gpStanding at hs ⊢
          rw [hm] at hs
          simpa [standingFrom] using hs
      | wait r =>
        have hs' : n ≤ standingFrom 0 r := by
          unfold gpStanding at hs
          rw [hm] at hs
          simp only [standingFrom] at hs
          omega
        by_cases hd : ∀ g ∈ s.grp.gs, g = .done
        · refine ⟨none, ⟨s.grp, r, s.progs⟩, ?_, ?_⟩
          · have : s.grp.gs.all (· == .done) = true := List.all_eq_true.2 fun g hg => by simp [hd g hg]
            simp only [gpStep, hm, gpCall, groupStep, this, if_true]
          · unfold gpStanding
            exact Nat.le_trans hs' (standingFrom_mono _ _ _ (Nat.zero_le _))
        · have : ∃ g ∈ s.grp.gs, g ≠ .done := by simpa using hd
          obtain ⟨g, hg, hgd⟩ := this
          obtain ⟨k, hk⟩ := List.mem_iff_getElem?.1 hg
          have hkl : k < s.progs.length := by rw [hi.len]; exact (List.getElem?_eq_some_iff.1 hk).1
          have hf := List.getElem?_eq_getElem hkl
          rcases each k g _ hk hf with h | ⟨rfl, c, r', e⟩
          · exact absurd h.1 hgd
          · rw [e] at hf
            refine ⟨some k, _, stepGo k c r' hk hf, ?_⟩
            unfold gpStanding
            dsimp only
            rw [hm]
            simp only [standingFrom]
            omega
  · left
    have hr : groupRoom s.grp = false := by simp [groupRoom, g1]; omega
    have hbn : groupBusy s.grp = n := by omega
    have hnd : s.grp.gs.all (· == .done) = false := by
      cases ha : s.grp.gs.all (· == .done) with
      | false => rfl
      | true =>
        have : groupBusy s.grp = 0 := groupBusy_zero.2 fun g hg => by simpa using List.all_eq_true.1 ha g hg
        omega
    refine ⟨fun t => ?_, fun ho => ?_⟩
    · cases t with
      | none =>
        simp only [gpStep]
        cases hm : s.main with
        | ret => rfl
        | go c r => simp [gpCall, groupStep, hr]
        | tryGo c y z =>
          have := hn.1
          rw [hm] at this
          cases this
        | wait r => simp [gpCall, groupStep, hnd]
      | some k =>
        simp only [gpStep]
        cases hp : s.grp.gs[k]? with
        | none => rfl
        | some p =>
          have hkl : k < s.progs.length := by rw [hi.len]; exact (List.getElem?_eq_some_iff.1 hp).1
          have hf := List.getElem?_eq_getElem hkl
          rw [hf]
          rcases each k p _ hp hf with ⟨rfl, -⟩ | ⟨rfl, c, r, e⟩
          · rfl
          · rw [e]
            simp [gpCall, groupStep, hr]
    · have := ho.2
      simp [groupStep, hnd] at this

theorem gp_reach (n : Nat) (hpos : 0 < n) : ∀ (w : Nat) (s : GPSt), gpWeight s ≤ w → NoTry s → GPInv (some n) s → n ≤ gpStanding s →
    ∃ ts s', gpRun s ts = some s' ∧ (∀ t, gpStep s' t = none) ∧ ¬ gpOver s' := by
  intro w
  induction w with
  | zero =>
    intro s hw hn hi hs
    rcases gp_towards hn hi hpos hs with h | ⟨t, s', h1, -⟩
    · exact ⟨[], s, rfl, h⟩
    · have := (gpStep_inv hi h1).2.2
      omega
  | succ w ih =>
    intro s hw hn hi hs
    rcases gp_towards hn hi hpos hs with h | ⟨t, s', h1, h2⟩
    · exact ⟨[], s, rfl, h⟩
    · obtain ⟨k1, -, k3⟩ := gpStep_inv hi h1
      obtain ⟨ts, s'', j1, j2⟩ := ih s' (by omega) (gpMove_noTry hn (gpMove_of_step hi hn t h1)) k1 h2
      exact ⟨t :: ts, s'', by simp [gpRun, h1, j1], j2⟩

theorem gpRun_standing {ts : List (Option Nat)} (hi : GPInv (some n) s) (hn : NoTry s) (h : gpRun s ts = some s') :
    gpStanding s' ≤ gpStanding s := by
  induction ts generalizing s with
  | nil => cases h; exact Nat.le_refl _
  | cons t ts ih =>
    simp only [gpRun, Option.bind_eq_some_iff] at h
    obtain ⟨s1, h1, h2⟩ := h
    have hm := gpMove_of_step hi hn t h1
    exact Nat.le_trans (ih (gpStep_inv hi h1).1 (gpMove_noTry hn hm) h2) (gpMove_standing hi hm)

end

/-- **C104** (exactly).  A request with limit `n` ≥ 1 whose handlers alone call EGWait and that does not call EGTryGo: some schedule ends in a
state in which nobody can ever go on and EGWait does not return, exactly if `n` of its goroutines can stand before an EGGo at the same time
(without a limit). -/
theorem C104_exact (n : Nat) (hpos : 0 < n) (main : GFn) (hw : handlersWait main = true) (ht : noTry main = true) (s0 : GPSt)
    (h0 : gpInit [.setLimit n] main = some s0) :
    (∃ ts s, gpRun s0 ts = some s ∧ (∀ t, gpStep s t = none) ∧ ¬ gpOver s) ↔ n ≤ standingFrom 0 main := by
  obtain ⟨e1, e2, hinv⟩ := gpInit_inv hw (.inr ⟨n, rfl⟩) h0
  have hi : GPInv (some n) s0 := by
    rcases hinv with ⟨n', hl, hn, hi⟩ | ⟨hl, -⟩
    · cases hl; exact hi
    · rcases hl with hl | ⟨n', hl, hn⟩
      · cases hl
      · cases hl; omega
  have hn : NoTry s0 := ⟨by rw [e1]; exact ht, by rw [e2]; intro f hf; cases hf⟩
  have hst : gpStanding s0 = standingFrom 0 main := by simp [gpStanding, e1, e2]
  constructor
  · rintro ⟨ts, s, h1, h2, h3⟩
    obtain ⟨m, g1, g2, g3, -⟩ := gp_stuck (gpRun_inv hi h1).1 h2 h3
    cases g1
    have k1 := busy_le_standing (gpRun_inv hi h1).1.len g3
    have k2 := gpRun_standing hi hn h1
    have k3 := standingFrom_acc s.main (s.progs.map standing).sum
    have e : groupBusy s.grp = s.grp.gs.countP (· != .done) := rfl
    rw [hst] at k2
    unfold gpStanding at k2
    omega
  · intro h
    exact gp_reach n hpos _ s0 (Nat.le_refl _) hn hi (by rw [hst]; exact h)

/-- Two goroutines that start one each, and one that starts a chain of three: with limit 2 the first pair may hang; the chain alone
never does, although it has more goroutines that call EGGo than the limit. -/
example : standingFrom 0 (.go (.go .ret .ret) (.go (.go .ret .ret) .ret)) = 2 ∧
    standingFrom 0 (.go (.go (.go (.go .ret .ret) .ret) .ret) .ret) = 1 ∧
    starters (.go (.go (.go (.go .ret .ret) .ret) .ret) .ret) = 3 ∧
    standingFrom 0 (.go (.go .ret .ret) (.wait (.go (.go .ret .ret) .ret))) = 1 ∧
    ∃ s0, gpInit [.setLimit 2] (.go (.go .ret .ret) (.go (.go .ret .ret) .ret)) = some s0 := by
  refine ⟨by decide, by decide, by decide, by decide, _, rfl⟩

/-- **C104** (limit 0).  With limit 0 a request hangs exactly if its handlers come to an EGGo, with every EGTryGo before it returning false;
and then it hangs under every schedule. (Whatever the functions do.) -/
theorem C104_zero (main : GFn) (s0 : GPSt) (h0 : gpInit [.setLimit 0] main = some s0) :
    (goWhenNoneStart main = true → ∀ ts s, gpRun s0 ts = some s → ¬ gpOver s) ∧
    (goWhenNoneStart main = false → ∀ ts s, gpRun s0 ts = some s → gpOver s ∨ ∃ t s', gpStep s t = some s') := by
  have e : gpInit [.setLimit 0] main = some ⟨⟨some (0, 0), []⟩, main, []⟩ := by
    simp [gpInit, groupRun, groupStep, groupInit]
  rw [e] at h0
  cases h0
  clear e
  -- nobody is ever started
  have run : ∀ (ts : List (Option Nat)) (f : GFn) (s : GPSt), gpRun ⟨⟨some (0, 0), []⟩, f, []⟩ ts = some s →
      ∃ f', s = ⟨⟨some (0, 0), []⟩, f', []⟩ ∧ goWhenNoneStart f' = goWhenNoneStart f := by
    intro ts
    induction ts with
    | nil => intro f s h; cases h; exact ⟨f, rfl, rfl⟩
    | cons t ts ih =>
      intro f s h
      simp only [gpRun, Option.bind_eq_some_iff] at h
      obtain ⟨s1, h1, h2⟩ := h
      cases t with
      | some k => simp [gpStep] at h1
      | none =>
        cases f with
        | ret => cases h1
        | go c r => simp [gpStep, gpCall, groupStep, groupRoom] at h1
        | tryGo c y z =>
          simp [gpStep, gpCall, groupStep, groupRoom] at h1
          subst h1
          exact ih z s h2
        | wait r =>
          simp [gpStep, gpCall, groupStep] at h1
          subst h1
          exact ih r s h2
  constructor
  · intro hg ts s h ho
    obtain ⟨f', rfl, hf⟩ := run ts main s h
    have := ho.1
    dsimp only at this
    rw [this, hg] at hf
    cases hf
  · intro hg ts s h
    obtain ⟨f', rfl, hf⟩ := run ts main s h
    rw [hg] at hf
    cases f' with
    | ret => exact .inl ⟨rfl, rfl⟩
    | go c r => cases hf
    | tryGo c y z => exact .inr ⟨none, ⟨⟨some (0, 0), []⟩, z, []⟩, rfl⟩
    | wait r => exact .inr ⟨none, ⟨⟨some (0, 0), []⟩, r, []⟩, rfl⟩

example : goWhenNoneStart (.wait (.tryGo .ret .ret (.go .ret .ret))) = true ∧ goWhenNoneStart (.tryGo .ret (.go .ret .ret) .ret) = false ∧
    gpInit [.setLimit 0] (.go .ret .ret) = some ⟨⟨some (0, 0), []⟩, .go .ret .ret, []⟩ := ⟨rfl, rfl, rfl⟩

/-- What a step of a request is for its group. -/
theorem gpStep_group {s s' : GPSt} {t : Option Nat} (h : gpStep s t = some s') :
    ∃ os, groupRun s.grp os = some s'.grp ∧ ∀ o ∈ os, o.isLimit = false := by
  have call : ∀ {put : GPSt → GFn → GPSt} {f : GFn}, (∀ s f, (put s f).grp = s.grp) → gpCall s put f = some s' →
      ∃ os, groupRun s.grp os = some s'.grp ∧ ∀ o ∈ os, o.isLimit = false := by
    intro put f hput hc
    obtain ⟨ks, f', o, b, g, -, ho, hg, -, rfl⟩ := gpCall_next hc
    refine ⟨[o], ?_, ?_⟩
    · simp only [groupRun, hg, hput]
    · intro o' ho'
      rw [List.mem_singleton.1 ho']
      exact ho
  cases t with
  | none =>
    simp only [gpStep] at h
    refine call ?_ h
    intros; rfl
  | some k =>
    simp only [gpStep] at h
    split at h
    · split at h
      · rename_i g b hg
        cases h
        exact ⟨[.fin k], by simp only [groupRun, hg], by simp [GOp.isLimit]⟩
      · cases h
    · exact call (by intros; rfl) h
    · split at h
      · rename_i g b hg
        cases h
        exact ⟨[.rel k], by simp only [groupRun, hg], by simp [GOp.isLimit]⟩
      · cases h
    · cases h

/-- **C104** and C84: whatever a request's handlers and functions do, its group goes through a history of calls as C84 speaks of: after
EGSetLimit(n), at most `n` goroutines are not done at any time. -/
theorem C104_limit (n : Nat) (main : GFn) (s0 s : GPSt) (h0 : gpInit [.setLimit n] main = some s0) (ts : List (Option Nat))
    (h : gpRun s0 ts = some s) :
    (∃ os, groupRun groupInit (.setLimit n :: os) = some s.grp ∧ ∀ o ∈ os, o.isLimit = false) ∧ groupBusy s.grp ≤ n := by
  have hist : ∃ os, groupRun groupInit (.setLimit n :: os) = some s.grp ∧ ∀ o ∈ os, o.isLimit = false := by
    have hr : ∀ (ts : List (Option Nat)) (s0 : GPSt), gpRun s0 ts = some s → ∃ os, groupRun s0.grp os = some s.grp ∧ ∀ o ∈ os, o.isLimit = false := by
      intro ts
      induction ts with
      | nil => intro s0 h; cases h; exact ⟨[], rfl, by intro o ho; cases ho⟩
      | cons t ts ih =>
        intro s0 h
        simp only [gpRun, Option.bind_eq_some_iff] at h
        obtain ⟨s1, h1, h2⟩ := h
        obtain ⟨o1, a1, a2⟩ := gpStep_group h1
        obtain ⟨o2, b1, b2⟩ := ih s1 h2
        refine ⟨o1 ++ o2, by rw [groupRun_append, a1]; exact b1, fun o ho => ?_⟩
        rcases List.mem_append.1 ho with ho | ho
        · exact a2 o ho
        · exact b2 o ho
    obtain ⟨os, k1, k2⟩ := hr ts s0 h
    refine ⟨os, ?_, k2⟩
    unfold gpInit at h0
    obtain ⟨g, hg, rfl⟩ := Option.map_eq_some_iff.1 h0
    have : groupRun groupInit ([.setLimit n] ++ os) = some s.grp := by
      rw [groupRun_append, hg]
      exact k1
    exact this
  refine ⟨hist, ?_⟩
  obtain ⟨os, h1, h2⟩ := hist
  exact (C84_limit_partial n [] os groupInit rfl (by intro g hg; cases hg) h2 s.grp h1).2.1

end Verif
