import Verif.Spec.Socket
import Verif.Props.Life
/-
C93 and C94 for whole calls of Run of a whole server: which sockets are closed.
-/
namespace Verif
open Spec

theorem onSocket_iff (l : Ln) (n : Nat) : OnSocket l n ↔ l.socket = n := by
  constructor
  · intro h
    induction h with
    | sock n => rfl
    | tls _ ih => exact ih
  · intro h
    induction l with
    | sock k => cases h; exact .sock _
    | tls l ih => exact .tls (ih h)

/-- What is known of a Run that has returned. -/
theorem run_end {ε : Type} (s s' : LifeSt) (port add : Str) (addr : List Str) (listens : Bool) (evs : List (RunLbl ε)) (r : Option ε)
    (h : s.run port add addr listens evs = .ret (some (s', .returned r))) (n : Nat) (hn : Uses s n) :
    ∃ e, runRun (runFrom ε s.timeout s.locker (s.closed.contains n)) evs = some e ∧ e.returned ∧
      s'.closed = (if e.closed then n :: s.closed else s.closed) ∧ (∃ l, s'.listener = some l ∧ OnSocket l n) ∧ s'.locker = e.locker := by
  have fin : ∀ (s1 : LifeSt) (l : Ln), s1.listener = some l → OnSocket l n → s1.timeout = s.timeout → s1.locker = s.locker → s1.closed = s.closed →
      (match runRun (runFrom ε s1.prepare.1.timeout s1.prepare.1.locker (s1.prepare.1.closed.contains l.socket)) evs with
        | none => .ret none
        | some r => if r.serve = .ended ∧ r.watch = .ended then
            .ret (some ({ (if r.lnReg then ((s1.prepare.1.wrap l (fun _ _ => true)).getD (s1.prepare.1, l)).1 else s1.prepare.1) with
              locker := r.locker,
              closed := if r.closed then l.socket :: (if r.lnReg then ((s1.prepare.1.wrap l (fun _ _ => true)).getD (s1.prepare.1, l)).1 else s1.prepare.1).closed
                else (if r.lnReg then ((s1.prepare.1.wrap l (fun _ _ => true)).getD (s1.prepare.1, l)).1 else s1.prepare.1).closed },
              RunEnd.returned r.egErr)) else .ret none) = Outcome.ret (some (s', RunEnd.returned r)) →
      ∃ e, runRun (runFrom ε s.timeout s.locker (s.closed.contains n)) evs = some e ∧ e.returned ∧
        s'.closed = (if e.closed then n :: s.closed else s.closed) ∧ (∃ l, s'.listener = some l ∧ OnSocket l n) ∧ s'.locker = e.locker := by
    intro s1 l h1 ho ht hk hc hh
    have hs := (onSocket_iff l n).1 ho
    have e1 : s1.prepare.1.timeout = s.timeout := ht
    have e2 : s1.prepare.1.locker = s.locker := hk
    have e3 : s1.prepare.1.closed = s.closed := hc
    have e4 : s1.prepare.1.listener = some l := h1
    have hw : ((s1.prepare.1.wrap l (fun _ _ => true)).getD (s1.prepare.1, l)).1.closed = s.closed ∧
        ∃ l', ((s1.prepare.1.wrap l (fun _ _ => true)).getD (s1.prepare.1, l)).1.listener = some l' ∧ OnSocket l' n := by
      unfold LifeSt.wrap
      by_cases hx : s1.prepare.1.certFile ≠ [] ∧ s1.prepare.1.keyFile ≠ []
      · rw [if_pos hx, if_pos rfl]
        exact ⟨e3, _, rfl, .tls ho⟩
      · rw [if_neg hx]
        exact ⟨e3, l, e4, ho⟩
    rw [e1, e2, e3, hs] at hh
    cases hr : runRun (runFrom ε s.timeout s.locker (s.closed.contains n)) evs with
    | none => rw [hr] at hh; cases hh
    | some e =>
      rw [hr] at hh
      simp only at hh
      by_cases hd : e.serve = .ended ∧ e.watch = .ended
      · rw [if_pos hd] at hh
        have hh' := Outcome.ret.inj hh
        simp only [Option.some.injEq, Prod.mk.injEq] at hh'
        obtain ⟨rfl, -⟩ := hh'
        refine ⟨e, rfl, hd, ?_, ?_, rfl⟩
        · simp only
          cases e.lnReg
          · simp only [Bool.false_eq_true, if_false]; rw [e3]
          · simp only [if_true]; rw [hw.1]
        · simp only
          cases e.lnReg
          · simp only [Bool.false_eq_true, if_false]; exact ⟨l, e4, ho⟩
          · simp only [if_true]; exact hw.2
      · rw [if_neg hd] at hh; cases hh
  unfold LifeSt.run LifeSt.listen at h
  rcases hn with ⟨l, hl, ho⟩ | ⟨hl, hx⟩
  · simp only [hl, Outcome.bind] at h
    exact fin s l hl ho rfl rfl rfl h
  · simp only [hl] at h
    cases hra : resolveAddress port ([add] ++ addr) with
    | ret a =>
      rw [hra] at h
      simp only [Outcome.bind] at h
      cases listens with
      | true =>
        refine fin { s with listener := some (.sock s.next), next := s.next + 1 } (.sock s.next) rfl ?_ rfl rfl rfl h
        rw [hx]; exact .sock n
      | false => cases h
    | panic => rw [hra] at h; cases h
    | outOfFuel => rw [hra] at h; cases h

/-- C94, whole calls.  A Run (with or without TLS, on a listener of the program or one of its own) that came to serve, of a server whose Shutdown has not
been called before, with no shutdown attempted before it served: when it has returned, the socket beneath its listener is closed.  For every
history before, every setting, and everything that happens meanwhile. -/
theorem C94_socket_partial {ε : Type} (s s' : LifeSt) (port add : Str) (addr : List Str) (listens : Bool) (evs : List (RunLbl ε)) (r : Option ε)
    (h : s.run port add addr listens evs = .ret (some (s', .returned r))) (n : Nat) (hn : Uses s n) (hk : s.locker = 0)
    (ho : orderly evs = true) (hserved : RunLbl.serveStart ∈ evs) : n ∈ s'.closed := by
  obtain ⟨e, h1, h2, h3, -, -⟩ := run_end s s' port add addr listens evs r h n hn
  rw [h3]
  by_cases hc : n ∈ s.closed
  · cases e.closed <;> simp [hc]
  · have hf : s.closed.contains n = false := by simpa using hc
    rw [hf, hk] at h1
    have := C94_released_partial s.timeout evs e h1 ho hserved h2
    rw [this]
    simp

/-- C94, nothing else: a Run closes no socket but that beneath its own listener, and opens none that was closed. -/
theorem C94_own {ε : Type} (s s' : LifeSt) (port add : Str) (addr : List Str) (listens : Bool) (evs : List (RunLbl ε)) (r : Option ε)
    (h : s.run port add addr listens evs = .ret (some (s', .returned r))) (n : Nat) (hn : Uses s n) (k : Nat) :
    (k ∈ s'.closed → k = n ∨ k ∈ s.closed) ∧ (k ∈ s.closed → k ∈ s'.closed) := by
  obtain ⟨e, -, -, h3, -, -⟩ := run_end s s' port add addr listens evs r h n hn
  rw [h3]
  cases e.closed
  · exact ⟨fun h => Or.inr (by simpa using h), fun h => by simpa using h⟩
  · exact ⟨fun h => by simpa using h, fun h => by simp [h]⟩

/-- C93, why it is violated: after any Run that has returned, the next Run without a new listener uses the same socket; if that is closed, nothing is ever
accepted on it. -/
theorem C93_socket {ε : Type} (s s' : LifeSt) (port add : Str) (addr : List Str) (listens : Bool) (evs : List (RunLbl ε)) (r : Option ε)
    (h : s.run port add addr listens evs = .ret (some (s', .returned r))) (n : Nat) (hn : Uses s n) :
    Uses s' n ∧ ∀ (port' add' : Str) (addr' : List Str) (listens' : Bool) (evs' : List (RunLbl ε)) (r' : Option ε) (s'' : LifeSt),
      s'.run port' add' addr' listens' evs' = .ret (some (s'', .returned r')) → Uses s'' n ∧ (n ∈ s'.closed → n ∈ s''.closed) := by
  have step : ∀ {s s' : LifeSt} {port add : Str} {addr : List Str} {listens : Bool} {evs : List (RunLbl ε)} {r : Option ε},
      s.run port add addr listens evs = .ret (some (s', .returned r)) → Uses s n → Uses s' n := by
    intro s s' port add addr listens evs r h hn
    obtain ⟨e, -, -, -, h4, -⟩ := run_end s s' port add addr listens evs r h n hn
    exact Or.inl h4
  exact ⟨step h hn, fun port' add' addr' listens' evs' r' s'' h' =>
    ⟨step h' (step h hn), (C94_own s' s'' port' add' addr' listens' evs' r' h' n (step h hn) n).2⟩⟩

/-- A Run over TLS on a socket of the program: stopped by its context. -/
def exRunTls : LifeSt := [Setting.tls b!"c" b!"k", .listener (some (.sock 7))].foldl LifeSt.set (lifeInit 8)

example : (∃ s', exRunTls.run (ε := Nat) [] b!":80" [] true [.serveStart, .cancel, .watchCtx, .serveEnd, .watchEnd none] =
      .ret (some (s', .returned none)) ∧ s'.closed = [7] ∧ s'.listener = some (.tls (.sock 7))) ∧ Uses exRunTls 7 ∧ exRunTls.locker = 0 ∧
    orderly (ε := Nat) [.serveStart, .cancel, .watchCtx, .serveEnd, .watchEnd none] = true :=
  ⟨⟨_, rfl, rfl, rfl⟩, Or.inl ⟨_, rfl, .sock 7⟩, rfl, by decide⟩

end Verif
