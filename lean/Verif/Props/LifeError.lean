import Verif.Props.Life
/-
C92, the calls of Run that do not come to serve.
-/
namespace Verif

/-- C92, when Run does not serve.  Either `net.Listen` was called with Run's address, no listener was given, and it failed: then nothing has
changed.  Or the certificate could not be loaded from the two files given last: then the listener - the one given last, or the socket that Run
opened - and the fasthttp server are kept, and a later Run uses them. -/
theorem C92_fails (n : Nat) (xs : List Setting) (port add : Str) (addr : List Str) (listens : Str → Bool)
    (loads : Str → Str → Bool) (s' : LifeSt) (e : StartErr)
    (h : (xs.foldl LifeSt.set (lifeInit n)).start port add addr listens loads = .ret (s', .error e)) :
    (e = .noListen add ∧ (lastSet Setting.listener? xs).getD none = none ∧ addr = [] ∧ listens add = false ∧
        s' = xs.foldl LifeSt.set (lifeInit n)) ∨
    ∃ c k, e = .noCert c k ∧ lastSet Setting.tls? xs = some (c, k) ∧ c ≠ [] ∧ k ≠ [] ∧ loads c k = false ∧
        s'.listener = some (((lastSet Setting.listener? xs).getD none).getD (.sock n)) ∧ (s'.certFile, s'.keyFile) = (c, k) ∧
        ∃ srv, s'.srv = some srv ∧ srv.handler = .router := by
  obtain ⟨a1, a2, a3, a4, a5, a6, a7, a8⟩ := C92_getters n xs
  generalize xs.foldl LifeSt.set (lifeInit n) = s at *
  have cert : ∀ (s1 : LifeSt) (l : Ln), s1.certFile = s.certFile → s1.keyFile = s.keyFile → s1.listener = some l →
      (s1.prepare.1.wrap l loads) = none →
      lastSet Setting.tls? xs = some (s.certFile, s.keyFile) ∧ s.certFile ≠ [] ∧ s.keyFile ≠ [] ∧ loads s.certFile s.keyFile = false ∧
        s1.prepare.1.listener = some l ∧ (s1.prepare.1.certFile, s1.prepare.1.keyFile) = (s.certFile, s.keyFile) ∧
        ∃ srv, s1.prepare.1.srv = some srv ∧ srv.handler = .router := by
    intro s1 l e1 e2 e3 hw
    have hpw : s1.prepare.1.wrap l loads = if s1.certFile ≠ [] ∧ s1.keyFile ≠ [] then
        if loads s1.certFile s1.keyFile then some ({ s1.prepare.1 with listener := some (.tls l) }, .tls l) else none
        else some (s1.prepare.1, l) := rfl
    rw [hpw, e1, e2] at hw
    by_cases ht : s.certFile ≠ [] ∧ s.keyFile ≠ []
    · rw [if_pos ht] at hw
      by_cases hld : loads s.certFile s.keyFile = true
      · rw [if_pos hld] at hw; cases hw
      · refine ⟨?_, ht.1, ht.2, by simpa using hld, e3, by rw [← e1, ← e2]; rfl, _, rfl, ?_⟩
        · cases hck : lastSet Setting.tls? xs with
          | none =>
            rw [hck] at a5
            simp only [Option.getD_none, Prod.mk.injEq] at a5
            exact absurd a5.1 ht.1
          | some p =>
            rw [hck] at a5
            rw [a5]; rfl
        · dsimp only
          split <;> rfl
    · rw [if_neg ht] at hw; cases hw
  unfold LifeSt.start LifeSt.listen at h
  cases hln : s.listener with
  | some l =>
    simp only [hln, Outcome.bind] at h
    cases hw : s.prepare.1.wrap l loads with
    | some x => rw [hw] at h; cases h
    | none =>
      rw [hw] at h
      have h' := Outcome.ret.inj h
      simp only [Prod.mk.injEq, Except.error.injEq] at h'
      obtain ⟨rfl, rfl⟩ := h'
      have := cert s l rfl rfl hln hw
      rw [← a4, hln]
      exact Or.inr ⟨_, _, rfl, this⟩
  | none =>
    simp only [hln] at h
    cases addr with
    | cons x t => cases h
    | nil =>
      have hr : resolveAddress port ([add] ++ []) = .ret add := rfl
      rw [hr] at h
      simp only [Outcome.bind] at h
      by_cases hlis : listens add = true
      · rw [if_pos hlis] at h
        simp only at h
        cases hw : ({ s with listener := some (.sock s.next), next := s.next + 1 } : LifeSt).prepare.1.wrap (.sock s.next) loads with
        | some x => rw [hw] at h; cases h
        | none =>
          rw [hw] at h
          have h' := Outcome.ret.inj h
          simp only [Prod.mk.injEq, Except.error.injEq] at h'
          obtain ⟨rfl, rfl⟩ := h'
          have := cert { s with listener := some (.sock s.next), next := s.next + 1 } (.sock s.next) rfl rfl rfl hw
          rw [← a4, hln, ← a6]
          exact Or.inr ⟨_, _, rfl, this⟩
      · rw [if_neg hlis] at h
        have h' := Outcome.ret.inj h
        simp only [Prod.mk.injEq, Except.error.injEq] at h'
        obtain ⟨rfl, rfl⟩ := h'
        exact Or.inl ⟨rfl, by rw [← a4, hln], rfl, by simpa using hlis, rfl⟩

/-- A server whose certificate cannot be loaded. -/
example : ∃ s', ([Setting.tls b!"cert" b!"key"].foldl LifeSt.set (lifeInit 3)).start b!"80" b!":8080" [] (fun _ => true) (fun _ _ => false) =
    .ret (s', .error (.noCert b!"cert" b!"key")) ∧ s'.listener = some (.sock 3) := ⟨_, rfl, rfl⟩
/-- A server whose address is in use. -/
example : ∃ s', ([].foldl LifeSt.set (lifeInit 3)).start b!"80" b!":8080" [] (fun _ => false) (fun _ _ => true) =
    .ret (s', .error (.noListen b!":8080")) := ⟨_, rfl⟩

end Verif
