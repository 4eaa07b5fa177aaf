import Verif.Model.Life
import Verif.Props.ServerRun
/-
C92: the settings of a server.  C93: running a server again.  C94: the listener after Run.
-/
namespace Verif

/-! ### C92 -/

/-- The last value a history of setter calls gives to the field `f` selects. -/
def lastSet {α : Type} (f : Setting → Option α) (xs : List Setting) : Option α := (xs.filterMap f).getLast?

def Setting.server? : Setting → Option (Option FastSrv)
  | .server x => some x
  | _ => none
def Setting.listener? : Setting → Option (Option Ln)
  | .listener x => some x
  | _ => none
def Setting.name? : Setting → Option Str
  | .name x => some x
  | _ => none
def Setting.tls? : Setting → Option (Str × Str)
  | .tls c k => some (c, k)
  | _ => none
def Setting.timeout? : Setting → Option Int
  | .timeout x => some x
  | _ => none

theorem lastSet_nil {α : Type} (f : Setting → Option α) : lastSet f [] = none := rfl

theorem lastSet_snoc {α : Type} (f : Setting → Option α) (xs : List Setting) (x : Setting) :
    lastSet f (xs ++ [x]) = (f x).or (lastSet f xs) := by
  unfold lastSet
  rw [List.filterMap_append]
  cases hx : f x with
  | none => simp [hx]
  | some v => simp [hx]

/-- C92, the getters: ServerName, ShutdownTimeOut and Server return the last value set (at first "", 0 and nil); the other
fields hold theirs. -/
theorem C92_getters (n : Nat) (xs : List Setting) :
    (xs.foldl LifeSt.set (lifeInit n)).serverName = (lastSet Setting.name? xs).getD [] ∧
    (xs.foldl LifeSt.set (lifeInit n)).timeout = (lastSet Setting.timeout? xs).getD 0 ∧
    (xs.foldl LifeSt.set (lifeInit n)).srv = (lastSet Setting.server? xs).getD none ∧
    (xs.foldl LifeSt.set (lifeInit n)).listener = (lastSet Setting.listener? xs).getD none ∧
    ((xs.foldl LifeSt.set (lifeInit n)).certFile, (xs.foldl LifeSt.set (lifeInit n)).keyFile) =
      (lastSet Setting.tls? xs).getD ([], []) ∧
    (xs.foldl LifeSt.set (lifeInit n)).next = n ∧ (xs.foldl LifeSt.set (lifeInit n)).locker = 0 ∧
    (xs.foldl LifeSt.set (lifeInit n)).closed = [] := by
  have key : ∀ m (xs : List Setting), xs.length = m →
    (xs.foldl LifeSt.set (lifeInit n)).serverName = (lastSet Setting.name? xs).getD [] ∧
    (xs.foldl LifeSt.set (lifeInit n)).timeout = (lastSet Setting.timeout? xs).getD 0 ∧
    (xs.foldl LifeSt.set (lifeInit n)).srv = (lastSet Setting.server? xs).getD none ∧
    (xs.foldl LifeSt.set (lifeInit n)).listener = (lastSet Setting.listener? xs).getD none ∧
    ((xs.foldl LifeSt.set (lifeInit n)).certFile, (xs.foldl LifeSt.set (lifeInit n)).keyFile) =
      (lastSet Setting.tls? xs).getD ([], []) ∧
    (xs.foldl LifeSt.set (lifeInit n)).next = n ∧ (xs.foldl LifeSt.set (lifeInit n)).locker = 0 ∧
    (xs.foldl LifeSt.set (lifeInit n)).closed = [] := by
    intro m
    induction m with
    | zero =>
      intro xs h
      have : xs = [] := List.length_eq_zero_iff.mp h
      subst this
      exact ⟨rfl, rfl, rfl, rfl, rfl, rfl, rfl, rfl⟩
    | succ m ih =>
      intro xs h
      have hne : xs ≠ [] := by intro e; subst e; cases h
      obtain ⟨a1, a2, a3, a4, a5, a6, a7, a8⟩ := ih xs.dropLast (by simp [h])
      rw [← List.dropLast_concat_getLast hne]
      simp only [List.foldl_append, List.foldl_cons, List.foldl_nil, lastSet_snoc]
      cases xs.getLast hne <;>
        simp only [LifeSt.set, Setting.server?, Setting.listener?, Setting.name?, Setting.tls?, Setting.timeout?, Option.some_or,
          Option.none_or, Option.getD_some, a1, a2, a3, a4, a5, a6, a7, a8, and_self, true_and, and_true] <;> first | exact a5 | trivial
  exact key xs.length xs rfl

/-- C92, what Run serves: after any history of setter calls, what a call `Run(ctx, add, addr...)` hands to fasthttp.
The listener is the last one given to SetListener (nil: a new one, at `add`), wrapped in TLS exactly when both files of the
last SetServerTLS are named; the fasthttp server is the last one given to SetServer (nil: a new one), with the router's
handler in any case, and with the last server name unless that is empty. -/
theorem C92_served (n : Nat) (xs : List Setting) (port add : Str) (addr : List Str) (listens : Str → Bool)
    (loads : Str → Str → Bool) (s' : LifeSt) (st : Started)
    (h : (xs.foldl LifeSt.set (lifeInit n)).start port add addr listens loads = .ret (s', .ok st)) :
    (∀ l, lastSet Setting.listener? xs = some (some l) → st.addr = none) ∧
    ((lastSet Setting.listener? xs).getD none = none → st.addr = some add ∧ addr = [] ∧ listens add = true) ∧
    (∀ c k, lastSet Setting.tls? xs = some (c, k) → c ≠ [] → k ≠ [] →
      loads c k = true ∧ st.ln = .tls (((lastSet Setting.listener? xs).getD none).getD (.sock n))) ∧
    ((∀ c k, lastSet Setting.tls? xs = some (c, k) → c = [] ∨ k = []) →
      st.ln = ((lastSet Setting.listener? xs).getD none).getD (.sock n)) ∧
    st.srv.handler = .router ∧
    st.srv.name = (if (lastSet Setting.name? xs).getD [] ≠ [] then (lastSet Setting.name? xs).getD []
      else (((lastSet Setting.server? xs).getD none).map FastSrv.name).getD []) := by
  obtain ⟨a1, a2, a3, a4, a5, a6, a7, a8⟩ := C92_getters n xs
  generalize xs.foldl LifeSt.set (lifeInit n) = s at *
  rw [← a4, ← a1, ← a3]
  have hl4 : ∀ l, lastSet Setting.listener? xs = some (some l) → s.listener = some l := by
    intro l hl; rw [a4, hl]; rfl
  have htls : ∀ c k, lastSet Setting.tls? xs = some (c, k) → s.certFile = c ∧ s.keyFile = k := by
    intro c k hck; rw [hck] at a5
    simp only [Option.getD_some, Prod.mk.injEq] at a5; exact a5
  have htls' : (∀ c k, lastSet Setting.tls? xs = some (c, k) → c = [] ∨ k = []) → ¬ (s.certFile ≠ [] ∧ s.keyFile ≠ []) := by
    intro hh
    cases hck : lastSet Setting.tls? xs with
    | none =>
      rw [hck] at a5
      simp only [Option.getD_none, Prod.mk.injEq] at a5
      rintro ⟨x, -⟩; exact x a5.1
    | some p =>
      obtain ⟨c, k⟩ := p
      obtain ⟨b1, b2⟩ := htls c k hck
      rw [b1, b2]
      rintro ⟨x, y⟩
      rcases hh c k hck with e | e
      · exact x e
      · exact y e
  have hname : s.prepare.2.handler = .router ∧ s.prepare.2.name =
      (if s.serverName ≠ [] then s.serverName else (s.srv.map FastSrv.name).getD []) := by
    unfold LifeSt.prepare
    dsimp only
    by_cases hn : s.serverName ≠ []
    · rw [if_pos hn, if_pos hn]; exact ⟨rfl, rfl⟩
    · rw [if_neg hn, if_neg hn]
      refine ⟨rfl, ?_⟩
      cases s.srv <;> rfl
  unfold LifeSt.start LifeSt.listen at h
  cases hln : s.listener with
  | some l =>
    simp only [hln, Outcome.bind] at h
    have hpw : ∀ l loads, (s.prepare.1.wrap l loads) = if s.certFile ≠ [] ∧ s.keyFile ≠ [] then
        if loads s.certFile s.keyFile then some ({ s.prepare.1 with listener := some (.tls l) }, .tls l) else none
        else some (s.prepare.1, l) := fun _ _ => rfl
    rw [hpw] at h
    refine ⟨fun l' hl' => ?_, fun hnone => (by cases hnone), ?_⟩
    · by_cases ht : s.certFile ≠ [] ∧ s.keyFile ≠ []
      · rw [if_pos ht] at h
        split at h
        · cases h
        · rename_i x; cases h; rfl
      · rw [if_neg ht] at h; cases h; rfl
    · by_cases ht : s.certFile ≠ [] ∧ s.keyFile ≠ []
      · rw [if_pos ht] at h
        by_cases hld : loads s.certFile s.keyFile = true
        · rw [if_pos hld] at h
          cases h
          refine ⟨fun c k hck _ _ => ?_, fun hh => absurd ht (htls' hh), hname.1, hname.2⟩
          obtain ⟨b1, b2⟩ := htls c k hck
          rw [← b1, ← b2]; exact ⟨hld, rfl⟩
        · rw [if_neg hld] at h; cases h
      · rw [if_neg ht] at h
        cases h
        refine ⟨fun c k hck hc hk => ?_, fun _ => rfl, hname.1, hname.2⟩
        obtain ⟨b1, b2⟩ := htls c k hck
        rw [b1, b2] at ht; exact absurd ⟨hc, hk⟩ ht
  | none =>
    simp only [hln] at h
    cases addr with
    | cons x t => cases h
    | nil =>
      have hr : resolveAddress port ([add] ++ []) = .ret add := rfl
      rw [hr] at h
      simp only [Outcome.bind] at h
      by_cases hlis : listens add = true
      · rw [if_pos hlis] at h
        simp only at h
        have hpw : ∀ l loads, (({ s with listener := some (.sock s.next), next := s.next + 1 } : LifeSt).prepare.1.wrap l loads) =
          if s.certFile ≠ [] ∧ s.keyFile ≠ [] then
          if loads s.certFile s.keyFile then
            some ({ ({ s with listener := some (.sock s.next), next := s.next + 1 } : LifeSt).prepare.1 with listener := some (.tls l) }, .tls l) else none
          else some (({ s with listener := some (.sock s.next), next := s.next + 1 } : LifeSt).prepare.1, l) := fun _ _ => rfl
        rw [hpw] at h
        refine ⟨fun l hl => ?_, fun _ => ?_, ?_⟩
        · rw [hl4 l hl] at hln; cases hln
        · by_cases ht : s.certFile ≠ [] ∧ s.keyFile ≠ []
          · rw [if_pos ht] at h
            split at h
            · cases h
            · cases h; exact ⟨rfl, rfl, hlis⟩
          · rw [if_neg ht] at h; cases h; exact ⟨rfl, rfl, hlis⟩
        · by_cases ht : s.certFile ≠ [] ∧ s.keyFile ≠ []
          · rw [if_pos ht] at h
            by_cases hld : loads s.certFile s.keyFile = true
            · rw [if_pos hld] at h
              cases h
              refine ⟨fun c k hck _ _ => ?_, fun hh => absurd ht (htls' hh), hname.1, hname.2⟩
              obtain ⟨b1, b2⟩ := htls c k hck
              rw [← b1, ← b2, ← a6]; exact ⟨hld, rfl⟩
            · rw [if_neg hld] at h; cases h
          · rw [if_neg ht] at h
            cases h
            refine ⟨fun c k hck hc hk => ?_, fun _ => by rw [← a6]; rfl, hname.1, hname.2⟩
            obtain ⟨b1, b2⟩ := htls c k hck
            rw [b1, b2] at ht; exact absurd ⟨hc, hk⟩ ht
      · rw [if_neg hlis] at h; cases h

/-- C92, when Run serves: it does with a listener or a single address at which `net.Listen` succeeds, if TLS is off (no
SetServerTLS, or an empty file name) or its files can be loaded. -/
theorem C92_serves (n : Nat) (xs : List Setting) (port add : Str) (addr : List Str) (listens : Str → Bool)
    (loads : Str → Str → Bool)
    (hl : (lastSet Setting.listener? xs).getD none ≠ none ∨ (addr = [] ∧ listens add = true))
    (ht : ∀ c k, lastSet Setting.tls? xs = some (c, k) → c = [] ∨ k = [] ∨ loads c k = true) :
    ∃ s' st, (xs.foldl LifeSt.set (lifeInit n)).start port add addr listens loads = .ret (s', .ok st) := by
  obtain ⟨a1, a2, a3, a4, a5, a6, a7, a8⟩ := C92_getters n xs
  generalize xs.foldl LifeSt.set (lifeInit n) = s at *
  rw [← a4] at hl
  have htls : ¬ (s.certFile ≠ [] ∧ s.keyFile ≠ []) ∨ loads s.certFile s.keyFile = true := by
    cases hck : lastSet Setting.tls? xs with
    | none =>
      rw [hck] at a5
      simp only [Option.getD_none, Prod.mk.injEq] at a5
      exact Or.inl (by rintro ⟨x, -⟩; exact x a5.1)
    | some p =>
      obtain ⟨c, k⟩ := p
      rw [hck] at a5
      simp only [Option.getD_some, Prod.mk.injEq] at a5
      rw [a5.1, a5.2]
      rcases ht c k hck with e | e | e
      · exact Or.inl (by rintro ⟨x, -⟩; exact x e)
      · exact Or.inl (by rintro ⟨-, x⟩; exact x e)
      · exact Or.inr e
  have hw : ∀ (s1 : LifeSt) (l : Ln), s1.certFile = s.certFile → s1.keyFile = s.keyFile → ∃ x, s1.prepare.1.wrap l loads = some x := by
    intro s1 l e1 e2
    have : s1.prepare.1.wrap l loads = if s1.certFile ≠ [] ∧ s1.keyFile ≠ [] then
        if loads s1.certFile s1.keyFile then some ({ s1.prepare.1 with listener := some (.tls l) }, .tls l) else none
        else some (s1.prepare.1, l) := rfl
    rw [this, e1, e2]
    rcases htls with h | h
    · rw [if_neg h]; exact ⟨_, rfl⟩
    · rw [if_pos h]
      split <;> exact ⟨_, rfl⟩
  unfold LifeSt.start LifeSt.listen
  cases hln : s.listener with
  | some l =>
    simp only [hln, Outcome.bind]
    obtain ⟨x, hx⟩ := hw s l rfl rfl
    rw [hx]; exact ⟨_, _, rfl⟩
  | none =>
    rcases hl with h | ⟨h1, h2⟩
    · exact absurd hln h
    · subst h1
      have hr : resolveAddress port ([add] ++ []) = .ret add := rfl
      simp only [hln, hr, Outcome.bind, h2, if_true]
      obtain ⟨x, hx⟩ := hw { s with listener := some (.sock s.next), next := s.next + 1 } (.sock s.next) rfl rfl
      rw [hx]; exact ⟨_, _, rfl⟩

/-- A name, a server of one's own, then TLS: served with TLS under the name, at the address. -/
example : ((([.name b!"a", .server (some ⟨b!"own", .user 3⟩), .tls b!"c" b!"k", .name b!"b"] : List Setting).foldl LifeSt.set (lifeInit 5)).start
    [] b!":80" [] (fun _ => true) (fun _ _ => true)).bind (fun p => .ret p.2.toOption)
    = .ret (some ⟨some b!":80", ⟨b!"b", .router⟩, .tls (.sock 5)⟩) := by rfl

/-! ### C93: running a server again -/

/-- While Serve has stored its listener: a shutdown call that reaches fasthttp closes it. -/
def RunAgain {ε : Type} (s : RunSt ε) : Prop :=
  0 < s.timeout ∧ ((s.serve = .starting ∧ s.watch = .waiting) ∨
    (s.serve ≠ .starting ∧ (s.serve = .serving → s.lnReg = true) ∧ (s.watch ≠ .waiting → s.closed = true ∨ s.serve = .ended)))

theorem shutdown_same {ε : Type} (s : RunSt ε) : s.shutdown.1.serve = s.serve ∧ s.shutdown.1.lnReg = s.lnReg ∧
    s.shutdown.1.watch = s.watch ∧ s.shutdown.1.timeout = s.timeout ∧ s.shutdown.1.locker = s.locker + 1 ∧
    s.shutdown.1.cancelled = s.cancelled ∧ s.shutdown.1.signalled = s.signalled ∧ s.shutdown.1.egErr = s.egErr ∧
    (s.closed = true → s.shutdown.1.closed = true) := by
  unfold RunSt.shutdown
  split
  · exact ⟨rfl, rfl, rfl, rfl, rfl, rfl, rfl, rfl, id⟩
  · unfold RunSt.fastShutdown
    split
    · exact ⟨rfl, rfl, rfl, rfl, rfl, rfl, rfl, rfl, fun _ => rfl⟩
    · exact ⟨rfl, rfl, rfl, rfl, rfl, rfl, rfl, rfl, id⟩

theorem fastShutdown_fields {ε : Type} (s : RunSt ε) : s.fastShutdown.timeout = s.timeout ∧ s.fastShutdown.cancelled = s.cancelled ∧
    s.fastShutdown.signalled = s.signalled ∧ s.fastShutdown.egErr = s.egErr ∧
    (s.lnReg = true → s.fastShutdown.closed = true) := by
  unfold RunSt.fastShutdown
  split
  · exact ⟨rfl, rfl, rfl, rfl, fun _ => rfl⟩
  · rename_i h; exact ⟨rfl, rfl, rfl, rfl, fun h' => absurd h' h⟩

theorem runAgain {ε : Type} (ls : List (RunLbl ε)) (s s' : RunSt ε) (h : RunAgain s)
    (ho : s.serve = .starting → orderly ls = true) (hr : runRun s ls = some s') : RunAgain s' := by
  induction ls generalizing s with
  | nil => simp only [runRun, Option.some.injEq] at hr; subst hr; exact h
  | cons l t ih =>
    simp only [runRun] at hr
    split at hr
    · cases hr
    · rename_i s1 heq
      have ih' : RunAgain s1 → (s1.serve = .starting → orderly t = true) → RunAgain s' := fun a b => ih s1 a b hr
      obtain ⟨ht, h⟩ := h
      have hfc : s.serve = .starting ∨ s.fastShutdown.closed = true ∨ s.serve = .ended := by
        rcases h with h | h
        · exact Or.inl h.1
        · cases hs : s.serve with
          | starting => exact Or.inl rfl
          | serving => exact Or.inr (Or.inl ((fastShutdown_fields s).2.2.2.2 (h.2.1 hs)))
          | ended => exact Or.inr (Or.inr rfl)
      obtain ⟨b1, b2, b3, b4, b5, b6, b7, b8, b9⟩ := shutdown_same s
      obtain ⟨f1, f2, f3, f4, f5⟩ := fastShutdown_fields s
      obtain ⟨g1, g2, g3, g4, g5⟩ := fastShutdown_same s
      cases l with
      | cancel =>
        simp only [runStep, Option.some.injEq] at heq; subst heq
        exact ih' ⟨ht, h⟩ (fun e => by simpa [orderly] using ho e)
      | signal =>
        simp only [runStep, Option.some.injEq] at heq; subst heq
        exact ih' ⟨ht, h⟩ (fun e => by simpa [orderly] using ho e)
      | userShutdown =>
        simp only [runStep, Option.some.injEq] at heq; subst heq
        refine ih' ⟨by rw [b4]; exact ht, ?_⟩ (fun e => by rw [b1] at e; exact absurd (ho e) (by simp [orderly]))
        rw [b1, b2, b3]
        rcases h with h | ⟨h1, h2, h3⟩
        · exact Or.inl h
        · refine Or.inr ⟨h1, h2, fun hw => ?_⟩
          rcases h3 hw with h | h
          · exact Or.inl (b9 h)
          · exact Or.inr h
      | serveFail e =>
        simp only [runStep] at heq
        split at heq
        · cases heq
        · cases heq
          exact ih' ⟨ht, Or.inr ⟨(fun h => by cases h), (fun h => by cases h), fun _ => Or.inr rfl⟩⟩ (fun h => by cases h)
      | serveStart =>
        simp only [runStep] at heq
        split at heq
        · rename_i hst
          cases heq
          refine ih' ⟨ht, Or.inr ⟨(fun h => by cases h), fun _ => rfl, fun hw => ?_⟩⟩ (fun h => by cases h)
          rcases h with h | h
          · exact absurd h.2 hw
          · exact absurd hst h.1
        · cases heq
      | serveEnd =>
        simp only [runStep] at heq
        split at heq
        · cases heq
          exact ih' ⟨ht, Or.inr ⟨(fun h => by cases h), (fun h => by cases h), fun _ => Or.inr rfl⟩⟩ (fun h => by cases h)
        · cases heq
      | watchCtx =>
        have hns : s.serve ≠ .starting := fun e => absurd (ho e) (by simp [orderly])
        simp only [runStep, gt_iff_lt, ht, if_true] at heq
        split at heq
        · cases heq
          refine ih' ⟨by simp only [f1]; exact ht, Or.inr ⟨by simp only [g1]; exact hns, ?_, fun _ => ?_⟩⟩
            (fun e => by simp only [g1] at e; exact absurd e hns)
          · simp only [g1, g2]
            rcases h with h | h
            · exact absurd h.1 hns
            · exact h.2.1
          · simp only [g1]
            rcases hfc with h | h
            · exact absurd h hns
            · exact h
        · cases heq
      | watchSig =>
        have hns : s.serve ≠ .starting := fun e => absurd (ho e) (by simp [orderly])
        simp only [runStep] at heq
        split at heq
        · cases heq
          refine ih' ⟨by simp only [f1]; exact ht, Or.inr ⟨by simp only [g1]; exact hns, ?_, fun _ => ?_⟩⟩
            (fun e => by simp only [g1] at e; exact absurd e hns)
          · simp only [g1, g2]
            rcases h with h | h
            · exact absurd h.1 hns
            · exact h.2.1
          · simp only [g1]
            rcases hfc with h | h
            · exact absurd h hns
            · exact h
        · cases heq
      | watchEnd r =>
        simp only [runStep] at heq
        split at heq
        · rename_i wait hw
          split at heq
          · cases heq
          · cases heq
            rcases h with h | ⟨h1, h2, h3⟩
            · rw [hw] at h; exact absurd h.2 (by simp)
            · exact ih' ⟨ht, Or.inr ⟨h1, h2, fun _ => h3 (by rw [hw]; simp)⟩⟩ (fun e => absurd e h1)
        · cases heq

theorem returned_of_stuck {ε : Type} (s : RunSt ε) (h1 : s.serve ≠ .starting)
    (h4 : s.watch ≠ .waiting → s.closed = true ∨ s.serve = .ended) (hw : s.watch ≠ .waiting) (hstuck : s.stuck) : s.returned := by
  have hse : s.serve = .ended := by
    cases hs : s.serve with
    | starting => exact absurd hs h1
    | serving =>
      rcases h4 hw with hc | hc
      · have := hstuck .serveEnd rfl
        simp [runStep, hs, hc] at this
      · rw [hs] at hc; exact absurd hc (by simp)
    | ended => rfl
  refine ⟨hse, ?_⟩
  cases hww : s.watch with
  | waiting => exact absurd hww hw
  | shutting wait =>
    have := hstuck (.watchEnd none) rfl
    simp [runStep, hww, hse] at this
  | ended => rfl

theorem not_waiting_of_stuck {ε : Type} (s : RunSt ε)
    (hdone : s.cancelled = true ∨ s.signalled = true ∨ s.egErr ≠ none) (hstuck : s.stuck) : s.watch ≠ .waiting := by
  intro hw
  by_cases hsig : s.signalled = true
  · have := hstuck .watchSig rfl
    simp [runStep, hw, hsig] at this
  · have hd : s.errCtxDone = true := by
      unfold RunSt.errCtxDone
      rcases hdone with h | h | h
      · simp [h]
      · exact absurd h hsig
      · cases he : s.egErr with
        | none => exact absurd he h
        | some e => simp
    have := hstuck .watchCtx rfl
    simp only [runStep, hw, hd, and_self, if_true] at this
    split at this <;> simp at this

/-- C93 (partial: with a shutdown timeout, and with a listener that is set anew).  However often Shutdown was called before
(`locker`) and whether or not the listener is open: once the context of this Run is cancelled, or a signal came, or a
goroutine failed, Run does not get stuck before it has returned. -/
theorem C93_restart_partial {ε : Type} (timeout : Int) (ht : 0 < timeout) (locker : BitVec 64) (closed : Bool)
    (ls : List (RunLbl ε)) (s : RunSt ε) (h : runRun (runFrom ε timeout locker closed) ls = some s) (ho : orderly ls = true)
    (hdone : s.cancelled = true ∨ s.signalled = true ∨ s.egErr ≠ none) (hstuck : s.stuck) : s.returned := by
  have hw := not_waiting_of_stuck s hdone hstuck
  obtain ⟨-, h | ⟨h1, -, h3⟩⟩ := runAgain ls (runFrom ε timeout locker closed) s ⟨ht, Or.inl ⟨rfl, rfl⟩⟩ (fun _ => ho) h
  · exact absurd h.2 hw
  · exact returned_of_stuck s h1 h3 hw hstuck

example : (runRun (runFrom Nat 50 7 false) [.serveStart, .userShutdown, .cancel, .watchCtx, .serveEnd, .watchEnd none]).map
    (fun s => (s.closed, decide (s.serve = .ended ∧ s.watch = .ended))) = some (true, true) := by decide

/-- The events without a signal and without a failure. -/
def RunLbl.calm {ε : Type} : RunLbl ε → Bool
  | .signal => false
  | .serveFail _ => false
  | _ => true

theorem unstoppable {ε : Type} (ls : List (RunLbl ε)) (s s' : RunSt ε) (hc : ∀ l ∈ ls, l.calm = true) (ht : s.timeout ≤ 0)
    (h0 : s.locker ≠ 0) (hb : s.locker.toNat + ls.length < 2 ^ 64) (hopen : s.closed = false) (hserve : s.serve ≠ .ended)
    (hsig : s.signalled = false) (hw : s.watch ≠ .shutting true)
    (hr : runRun s ls = some s') : s'.closed = false ∧ s'.serve ≠ .ended := by
  induction ls generalizing s with
  | nil => simp only [runRun, Option.some.injEq] at hr; subst hr; exact ⟨hopen, hserve⟩
  | cons l t ih =>
    simp only [runRun] at hr
    split at hr
    · cases hr
    · rename_i s1 heq
      have ih' := fun a1 a2 a3 a4 a5 a6 a7 a8 => ih s1 a1 a2 a3 a4 a5 a6 a7 a8 hr
      have hc' : ∀ l ∈ t, l.calm = true := fun x hx => hc x (by simp [hx])
      have hcl := hc l (by simp)
      have hb' : s.locker.toNat + t.length < 2 ^ 64 := by simp only [List.length_cons] at hb; omega
      have hne : s.locker + 1 ≠ 1 := by
        intro e
        apply h0
        have := congrArg (fun x => x - 1) e
        simpa [BitVec.add_sub_cancel] using this
      have hsd : s.shutdown = ({ s with locker := s.locker + 1 }, false) := by
        unfold RunSt.shutdown; rw [if_pos hne]
      have hadd : (s.locker + 1).toNat = s.locker.toNat + 1 := by
        rw [BitVec.toNat_add]
        simp only [List.length_cons] at hb
        have : (1 : BitVec 64).toNat = 1 := rfl
        rw [this]; omega
      have hl1 : s.locker + 1 ≠ 0 := by
        intro e
        have := congrArg BitVec.toNat e
        rw [hadd] at this
        simp at this
      have hl2 : (s.locker + 1).toNat + t.length < 2 ^ 64 := by
        rw [hadd]; simp only [List.length_cons] at hb; omega
      cases l with
      | cancel =>
        simp only [runStep, Option.some.injEq] at heq; subst heq
        exact ih' hc' ht h0 hb' hopen hserve hsig hw
      | signal => cases hcl
      | userShutdown =>
        simp only [runStep, hsd, Option.some.injEq] at heq; subst heq
        exact ih' hc' ht hl1 hl2 hopen hserve hsig hw
      | serveFail e => cases hcl
      | serveStart =>
        simp only [runStep] at heq
        split at heq
        · cases heq; exact ih' hc' ht h0 hb' hopen (fun h => by cases h) hsig hw
        · cases heq
      | serveEnd =>
        simp only [runStep] at heq
        split at heq
        · rename_i hh; rw [hopen] at hh; exact absurd hh.2 (by simp)
        · cases heq
      | watchCtx =>
        simp only [runStep] at heq
        split at heq
        · rw [if_neg (Int.not_lt.mpr ht), hsd] at heq
          cases heq
          exact ih' hc' ht hl1 hl2 hopen hserve hsig (by simp)
        · cases heq
      | watchSig =>
        simp only [runStep] at heq
        split at heq
        · rename_i hh; rw [hsig] at hh; exact absurd hh.2 (by simp)
        · cases heq
      | watchEnd r =>
        simp only [runStep] at heq
        split at heq
        · split at heq
          · cases heq
          · cases heq; exact ih' hc' ht h0 hb' hopen hserve hsig (by simp [RunSt.report])
        · cases heq

/-- C93 is violated, the counter: without a shutdown timeout, a server on which Shutdown was called before (a cancelled
context does that too) cannot be stopped again: unless there is a signal or a failure, neither cancelling the context nor
calling Shutdown closes the listener or ends Run (before 2⁶⁴ calls). -/
theorem C93_unstoppable {ε : Type} (timeout : Int) (ht : timeout ≤ 0) (locker : BitVec 64) (hl : locker ≠ 0)
    (ls : List (RunLbl ε)) (s : RunSt ε) (h : runRun (runFrom ε timeout locker false) ls = some s)
    (hc : ∀ l ∈ ls, l.calm = true) (hb : locker.toNat + ls.length < 2 ^ 64) :
    s.closed = false ∧ ¬ s.returned := by
  obtain ⟨h1, h2⟩ := unstoppable ls (runFrom ε timeout locker false) s hc ht hl hb rfl (fun h => by cases h) rfl
    (fun h => by cases h) h
  exact ⟨h1, fun hr => h2 hr.1⟩

/-- C93 is violated, the listener: on a closed listener (the one of an earlier Run) nothing is ever accepted, and Run does
not return for that reason: it waits for a cancelled context, a signal or a failure as if it were serving. -/
theorem C93_closed {ε : Type} (timeout : Int) (locker : BitVec 64) (ls : List (RunLbl ε)) (s : RunSt ε)
    (h : runRun (runFrom ε timeout locker true) ls = some s) :
    s.closed = true ∧ (s.cancelled = false → s.signalled = false → s.egErr = none → ¬ s.returned) := by
  constructor
  · have key : ∀ (ls : List (RunLbl ε)) (s0 s : RunSt ε), s0.closed = true → runRun s0 ls = some s → s.closed = true := by
      intro ls
      induction ls with
      | nil => intro s0 s h0 h; simp only [runRun, Option.some.injEq] at h; subst h; exact h0
      | cons l t ih =>
        intro s0 s h0 h
        simp only [runRun] at h
        split at h
        · cases h
        · rename_i s1 heq
          refine ih s1 s ?_ h
          have g := (fastShutdown_same s0).2.2.2.2 h0
          have b := (shutdown_same s0).2.2.2.2.2.2.2.2 h0
          cases l with
          | cancel => cases heq; exact h0
          | signal => cases heq; exact h0
          | userShutdown => cases heq; exact b
          | serveFail e =>
            simp only [runStep] at heq
            split at heq
            · cases heq
            · cases heq; exact h0
          | serveStart =>
            simp only [runStep] at heq
            split at heq
            · cases heq; exact h0
            · cases heq
          | serveEnd =>
            simp only [runStep] at heq
            split at heq
            · cases heq; exact h0
            · cases heq
          | watchCtx =>
            simp only [runStep] at heq
            split at heq
            · split at heq
              · cases heq; exact g
              · cases heq; exact b
            · cases heq
          | watchSig =>
            simp only [runStep] at heq
            split at heq
            · cases heq; exact g
            · cases heq
          | watchEnd r =>
            simp only [runStep] at heq
            split at heq
            · split at heq
              · cases heq
              · cases heq; exact h0
            · cases heq
    exact key ls _ s rfl h
  · intro h1 h2 h3 hr
    rcases runRun_waits ls (runFrom ε timeout locker true) s (Or.inl rfl) h with h | h | h | h
    · rw [hr.2] at h; cases h
    · rw [h1] at h; cases h
    · rw [h2] at h; cases h
    · exact h h3

/-- What ends a Run: the caller's context, a signal, or a failure to serve. -/
def RunLbl.ends {ε : Type} : RunLbl ε → Bool
  | .cancel | .signal | .serveFail _ => true
  | _ => false

/-- C93, the other side: however often the server was run or shut down before, a Run whose context is not cancelled, without a signal and
without a failure to serve does not shut the server down and does not return. -/
theorem C93_stays {ε : Type} (timeout : Int) (locker : BitVec 64) (closed : Bool) (ls : List (RunLbl ε)) (s : RunSt ε)
    (h : runRun (runFrom ε timeout locker closed) ls = some s) (hends : ∀ l ∈ ls, l.ends = false) :
    s.watch = .waiting ∧ ¬ s.returned := by
  have key : ∀ (ls : List (RunLbl ε)) (s0 s : RunSt ε), s0.watch = .waiting ∧ s0.cancelled = false ∧ s0.signalled = false ∧ s0.egErr = none →
      (∀ l ∈ ls, l.ends = false) → runRun s0 ls = some s → s.watch = .waiting := by
    intro ls
    induction ls with
    | nil => intro s0 s h0 _ h; simp only [runRun, Option.some.injEq] at h; subst h; exact h0.1
    | cons l t ih =>
      intro s0 s h0 hl h
      simp only [runRun] at h
      split at h
      · cases h
      · rename_i s1 heq
        refine ih s1 s ?_ (fun l hm => hl l (List.mem_cons_of_mem _ hm)) h
        have h1 := hl l (List.mem_cons_self ..)
        obtain ⟨w, c, g, e⟩ := h0
        cases l with
        | cancel => cases h1
        | signal => cases h1
        | serveFail e => cases h1
        | userShutdown =>
          cases heq
          unfold RunSt.shutdown RunSt.fastShutdown
          split
          · exact ⟨w, c, g, e⟩
          · dsimp only
            split <;> exact ⟨w, c, g, e⟩
        | serveStart =>
          simp only [runStep] at heq
          split at heq
          · cases heq; exact ⟨w, c, g, e⟩
          · cases heq
        | serveEnd =>
          simp only [runStep] at heq
          split at heq
          · cases heq; exact ⟨w, c, g, by simp [RunSt.report, e]⟩
          · cases heq
        | watchCtx =>
          simp only [runStep, RunSt.errCtxDone, c, e, Option.isSome_none, Bool.or_self, Bool.false_eq_true, and_false, if_false] at heq
          cases heq
        | watchSig =>
          simp only [runStep, g, Bool.false_eq_true, and_false, if_false] at heq
          cases heq
        | watchEnd r =>
          simp only [runStep, w] at heq
          cases heq
  have hw := key ls _ s ⟨rfl, rfl, rfl, rfl⟩ hends h
  exact ⟨hw, fun hr => by rw [hr.2] at hw; cases hw⟩

/-- A Run of a server that was shut down before, and Shutdown called by hand. -/
example : ∃ s, runRun (runFrom Nat 0 7 false) [.serveStart, .userShutdown, .userShutdown] = some s ∧ s.serve = .serving :=
  ⟨_, rfl, rfl⟩
example : ∃ s, runRun (runFrom Nat 50 0 false) [.serveStart, .userShutdown, .serveEnd] = some s ∧ s.closed = true ∧ s.serve = .ended :=
  ⟨_, rfl, rfl, rfl⟩

theorem wrap_some (s : LifeSt) (l : Ln) (h : s.listener ≠ none) :
    ((s.wrap l (fun _ _ => true)).getD (s, l)).1.listener ≠ none := by
  unfold LifeSt.wrap
  split
  · simp
  · exact h

/-- C93 is violated, the address: after a Run (that did not fail to listen), the next Run uses the same listener, whatever
address it is given: `net.Listen` is not called. -/
theorem C93_address {ε : Type} (s s' : LifeSt) (port add port' add' : Str) (addr addr' : List Str) (listens listens' : Bool)
    (evs : List (RunLbl ε)) (r : Option ε) (h : s.run port add addr listens evs = .ret (some (s', .returned r))) :
    ∃ l, s'.listen port' add' addr' listens' = .ret (some (s', l), none) := by
  have hl : s'.listener ≠ none := by
    unfold LifeSt.run at h
    have fin : ∀ (s1 : LifeSt) (l : Ln), s1.listener ≠ none →
        (match runRun (runFrom ε s1.prepare.1.timeout s1.prepare.1.locker (s1.prepare.1.closed.contains l.socket)) evs with
          | none => .ret none
          | some r => if r.serve = .ended ∧ r.watch = .ended then
              .ret (some ({ (if r.lnReg then ((s1.prepare.1.wrap l (fun _ _ => true)).getD (s1.prepare.1, l)).1 else s1.prepare.1) with
                locker := r.locker,
                closed := if r.closed then l.socket :: (if r.lnReg then ((s1.prepare.1.wrap l (fun _ _ => true)).getD (s1.prepare.1, l)).1 else s1.prepare.1).closed
                  else (if r.lnReg then ((s1.prepare.1.wrap l (fun _ _ => true)).getD (s1.prepare.1, l)).1 else s1.prepare.1).closed },
                RunEnd.returned r.egErr)) else .ret none) = Outcome.ret (some (s', RunEnd.returned r)) → s'.listener ≠ none := by
      intro s1 l hs1 hh
      have hp : s1.prepare.1.listener ≠ none := hs1
      split at hh
      · cases hh
      · split at hh
        · cases hh
          simp only
          split
          · exact wrap_some _ _ hp
          · exact hp
        · cases hh
    unfold LifeSt.listen at h
    cases hln : s.listener with
    | some l =>
      simp only [hln, Outcome.bind] at h
      exact fin s l (by rw [hln]; simp) h
    | none =>
      simp only [hln] at h
      cases hra : resolveAddress port ([add] ++ addr) with
      | ret a =>
        rw [hra] at h
        simp only [Outcome.bind] at h
        cases listens with
        | true => exact fin { s with listener := some (.sock s.next), next := s.next + 1 } (.sock s.next) (by simp) h
        | false => cases h
      | panic => rw [hra] at h; cases h
      | outOfFuel => rw [hra] at h; cases h
  cases hs : s'.listener with
  | none => exact absurd hs hl
  | some l => exact ⟨l, by unfold LifeSt.listen; rw [hs]⟩

/-- The first Run of the histories below: serve at ":80", stopped by cancelling its context. -/
def exRun80 : LifeOp Nat := .run [] b!":80" [] true [.serveStart, .cancel, .watchCtx, .serveEnd, .watchEnd none]

/-- C93 is violated, concretely.  A server is run and stopped by its context, both without a problem.  (1) Run again: the
socket it uses is closed.  (2) Run again with a fresh listener: whatever happens without a signal or a failure (up to 2⁶³
events), Run has not returned.  (3) With TLS, the second Run wraps the TLS listener in TLS once more. -/
theorem C93_violated :
    (∃ s l, lifeRun (lifeInit 0) [exRun80] = some s ∧ s.listen (b!"") b!":81" [] true = .ret (some (s, l), none) ∧
      l.socket ∈ s.closed) ∧
    (∃ s, lifeRun (lifeInit 0) [exRun80, .set (.listener none)] = some s ∧
      ∀ (evs : List (RunLbl Nat)), (∀ l ∈ evs, l.calm = true) → evs.length < 2 ^ 63 →
        s.run [] b!":81" [] true evs = .ret none) ∧
    (∃ s s' st, lifeRun (lifeInit 0) [.set (.tls b!"c" b!"k"), exRun80] = some s ∧
      s.start [] b!":80" [] (fun _ => true) (fun _ _ => true) = .ret (s', .ok st) ∧ st.ln = .tls (.tls (.sock 0))) := by
  refine ⟨⟨_, _, rfl, rfl, by decide⟩, ⟨_, rfl, ?_⟩, ⟨_, _, _, rfl, rfl, rfl⟩⟩
  intro evs hc hb
  simp only [LifeSt.run, LifeSt.listen, LifeSt.set, resolveAddress, Outcome.bind, List.append_nil,
    if_true, LifeSt.prepare]
  split
  · rfl
  · rename_i r hr
    rw [if_neg]
    intro hret
    refine (C93_unstoppable (ε := Nat) 0 (by decide) 1 (by decide) evs r hr hc ?_).2 hret
    have : (1 : BitVec 64).toNat = 1 := rfl
    rw [this]; omega

/-- C93, Shutdown before the first Run: without a fasthttp server of one's own it panics, and it uses up the only Shutdown
that does anything. -/
theorem C93_early (n : Nat) (xs : List Setting) (h : (lastSet Setting.server? xs).getD none = none) :
    (xs.foldl LifeSt.set (lifeInit n)).shutdown.2 = true ∧ (xs.foldl LifeSt.set (lifeInit n)).shutdown.1.locker = 1 := by
  obtain ⟨a1, a2, a3, a4, a5, a6, a7, a8⟩ := C92_getters n xs
  rw [← a3] at h
  unfold LifeSt.shutdown
  rw [a7, h]
  exact ⟨rfl, rfl⟩

/-! ### C94: the listener after Run -/

/-- Serve has stored the listener and: whoever has tried to shut down has closed it. -/
def RunReleases {ε : Type} (s : RunSt ε) : Prop :=
  (s.serve = .starting ∧ s.watch = .waiting ∧ s.locker = 0 ∧ s.lnReg = false) ∨
    (s.serve ≠ .starting ∧ (s.lnReg = true → (s.locker ≠ 0 ∨ s.watch ≠ .waiting) → s.closed = true))

theorem runReleases {ε : Type} (ls : List (RunLbl ε)) (s s' : RunSt ε) (h : RunReleases s)
    (ho : s.serve = .starting → orderly ls = true) (hr : runRun s ls = some s') :
    RunReleases s' ∧ (s.lnReg = true ∨ RunLbl.serveStart ∈ ls → s'.lnReg = true) := by
  induction ls generalizing s with
  | nil =>
    simp only [runRun, Option.some.injEq] at hr; subst hr
    exact ⟨h, fun hh => by rcases hh with h | h; exact h; cases h⟩
  | cons l t ih =>
    simp only [runRun] at hr
    split at hr
    · cases hr
    · rename_i s1 heq
      obtain ⟨b1, b2, b3, b4, b5, b6, b7, b8, b9⟩ := shutdown_same s
      obtain ⟨f1, f2, f3, f4, f5⟩ := fastShutdown_fields s
      obtain ⟨g1, g2, g3, g4, g5⟩ := fastShutdown_same s
      have hsc : s.serve ≠ .starting → s.lnReg = true → s.shutdown.1.closed = true := by
        intro hns hln
        rcases h with h | ⟨-, h⟩
        · exact absurd h.1 hns
        · by_cases hl : s.locker = 0
          · unfold RunSt.shutdown
            rw [if_neg (by rw [hl]; decide)]
            exact (fastShutdown_fields { s with locker := s.locker + 1 }).2.2.2.2 hln
          · exact b9 (h hln (Or.inl hl))
      have step : RunReleases s1 → (s1.serve = .starting → orderly t = true) →
          (s.lnReg = true ∨ l = .serveStart → s1.lnReg = true) →
          RunReleases s' ∧ (s.lnReg = true ∨ RunLbl.serveStart ∈ l :: t → s'.lnReg = true) := by
        intro h1 h2 h3
        obtain ⟨k1, k2⟩ := ih s1 h1 h2 hr
        refine ⟨k1, fun hh => ?_⟩
        rcases hh with hh | hh
        · exact k2 (Or.inl (h3 (Or.inl hh)))
        · rcases List.mem_cons.mp hh with hh | hh
          · exact k2 (Or.inl (h3 (Or.inr hh.symm)))
          · exact k2 (Or.inr hh)
      cases l with
      | cancel =>
        simp only [runStep, Option.some.injEq] at heq; subst heq
        exact step h (fun e => by simpa [orderly] using ho e) (fun hh => by rcases hh with h | h; exact h; cases h)
      | signal =>
        simp only [runStep, Option.some.injEq] at heq; subst heq
        exact step h (fun e => by simpa [orderly] using ho e) (fun hh => by rcases hh with h | h; exact h; cases h)
      | userShutdown =>
        have hns : s.serve ≠ .starting := fun e => absurd (ho e) (by simp [orderly])
        simp only [runStep, Option.some.injEq] at heq; subst heq
        refine step (Or.inr ⟨by rw [b1]; exact hns, fun hln _ => hsc hns (by rw [b2] at hln; exact hln)⟩)
          (fun e => by rw [b1] at e; exact absurd e hns) (fun hh => by rcases hh with h | h; rw [b2]; exact h; cases h)
      | serveFail e =>
        simp only [runStep] at heq
        split at heq
        · cases heq
        · cases heq
          refine step (Or.inr ⟨(fun h => by cases h), fun hln hh => ?_⟩) (fun h => by cases h)
            (fun hh => by rcases hh with h | h; exact h; cases h)
          rcases h with h | h
          · have : s.lnReg = true := hln
            rw [h.2.2.2] at this; cases this
          · exact h.2 hln hh
      | serveStart =>
        simp only [runStep] at heq
        split at heq
        · rename_i hst
          cases heq
          refine step (Or.inr ⟨(fun h => by cases h), fun _ hh => ?_⟩) (fun h => by cases h) (fun _ => rfl)
          rcases h with h | h
          · rcases hh with hh | hh
            · exact absurd h.2.2.1 hh
            · exact absurd h.2.1 hh
          · exact absurd hst h.1
        · cases heq
      | serveEnd =>
        simp only [runStep] at heq
        split at heq
        · rename_i hh0
          cases heq
          exact step (Or.inr ⟨(fun h => by cases h), fun _ _ => hh0.2⟩) (fun h => by cases h)
            (fun hh => by rcases hh with h | h; exact h; cases h)
        · cases heq
      | watchCtx =>
        have hns : s.serve ≠ .starting := fun e => absurd (ho e) (by simp [orderly])
        simp only [runStep] at heq
        split at heq
        · split at heq
          · cases heq
            exact step (Or.inr ⟨by simp only [g1]; exact hns, fun hln _ => f5 (by simpa only [g2] using hln)⟩)
              (fun e => by simp only [g1] at e; exact absurd e hns)
              (fun hh => by rcases hh with h | h; simp only [g2]; exact h; cases h)
          · cases heq
            exact step (Or.inr ⟨by simp only [b1]; exact hns, fun hln _ => hsc hns (by simpa only [b2] using hln)⟩)
              (fun e => by simp only [b1] at e; exact absurd e hns)
              (fun hh => by rcases hh with h | h; simp only [b2]; exact h; cases h)
        · cases heq
      | watchSig =>
        have hns : s.serve ≠ .starting := fun e => absurd (ho e) (by simp [orderly])
        simp only [runStep] at heq
        split at heq
        · cases heq
          exact step (Or.inr ⟨by simp only [g1]; exact hns, fun hln _ => f5 (by simpa only [g2] using hln)⟩)
            (fun e => by simp only [g1] at e; exact absurd e hns)
            (fun hh => by rcases hh with h | h; simp only [g2]; exact h; cases h)
        · cases heq
      | watchEnd r =>
        simp only [runStep] at heq
        split at heq
        · rename_i wait hw
          split at heq
          · cases heq
          · cases heq
            rcases h with h | h
            · rw [hw] at h; exact absurd h.2.1 (by simp)
            · exact step (Or.inr ⟨h.1, fun hln _ => h.2 hln (Or.inr (by rw [hw]; simp))⟩) (fun e => absurd e h.1)
                (fun hh => by rcases hh with h | h; exact h; cases h)
        · cases heq

/-- C94 (partial: the fasthttp server came to serve, and no shutdown was attempted before).  When Run has returned, its
listener is closed. -/
theorem C94_released_partial {ε : Type} (timeout : Int) (ls : List (RunLbl ε)) (s : RunSt ε)
    (h : runRun (runInit ε timeout) ls = some s) (ho : orderly ls = true) (hserved : RunLbl.serveStart ∈ ls) (hret : s.returned) :
    s.closed = true := by
  obtain ⟨k1, k2⟩ := runReleases ls (runInit ε timeout) s (Or.inl ⟨rfl, rfl, rfl, rfl⟩) (fun _ => ho) h
  rcases k1 with k | k
  · rw [hret.1] at k; cases k.1
  · exact k.2 (k2 (Or.inr hserved)) (Or.inr (by rw [hret.2]; simp))

example : (runRun (runInit Nat 0) [.serveStart, .serveFail 7, .watchCtx, .watchEnd none]).map
    (fun s => (decide (s.serve = .ended ∧ s.watch = .ended), s.closed)) = some (true, true) := by decide

/-- C94 is violated: if the certificate cannot be loaded, Run returns that error and the address stays occupied. -/
theorem C94_violated (timeout : Int) : ∃ s, runRun (runInit Nat timeout) [.serveFail 7, .watchCtx, .watchEnd none] = some s ∧
    s.returned ∧ s.egErr = some 7 ∧ s.closed = false := by
  by_cases ht : timeout > 0
  · exact ⟨_, by simp [runRun, runStep, runInit, RunSt.errCtxDone, RunSt.fastShutdown, RunSt.report, ht]; rfl, ⟨rfl, rfl⟩, rfl, rfl⟩
  · exact ⟨_, by simp [runRun, runStep, runInit, RunSt.errCtxDone, RunSt.shutdown, RunSt.fastShutdown, RunSt.report, ht]; rfl,
      ⟨rfl, rfl⟩, rfl, rfl⟩

end Verif
