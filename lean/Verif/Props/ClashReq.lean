import Verif.Props.Clash
/-
C78, exactly: what may be done to a server while requests are served.
-/
namespace Verif
open Spec

/-- The request a location belongs to. -/
def owner : Loc → Option Nat
  | .logConfig l | .logErr l | .logFields l => some l
  | .cfgLevel (c + 1) | .cfgWriter (c + 1) | .cfgKeys (c + 1) => some c
  | .ctxData x | .ctxFlags x | .ctxTrace x => some x
  | _ => none

/-- What a request uses. -/
inductive ReqUse (i : Nat) (q : ReqAccess) : Use → Prop
  | field {u : Use} (hx : u.loc = .serverFields ∨ u.loc = .authState) (hw : u.write = false) : ReqUse i q u
  | look {u : Use} (h : u ∈ uses [] q.lookup.events) : ReqUse i q u
  | cfg {u : Use} (hx : u.loc = .cfgLevel 0 ∨ u.loc = .cfgWriter 0 ∨ u.loc = .cfgKeys 0) (hl : (.config 0, true) ∈ u.locks) (hw : u.write = false) : ReqUse i q u
  | level {u : Use} (hs : q.set ≠ none) (hx : u.loc = .cfgLevel 0) (hw : u.write = false) : ReqUse i q u
  | own {u : Use} (h : owner u.loc = some i) : ReqUse i q u
  | set {u : Use} (s : Nat) (hx : u.loc = .setBefore s ∨ u.loc = .setAfter s ∨ u.loc = .setLast s ∨ u.loc = .setMain s)
      (hl : (.set s, false) ∈ u.locks) (hw : u.write = false) : ReqUse i q u

theorem uses_acc {u : Use} : ∀ {es : List Acc} {S : Held}, u ∈ uses S es → .rd u.loc ∈ es ∨ .wr u.loc ∈ es
  | [], S, h => by cases h
  | .lock m :: es, S, h => by have := uses_acc (es := es) h; simp_all
  | .rlock m :: es, S, h => by have := uses_acc (es := es) h; simp_all
  | .unlock m :: es, S, h => by have := uses_acc (es := es) h; simp_all
  | .runlock m :: es, S, h => by have := uses_acc (es := es) h; simp_all
  | .rd x :: es, S, h => by
    rcases List.mem_cons.1 h with rfl | h
    · simp
    · rcases uses_acc h with h | h <;> simp [h]
  | .wr x :: es, S, h => by
    rcases List.mem_cons.1 h with rfl | h
    · simp
    · rcases uses_acc h with h | h <;> simp [h]

def ownAcc (i : Nat) : Acc → Prop
  | .rd x | .wr x => owner x = some i
  | _ => True

theorem self_owner {i : Nat} {c : Call} (h : SelfCall i c) : ∀ e ∈ c.events, ownAcc i e := by
  cases c <;> simp only [SelfCall] at h <;>
    first
    | (obtain ⟨rfl, rfl, rfl⟩ := h; simp [Call.events, cloneCfg, ownAcc, owner]; done)
    | (obtain ⟨rfl, rfl⟩ := h; simp [Call.events, cloneCfg, ownAcc, owner]; done)
    | (subst h; simp [Call.events, cloneCfg, ownAcc, owner])

theorem self_calls {i : Nat} {cs : List Call} (h : ∀ c ∈ cs, SelfCall i c) {S : Held} {u : Use} (hu : u ∈ uses S (callsEvents cs)) :
    owner u.loc = some i := by
  have := uses_acc hu
  simp only [callsEvents, List.mem_flatMap] at this
  rcases this with ⟨c, hc, hx⟩ | ⟨c, hc, hx⟩
  · exact self_owner (h c hc) _ hx
  · exact self_owner (h c hc) _ hx

theorem self_noLock {i : Nat} {c : Call} (h : SelfCall i c) : ¬ LocksSet c := by
  cases c <;> simp_all [SelfCall, LocksSet]

theorem mem_uses_append {r : Nat} {a b : List Acc} {S T : Held} {u : Use} (ha : lifo r S a = some T) (h : u ∈ uses S (a ++ b)) :
    u ∈ uses S a ∨ u ∈ uses T b := by
  rw [uses_append ha] at h
  exact List.mem_append.1 h

theorem mem_uses_flatten {r : Nat} {S : Held} {u : Use} : ∀ {l : List (List Acc)}, (∀ x ∈ l, lifo r S x = some S) → u ∈ uses S l.flatten → ∃ x ∈ l, u ∈ uses S x
  | [], _, h => by cases h
  | x :: l, hl, h => by
    rw [List.flatten_cons, uses_append (hl x (by simp))] at h
    rcases List.mem_append.1 h with h | h
    · exact ⟨x, by simp, h⟩
    · obtain ⟨y, hy, h⟩ := mem_uses_flatten (fun y hy => hl y (by simp [hy])) h
      exact ⟨y, by simp [hy], h⟩


theorem request_uses {i : Nat} {q : ReqAccess} (hq : ReqAccess.Self i q) {u : Use} (hu : u ∈ uses [] (q.events i)) : ReqUse i q u := by
  have hh : ∀ h ∈ [q.session, q.init, q.main, q.last] ++ q.before ++ q.after, ∀ c ∈ h, ¬ LocksSet c := fun h hm c hc => self_noLock (hq h hm c hc)
  have free : ∀ cs, lifo 0 [] (callsEvents cs) = some [] := fun cs => lifo_flatMap_same fun c _ => call_lifo c
  have look : lifo 0 [] q.lookup.events = some [] := by cases q.lookup <;> simp [Lookup.events, lifo, lifo1]
  unfold ReqAccess.events at hu
  rcases mem_uses_append (by rw [lifo_append_same (by simp [lifo, lifo1])]; exact look) hu with hu | hu
  · rcases mem_uses_append (T := []) (r := 0) (by simp [lifo, lifo1]) hu with hu | hu
    · simp only [uses, List.mem_cons, List.not_mem_nil, or_false] at hu
      rcases hu with rfl | rfl
      · exact .field (.inl rfl) rfl
      · exact .field (.inr rfl) rfl
    · exact .look hu
  cases hset : q.set with
  | none => rw [hset] at hu; cases hu
  | some s =>
    have hs : q.set ≠ none := by rw [hset]; simp
    rw [hset] at hu
    have own : ∀ {cs : List Call}, (∀ c ∈ cs, ¬ LocksSet c) →
        lifo 0 [(.set s, false)] (callsEvents cs) = some [(.set s, false)] :=
      fun k => lifo_flatMap_same fun c hc => call_lifo_held s c (k c hc)
    have hand : ∀ {h}, h ∈ [q.session, q.init, q.main, q.last] ++ q.before ++ q.after →
        ∀ c ∈ (.ctxHandleName i i (i + 1) :: h ++ [.ctxStopped i] : List Call), SelfCall i c := by
      intro h hm c hc
      simp only [List.cons_append, List.mem_cons, List.mem_append, List.not_mem_nil, or_false] at hc
      rcases hc with rfl | hc | rfl
      · exact ⟨rfl, rfl, rfl⟩
      · exact hq _ hm c hc
      · exact rfl
    have hand0 : ∀ c ∈ (.ctxHandleName i i (i + 1) :: q.init : List Call), SelfCall i c := by
      intro c hc
      rcases List.mem_cons.1 hc with rfl | hc
      · exact ⟨rfl, rfl, rfl⟩
      · exact hq q.init (by simp) c hc
    have chain : ∀ x ∈ q.chain i s, lifo 0 [(.set s, false)] x = some [(.set s, false)] ∧ ∀ u ∈ uses [(.set s, false)] x, ReqUse i q u := by
      intro x hx
      simp only [ReqAccess.chain, List.mem_append, List.mem_singleton, List.mem_map] at hx
      have one : ∀ (y : Loc) (cs : List Call), (y = .setBefore s ∨ y = .setAfter s ∨ y = .setLast s ∨ y = .setMain s) → (∀ c ∈ cs, SelfCall i c) →
          lifo 0 [(.set s, false)] (.rd y :: callsEvents cs) = some [(.set s, false)] ∧
          ∀ u ∈ uses [(.set s, false)] (.rd y :: callsEvents cs), ReqUse i q u := by
        intro y cs hy hcs
        constructor
        · show lifo 0 [(.set s, false)] ([.rd y] ++ _) = _
          rw [lifo_append_same (by simp [lifo, lifo1])]
          exact own fun c hc => self_noLock (hcs c hc)
        · intro u hu
          rcases List.mem_cons.1 hu with rfl | hu
          · exact .set s hy (by simp) rfl
          · exact .own (self_calls hcs hu)
      rcases hx with ((rfl | ⟨h, hm, rfl⟩) | rfl) | ⟨h, hm, rfl⟩
      · exact one _ _ (.inr (.inr (.inr rfl))) hand0
      · exact one _ _ (.inl rfl) (hand (by simp [hm]))
      · cases q.skipMain
        · obtain ⟨h1, h2⟩ := one (.setMain s) _ (.inr (.inr (.inr rfl))) (hand (h := q.main) (by simp))
          constructor
          · show lifo 0 [(.set s, false)] ([.rd (.ctxFlags i)] ++ _) = _
            rw [lifo_append_same (by simp [lifo, lifo1])]
            exact h1
          · intro u hu
            rcases List.mem_cons.1 hu with rfl | hu
            · exact .own rfl
            · exact h2 u hu
        · constructor
          · simp [lifo, lifo1]
          · intro u hu
            rcases List.mem_cons.1 hu with rfl | hu
            · exact .own rfl
            · cases hu
      · exact one _ _ (.inr (.inl rfl)) (hand (by simp [hm]))
    simp only [List.append_assoc] at hu
    rcases mem_uses_append (T := []) (r := 0) (by simp [lifo, lifo1]) hu with hu | hu
    · simp only [uses, List.mem_singleton] at hu
      subst hu
      exact .field (.inl rfl) rfl
    rcases mem_uses_append (free _) hu with hu | hu
    · exact .own (self_calls (hq q.session (by simp)) hu)
    rcases mem_uses_append (T := []) (r := 0) (by simp [cloneCfg, lifo, lifo1]) hu with hu | hu
    · simp only [cloneCfg, uses, List.mem_cons, List.not_mem_nil, or_false] at hu
      rcases hu with rfl | rfl | rfl
      · exact .cfg (.inr (.inl rfl)) (by simp) rfl
      · exact .cfg (.inl rfl) (by simp) rfl
      · exact .cfg (.inr (.inr rfl)) (by simp) rfl
    rcases mem_uses_append (T := []) (r := 0) (by simp [lifo, lifo1]) hu with hu | hu
    · simp only [uses, List.mem_singleton] at hu
      subst hu
      exact .level hs rfl rfl
    rcases mem_uses_append (T := [(.set s, false)]) (r := 0) (by simp [lifo, lifo1]) hu with hu | hu
    · cases hu
    rcases mem_uses_append (lifo_flatten_same fun x hx => (chain x (List.mem_of_mem_take hx)).1) hu with hu | hu
    · obtain ⟨x, hx, hu⟩ := mem_uses_flatten (fun x hx => (chain x (List.mem_of_mem_take hx)).1) hu
      exact (chain x (List.mem_of_mem_take hx)).2 u hu
    rcases mem_uses_append (T := []) (r := 0) (by simp [lifo, lifo1]) hu with hu | hu
    · simp only [uses, List.mem_singleton] at hu
      subst hu
      exact .own rfl
    cases hab : q.aborted with
    | true => rw [hab] at hu; cases hu
    | false =>
      rw [hab] at hu
      simp only [Bool.false_eq_true, if_false] at hu
      rcases mem_uses_append (T := [(.set s, false)]) (r := 0) (by simp [lifo, lifo1]) hu with hu | hu
      · simp only [uses, List.mem_singleton] at hu
        subst hu
        exact .set s (.inr (.inr (.inl rfl))) (by simp) rfl
      rcases mem_uses_append (own fun c hc => hh q.last (by simp) c hc) hu with hu | hu
      · exact .own (self_calls (hq q.last (by simp)) hu)
      · cases hu

theorem request_look (i : Nat) (q : ReqAccess) {u : Use} (hu : u ∈ uses [] q.lookup.events) : u ∈ uses [] (q.events i) := by
  have look : lifo 0 [] q.lookup.events = some [] := by cases q.lookup <;> simp [Lookup.events, lifo, lifo1]
  unfold ReqAccess.events
  rw [uses_append (T := []) (r := 0) (by rw [lifo_append_same (by simp [lifo, lifo1])]; exact look), uses_append (T := []) (r := 0) (by simp [lifo, lifo1])]
  simp [hu]

theorem request_level (i : Nat) (q : ReqAccess) (hs : q.set ≠ none) : ⟨.cfgLevel 0, false, []⟩ ∈ uses [] (q.events i) := by
  have look : lifo 0 [] q.lookup.events = some [] := by cases q.lookup <;> simp [Lookup.events, lifo, lifo1]
  have free : ∀ cs, lifo 0 [] (callsEvents cs) = some [] := fun cs => lifo_flatMap_same fun c _ => call_lifo c
  unfold ReqAccess.events
  rw [uses_append (T := []) (r := 0) (by rw [lifo_append_same (by simp [lifo, lifo1])]; exact look)]
  refine List.mem_append_right _ ?_
  cases hset : q.set with
  | none => exact absurd hset hs
  | some s =>
    simp only [List.append_assoc]
    rw [uses_append (T := []) (r := 0) (by simp [lifo, lifo1])]
    refine List.mem_append_right _ ?_
    rw [uses_append (free _)]
    refine List.mem_append_right _ ?_
    rw [uses_append (T := []) (r := 0) (by simp [cloneCfg, lifo, lifo1])]
    refine List.mem_append_right _ ?_
    simp [uses]

theorem no_owner_reg (a : RegCall) {u : Use} {i : Nat} (hu : u ∈ uses [] a.call.events) (h : owner u.loc = some i) : False := by
  have f := footprint_use a u hu
  unfold footprint at f
  cases hx : u.loc <;> rw [hx] at h <;> simp only [hx] at f <;> cases h

/-- What the calls on the server use. -/
theorem admin_uses (c : AdminCall) {u : Use} (hu : u ∈ uses [] c.call.events) :
    (∃ a, c = .reg a ∧ u ∈ uses [] a.call.events) ∨ (u.loc = .serverFields ∧ u.write = false) ∨
    (c = .setLevel ∧ u.loc = .cfgLevel 0 ∧ u.locks = [(.config 0, true)] ∧ u.write = true) ∨
    (c = .setWriter ∧ u.loc = .cfgWriter 0 ∧ u.locks = [(.config 0, true)] ∧ u.write = true) ∨
    (c = .level ∧ u.loc = .cfgLevel 0 ∧ u.write = false) := by
  cases c with
  | reg a => exact .inl ⟨a, rfl, hu⟩
  | setLevel =>
    simp only [AdminCall.call, Call.events, uses, List.mem_cons, List.not_mem_nil, or_false] at hu
    rcases hu with rfl | rfl <;> simp
  | setWriter =>
    simp only [AdminCall.call, Call.events, uses, List.mem_cons, List.not_mem_nil, or_false] at hu
    rcases hu with rfl | rfl <;> simp
  | level =>
    simp only [AdminCall.call, Call.events, uses, List.mem_cons, List.not_mem_nil, or_false] at hu
    subst hu; simp

theorem reg_not_cfg (a : RegCall) {u : Use} (hu : u ∈ uses [] a.call.events)
    (h : u.loc = .cfgLevel 0 ∨ u.loc = .cfgWriter 0 ∨ u.loc = .cfgKeys 0 ∨ u.loc = .serverFields ∨ u.loc = .authState) : False := by
  have f := footprint_use a u hu
  unfold footprint at f
  rcases h with h | h | h | h | h <;> simp only [h] at f

theorem reg_set (a : RegCall) {u : Use} (s : Nat) (hu : u ∈ uses [] a.call.events)
    (h : u.loc = .setBefore s ∨ u.loc = .setAfter s ∨ u.loc = .setLast s ∨ u.loc = .setMain s) : (.set s, true) ∈ u.locks := by
  have f := footprint_use a u hu
  unfold footprint at f
  rcases h with h | h | h | h <;> simpa only [h] using f

/-- A request and a call on the server. -/
theorem request_admin {i : Nat} {q : ReqAccess} (hq : ReqAccess.Self i q) (c : AdminCall) :
    Clash (q.events i) c.call.events ↔ c.Disturbs q := by
  constructor
  · rintro ⟨u, hu, v, hv, hc⟩
    have c1 := hc.1
    have r := request_uses hq hu
    have wv : u.write = false → v.write = true := by
      intro h
      rcases hc.2.1 with h1 | h1
      · rw [h] at h1; cases h1
      · exact h1
    rcases admin_uses c hv with ⟨a, rfl, ha⟩ | ⟨h1, h2⟩ | ⟨rfl, h1, h2, h3⟩ | ⟨rfl, h1, h2, h3⟩ | ⟨rfl, h1, h2⟩
    · cases r with
      | field hx hw => exact (reg_not_cfg a ha (by rw [← c1]; rcases hx with h | h <;> simp [h])).elim
      | look h => exact (reg_table a (.find q.lookup)).1 (clash_symm ⟨u, h, v, ha, hc⟩)
      | cfg hx hl hw => exact (reg_not_cfg a ha (by rw [← c1]; rcases hx with h | h | h <;> simp [h])).elim
      | level hs hx hw => exact (reg_not_cfg a ha (by rw [← c1]; simp [hx])).elim
      | own h => exact (no_owner_reg a ha (by rw [← c1]; exact h)).elim
      | set s hx hl hw =>
        have := hc.2.2 _ hl _ (reg_set a s ha (by rw [← c1]; exact hx)) rfl
        cases this.2
    · cases r with
      | field hx hw => rw [h2] at wv; cases wv hw
      | look h => rw [h2] at wv; cases wv ((mem_lookUses _ _).1 h).1
      | cfg hx hl hw => rw [h2] at wv; cases wv hw
      | level hs hx hw => rw [h2] at wv; cases wv hw
      | own h => rw [c1, h1] at h; cases h
      | set s hx hl hw => rw [h2] at wv; cases wv hw
    · cases r with
      | field hx hw => rw [c1, h1] at hx; simp at hx
      | look h => have := (mem_lookUses _ _).1 h; rw [c1, h1] at this; simp at this
      | cfg hx hl hw =>
        have := hc.2.2 _ hl (.config 0, true) (by rw [h2]; simp) rfl
        cases this.1
      | level hs hx hw => exact hs
      | own h => rw [c1, h1] at h; cases h
      | set s hx hl hw => rw [c1, h1] at hx; simp at hx
    · cases r with
      | field hx hw => rw [c1, h1] at hx; simp at hx
      | look h => have := (mem_lookUses _ _).1 h; rw [c1, h1] at this; simp at this
      | cfg hx hl hw =>
        have := hc.2.2 _ hl (.config 0, true) (by rw [h2]; simp) rfl
        cases this.1
      | level hs hx hw => rw [c1, h1] at hx; simp at hx
      | own h => rw [c1, h1] at h; cases h
      | set s hx hl hw => rw [c1, h1] at hx; simp at hx
    · cases r with
      | field hx hw => rw [h2] at wv; cases wv hw
      | look h => rw [h2] at wv; cases wv ((mem_lookUses _ _).1 h).1
      | cfg hx hl hw => rw [h2] at wv; cases wv hw
      | level hs hx hw => rw [h2] at wv; cases wv hw
      | own h => rw [c1, h1] at h; cases h
      | set s hx hl hw => rw [h2] at wv; cases wv hw
  · intro h
    cases c with
    | reg a =>
      obtain ⟨u, hu, v, hv, hc⟩ := clash_symm ((reg_table a (.find q.lookup)).2 h)
      exact ⟨u, request_look i q hu, v, hv, hc⟩
    | setLevel =>
      exact ⟨_, request_level i q h, ⟨.cfgLevel 0, true, [(.config 0, true)]⟩, by simp [AdminCall.call, Call.events, uses], rfl, .inr rfl,
        fun x hx => by cases hx⟩
    | setWriter => cases h
    | level => cases h

/-- Two calls on the server. -/
theorem admin_table (c d : AdminCall) : Clash c.call.events d.call.events ↔ c.Apart d := by
  cases c with
  | reg a =>
    cases d with
    | reg b => exact reg_table a b
    | _ =>
      refine ⟨?_, fun h => by cases h⟩
      rintro ⟨u, hu, v, hv, hc⟩
      refine (reg_not_cfg a hu ?_).elim
      rw [hc.1]
      rcases admin_uses _ hv with ⟨a, h, _⟩ | ⟨h, _⟩ | ⟨_, h, _⟩ | ⟨_, h, _⟩ | ⟨_, h, _⟩
      · cases h
      all_goals simp [h]
  | _ =>
    cases d with
    | reg b =>
      refine ⟨?_, fun h => by cases h⟩
      rintro ⟨u, hu, v, hv, hc⟩
      refine (reg_not_cfg b hv ?_).elim
      rw [← hc.1]
      rcases admin_uses _ hu with ⟨a, h, _⟩ | ⟨h, _⟩ | ⟨_, h, _⟩ | ⟨_, h, _⟩ | ⟨_, h, _⟩
      · cases h
      all_goals simp [h]
    | _ => simp only [AdminCall.call, AdminCall.Apart]; decide

/-- Two requests. -/
theorem request_request {i j : Nat} (hij : i ≠ j) {p q : ReqAccess} (hp : ReqAccess.Self i p) (hq : ReqAccess.Self j q) :
    ¬ Clash (p.events i) (q.events j) := by
  rintro ⟨u, hu, v, hv, hc⟩
  have look : ∀ {q : ReqAccess} {u : Use} {k : Nat}, u ∈ uses [] q.lookup.events → owner u.loc = some k → False := by
    intro q u k h1 h2
    obtain ⟨-, ⟨h, _⟩ | ⟨k, _, h, _⟩ | ⟨_, h, _⟩⟩ := (mem_lookUses _ _).1 h1 <;> rw [h] at h2 <;> cases h2
  have cls : ∀ {k q u}, ReqUse k q u → (u.write = false ∧ ∀ n, owner u.loc ≠ some n) ∨ owner u.loc = some k := by
    intro k q u h
    cases h with
    | field hx hw => exact .inl ⟨hw, fun n h => by rcases hx with hx | hx <;> rw [hx] at h <;> cases h⟩
    | look h => exact .inl ⟨((mem_lookUses _ _).1 h).1, fun n h' => look h h'⟩
    | cfg hx hl hw => exact .inl ⟨hw, fun n h => by rcases hx with hx | hx | hx <;> rw [hx] at h <;> cases h⟩
    | level hs hx hw => exact .inl ⟨hw, fun n h => by rw [hx] at h; cases h⟩
    | own h => exact .inr h
    | set s hx hl hw => exact .inl ⟨hw, fun n h => by rcases hx with hx | hx | hx | hx <;> rw [hx] at h <;> cases h⟩
  have c1 := hc.1
  rcases cls (request_uses hp hu) with ⟨h1, h1'⟩ | h1
  · rcases cls (request_uses hq hv) with ⟨h2, _⟩ | h2
    · rcases hc.2.1 with h | h
      · rw [h1] at h; cases h
      · rw [h2] at h; cases h
    · rw [c1] at h1'; exact h1' _ h2
  · rcases cls (request_uses hq hv) with ⟨_, h2⟩ | h2
    · rw [← c1] at h2; exact h2 _ h1
    · rw [c1, h2] at h1
      cases h1
      exact hij rfl

/-- **C78** (exactly).  Requests whose handlers keep to their own context and logger are served while goroutines register routes, change handler
sets and routers, set the log level and the writer of the server: there is a race in some interleaving exactly if
* one of these calls gets into the way of one of the requests: `SetLogLevel` if the request finds its route; adding a route or an expression if it
  disturbs the lookup; or
* two of these goroutines get into each other's way.
Requests never get into each other's way. -/
theorem C78_exact (reqs : List ReqAccess) (admin : List (List AdminCall)) (hq : ∀ (i : Nat) q, reqs[i]? = some q → ReqAccess.Self i q) :
    RaceFree (reqs.mapIdx (fun i q => q.events i) ++ admin.map fun cs => callsEvents (cs.map AdminCall.call)) ↔
      (∀ q ∈ reqs, ∀ cs ∈ admin, ∀ c ∈ cs, ¬ c.Disturbs q) ∧
      (∀ (i j : Nat) cs ds, i ≠ j → admin[i]? = some cs → admin[j]? = some ds → ∀ c ∈ cs, ∀ d ∈ ds, ¬ c.Apart d) := by
  have hlr : ∀ (i : Nat) q, reqs[i]? = some q → lifo 0 [] (q.events i) = some [] := fun i q h =>
    request_lifo i q fun h' hm c hc => self_noLock (hq i q h h' (by
      simp only [List.cons_append, List.nil_append, List.mem_cons, List.mem_append] at hm ⊢
      exact .inr hm) c hc)
  have hla : ∀ cs : List AdminCall, lifo 0 [] (callsEvents (cs.map AdminCall.call)) = some [] := fun cs => lifo_flatMap_same fun c _ => call_lifo c
  rw [raceFree_iff fun es hes => by
    rcases List.mem_append.1 hes with h | h
    · obtain ⟨i, hi, rfl⟩ := List.mem_mapIdx.1 h
      exact hlr i _ (List.getElem?_eq_getElem hi)
    · obtain ⟨cs, -, rfl⟩ := List.mem_map.1 h
      exact hla cs]
  have rc : ∀ {i : Nat} {q : ReqAccess} {cs : List AdminCall}, ReqAccess.Self i q →
      (Clash (q.events i) (callsEvents (cs.map AdminCall.call)) ↔ ∃ c ∈ cs, c.Disturbs q) := by
    intro i q cs hs
    constructor
    · rintro ⟨u, hu, v, hv, h⟩
      obtain ⟨b, hb, hv⟩ := mem_uses_calls.1 hv
      obtain ⟨c, hc, rfl⟩ := List.mem_map.1 hb
      exact ⟨c, hc, (request_admin hs c).1 ⟨u, hu, v, hv, h⟩⟩
    · rintro ⟨c, hc, h⟩
      obtain ⟨u, hu, v, hv, h⟩ := (request_admin hs c).2 h
      exact ⟨u, hu, v, mem_uses_calls.2 ⟨_, List.mem_map_of_mem hc, hv⟩, h⟩
  have cc : ∀ {cs ds : List AdminCall}, Clash (callsEvents (cs.map AdminCall.call)) (callsEvents (ds.map AdminCall.call)) ↔
      ∃ c ∈ cs, ∃ d ∈ ds, c.Apart d := by
    intro cs ds
    rw [clash_calls]
    constructor
    · rintro ⟨a, ha, b, hb, h⟩
      obtain ⟨c, hc, rfl⟩ := List.mem_map.1 ha
      obtain ⟨d, hd, rfl⟩ := List.mem_map.1 hb
      exact ⟨c, hc, d, hd, (admin_table c d).1 h⟩
    · rintro ⟨c, hc, d, hd, h⟩
      exact ⟨_, List.mem_map_of_mem hc, _, List.mem_map_of_mem hd, (admin_table c d).2 h⟩
  have atReq : ∀ {i : Nat}, i < reqs.length → (reqs.mapIdx (fun i q => q.events i) ++ admin.map fun cs => callsEvents (cs.map AdminCall.call))[i]? =
      reqs[i]?.map (fun q => q.events i) := by
    intro i hi
    rw [List.getElem?_append_left (by simpa using hi), List.getElem?_mapIdx]
  have atAdm : ∀ {i : Nat}, (reqs.mapIdx (fun i q => q.events i) ++ admin.map fun cs => callsEvents (cs.map AdminCall.call))[reqs.length + i]? =
      admin[i]?.map fun cs => callsEvents (cs.map AdminCall.call) := by
    intro i
    rw [List.getElem?_append_right (by simp), List.getElem?_map]
    simp
  constructor
  · intro h
    constructor
    · intro q hqm cs hcs c hc hd
      obtain ⟨i, hi⟩ := List.getElem?_of_mem hqm
      obtain ⟨j, hj⟩ := List.getElem?_of_mem hcs
      have hlt : i < reqs.length := (List.getElem?_eq_some_iff.1 hi).1
      exact h i (reqs.length + j) _ _ (by omega) (by rw [atReq hlt, hi]; rfl) (by rw [atAdm, hj]; rfl) ((rc (hq i q hi)).2 ⟨c, hc, hd⟩)
    · intro i j cs ds hij hi hj c hc d hd ha
      exact h (reqs.length + i) (reqs.length + j) _ _ (by omega) (by rw [atAdm, hi]; rfl) (by rw [atAdm, hj]; rfl) (cc.2 ⟨c, hc, d, hd, ha⟩)
  · rintro ⟨h1, h2⟩ i j p q hij hi hj hc
    by_cases hi' : i < reqs.length
    · rw [atReq hi'] at hi
      obtain ⟨a, ha, rfl⟩ := Option.map_eq_some_iff.1 hi
      by_cases hj' : j < reqs.length
      · rw [atReq hj'] at hj
        obtain ⟨b, hb, rfl⟩ := Option.map_eq_some_iff.1 hj
        exact request_request hij (hq i a ha) (hq j b hb) hc
      · obtain ⟨n, rfl⟩ : ∃ n, j = reqs.length + n := ⟨j - reqs.length, by omega⟩
        rw [atAdm] at hj
        obtain ⟨cs, hcs, rfl⟩ := Option.map_eq_some_iff.1 hj
        obtain ⟨c, hm, hd⟩ := (rc (hq i a ha)).1 hc
        exact h1 a (List.mem_of_getElem? ha) cs (List.mem_of_getElem? hcs) c hm hd
    · obtain ⟨m, rfl⟩ : ∃ m, i = reqs.length + m := ⟨i - reqs.length, by omega⟩
      rw [atAdm] at hi
      obtain ⟨cs, hcs, rfl⟩ := Option.map_eq_some_iff.1 hi
      by_cases hj' : j < reqs.length
      · rw [atReq hj'] at hj
        obtain ⟨b, hb, rfl⟩ := Option.map_eq_some_iff.1 hj
        obtain ⟨c, hm, hd⟩ := (rc (hq j b hb)).1 (clash_symm hc)
        exact h1 b (List.mem_of_getElem? hb) cs (List.mem_of_getElem? hcs) c hm hd
      · obtain ⟨n, rfl⟩ : ∃ n, j = reqs.length + n := ⟨j - reqs.length, by omega⟩
        rw [atAdm] at hj
        obtain ⟨ds, hds, rfl⟩ := Option.map_eq_some_iff.1 hj
        obtain ⟨c, hm, d, hm', hd⟩ := cc.1 hc
        exact h2 m n cs ds (by omega) hcs hds c hm d hm' hd

/-- A request with handlers, served while handler sets are changed and a root route is added: no race; a race once the log level is set. -/
def selfReq (i : Nat) : ReqAccess :=
  { lookup := .deepThenRx 2, set := some 1, session := [.ctxSet i], init := [], before := [[.ctxSet i, .logAdd i, .logLogf i (i + 1)]],
    main := [.ctxGet i, .ctxStop i i (i + 1)], after := [], last := [.logLog i (i + 1)] }

theorem selfReq_self : ∀ (i : Nat) q, [selfReq 0, selfReq 1][i]? = some q → ReqAccess.Self i q := by
  intro i q h
  match i with
  | 0 => cases h; simp [ReqAccess.Self, selfReq, SelfCall]
  | 1 => cases h; simp [ReqAccess.Self, selfReq, SelfCall]
  | n + 2 => cases h

example : RaceFree ([selfReq 0, selfReq 1].mapIdx (fun i q => q.events i) ++
    [[AdminCall.reg (.set 1 .before), .reg (.add 3 .root), .setWriter, .reg (.add 3 (.deep false [4]))]].map fun cs => callsEvents (cs.map AdminCall.call)) := by
  refine (C78_exact _ _ selfReq_self).2 ⟨?_, ?_⟩
  · intro q hq cs hcs c hc
    simp only [List.mem_cons, List.not_mem_nil, or_false] at hq hcs
    subst hcs
    simp only [List.mem_cons, List.not_mem_nil, or_false] at hc
    rcases hq with rfl | rfl <;> rcases hc with rfl | rfl | rfl | rfl <;>
      simp [AdminCall.Disturbs, RegCall.Apart, RegCall.table, RegCall.tree, selfReq, TreeWrite.disturbs]
  · intro i j cs ds hij hi hj
    match i, j with
    | 0, 0 => exact absurd rfl hij
    | 0, _ + 1 => cases hj
    | _ + 1, _ => cases hi

example : ¬ RaceFree ([selfReq 0, selfReq 1].mapIdx (fun i q => q.events i) ++ [[AdminCall.setLevel]].map fun cs => callsEvents (cs.map AdminCall.call)) := by
  intro h
  exact ((C78_exact _ _ selfReq_self).1 h).1 (selfReq 0) (by simp) [.setLevel] (by simp) .setLevel (by simp) (by simp [AdminCall.Disturbs, selfReq])

end Verif
