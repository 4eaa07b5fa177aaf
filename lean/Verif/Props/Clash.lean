import Verif.Props.Races
import Verif.Lemmas.Clash
/-
C116: exactly which calls get into each other's way; and the exact tables for loggers (C79), contexts (C80) and routers (C81).
-/
namespace Verif
open Spec

theorem call_lifo (c : Call) : lifo 0 [] c.events = some [] := by
  cases c
  case routerUse r w =>
    cases w with
    | root => simp [Call.events, TreeWrite.events, lifo, lifo1, mtxRank]
    | deep new ks =>
      simp only [Call.events, TreeWrite.events, List.append_assoc]
      rw [lifo_append, show lifo 0 [] [.lock (.router r), .rd (.routerAfter r), .rd (.routerBefore r), .rd (.routerLast r)] =
        some [(.router r, true)] by simp [lifo, lifo1]]
      simp only [Option.bind_some]
      rw [lifo_append, show lifo 0 [(.router r, true)] [.lock (.node 0), .rd .treeNodes] =
        some [(.node 0, true), (.router r, true)] by simp [lifo, lifo1, mtxRank]]
      simp only [Option.bind_some]
      rw [lifo_append_same (by cases new <;> simp [lifo, lifo1])]
      rw [lifo_append_same (a := ks.map _) (lifo_map_same fun k _ => by simp [lifo1])]
      simp [lifo, lifo1]
  case serverAdd s w =>
    simp only [Call.events]
    rw [lifo_append_same (by simp [cloneSet, lifo, lifo1])]
    cases w with
    | root => simp [TreeWrite.events, lifo, lifo1]
    | deep new ks =>
      simp only [TreeWrite.events, List.append_assoc]
      rw [lifo_append, show lifo 0 [] [.lock (.node 0), .rd .treeNodes] = some [(.node 0, true)] by simp [lifo, lifo1]]
      simp only [Option.bind_some]
      rw [lifo_append_same (by cases new <;> simp [lifo, lifo1])]
      rw [lifo_append_same (a := ks.map _) (lifo_map_same fun k _ => by simp [lifo1])]
      simp [lifo, lifo1]
  case find q => cases q <;> simp [Call.events, Lookup.events, lifo, lifo1]
  all_goals simp [Call.events, cloneSet, cloneCfg, lifo, lifo1, mtxRank]

theorem call_lifo_held (s : Nat) (c : Call) (h : ¬ LocksSet c) :
    lifo 0 [(.set s, false)] c.events = some [(.set s, false)] := by
  cases c
  case routerUse r w =>
    cases w with
    | root => simp [Call.events, TreeWrite.events, lifo, lifo1, mtxRank]
    | deep new ks =>
      simp only [Call.events, TreeWrite.events, List.append_assoc]
      rw [lifo_append, show lifo 0 [(.set s, false)] [.lock (.router r), .rd (.routerAfter r), .rd (.routerBefore r),
        .rd (.routerLast r)] = some [(.router r, true), (.set s, false)] by simp [lifo, lifo1, mtxRank]]
      simp only [Option.bind_some]
      rw [lifo_append, show lifo 0 [(.router r, true), (.set s, false)] [.lock (.node 0), .rd .treeNodes] =
        some [(.node 0, true), (.router r, true), (.set s, false)] by simp [lifo, lifo1, mtxRank]]
      simp only [Option.bind_some]
      rw [lifo_append_same (by cases new <;> simp [lifo, lifo1])]
      rw [lifo_append_same (a := ks.map _) (lifo_map_same fun k _ => by simp [lifo1])]
      simp [lifo, lifo1]
  case find q => cases q <;> simp [Call.events, Lookup.events, lifo, lifo1, mtxRank]
  all_goals simp only [LocksSet, not_true_eq_false] at h
  all_goals simp [Call.events, cloneCfg, lifo, lifo1, mtxRank]

theorem request_lifo (i : Nat) (q : ReqAccess)
    (hh : ∀ h ∈ [q.init, q.main, q.last] ++ q.before ++ q.after, ∀ c ∈ h, ¬ LocksSet c) : lifo 0 [] (q.events i) = some [] := by
  have free : ∀ cs, lifo 0 [] (callsEvents cs) = some [] := fun cs => lifo_flatMap_same fun c _ => call_lifo c
  unfold ReqAccess.events
  rw [lifo_append_same (by
    rw [lifo_append_same (by simp [lifo, lifo1])]
    cases q.lookup <;> simp [Lookup.events, lifo, lifo1])]
  cases hset : q.set with
  | none => simp [lifo]
  | some s =>
    have own : ∀ {cs : List Call}, (∀ c ∈ cs, ¬ LocksSet c) →
        lifo 0 [(.set s, false)] (callsEvents cs) = some [(.set s, false)] :=
      fun k => lifo_flatMap_same fun c hc => call_lifo_held s c (k c hc)
    have hand : ∀ {h}, h ∈ [q.init, q.main, q.last] ++ q.before ++ q.after →
        ∀ c ∈ (.ctxHandleName i i (i + 1) :: h ++ [.ctxStopped i] : List Call), ¬ LocksSet c := by
      intro h hm c hc
      simp only [List.cons_append, List.mem_cons, List.mem_append, List.not_mem_nil, or_false] at hc
      rcases hc with rfl | hc | rfl
      · simp [LocksSet]
      · exact hh _ hm c hc
      · simp [LocksSet]
    have chain : ∀ x ∈ q.chain i s, lifo 0 [(.set s, false)] x = some [(.set s, false)] := by
      intro x hx
      simp only [ReqAccess.chain, List.mem_append, List.mem_singleton, List.mem_map] at hx
      rcases hx with ((rfl | ⟨h, hm, rfl⟩) | rfl) | ⟨h, hm, rfl⟩
      · show lifo 0 [(.set s, false)] ([.rd (.setMain s)] ++ _) = _
        rw [lifo_append_same (by simp [lifo, lifo1])]
        refine own fun c hc => ?_
        rcases List.mem_cons.mp hc with rfl | hc
        · simp [LocksSet]
        · exact hh q.init (by simp) c hc
      · show lifo 0 [(.set s, false)] ([.rd (.setBefore s)] ++ _) = _
        rw [lifo_append_same (by simp [lifo, lifo1])]
        exact own (hand (by simp [hm]))
      · cases q.skipMain
        · show lifo 0 [(.set s, false)] ([.rd (.ctxFlags i), .rd (.setMain s)] ++ _) = _
          rw [lifo_append_same (by simp [lifo, lifo1])]
          exact own (hand (by simp))
        · simp [lifo, lifo1]
      · show lifo 0 [(.set s, false)] ([.rd (.setAfter s)] ++ _) = _
        rw [lifo_append_same (by simp [lifo, lifo1])]
        exact own (hand (by simp [hm]))
    simp only [List.append_assoc]
    rw [lifo_append_same (by simp [lifo, lifo1])]
    rw [lifo_append_same (free _)]
    rw [lifo_append_same (by simp [cloneCfg, lifo, lifo1])]
    rw [lifo_append_same (by simp [lifo, lifo1])]
    rw [lifo_append, show lifo 0 [] [.rlock (.set s)] = some [(.set s, false)] by simp [lifo, lifo1]]
    simp only [Option.bind_some]
    rw [lifo_append_same (lifo_flatten_same fun x hx => chain x (List.mem_of_mem_take hx))]
    rw [lifo_append, show lifo 0 [(.set s, false)] [.runlock (.set s), .rd (.ctxFlags i)] = some [] by simp [lifo, lifo1]]
    simp only [Option.bind_some]
    cases q.aborted with
    | true => simp [lifo]
    | false =>
      simp only [Bool.false_eq_true, if_false]
      rw [lifo_append, show lifo 0 [] [.rlock (.set s), .rd (.setLast s)] = some [(.set s, false)] by simp [lifo, lifo1]]
      simp only [Option.bind_some]
      rw [lifo_append_same (own (hh q.last (by simp)))]
      simp [lifo, lifo1]


theorem task_lifo (i : Nat) (t : RaceTask) (h : t.NoSetLock) : lifo 0 [] (t.events i) = some [] := by
  cases t with
  | request q => exact request_lifo i q h
  | calls cs => exact lifo_flatMap_same fun c _ => call_lifo c

/-- **C116** (exactly when there is a race).  Requests whose handlers make no builder calls on handler sets, and goroutines that make any calls
of the API on any objects: some interleaving has a race exactly if two of them have an access of the same location, one of them a write,
while they hold no mutex that keeps them apart. -/
theorem C116_exact (tasks : List RaceTask) (h : ∀ t ∈ tasks, t.NoSetLock) :
    RaceFree (tasks.mapIdx RaceTask.events) ↔
      ∀ (i j : Nat) t u, i ≠ j → tasks[i]? = some t → tasks[j]? = some u → ¬ Clash (t.events i) (u.events j) := by
  rw [raceFree_iff fun es hes => by
    obtain ⟨i, hi, rfl⟩ := List.mem_mapIdx.mp hes
    exact task_lifo i _ (h _ (List.getElem_mem hi))]
  simp only [List.getElem?_mapIdx]
  constructor
  · intro hf i j t u hij hi hj
    exact hf i j _ _ hij (by rw [hi]; rfl) (by rw [hj]; rfl)
  · intro hf i j p q hij hi hj
    obtain ⟨t, ht, rfl⟩ := Option.map_eq_some_iff.1 hi
    obtain ⟨u, hu, rfl⟩ := Option.map_eq_some_iff.1 hj
    exact hf i j t u hij ht hu

theorem uses_append {r : Nat} {b : List Acc} : ∀ {a : List Acc} {S T : Held}, lifo r S a = some T → uses S (a ++ b) = uses S a ++ uses T b
  | [], S, T, h => by cases h; rfl
  | e :: a, S, T, h => by
    obtain ⟨S1, h1, h2⟩ := lifo_cons h
    have ih := uses_append (b := b) h2
    rcases lifo1_cases h1 with ⟨⟨m, x⟩, rfl, rfl, -, -⟩ | ⟨m, rfl, rfl⟩ | ⟨m, rfl, rfl⟩ | ⟨⟨x, rfl | rfl⟩, rfl⟩
    · cases x <;> exact ih
    · simp only [List.cons_append, uses, List.erase_cons_head]; exact ih
    · simp only [List.cons_append, uses, List.erase_cons_head]; exact ih
    · simp only [List.cons_append, uses, ih]
    · simp only [List.cons_append, uses, ih]

theorem mem_uses_calls {a : Use} : ∀ {cs : List Call}, a ∈ uses [] (callsEvents cs) ↔ ∃ c ∈ cs, a ∈ uses [] c.events
  | [] => by simp [callsEvents, uses]
  | c :: cs => by
    have : callsEvents (c :: cs) = c.events ++ callsEvents cs := rfl
    rw [this, uses_append (call_lifo c), List.mem_append, mem_uses_calls]
    simp

theorem clash_calls {as bs : List Call} : Clash (callsEvents as) (callsEvents bs) ↔ ∃ a ∈ as, ∃ b ∈ bs, Clash a.events b.events := by
  constructor
  · rintro ⟨u, hu, v, hv, h⟩
    obtain ⟨a, ha, hu⟩ := mem_uses_calls.1 hu
    obtain ⟨b, hb, hv⟩ := mem_uses_calls.1 hv
    exact ⟨a, ha, b, hb, u, hu, v, hv, h⟩
  · rintro ⟨a, ha, b, hb, u, hu, v, hv, h⟩
    exact ⟨u, mem_uses_calls.2 ⟨a, ha, hu⟩, v, mem_uses_calls.2 ⟨b, hb, hv⟩, h⟩

/-- **C116** (calls of the API).  Goroutines that make any calls of the API, any number of each, on any objects: there is a race in some
interleaving exactly if a call of one and a call of another clash. Whether calls race depends on the two calls alone, not on what comes before. -/
theorem C116_calls (gs : List (List Call)) :
    RaceFree (gs.map callsEvents) ↔
      ∀ (i j : Nat) as bs, i ≠ j → gs[i]? = some as → gs[j]? = some bs → ∀ a ∈ as, ∀ b ∈ bs, ¬ Clash a.events b.events := by
  rw [raceFree_iff fun es hes => by
    obtain ⟨cs, -, rfl⟩ := List.mem_map.1 hes
    exact lifo_flatMap_same fun c _ => call_lifo c]
  simp only [List.getElem?_map]
  constructor
  · intro hf i j as bs hij hi hj a ha b hb hc
    exact hf i j _ _ hij (by rw [hi]; rfl) (by rw [hj]; rfl) (clash_calls.2 ⟨a, ha, b, hb, hc⟩)
  · intro hf i j p q hij hi hj hc
    obtain ⟨as, ha, rfl⟩ := Option.map_eq_some_iff.1 hi
    obtain ⟨bs, hb, rfl⟩ := Option.map_eq_some_iff.1 hj
    obtain ⟨a, ma, b, mb, hc⟩ := clash_calls.1 hc
    exact hf i j as bs hij ha hb a ma b mb hc

/-- **C116** (two calls).  Two goroutines that make one call each. -/
theorem C116_pair (a b : Call) : RaceFree [a.events, b.events] ↔ ¬ Clash a.events b.events := by
  have hab : ([[a], [b]].map callsEvents) = [a.events, b.events] := by simp [callsEvents]
  rw [← hab, C116_calls]
  constructor
  · intro h
    exact h 0 1 [a] [b] (by decide) rfl rfl a (by simp) b (by simp)
  · intro h i j as bs hij hi hj x hx y hy
    have sym : ¬ Clash b.events a.events := by
      rintro ⟨u, hu, v, hv, h1, h2, h3⟩
      exact h ⟨v, hv, u, hu, h1.symm, h2.symm, fun x hx y hy e => (h3 y hy x hx e.symm).symm⟩
    match i, j, hij with
    | 0, 0, hij => exact absurd rfl hij
    | 1, 1, hij => exact absurd rfl hij
    | 0, 1, _ => cases hi; cases hj; simp only [List.mem_singleton] at hx hy; rw [hx, hy]; exact h
    | 1, 0, _ => cases hi; cases hj; simp only [List.mem_singleton] at hx hy; rw [hx, hy]; exact sym
    | n + 2, _, _ => cases hi
    | _, n + 2, _ => cases hj

/-! ### Renaming objects -/

def Acc.rename (φ : Loc → Loc) (μ : Mtx → Mtx) : Acc → Acc
  | .lock m => .lock (μ m) | .unlock m => .unlock (μ m) | .rlock m => .rlock (μ m) | .runlock m => .runlock (μ m)
  | .rd x => .rd (φ x) | .wr x => .wr (φ x)

def renHeld (μ : Mtx → Mtx) (h : Held) : Held := h.map fun p => (μ p.1, p.2)

def Use.rename (φ : Loc → Loc) (μ : Mtx → Mtx) (a : Use) : Use := ⟨φ a.loc, a.write, renHeld μ a.locks⟩

theorem renHeld_erase {μ : Mtx → Mtx} (hμ : ∀ m m', μ m = μ m' → m = m') (m : Mtx) (b : Bool) : ∀ h : Held,
    (renHeld μ h).erase (μ m, b) = renHeld μ (h.erase (m, b))
  | [] => rfl
  | (m', b') :: h => by
    have ih := renHeld_erase hμ m b h
    simp only [renHeld, List.map_cons, List.erase_cons] at ih ⊢
    by_cases e : (m', b') = (m, b)
    · cases e; simp
    · have : ¬ (μ m', b') = (μ m, b) := fun he => e (by rw [Prod.mk.injEq] at he ⊢; exact ⟨hμ _ _ he.1, he.2⟩)
      rw [if_neg (by simpa using this), if_neg (by simpa using e), ih]
      rfl

theorem uses_rename (φ : Loc → Loc) {μ : Mtx → Mtx} (hμ : ∀ m m', μ m = μ m' → m = m') : ∀ (es : List Acc) (h : Held),
    uses (renHeld μ h) (es.map (Acc.rename φ μ)) = (uses h es).map (Use.rename φ μ)
  | [], h => rfl
  | .lock m :: es, h => uses_rename φ hμ es ((m, true) :: h)
  | .rlock m :: es, h => uses_rename φ hμ es ((m, false) :: h)
  | .unlock m :: es, h => by
    have := uses_rename φ hμ es (h.erase (m, true))
    simp only [List.map_cons, Acc.rename, uses, renHeld_erase hμ, this]
  | .runlock m :: es, h => by
    have := uses_rename φ hμ es (h.erase (m, false))
    simp only [List.map_cons, Acc.rename, uses, renHeld_erase hμ, this]
  | .rd x :: es, h => by simp only [List.map_cons, Acc.rename, uses, uses_rename φ hμ es h]; rfl
  | .wr x :: es, h => by simp only [List.map_cons, Acc.rename, uses, uses_rename φ hμ es h]; rfl

theorem clash_rename {φ : Loc → Loc} {μ : Mtx → Mtx} (hφ : ∀ x x', φ x = φ x' → x = x') (hμ : ∀ m m', μ m = μ m' → m = m') (p q : List Acc) :
    Clash (p.map (Acc.rename φ μ)) (q.map (Acc.rename φ μ)) ↔ Clash p q := by
  have key : ∀ es, uses [] (es.map (Acc.rename φ μ)) = (uses [] es).map (Use.rename φ μ) := fun es => uses_rename φ hμ es []
  have one : ∀ a b : Use, (Use.rename φ μ a).Clash (Use.rename φ μ b) ↔ a.Clash b := by
    intro a b
    constructor
    · rintro ⟨h1, h2, h3⟩
      exact ⟨hφ _ _ h1, h2, fun x hx y hy e => h3 (μ x.1, x.2) (List.mem_map_of_mem hx) (μ y.1, y.2) (List.mem_map_of_mem hy) (congrArg μ e)⟩
    · rintro ⟨h1, h2, h3⟩
      refine ⟨congrArg φ h1, h2, fun x hx y hy e => ?_⟩
      obtain ⟨x', hx', rfl⟩ := List.mem_map.1 hx
      obtain ⟨y', hy', rfl⟩ := List.mem_map.1 hy
      exact h3 x' hx' y' hy' (hμ _ _ e)
  unfold Clash
  rw [key, key]
  constructor
  · rintro ⟨a, ha, b, hb, h⟩
    obtain ⟨a, ha', rfl⟩ := List.mem_map.1 ha
    obtain ⟨b, hb', rfl⟩ := List.mem_map.1 hb
    exact ⟨a, ha', b, hb', (one a b).1 h⟩
  · rintro ⟨a, ha, b, hb, h⟩
    exact ⟨_, List.mem_map_of_mem ha, _, List.mem_map_of_mem hb, (one a b).2 h⟩

/-- Numbers of loggers (contexts): 0 becomes `l`. -/
def at0 (l : Nat) : Nat → Nat
  | 0 => l
  | k + 1 => l + k + 1

theorem at0_inj (l : Nat) : ∀ a b, at0 l a = at0 l b → a = b
  | 0, 0, _ => rfl
  | 0, b + 1, h => by simp only [at0] at h; omega
  | a + 1, 0, h => by simp only [at0] at h; omega
  | a + 1, b + 1, h => by simp only [at0] at h; omega

/-- Numbers of configurations: 0 becomes `c`, 1 becomes `d`. -/
def at01 (c d : Nat) : Nat → Nat
  | 0 => c
  | 1 => d
  | k + 2 => c + d + k + 1

theorem at01_inj {c d : Nat} (hcd : c ≠ d) : ∀ a b, at01 c d a = at01 c d b → a = b
  | 0, 0, _ => rfl
  | 0, 1, h => absurd h hcd
  | 0, b + 2, h => by simp only [at01] at h; omega
  | 1, 0, h => absurd h.symm hcd
  | 1, 1, _ => rfl
  | 1, b + 2, h => by simp only [at01] at h; omega
  | a + 2, 0, h => by simp only [at01] at h; omega
  | a + 2, 1, h => by simp only [at01] at h; omega
  | a + 2, b + 2, h => by simp only [at01] at h; omega

def renLoc (x l c d : Nat) : Loc → Loc
  | .logConfig k => .logConfig (at0 l k) | .logErr k => .logErr (at0 l k) | .logFields k => .logFields (at0 l k)
  | .cfgLevel k => .cfgLevel (at01 c d k) | .cfgWriter k => .cfgWriter (at01 c d k) | .cfgKeys k => .cfgKeys (at01 c d k)
  | .ctxData k => .ctxData (at0 x k) | .ctxFlags k => .ctxFlags (at0 x k) | .ctxTrace k => .ctxTrace (at0 x k)
  | y => y

def renMtx (l c d : Nat) : Mtx → Mtx
  | .logger k => .logger (at0 l k) | .config k => .config (at01 c d k)
  | m => m

theorem renLoc_inj (x l : Nat) {c d : Nat} (h : c ≠ d) (a b : Loc) (e : renLoc x l c d a = renLoc x l c d b) : a = b := by
  cases a <;> cases b <;> simp only [renLoc, reduceCtorEq, Loc.logConfig.injEq, Loc.logErr.injEq, Loc.logFields.injEq, Loc.cfgLevel.injEq,
    Loc.cfgWriter.injEq, Loc.cfgKeys.injEq, Loc.ctxData.injEq, Loc.ctxFlags.injEq, Loc.ctxTrace.injEq] at e ⊢ <;>
  first
  | exact at0_inj _ _ _ e
  | exact at01_inj h _ _ e
  | exact e

theorem renMtx_inj (l : Nat) {c d : Nat} (h : c ≠ d) (a b : Mtx) (e : renMtx l c d a = renMtx l c d b) : a = b := by
  cases a <;> cases b <;> simp only [renMtx, reduceCtorEq, Mtx.logger.injEq, Mtx.config.injEq] at e ⊢ <;>
  first
  | exact at0_inj _ _ _ e
  | exact at01_inj h _ _ e
  | exact e

/-! ### The tables -/

/-- Goroutines that make calls out of a list of them, given which of them clash. -/
theorem raceFree_table {κ : Type} (call : κ → Call) (bad : κ → κ → Prop) (h : ∀ a b, Clash (call a).events (call b).events ↔ bad a b)
    (gs : List (List κ)) :
    RaceFree (gs.map fun cs => callsEvents (cs.map call)) ↔
      ∀ (i j : Nat) as bs, i ≠ j → gs[i]? = some as → gs[j]? = some bs → ∀ a ∈ as, ∀ b ∈ bs, ¬ bad a b := by
  have hmap : (gs.map fun cs => callsEvents (cs.map call)) = (gs.map (List.map call)).map callsEvents := by
    rw [List.map_map]; rfl
  rw [hmap, C116_calls]
  simp only [List.getElem?_map]
  constructor
  · intro hf i j as bs hij hi hj a ha b hb hm
    exact hf i j _ _ hij (by rw [hi]; rfl) (by rw [hj]; rfl) _ (List.mem_map_of_mem ha) _ (List.mem_map_of_mem hb) ((h a b).2 hm)
  · intro hf i j as bs hij hi hj a ha b hb hc
    obtain ⟨as', hi', rfl⟩ := Option.map_eq_some_iff.1 hi
    obtain ⟨bs', hj', rfl⟩ := Option.map_eq_some_iff.1 hj
    obtain ⟨a', ha', rfl⟩ := List.mem_map.1 ha
    obtain ⟨b', hb', rfl⟩ := List.mem_map.1 hb
    exact hf i j as' bs' hij hi' hj' a' ha' b' hb' ((h a' b').1 hc)

theorem logCall_ren (l c src : Nat) (a : LogCall) : (a.call l c src).events = (a.call 0 0 1).events.map (Acc.rename (renLoc 0 l c src) (renMtx l c src)) := by
  cases a <;> rfl

theorem log_table : ∀ a b : LogCall, Clash (a.call 0 0 1).events (b.call 0 0 1).events ↔ b ∈ a.keepFrom := by
  intro a b
  cases a <;> cases b <;> decide +kernel

/-- **C79** (exactly).  Goroutines that call methods of one logger, in any number and order: there is a race in some interleaving exactly if
one calls a method, and another a method, that are to be kept apart. (The fields are written without the mutex by Infof, Errorf, ...; the
configuration is read without a mutex by most methods.) -/
theorem C79_exact (l c src : Nat) (hsrc : c ≠ src) (gs : List (List LogCall)) :
    RaceFree (gs.map fun cs => callsEvents (cs.map (LogCall.call l c src))) ↔
      ∀ (i j : Nat) as bs, i ≠ j → gs[i]? = some as → gs[j]? = some bs → ∀ a ∈ as, ∀ b ∈ bs, b ∉ a.keepFrom := by
  refine raceFree_table _ (fun a b => b ∈ a.keepFrom) (fun a b => ?_) gs
  rw [logCall_ren l c src a, logCall_ren l c src b, clash_rename (renLoc_inj 0 l hsrc) (renMtx_inj l hsrc)]
  exact log_table a b

theorem ctxCall_ren (x l c : Nat) (a : CtxCall) :
    (a.call x l c).events = (a.call 0 0 0).events.map (Acc.rename (renLoc x l c (c + 1)) (renMtx l c (c + 1))) := by
  cases a <;> rfl

theorem ctx_table : ∀ a b : CtxCall, Clash (a.call 0 0 0).events (b.call 0 0 0).events ↔ b ∈ a.keepFrom := by
  intro a b
  cases a <;> cases b <;> decide +kernel

/-- **C80** (exactly).  Goroutines that use one context: there is a race in some interleaving exactly if one of them calls Set and another Set,
Get or Clone, or one of them Stop, Abort or SkipMain and another one of these or asks whether they were called. -/
theorem C80_exact (x l c : Nat) (gs : List (List CtxCall)) :
    RaceFree (gs.map fun cs => callsEvents (cs.map (CtxCall.call x l c))) ↔
      ∀ (i j : Nat) as bs, i ≠ j → gs[i]? = some as → gs[j]? = some bs → ∀ a ∈ as, ∀ b ∈ bs, b ∉ a.keepFrom := by
  refine raceFree_table _ (fun a b => b ∈ a.keepFrom) (fun a b => ?_) gs
  have hcd : c ≠ c + 1 := by omega
  rw [ctxCall_ren x l c a, ctxCall_ren x l c b, clash_rename (renLoc_inj x l hcd) (renMtx_inj l hcd)]
  exact ctx_table a b

/-! Routers -/

/-- What a method of a router writes to it. -/
def Spec.RouterCall.writes (r : Nat) : RouterCall → List Loc
  | .last => [.routerLast r] | .first | .before => [.routerBefore r] | .after | .lastAfter => [.routerAfter r]
  | _ => []

/-- What a method of a router that takes no mutex reads. -/
def Spec.RouterCall.peeks (r : Nat) : RouterCall → List Loc
  | .clone => [.routerLast r, .routerBefore r, .routerAfter r] | .getBefore => [.routerBefore r] | .getAfter => [.routerAfter r]
  | _ => []

def Spec.RouterCall.isPeek : RouterCall → Bool
  | .clone | .getBefore | .getAfter => true
  | _ => false

theorem clash_symm {p q : List Acc} (h : Clash p q) : Clash q p := by
  obtain ⟨u, hu, v, hv, h1, h2, h3⟩ := h
  exact ⟨v, hv, u, hu, h1.symm, h2.symm, fun x hx y hy e => (h3 y hy x hx e.symm).symm⟩

theorem peek_uses (r : Nat) (a : RouterCall) (h : a.isPeek = true) (u : Use) :
    u ∈ uses [] (a.call r).events ↔ u.write = false ∧ u.locks = [] ∧ u.loc ∈ a.peeks r := by
  obtain ⟨x, w, l⟩ := u
  cases a <;> simp only [RouterCall.isPeek, Bool.false_eq_true] at h <;>
    simp only [RouterCall.call, Call.events, uses, RouterCall.peeks, List.mem_cons, Use.mk.injEq, List.not_mem_nil, or_false] <;>
  · constructor
    · intro h; first | (obtain ⟨h1, rfl, rfl⟩ := h; simp [h1]; done) | (rcases h with ⟨rfl, rfl, rfl⟩ | ⟨rfl, rfl, rfl⟩ | ⟨rfl, rfl, rfl⟩ <;> simp)
    · rintro ⟨rfl, rfl, h⟩; simp_all

theorem uses_map_wr {held : Held} {f : Nat → Loc} : ∀ ks : List Nat, ∀ rest,
    uses held (ks.map (fun k => .wr (f k)) ++ rest) = (ks.map fun k => ⟨f k, true, held⟩) ++ uses held rest
  | [], rest => rfl
  | k :: ks, rest => by simp only [List.map_cons, List.cons_append, uses, uses_map_wr ks rest]

theorem use_uses (r : Nat) (w : TreeWrite) (u : Use) (h : u ∈ uses [] (Call.routerUse r w).events) :
    (.router r, true) ∈ u.locks ∧ (u.write = true → u.loc = .treeNodes ∨ ∃ k, u.loc = .nodeHandlers k) := by
  cases w with
  | root =>
    simp only [Call.events, TreeWrite.events, List.cons_append, List.nil_append, uses, List.mem_cons, List.not_mem_nil, or_false] at h
    rcases h with rfl | rfl | rfl | rfl | rfl <;> simp
  | deep new ks =>
    have he : (Call.routerUse r (.deep new ks)).events = [.lock (.router r), .rd (.routerAfter r), .rd (.routerBefore r), .rd (.routerLast r),
        .lock (.node 0), .rd .treeNodes] ++ ((if new then [.wr .treeNodes] else []) ++ (ks.map (fun k => .wr (.nodeHandlers k)) ++
        [.unlock (.node 0), .unlock (.router r)])) := by
      simp [Call.events, TreeWrite.events]
    rw [he] at h
    simp only [List.cons_append, List.nil_append, uses, List.mem_cons] at h
    rcases h with rfl | rfl | rfl | rfl | h
    · simp
    · simp
    · simp
    · simp
    · cases new with
      | true =>
        simp only [if_true, List.cons_append, List.nil_append, uses, uses_map_wr, List.append_nil, List.mem_cons, List.mem_map] at h
        rcases h with rfl | h
        · simp
        · obtain ⟨k, -, rfl⟩ := h
          simp
      | false =>
        simp only [Bool.false_eq_true, if_false, List.nil_append, uses, uses_map_wr, List.append_nil, List.mem_map] at h
        obtain ⟨k, -, rfl⟩ := h
        simp

/-- A method that takes the router's mutex does everything under it. -/
theorem locked_uses (r : Nat) (a : RouterCall) (h : a.isPeek = false) (u : Use) (hu : u ∈ uses [] (a.call r).events) :
    (.router r, true) ∈ u.locks ∧ (u.write = true → u.loc ∈ a.writes r ∨ u.loc = .regTable ∨ u.loc = .treeNodes ∨ ∃ k, u.loc = .nodeHandlers k) := by
  cases a
  case use w =>
    obtain ⟨h1, h2⟩ := use_uses r w u hu
    exact ⟨h1, fun hw => .inr (.inr (h2 hw))⟩
  case clone => cases h
  case getBefore => cases h
  case getAfter => cases h
  all_goals
    simp only [RouterCall.call, Call.events, uses, List.mem_cons, List.not_mem_nil, or_false] at hu
    rcases hu with rfl | rfl | rfl | rfl | rfl <;> simp [RouterCall.writes]

theorem locked_writes (r : Nat) (a : RouterCall) (x : Loc) (hx : x ∈ a.writes r) : ⟨x, true, [(.router r, true)]⟩ ∈ uses [] (a.call r).events := by
  cases a <;> simp only [RouterCall.writes, List.mem_singleton, List.not_mem_nil] at hx <;> subst hx <;>
    simp [RouterCall.call, Call.events, uses]

theorem peek_locked (r : Nat) (a b : RouterCall) (ha : a.isPeek = true) (hb : b.isPeek = false) :
    Clash (a.call r).events (b.call r).events ↔ ∃ x ∈ a.peeks r, x ∈ b.writes r := by
  constructor
  · rintro ⟨u, hu, v, hv, h1, h2, -⟩
    obtain ⟨u1, u2, u3⟩ := (peek_uses r a ha u).1 hu
    obtain ⟨-, v2⟩ := locked_uses r b hb v hv
    have hw : v.write = true := by rcases h2 with h | h; · rw [u1] at h; cases h
                                   · exact h
    refine ⟨u.loc, u3, ?_⟩
    rcases v2 hw with h | h
    · rw [h1]; exact h
    · exfalso
      rw [← h1] at h
      cases a <;> simp only [RouterCall.peeks, List.mem_cons, List.not_mem_nil, or_false] at u3 <;> (try rcases u3 with u3 | u3 | u3) <;>
        rw [u3] at h <;> simp at h
  · rintro ⟨x, h1, h2⟩
    exact ⟨⟨x, false, []⟩, (peek_uses r a ha _).2 ⟨rfl, rfl, h1⟩, _, locked_writes r b x h2, rfl, .inr rfl, fun y hy => by cases hy⟩

theorem router_table (r : Nat) (a b : RouterCall) : Clash (a.call r).events (b.call r).events ↔ a.apart b = true := by
  cases ha : a.isPeek with
  | true =>
    cases hb : b.isPeek with
    | true =>
      have no : ¬ Clash (a.call r).events (b.call r).events := by
        rintro ⟨u, hu, v, hv, -, h2, -⟩
        rw [((peek_uses r a ha u).1 hu).1, ((peek_uses r b hb v).1 hv).1] at h2
        rcases h2 with h | h <;> cases h
      simp only [no, false_iff, Bool.not_eq_true]
      cases a <;> cases ha <;> cases b <;> cases hb <;> rfl
    | false =>
      rw [peek_locked r a b ha hb]
      cases a <;> cases ha <;> cases b <;> cases hb <;> simp [RouterCall.peeks, RouterCall.writes, RouterCall.apart]
  | false =>
    cases hb : b.isPeek with
    | true =>
      have : Clash (a.call r).events (b.call r).events ↔ Clash (b.call r).events (a.call r).events := ⟨clash_symm, clash_symm⟩
      rw [this, peek_locked r b a hb ha]
      cases b <;> cases hb <;> cases a <;> cases ha <;> simp [RouterCall.peeks, RouterCall.writes, RouterCall.apart]
    | false =>
      have no : ¬ Clash (a.call r).events (b.call r).events := by
        rintro ⟨u, hu, v, hv, -, -, h3⟩
        exact absurd (h3 _ (locked_uses r a ha u hu).1 _ (locked_uses r b hb v hv).1 rfl).1 (by simp)
      simp only [no, false_iff, Bool.not_eq_true]
      cases a <;> cases ha <;> cases b <;> cases hb <;> rfl

/-- **C81** (one router).  Goroutines that call methods of one router, registration of routes and expressions included: there is a race
in some interleaving exactly if one clones the router or asks for its handlers while another changes these handlers. -/
theorem C81_router (r : Nat) (gs : List (List RouterCall)) :
    RaceFree (gs.map fun cs => callsEvents (cs.map (RouterCall.call r))) ↔
      ∀ (i j : Nat) as bs, i ≠ j → gs[i]? = some as → gs[j]? = some bs → ∀ a ∈ as, ∀ b ∈ bs, ¬ a.apart b = true :=
  raceFree_table _ (fun a b => a.apart b = true) (router_table r) gs

/-! Registration: routers, sets, the tree and the table of expressions -/

def treeHas (l : Loc) (write : Bool) : TreeWrite → Prop
  | .root => l = .nodeHandlers 0
  | .deep new ks => (l = .treeNodes ∧ (write = true → new = true)) ∨ (∃ k ∈ ks, l = .nodeHandlers k ∧ write = true)

theorem mem_treeUses (H : Held) (w : TreeWrite) (u : Use) :
    u ∈ uses H w.events ↔ u.locks = (.node 0, true) :: H ∧ treeHas u.loc u.write w := by
  obtain ⟨x, wr, l⟩ := u
  cases w with
  | root =>
    simp only [TreeWrite.events, uses, List.mem_cons, Use.mk.injEq, List.not_mem_nil, or_false, treeHas]
    cases wr <;> simp [and_comm]
  | deep new ks =>
    have he : (TreeWrite.deep new ks).events = [.lock (.node 0), .rd .treeNodes] ++ ((if new then [.wr .treeNodes] else []) ++
        (ks.map (fun k => .wr (.nodeHandlers k)) ++ [.unlock (.node 0)])) := by
      simp [TreeWrite.events]
    rw [he]
    cases new <;>
      simp only [if_true, Bool.false_eq_true, if_false, List.cons_append, List.nil_append, uses, uses_map_wr, List.append_nil, List.mem_cons, List.mem_map,
        Use.mk.injEq, treeHas] <;> cases wr <;> simp <;> grind

def lookTarget : Lookup → Option Nat
  | .root | .rootThenRx => some 0
  | .deep k | .deepThenRx k => some k
  | .lostThenRx => none

def lookWalks : Lookup → Bool
  | .root | .rootThenRx => false
  | _ => true

theorem mem_lookUses (q : Lookup) (u : Use) : u ∈ uses [] q.events ↔ u.write = false ∧
    ((u.loc = .treeNodes ∧ u.locks = [] ∧ lookWalks q = true) ∨
     (∃ k, lookTarget q = some k ∧ u.loc = .nodeHandlers k ∧ u.locks = [(.node k, false)]) ∨
     (Lookup.rx q = true ∧ u.loc = .regTable ∧ u.locks = [])) := by
  obtain ⟨x, wr, l⟩ := u
  cases q <;> simp [Lookup.events, uses, lookWalks, lookTarget, Lookup.rx] <;> grind

/-- The router's mutex, in its methods. -/
def routerHeld (a : RegCall) : Held := a.router?.toList.map fun r => (.router r, true)

def regTree (a : RegCall) (u : Use) : Prop :=
  (∃ w H, a.tree = some w ∧ u.locks = (.node 0, true) :: H ∧ treeHas u.loc u.write w) ∨ (∃ q, a = .find q ∧ u ∈ uses [] q.events)

/-- What a call of the registration uses. -/
def footprint (a : RegCall) (u : Use) : Prop :=
  match u.loc with
  | .routerBefore r | .routerAfter r | .routerLast r => ∃ x, a = .router r x ∧ u ∈ uses [] (x.call r).events
  | .setBefore s | .setAfter s | .setLast s | .setMain s => (.set s, true) ∈ u.locks
  | .regTable => a.table = some u.write ∧ u.locks = routerHeld a
  | .treeNodes | .nodeHandlers _ => regTree a u
  | _ => False

theorem uses_use (r : Nat) (w : TreeWrite) : uses [] (Call.routerUse r w).events =
    [⟨.routerAfter r, false, [(.router r, true)]⟩, ⟨.routerBefore r, false, [(.router r, true)]⟩, ⟨.routerLast r, false, [(.router r, true)]⟩] ++
      uses [(.router r, true)] w.events := by
  have h : lifo 0 [(.router r, true)] w.events = some [(.router r, true)] := by
    cases w with
    | root => simp [TreeWrite.events, lifo, lifo1, mtxRank]
    | deep new ks =>
      simp only [TreeWrite.events, List.append_assoc]
      rw [lifo_append, show lifo 0 [(.router r, true)] [.lock (.node 0), .rd .treeNodes] =
        some [(.node 0, true), (.router r, true)] by simp [lifo, lifo1, mtxRank]]
      simp only [Option.bind_some]
      rw [lifo_append_same (by cases new <;> simp [lifo, lifo1])]
      rw [lifo_append_same (a := ks.map _) (lifo_map_same fun k _ => by simp [lifo1])]
      simp [lifo, lifo1]
  simp only [Call.events, List.cons_append, List.nil_append, uses]
  rw [uses_append h]
  simp [uses]

theorem uses_cloneSet (s : Nat) (u : Use) (h : u ∈ uses [] (cloneSet s)) : (.set s, true) ∈ u.locks ∧ u.write = false ∧
    (u.loc = .setBefore s ∨ u.loc = .setAfter s ∨ u.loc = .setLast s ∨ u.loc = .setMain s) := by
  simp only [cloneSet, uses, List.mem_cons, List.not_mem_nil, or_false] at h
  rcases h with rfl | rfl | rfl | rfl <;> simp

theorem footprint_use (a : RegCall) (u : Use) (hu : u ∈ uses [] a.call.events) : footprint a u := by
  cases a with
  | set s a =>
    cases a <;> simp only [RegCall.call, SetCall.call, Call.events, cloneSet, uses, List.mem_cons, List.not_mem_nil, or_false] at hu <;>
      rcases hu with rfl | rfl | rfl | rfl <;> simp [footprint]
  | add s w =>
    have hc : lifo 0 [] (cloneSet s) = some [] := by simp [cloneSet, lifo, lifo1]
    simp only [RegCall.call, Call.events] at hu
    rw [uses_append hc, List.mem_append] at hu
    rcases hu with hu | hu
    · obtain ⟨h1, h2, h3 | h3 | h3 | h3⟩ := uses_cloneSet s u hu <;> simpa only [footprint, h3] using h1
    · have h := (mem_treeUses _ _ _).1 hu
      have ht : regTree (.add s w) u := .inl ⟨w, _, rfl, h⟩
      cases w with
      | root => have h2 : u.loc = _ := h.2; simpa only [footprint, h2] using ht
      | deep new ks =>
        rcases h.2 with ⟨h2, -⟩ | ⟨k, -, h2, -⟩ <;> simpa only [footprint, h2] using ht
  | addReg s =>
    have hc : lifo 0 [] (cloneSet s) = some [] := by simp [cloneSet, lifo, lifo1]
    simp only [RegCall.call, Call.events] at hu
    rw [uses_append hc, List.mem_append] at hu
    rcases hu with hu | hu
    · obtain ⟨h1, h2, h3 | h3 | h3 | h3⟩ := uses_cloneSet s u hu <;> simpa only [footprint, h3] using h1
    · simp only [uses, List.mem_singleton] at hu
      subst hu
      exact ⟨rfl, rfl⟩
  | find q =>
    have hu : u ∈ uses [] q.events := hu
    have ht : regTree (.find q) u := .inr ⟨q, rfl, hu⟩
    obtain ⟨h1, ⟨h2, -⟩ | ⟨k, -, h2, -⟩ | ⟨h2, h3, h4⟩⟩ := (mem_lookUses _ _).1 hu
    · simpa only [footprint, h2] using ht
    · simpa only [footprint, h2] using ht
    · simp only [footprint, h3, RegCall.table, h2, if_true, h1, h4, true_and]; rfl
  | router r a =>
    replace hu : u ∈ uses [] (a.call r).events := hu
    cases a
    case use w =>
      have hu' := hu
      rw [show (RouterCall.call r (.use w)) = .routerUse r w from rfl, uses_use, List.mem_append] at hu'
      rcases hu' with hu' | hu'
      · simp only [List.mem_cons, List.not_mem_nil, or_false] at hu'
        rcases hu' with rfl | rfl | rfl <;> exact ⟨_, rfl, hu⟩
      · have h := (mem_treeUses _ _ _).1 hu'
        have ht : regTree (.router r (.use w)) u := .inl ⟨w, _, rfl, h⟩
        cases w with
        | root => have h2 : u.loc = _ := h.2; simpa only [footprint, h2] using ht
        | deep new ks =>
          rcases h.2 with ⟨h2, -⟩ | ⟨k, -, h2, -⟩ <;> simpa only [footprint, h2] using ht
    case useReg =>
      have hu' := hu
      simp only [RouterCall.call, Call.events, uses, List.mem_cons, List.not_mem_nil, or_false] at hu'
      rcases hu' with rfl | rfl | rfl | rfl
      · exact ⟨_, rfl, hu⟩
      · exact ⟨_, rfl, hu⟩
      · exact ⟨_, rfl, hu⟩
      · exact ⟨rfl, rfl⟩
    all_goals
      have hu' := hu
      simp only [RouterCall.call, Call.events, uses, List.mem_cons, List.not_mem_nil, or_false] at hu'
      rcases hu' with rfl | rfl | rfl | rfl <;> exact ⟨_, rfl, hu⟩

/-- The tree and a lookup. -/
theorem tree_find (a : RegCall) (w : TreeWrite) (q : Lookup) (h : a.tree = some w) (u v : Use) (hu : ∃ H, u.locks = (.node 0, true) :: H)
    (hh : treeHas u.loc u.write w) (hv : v ∈ uses [] q.events) (hx : u.loc = .treeNodes ∨ ∃ k, u.loc = .nodeHandlers k) (hc : u.Clash v) :
    TreeWrite.disturbs w q = true := by
  obtain ⟨H, hu⟩ := hu
  obtain ⟨c1, c2, c3⟩ := hc
  obtain ⟨v1, v2⟩ := (mem_lookUses _ _).1 hv
  have uw : u.write = true := by rcases c2 with h | h; · exact h
                                 · rw [v1] at h; cases h
  rcases v2 with ⟨v2, v3, v4⟩ | ⟨k, v2, v3, v4⟩ | ⟨v2, v3, v4⟩
  · rw [v2] at c1
    rw [c1, uw] at hh
    cases w with
    | root => cases hh
    | deep new ks =>
      rcases hh with ⟨-, hh⟩ | ⟨k, -, hh, -⟩
      · rw [hh rfl]; cases q <;> first | rfl | cases v4
      · cases hh
  · rw [v3] at c1
    rw [c1, uw] at hh
    have k0 : k ≠ 0 := by
      rintro rfl
      have := c3 (.node 0, true) (by rw [hu]; simp) (.node 0, false) (by rw [v4]; simp) rfl
      cases this.1
    cases w with
    | root => cases hh; exact absurd rfl k0
    | deep new ks =>
      rcases hh with ⟨hh, -⟩ | ⟨k', hk, hh, -⟩
      · cases hh
      · cases hh
        cases q <;> simp_all [lookTarget, TreeWrite.disturbs]
  · rw [v3] at c1
    rcases hx with hx | ⟨k, hx⟩ <;> rw [hx] at c1 <;> cases c1

theorem reg_apart (a b : RegCall) (h : Clash a.call.events b.call.events) : a.Apart b := by
  obtain ⟨u, hu, v, hv, hc⟩ := h
  have fa := footprint_use a u hu
  have fb := footprint_use b v hv
  have c1 := hc.1
  have same : ∀ {r x y}, a = .router r x → b = .router r y → u ∈ uses [] (x.call r).events → v ∈ uses [] (y.call r).events → a.Apart b := by
    intro r x y ha hb h1 h2
    exact .inl ⟨r, x, y, ha, hb, (router_table r x y).1 ⟨u, h1, v, h2, hc⟩⟩
  have tree : regTree a u → regTree b v → (u.loc = .treeNodes ∨ ∃ k, u.loc = .nodeHandlers k) → a.Apart b := by
    intro ta tb hx
    rcases ta with ⟨w, H, ta, tl, th⟩ | ⟨q, rfl, ta⟩
    · rcases tb with ⟨w', H', tb, tl', th'⟩ | ⟨q', rfl, tb⟩
      · have := hc.2.2 (.node 0, true) (by rw [tl]; simp) (.node 0, true) (by rw [tl']; simp) rfl
        cases this.1
      · exact .inr (.inr (.inl ⟨w, q', ta, rfl, tree_find a w q' ta u v ⟨H, tl⟩ th tb hx hc⟩))
    · rcases tb with ⟨w', H', tb, tl', th'⟩ | ⟨q', rfl, tb⟩
      · have hc' : v.Clash u := ⟨hc.1.symm, hc.2.1.symm, fun x hx y hy e => (hc.2.2 y hy x hx e.symm).symm⟩
        exact .inr (.inr (.inr ⟨w', q, tb, rfl, tree_find b w' q tb v u ⟨H', tl'⟩ th' ta (by rw [← c1]; exact hx) hc'⟩))
      · have h1 := ((mem_lookUses _ _).1 ta).1
        have h2 := ((mem_lookUses _ _).1 tb).1
        rcases hc.2.1 with h | h
        · rw [h1] at h; cases h
        · rw [h2] at h; cases h
  have set : ∀ {s}, (.set s, true) ∈ u.locks → (.set s, true) ∈ v.locks → a.Apart b := by
    intro s h1 h2
    have := hc.2.2 _ h1 _ h2 rfl
    cases this.1
  have table : a.table = some u.write ∧ u.locks = routerHeld a → b.table = some v.write ∧ v.locks = routerHeld b → a.Apart b := by
    rintro ⟨h1, h2⟩ ⟨h3, h4⟩
    refine .inr (.inl ⟨_, _, h1, h3, hc.2.1, ?_⟩)
    rintro ⟨r, h5, h6⟩
    have := hc.2.2 (.router r, true) (by rw [h2, routerHeld, h5]; simp) (.router r, true) (by rw [h4, routerHeld, h6]; simp) rfl
    cases this.1
  unfold footprint at fa fb
  rw [← c1] at fb
  cases hx : u.loc <;> simp only [hx] at fa fb
  case routerBefore r => obtain ⟨x, ha, h1⟩ := fa; obtain ⟨y, hb, h2⟩ := fb; exact same ha hb h1 h2
  case routerAfter r => obtain ⟨x, ha, h1⟩ := fa; obtain ⟨y, hb, h2⟩ := fb; exact same ha hb h1 h2
  case routerLast r => obtain ⟨x, ha, h1⟩ := fa; obtain ⟨y, hb, h2⟩ := fb; exact same ha hb h1 h2
  case setBefore s => exact set fa fb
  case setAfter s => exact set fa fb
  case setLast s => exact set fa fb
  case setMain s => exact set fa fb
  case regTable => exact table fa fb
  case treeNodes => exact tree fa fb (.inl hx)
  case nodeHandlers k => exact tree fa fb (.inr ⟨k, hx⟩)

theorem tree_uses (a : RegCall) (w : TreeWrite) (h : a.tree = some w) (x : Loc) (hw : treeHas x true w) :
    ⟨x, true, (.node 0, true) :: routerHeld a⟩ ∈ uses [] a.call.events := by
  cases a with
  | router r a =>
    cases a <;> simp only [RegCall.tree, Option.some.injEq, reduceCtorEq] at h
    subst h
    show _ ∈ uses [] (Call.routerUse r _).events
    rw [uses_use]
    exact List.mem_append_right _ ((mem_treeUses _ _ _).2 ⟨rfl, hw⟩)
  | add s w' =>
    cases h
    have hc : lifo 0 [] (cloneSet s) = some [] := by simp [cloneSet, lifo, lifo1]
    simp only [RegCall.call, Call.events]
    rw [uses_append hc]
    exact List.mem_append_right _ ((mem_treeUses _ _ _).2 ⟨rfl, hw⟩)
  | set _ _ => cases h
  | addReg _ => cases h
  | find _ => cases h

theorem table_uses (a : RegCall) (x : Bool) (h : a.table = some x) : ⟨.regTable, x, routerHeld a⟩ ∈ uses [] a.call.events := by
  cases a with
  | router r a =>
    cases a <;> simp only [RegCall.table, Option.some.injEq, reduceCtorEq] at h
    subst h
    simp [RegCall.call, RouterCall.call, Call.events, uses, routerHeld, RegCall.router?]
  | addReg s =>
    cases h
    simp [RegCall.call, Call.events, cloneSet, uses, routerHeld, RegCall.router?]
  | find q =>
    simp only [RegCall.table] at h
    cases hq : Lookup.rx q with
    | false => rw [hq] at h; cases h
    | true =>
      rw [hq] at h
      cases h
      exact (mem_lookUses _ _).2 ⟨rfl, .inr (.inr ⟨hq, rfl, rfl⟩)⟩
  | set _ _ => cases h
  | add _ _ => cases h

theorem disturb_clash (a : RegCall) (w : TreeWrite) (q : Lookup) (h : a.tree = some w) (hd : TreeWrite.disturbs w q = true) :
    Clash a.call.events q.events := by
  have walk : treeHas .treeNodes true w → lookWalks q = true → Clash a.call.events q.events := fun h1 h2 =>
    ⟨_, tree_uses a w h _ h1, ⟨.treeNodes, false, []⟩, (mem_lookUses _ _).2 ⟨rfl, .inl ⟨rfl, rfl, h2⟩⟩, rfl, .inl rfl, fun _ _ y hy => by cases hy⟩
  have node : ∀ k, treeHas (.nodeHandlers k) true w → lookTarget q = some k → k ≠ 0 → Clash a.call.events q.events := by
    intro k h1 h2 h3
    refine ⟨_, tree_uses a w h _ h1, ⟨.nodeHandlers k, false, [(.node k, false)]⟩, (mem_lookUses _ _).2 ⟨rfl, .inr (.inl ⟨k, h2, rfl, rfl⟩)⟩,
      rfl, .inl rfl, ?_⟩
    intro x hx y hy e
    simp only [List.mem_singleton] at hy
    subst hy
    simp only [List.mem_cons, routerHeld, List.mem_map] at hx
    rcases hx with rfl | ⟨r, -, rfl⟩
    · cases e; exact absurd rfl h3
    · cases e
  cases w with
  | root => cases hd
  | deep new ks =>
    have new_ok : new = true → treeHas .treeNodes true (.deep new ks) := fun h => .inl ⟨rfl, fun _ => h⟩
    have ks_ok : ∀ k, k ∈ ks → treeHas (.nodeHandlers k) true (.deep new ks) := fun k h => .inr ⟨k, h, rfl, rfl⟩
    cases q with
    | root => cases hd
    | rootThenRx => cases hd
    | lostThenRx => exact walk (new_ok hd) rfl
    | deep k =>
      simp only [TreeWrite.disturbs, Bool.or_eq_true, Bool.and_eq_true, bne_iff_ne, ne_eq, List.contains_iff_mem] at hd
      rcases hd with hd | ⟨h1, h2⟩
      · exact walk (new_ok hd) rfl
      · exact node k (ks_ok k h2) rfl h1
    | deepThenRx k =>
      simp only [TreeWrite.disturbs, Bool.or_eq_true, Bool.and_eq_true, bne_iff_ne, ne_eq, List.contains_iff_mem] at hd
      rcases hd with hd | ⟨h1, h2⟩
      · exact walk (new_ok hd) rfl
      · exact node k (ks_ok k h2) rfl h1

theorem reg_table (a b : RegCall) : Clash a.call.events b.call.events ↔ a.Apart b := by
  refine ⟨reg_apart a b, ?_⟩
  rintro (⟨r, x, y, rfl, rfl, h⟩ | ⟨x, y, h1, h2, h3, h4⟩ | ⟨w, q, h1, rfl, h2⟩ | ⟨w, q, h1, rfl, h2⟩)
  · exact (router_table r x y).2 h
  · refine ⟨_, table_uses a x h1, _, table_uses b y h2, rfl, h3, ?_⟩
    intro p hp q hq e
    exfalso
    simp only [routerHeld, List.mem_map, Option.mem_toList] at hp hq
    obtain ⟨r, hr, rfl⟩ := hp
    obtain ⟨r', hr', rfl⟩ := hq
    cases e
    exact h4 ⟨r, hr, hr'⟩
  · exact disturb_clash a w q h1 h2
  · exact clash_symm (disturb_clash b w q h1 h2)

/-- **C81** (exactly).  Goroutines that make any calls on routers and handler sets, add routes and look routes up: there is a race in some
interleaving exactly if one of them makes a call and another a call that are to be kept apart: `Clone`, `GetBefore` or `GetAfter` of a router and
changing its handlers; adding a regular expression, and adding one not through the same router or looking one up; adding a route and looking up
a route other than "/" that needs nodes this adds or ends at a node it sets. -/
theorem C81_exact (gs : List (List RegCall)) :
    RaceFree (gs.map fun cs => callsEvents (cs.map RegCall.call)) ↔
      ∀ (i j : Nat) as bs, i ≠ j → gs[i]? = some as → gs[j]? = some bs → ∀ a ∈ as, ∀ b ∈ bs, ¬ a.Apart b :=
  raceFree_table _ RegCall.Apart reg_table gs

/-- **C46** (exactly).  Goroutines that register routes without regular expressions, and look routes up: there is a race in some interleaving
exactly if a lookup walks down the tree while a route is added that brings new nodes, or ends at a node, other than the root, whose handlers a
registration sets. -/
theorem C46_exact (gs : List (List RegCall)) (h : ∀ cs ∈ gs, ∀ c ∈ cs, (∃ s w, c = .add s w) ∨ ∃ q, c = .find q) :
    RaceFree (gs.map fun cs => callsEvents (cs.map RegCall.call)) ↔
      ∀ (i j : Nat) as bs, i ≠ j → gs[i]? = some as → gs[j]? = some bs → ∀ s w q, .add s w ∈ as → .find q ∈ bs → TreeWrite.disturbs w q = false := by
  rw [C81_exact]
  constructor
  · intro hf i j as bs hij hi hj s w q ha hb
    cases hd : TreeWrite.disturbs w q with
    | false => rfl
    | true => exact absurd (.inr (.inr (.inl ⟨w, q, rfl, rfl, hd⟩))) (hf i j as bs hij hi hj _ ha _ hb)
  · intro hf i j as bs hij hi hj a ha b hb hap
    have ka := h as (List.mem_of_getElem? hi) a ha
    have kb := h bs (List.mem_of_getElem? hj) b hb
    rcases hap with ⟨r, x, y, rfl, -⟩ | ⟨x, y, h1, h2, h3, -⟩ | ⟨w, q, h1, rfl, h2⟩ | ⟨w, q, h1, rfl, h2⟩
    · rcases ka with ⟨_, _, k⟩ | ⟨_, k⟩ <;> cases k
    · have rd : ∀ {c z}, ((∃ s w, c = RegCall.add s w) ∨ ∃ q, c = .find q) → c.table = some z → z = false := by
        rintro c z (⟨s, w, rfl⟩ | ⟨q, rfl⟩) hz
        · cases hz
        · simp only [RegCall.table] at hz
          split at hz <;> cases hz
          rfl
      rcases h3 with rfl | rfl
      · cases rd ka h1
      · cases rd kb h2
    · rcases ka with ⟨s, w', rfl⟩ | ⟨_, rfl⟩
      · cases h1
        rw [hf i j as bs hij hi hj s w q ha hb] at h2; cases h2
      · cases h1
    · rcases kb with ⟨s, w', rfl⟩ | ⟨_, rfl⟩
      · cases h1
        rw [hf j i bs as hij.symm hj hi s w q hb ha] at h2; cases h2
      · cases h1

example : RaceFree ([[RegCall.add 1 (.deep false [3]), .add 2 .root], [.find .root, .find (.deep 2)]].map fun cs => callsEvents (cs.map RegCall.call)) := by
  refine (C46_exact _ (by simp)).2 ?_
  intro i j as bs hij hi hj s w q ha hb
  match i, j with
  | 0, 0 => exact absurd rfl hij
  | 1, 1 => exact absurd rfl hij
  | 1, 0 => cases hi; simp at ha
  | 0, 1 =>
    cases hi; cases hj
    simp only [List.mem_cons, List.not_mem_nil, or_false, RegCall.add.injEq, RegCall.find.injEq] at ha hb
    rcases ha with ⟨rfl, rfl⟩ | ⟨rfl, rfl⟩ <;> rcases hb with rfl | rfl <;> rfl
  | 0, _ + 2 => cases hj
  | 1, _ + 2 => cases hj
  | _ + 2, _ => cases hi

/-! The tables are met and missed: -/

/-- goroutines that add fields and report errors of one logger: no race -/
example : RaceFree ([[LogCall.add, .merge], [.error, .clone, .level]].map fun cs => callsEvents (cs.map (LogCall.call 3 4 5))) := by
  refine (C79_exact 3 4 5 (by decide) _).2 ?_
  intro i j as bs hij hi hj
  match i, j with
  | 0, 0 => exact absurd rfl hij
  | 1, 1 => exact absurd rfl hij
  | 0, 1 => cases hi; cases hj; decide
  | 1, 0 => cases hi; cases hj; decide
  | 0, _ + 2 => cases hj
  | 1, _ + 2 => cases hj
  | _ + 2, _ => cases hi

/-- `Infof` while another goroutine adds a field: a race -/
example : ¬ RaceFree ([[LogCall.add, .merge], [.error, .logf]].map fun cs => callsEvents (cs.map (LogCall.call 3 4 5))) := by
  intro h
  exact (C79_exact 3 4 5 (by decide) _).1 h 0 1 _ _ (by decide) rfl rfl .add (by decide) .logf (by decide) (by decide)

example : ¬ RaceFree ([[CtxCall.get], [.stopped, .set]].map fun cs => callsEvents (cs.map (CtxCall.call 3 4 5))) := by
  intro h
  exact (C80_exact 3 4 5 _).1 h 0 1 _ _ (by decide) rfl rfl .get (by decide) .set (by decide) (by decide)

example : ¬ RaceFree ([[RouterCall.clone], [.use (.deep true [1, 2]), .first]].map fun cs => callsEvents (cs.map (RouterCall.call 3))) := by
  intro h
  exact (C81_router 3 _).1 h 0 1 _ _ (by decide) rfl rfl .clone (by decide) .first (by decide) (by decide)

end Verif
