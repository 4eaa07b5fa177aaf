import Verif.Lemmas.Races
/-
Data races between goroutines that use the API (C78 to C81).
-/
namespace Verif
open Spec

/-! ### C78: requests -/

/-- While requests are served: the tree and the server's configuration are read only; sets and routers have their mutexes;
a request has its own context, logger and logger configuration. -/
def reqGuard : Loc → Guard
  | .routerBefore r | .routerAfter r | .routerLast r => .by (.router r)
  | .setBefore s | .setAfter s | .setLast s | .setMain s => .by (.set s)
  | .treeNodes | .nodeHandlers _ | .regTable | .authState | .serverFields => .never
  | .logConfig l | .logErr l | .logFields l => .own l
  | .cfgLevel c | .cfgWriter c | .cfgKeys c => match c with | 0 => .never | k + 1 => .own k
  | .ctxData x | .ctxFlags x | .ctxTrace x => .own x

/-- The locks of a goroutine that runs the handlers of `busy`. -/
def busyHeld (busy : Option Nat) : Held := busy.toList.map fun s => (.set s, false)

theorem ownCall_chk {i : Nat} {busy : Option Nat} {c : Call} (h : OwnCall i busy c) :
    chk reqGuard i (busyHeld busy) c.events = some (busyHeld busy) := by
  cases busy <;> cases c <;> simp only [OwnCall] at h <;>
    first
    | (rename Lookup => q; cases q <;> simp [busyHeld, Call.events, Lookup.events, chk, chk1, reqGuard])
    | (cases h with
      | inl h => subst h; simp [busyHeld, Call.events, cloneCfg, chk, chk1, reqGuard]
      | inr h => subst h; simp [busyHeld, Call.events, cloneCfg, chk, chk1, reqGuard])
    | (obtain ⟨rfl, h⟩ := h
       cases h with
      | inl h => subst h; simp [busyHeld, Call.events, cloneCfg, chk, chk1, reqGuard]
      | inr h => subst h; simp [busyHeld, Call.events, cloneCfg, chk, chk1, reqGuard])
    | (obtain ⟨rfl, rfl, rfl⟩ := h; simp [busyHeld, Call.events, cloneCfg, chk, chk1, reqGuard])
    | (obtain ⟨rfl, rfl⟩ := h; simp [busyHeld, Call.events, cloneCfg, chk, chk1, reqGuard])
    | (subst h; simp [busyHeld, Call.events, cloneCfg, chk, chk1, reqGuard])
    | (simp_all [busyHeld, Call.events, cloneSet, chk, chk1, reqGuard, eq_comm])

theorem ownCalls_chk {i : Nat} {busy : Option Nat} {cs : List Call} (h : ∀ c ∈ cs, OwnCall i busy c) :
    chk reqGuard i (busyHeld busy) (callsEvents cs) = some (busyHeld busy) :=
  chk_flatMap_same fun c hc => ownCall_chk (h c hc)

theorem lookup_chk (i : Nat) (q : Lookup) : chk reqGuard i [] q.events = some [] := by
  cases q <;> simp [Lookup.events, chk, chk1, reqGuard]

theorem request_chk {i : Nat} {q : ReqAccess} (h : (RaceTask.request q).Own i) : (chk reqGuard i [] (q.events i)).isSome := by
  obtain ⟨hs, hh⟩ := h
  have h1 : chk reqGuard i [] ([.rd .serverFields, .rd .authState] ++ q.lookup.events) = some [] := by
    rw [chk_append_same (by simp [chk, chk1, reqGuard])]; exact lookup_chk i _
  unfold ReqAccess.events
  rw [chk_append_same h1]
  cases hset : q.set with
  | none => simp [chk]
  | some s =>
    have hb := hh s hset
    have own : ∀ {cs : List Call}, (∀ c ∈ cs, OwnCall i (some s) c) →
        chk reqGuard i [(.set s, false)] (callsEvents cs) = some [(.set s, false)] := fun k => ownCalls_chk (busy := some s) k
    have hin : ∀ {h}, h ∈ [q.init, q.main, q.last] ++ q.before ++ q.after → ∀ c ∈ h, OwnCall i (some s) c := fun k => hb _ k
    have name : OwnCall i (some s) (.ctxHandleName i i (i + 1)) := ⟨rfl, rfl, rfl⟩
    have stop : OwnCall i (some s) (.ctxStopped i) := rfl
    have hand : ∀ {h}, h ∈ [q.init, q.main, q.last] ++ q.before ++ q.after →
        ∀ c ∈ (.ctxHandleName i i (i + 1) :: h ++ [.ctxStopped i] : List Call), OwnCall i (some s) c := by
      intro h hm c hc
      simp only [List.cons_append, List.mem_cons, List.mem_append, List.not_mem_nil, or_false] at hc
      rcases hc with rfl | hc | rfl
      · exact name
      · exact hin hm c hc
      · exact stop
    have chain : ∀ x ∈ q.chain i s, chk reqGuard i [(.set s, false)] x = some [(.set s, false)] := by
      intro x hx
      simp only [ReqAccess.chain, List.mem_append, List.mem_singleton, List.mem_map] at hx
      rcases hx with ((rfl | ⟨h, hm, rfl⟩) | rfl) | ⟨h, hm, rfl⟩
      · show chk reqGuard i [(.set s, false)] ([.rd (.setMain s)] ++ _) = _
        rw [chk_append_same (by simp [chk, chk1, reqGuard])]
        refine own fun c hc => ?_
        rcases List.mem_cons.mp hc with rfl | hc
        · exact name
        · exact hin (by simp) c hc
      · show chk reqGuard i [(.set s, false)] ([.rd (.setBefore s)] ++ _) = _
        rw [chk_append_same (by simp [chk, chk1, reqGuard])]
        exact own (hand (by simp [hm]))
      · cases q.skipMain
        · show chk reqGuard i [(.set s, false)] ([.rd (.ctxFlags i), .rd (.setMain s)] ++ _) = _
          rw [chk_append_same (by simp [chk, chk1, reqGuard])]
          exact own (hand (by simp))
        · simp [chk, chk1, reqGuard]
      · show chk reqGuard i [(.set s, false)] ([.rd (.setAfter s)] ++ _) = _
        rw [chk_append_same (by simp [chk, chk1, reqGuard])]
        exact own (hand (by simp [hm]))
    simp only [List.append_assoc]
    rw [chk_append_same (by simp [chk, chk1, reqGuard])]
    rw [chk_append_same (show chk reqGuard i [] (callsEvents q.session) = some [] from ownCalls_chk (busy := none) hs)]
    rw [chk_append_same (by simp [cloneCfg, chk, chk1, reqGuard])]
    rw [chk_append_same (by simp [chk, chk1, reqGuard])]
    rw [chk_append, show chk reqGuard i [] [.rlock (.set s)] = some [(.set s, false)] by simp [chk, chk1]]
    simp only [Option.bind_some]
    rw [chk_append_same (chk_flatten_same fun x hx => chain x (List.mem_of_mem_take hx))]
    rw [chk_append, show chk reqGuard i [(.set s, false)] [.runlock (.set s), .rd (.ctxFlags i)] = some [] by
      simp [chk, chk1, reqGuard]]
    simp only [Option.bind_some]
    cases q.aborted with
    | true => simp [chk]
    | false =>
      simp only [Bool.false_eq_true, if_false]
      rw [chk_append, show chk reqGuard i [] [.rlock (.set s), .rd (.setLast s)] = some [(.set s, false)] by
        simp [chk, chk1, reqGuard]]
      simp only [Option.bind_some]
      rw [chk_append_same (own (hin (by simp)))]
      simp [chk, chk1]

/-- **C78** (requests do not race).  Any number of requests, served at the same time as any number of other goroutines, have
no data race, if handlers and goroutines keep to `OwnCall`: their own contexts and loggers, builder calls on sets and routers
(not on the set that is running them), lookups, and reading the configuration of the server's log. -/
theorem C78_requests_partial (tasks : List RaceTask) (h : ∀ (i : Nat) t, tasks[i]? = some t → t.Own i) :
    RaceFree (tasks.mapIdx RaceTask.events) := by
  refine raceFree_of_chk reqGuard fun i es hi => ?_
  rw [List.getElem?_mapIdx] at hi
  cases ht : tasks[i]? with
  | none => rw [ht] at hi; cases hi
  | some t =>
    rw [ht] at hi
    simp only [Option.map_some, Option.some.injEq] at hi
    subst hi
    have ho := h i t ht
    cases t with
    | request q => exact request_chk ho
    | calls cs =>
      have : chk reqGuard i [] (callsEvents cs) = some [] := ownCalls_chk (busy := none) ho
      simp [RaceTask.events, this]

/-- A request that runs set 1 with a handler that logs and stores a value. -/
def exReq (i : Nat) : ReqAccess :=
  { lookup := .deepThenRx 2, set := some 1, session := [.cfgLevel 0], init := [],
    before := [[.ctxSet i, .logAdd i, .logLogf i (i + 1), .setLast 7]], main := [.ctxGet i, .ctxStop i i (i + 1)], after := [],
    last := [.logLog i (i + 1), .logSetConfig i 0] }

/-- Two such requests and a goroutine that changes their set. -/
def exTasks : List RaceTask := [.request (exReq 0), .request (exReq 1), .calls [.setBefore 1, .setLast 1, .setUse 1, .routerFirst 5]]

example : ∀ (i : Nat) t, exTasks[i]? = some t → t.Own i := by
  intro i t h
  match i with
  | 0 => cases h; simp [RaceTask.Own, exReq, OwnCall]
  | 1 => cases h; simp [RaceTask.Own, exReq, OwnCall]
  | 2 => cases h; simp [RaceTask.Own, OwnCall]
  | n + 3 => cases h

/-- A small request. -/
def smallReq (q : Lookup) : ReqAccess :=
  { lookup := q, set := some 1, session := [], init := [], before := [], main := [], after := [], last := [] }

/-- **C78** (what does race).  A request is served while the server's log level or writer is set, while a route with a
regular expression is added, or while a route other than that of the root path is added. -/
theorem C78_violated :
    (∃ sched, Racing (raceRun [(smallReq .root).events 0, callsEvents [.setLogLevel 0]] sched) 1 0 (.cfgLevel 0)) ∧
    (∃ sched, Racing (raceRun [(smallReq .lostThenRx).events 0, callsEvents [.serverAddReg 9]] sched) 1 0 .regTable) ∧
    (∃ sched, Racing (raceRun [(smallReq (.deep 3)).events 0, callsEvents [.serverAdd 9 (.deep true [4])]] sched) 1 0 .treeNodes) ∧
    (∃ sched, Racing (raceRun [(smallReq (.deep 3)).events 0, callsEvents [.serverAdd 9 (.deep false [3])]] sched) 1 0
      (.nodeHandlers 3)) := by
  refine ⟨⟨List.replicate 11 0 ++ List.replicate 2 1, by decide, ⟨_, rfl⟩, _, .inr rfl⟩, ?_⟩
  refine ⟨⟨List.replicate 3 0 ++ List.replicate 6 1, by decide, ⟨_, rfl⟩, _, .inr rfl⟩, ?_⟩
  refine ⟨⟨List.replicate 2 0 ++ List.replicate 8 1, by decide, ⟨_, rfl⟩, _, .inr rfl⟩, ?_⟩
  exact ⟨List.replicate 4 0 ++ List.replicate 8 1, by decide, ⟨_, rfl⟩, _, .inr rfl⟩

/-! ### C79: loggers -/

/-- Filling, cloning and writing out: configurations are not written. -/
def useGuard : Loc → Guard
  | .logErr l | .logFields l => .by (.logger l)
  | _ => .never

/-- Filling and configuring: the pointer to the configuration is guarded as well. -/
def configureGuard : Loc → Guard
  | .logErr l | .logFields l | .logConfig l => .by (.logger l)
  | _ => .never

theorem calls_raceFree (g : Nat → Loc → Guard) (P : Nat → Call → Prop) (gg : Loc → Guard) (hg : ∀ i, g i = gg)
    (hP : ∀ i c, P i c → chk (g i) i [] c.events = some []) (gs : List (List Call))
    (h : ∀ (i : Nat) cs, gs[i]? = some cs → ∀ c ∈ cs, P i c) : RaceFree (gs.map callsEvents) := by
  refine raceFree_of_chk gg fun i es hi => ?_
  rw [List.getElem?_map] at hi
  cases ht : gs[i]? with
  | none => rw [ht] at hi; cases hi
  | some cs =>
    rw [ht] at hi
    simp only [Option.map_some, Option.some.injEq] at hi
    subst hi
    have : chk gg i [] (callsEvents cs) = some [] :=
      chk_flatMap_same fun c hc => hg i ▸ hP i c (h i cs ht c hc)
    simp [this]

/-- **C79** (loggers can be shared).  Any number of goroutines that fill, clone, read and write out any loggers, shared or
not, have no data race. -/
theorem C79_use_partial (gs : List (List Call)) (h : ∀ cs ∈ gs, ∀ c ∈ cs, LoggerUse c) : RaceFree (gs.map callsEvents) := by
  refine calls_raceFree (fun _ => useGuard) (fun _ => LoggerUse) useGuard (fun _ => rfl) ?_ gs
    fun i cs hi => h cs (List.mem_of_getElem? hi)
  intro i c hc
  cases c <;> simp only [LoggerUse] at hc <;> simp [Call.events, cloneCfg, chk, chk1, useGuard]

/-- **C79** (loggers can be configured while they are filled). -/
theorem C79_configure_partial (gs : List (List Call)) (h : ∀ cs ∈ gs, ∀ c ∈ cs, LoggerConfigure c) :
    RaceFree (gs.map callsEvents) := by
  refine calls_raceFree (fun _ => configureGuard) (fun _ => LoggerConfigure) configureGuard (fun _ => rfl) ?_ gs
    fun i cs hi => h cs (List.mem_of_getElem? hi)
  intro i c hc
  cases c <;> simp only [LoggerConfigure] at hc <;> simp [Call.events, cloneCfg, chk, chk1, configureGuard]

/-- Filling, cloning and tuning: the settings of a configuration are guarded by its own mutex. -/
def tuneGuard : Loc → Guard
  | .logErr l | .logFields l => .by (.logger l)
  | .cfgLevel c | .cfgWriter c | .cfgKeys c => .by (.config c)
  | _ => .never

/-- **C79** (settings can be changed while loggers are filled and cloned).  Any number of goroutines that set levels, writers
and key names — of any configuration, through a logger, through the server or directly — and fill, clone or take the
configuration of any logger have no data race. -/
theorem C79_tune_partial (gs : List (List Call)) (h : ∀ cs ∈ gs, ∀ c ∈ cs, LoggerTune c) : RaceFree (gs.map callsEvents) := by
  refine calls_raceFree (fun _ => tuneGuard) (fun _ => LoggerTune) tuneGuard (fun _ => rfl) ?_ gs
    fun i cs hi => h cs (List.mem_of_getElem? hi)
  intro i c hc
  cases c <;> simp only [LoggerTune] at hc <;> simp [Call.events, cloneCfg, chk, chk1, tuneGuard]

example : ∀ cs ∈ [[Call.logStdKeys 0 1, .cfgSetLevel 1], [.logClone 0 1, .logAdd 0], [.cfgClone 1, .setLogLevel 1]],
    ∀ c ∈ cs, LoggerTune c := by simp [LoggerTune]

example : ∀ cs ∈ [[Call.logAdd 0, .logError 0, .logLog 0 1], [.logLog 0 1, .logMerge 0], [.logClone 0 1, .logConfig 0 1]],
    ∀ c ∈ cs, LoggerUse c := by simp [LoggerUse]

example : ∀ cs ∈ [[Call.logAdd 0, .logSetConfig 0 2], [.logAddDebug 0 1, .logConfig 0 1]], ∀ c ∈ cs, LoggerConfigure c := by
  simp [LoggerConfigure]

/-- **C79** (what does race).  On one logger: two calls of Logf or any level's …f (writes the field map without the mutex);
setting the level, the writer or the names of the standard keys while a record is written; setting the configuration while
the level is read; Log and Logf. -/
theorem C79_violated :
    (∃ sched, Racing (raceRun [callsEvents [.logLogf 0 1], callsEvents [.logLogf 0 1]] sched) 0 1 (.logFields 0)) ∧
    (∃ sched, Racing (raceRun [callsEvents [.logLogf 0 1], callsEvents [.logLog 0 1]] sched) 0 1 (.logFields 0)) ∧
    (∃ sched, Racing (raceRun [callsEvents [.logLogf 0 1], callsEvents [.logAdd 0]] sched) 0 1 (.logFields 0)) ∧
    (∃ sched, Racing (raceRun [callsEvents [.logSetLevel 0 1], callsEvents [.logLevel 0 1]] sched) 0 1 (.cfgLevel 1)) ∧
    (∃ sched, Racing (raceRun [callsEvents [.logWriter 0 1], callsEvents [.logLog 0 1]] sched) 0 1 (.cfgWriter 1)) ∧
    (∃ sched, Racing (raceRun [callsEvents [.logStdKeys 0 1], callsEvents [.logLog 0 1]] sched) 0 1 (.cfgKeys 1)) ∧
    (∃ sched, Racing (raceRun [callsEvents [.logSetConfig 0 2], callsEvents [.logLevel 0 1]] sched) 0 1 (.logConfig 0)) := by
  refine ⟨⟨[0, 0, 0, 1, 1], by decide, ⟨_, rfl⟩, _, .inr rfl⟩, ?_⟩
  refine ⟨⟨[0, 0, 0, 1, 1, 1, 1, 1, 1], by decide, ⟨_, rfl⟩, _, .inl rfl⟩, ?_⟩
  refine ⟨⟨[0, 0, 0, 1], by decide, ⟨_, rfl⟩, _, .inl rfl⟩, ?_⟩
  refine ⟨⟨[0, 0, 1], by decide, ⟨_, rfl⟩, _, .inr rfl⟩, ?_⟩
  refine ⟨⟨[0, 0, 1, 1, 1, 1, 1, 1, 1, 1], by decide, ⟨_, rfl⟩, _, .inr rfl⟩, ?_⟩
  refine ⟨⟨[0, 0, 0, 1, 1], by decide, ⟨_, rfl⟩, _, .inr rfl⟩, ?_⟩
  exact ⟨[0, 0, 0, 0, 0, 0], by decide, ⟨_, rfl⟩, _, .inr rfl⟩

/-! ### C80: contexts -/

/-- Clone `i + 1` belongs to goroutine `i`. -/
def cloneGuard : Loc → Guard
  | .ctxData x => match x with | 0 => .never | k + 1 => .own k
  | _ => .never

/-- **C80** (work on clones).  Goroutines that write only to their own clones of a context, and read the context, have no
data race. -/
theorem C80_clones_partial (gs : List (List Call)) (h : ∀ (i : Nat) cs, gs[i]? = some cs → ∀ c ∈ cs, CloneUse i c) :
    RaceFree (gs.map callsEvents) := by
  refine calls_raceFree (fun _ => cloneGuard) CloneUse cloneGuard (fun _ => rfl) ?_ gs h
  intro i c hc
  cases c <;> simp only [CloneUse] at hc
  case ctxSet => subst hc; simp [Call.events, chk, chk1, cloneGuard]
  case ctxGet => rcases hc with e | e <;> subst e <;> simp [Call.events, chk, chk1, cloneGuard]
  case ctxClone => rcases hc with e | e <;> subst e <;> simp [Call.events, chk, chk1, cloneGuard]
  case ctxStopped => rcases hc with e | e <;> subst e <;> simp [Call.events, chk, chk1, cloneGuard]

example : ∀ (i : Nat) cs, [[Call.ctxClone 0, .ctxSet 1, .ctxGet 1], [.ctxClone 0, .ctxSet 2, .ctxGet 0]][i]? = some cs →
    ∀ c ∈ cs, CloneUse i c := by
  intro i cs h
  match i with
  | 0 => cases h; simp [CloneUse]
  | 1 => cases h; simp [CloneUse]
  | n + 2 => cases h

/-- **C80** (what does race).  A goroutine started by a handler stores a value in the context of the request, or stops it,
while the request goes on. -/
theorem C80_violated :
    (∃ sched, Racing (raceRun [callsEvents [.ctxSet 0], callsEvents [.ctxGet 0]] sched) 0 1 (.ctxData 0)) ∧
    (∃ sched, Racing (raceRun [callsEvents [.ctxSet 0], callsEvents [.ctxSet 0]] sched) 0 1 (.ctxData 0)) ∧
    (∃ sched, Racing (raceRun [callsEvents [.ctxSet 0], callsEvents [.ctxClone 0]] sched) 0 1 (.ctxData 0)) ∧
    (∃ sched, Racing (raceRun [callsEvents [.ctxStop 0 0 1], (smallReq .root).events 0] sched) 0 1 (.ctxFlags 0)) := by
  refine ⟨⟨[], by decide, ⟨_, rfl⟩, _, .inr rfl⟩, ⟨[], by decide, ⟨_, rfl⟩, _, .inl rfl⟩,
    ⟨[], by decide, ⟨_, rfl⟩, _, .inr rfl⟩, ?_⟩
  exact ⟨List.replicate 18 1, by decide, ⟨_, rfl⟩, _, .inr rfl⟩

/-! ### C81: registration -/

/-- The tree is guarded by the root's mutex, routers and sets by their own. -/
def regGuard : Loc → Guard
  | .routerBefore r | .routerAfter r | .routerLast r => .by (.router r)
  | .setBefore s | .setAfter s | .setLast s | .setMain s => .by (.set s)
  | .treeNodes | .nodeHandlers _ => .by (.node 0)
  | _ => .never

theorem treeWrite_chk (i : Nat) (held : Held) (w : TreeWrite) (h : (.node 0, true) ∉ held) (h' : (.node 0, false) ∉ held) :
    chk regGuard i held w.events = some held := by
  cases w with
  | root => simp [TreeWrite.events, chk, chk1, regGuard, h, h']
  | deep new ks =>
    simp only [TreeWrite.events, List.append_assoc]
    rw [chk_append, show chk regGuard i held [.lock (.node 0), .rd .treeNodes] = some ((.node 0, true) :: held) by
      simp [chk, chk1, regGuard, h, h']]
    simp only [Option.bind_some]
    rw [chk_append_same (by cases new <;> simp [chk, chk1, regGuard])]
    rw [chk_append_same (a := ks.map _) (chk_map_same fun k _ => by simp [chk1, regGuard])]
    simp [chk, chk1]

/-- **C81** (registration can be concurrent).  Any number of goroutines that build handler sets and routers and register
routes without regular expressions, and lookups of the root path, have no data race. -/
theorem C81_registration_partial (gs : List (List Call)) (h : ∀ cs ∈ gs, ∀ c ∈ cs, Registration c) :
    RaceFree (gs.map callsEvents) := by
  refine calls_raceFree (fun _ => regGuard) (fun _ => Registration) regGuard (fun _ => rfl) ?_ gs
    fun i cs hi => h cs (List.mem_of_getElem? hi)
  intro i c hc
  cases c
  case routerUse r w =>
    simp only [Call.events]
    rw [List.append_assoc, chk_append, show chk regGuard i [] [.lock (.router r), .rd (.routerAfter r), .rd (.routerBefore r),
      .rd (.routerLast r)] = some [(.router r, true)] by simp [chk, chk1, regGuard]]
    simp only [Option.bind_some]
    rw [chk_append_same (treeWrite_chk i _ w (by simp) (by simp))]
    simp [chk, chk1]
  case serverAdd s w =>
    simp only [Call.events]
    rw [chk_append_same (by simp [cloneSet, chk, chk1, regGuard])]
    exact treeWrite_chk i _ w (by simp) (by simp)
  case find q =>
    cases q <;> simp only [Registration] at hc
    simp [Call.events, Lookup.events, chk, chk1, regGuard]
  all_goals simp only [Registration] at hc
  all_goals simp [Call.events, cloneSet, chk, chk1, regGuard]

example : ∀ cs ∈ [[Call.routerFirst 0, .routerUse 0 (.deep true [4, 5])], [.routerUse 0 (.deep true [5]), .serverAdd 3 .root],
    [.find .root, .setBefore 3]], ∀ c ∈ cs, Registration c := by simp [Registration]

/-- **C81** (what does race).  Routes with regular expressions are added through two routers, or to the server by two
goroutines; a router is cloned or looked into while it is changed. -/
theorem C81_violated :
    (∃ sched, Racing (raceRun [callsEvents [.routerUseReg 0], callsEvents [.routerUseReg 1]] sched) 0 1 .regTable) ∧
    (∃ sched, Racing (raceRun [callsEvents [.serverAddReg 0], callsEvents [.serverAddReg 0]] sched) 0 1 .regTable) ∧
    (∃ sched, Racing (raceRun [callsEvents [.routerBefore 0], callsEvents [.routerClone 0]] sched) 0 1 (.routerBefore 0)) ∧
    (∃ sched, Racing (raceRun [callsEvents [.routerFirst 0], callsEvents [.routerGetBefore 0]] sched) 0 1 (.routerBefore 0)) ∧
    (∃ sched, Racing (raceRun [callsEvents [.routerAfter 0], callsEvents [.routerGetAfter 0]] sched) 0 1 (.routerAfter 0)) := by
  refine ⟨⟨List.replicate 4 0 ++ List.replicate 4 1, by decide, ⟨_, rfl⟩, _, .inl rfl⟩, ?_⟩
  refine ⟨⟨List.replicate 6 0 ++ List.replicate 6 1, by decide, ⟨_, rfl⟩, _, .inl rfl⟩, ?_⟩
  refine ⟨⟨[0, 1], by decide, ⟨_, rfl⟩, _, .inr rfl⟩, ?_⟩
  refine ⟨⟨[0, 0], by decide, ⟨_, rfl⟩, _, .inr rfl⟩, ?_⟩
  exact ⟨[0], by decide, ⟨_, rfl⟩, _, .inr rfl⟩

end Verif
