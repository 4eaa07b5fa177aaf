import Verif.Props.LifeExact
import Verif.Props.Locks
import Verif.Props.SetLocks
import Verif.Props.Races
import Verif.Props.Deadlock
/-
Witnesses: the theorems of Props/ServerRun, Props/Life, Props/LifeExact, Props/Locks, Props/SetLocks and Props/Races
applied to concrete runs and schedules.
-/
namespace Verif.Witness
open Verif Verif.Spec

/-! #### Shutdown calls -/

example : shutInvoked (shutRun 3 [2, 0, 1, 1, 0, 2]) = 1 :=
  (C45_once 3 (by decide) [2, 0, 1, 1, 0, 2]).2 (by decide) (by decide)
example : (shutRun 3 [2, 0, 1, 1, 0, 2]).pcs[0]? ≠ some .invoked := C45_first 3 (by decide) 2 (by decide) [0, 1, 1, 0, 2] 0 (by decide)
example : shutInvoked (shutRun 3 [2, 0, 1, 1, 0, 2]) = (3 + (2 ^ 64 - 1)) / 2 ^ 64 := C45_wraps 3 [2, 0, 1, 1, 0, 2] (by decide)

/-! #### Runs of a server -/

/-- A run that is cancelled with a shutdown time-out; the goroutine that waits reports an error of the shutdown. -/
def okRun : List (RunLbl Nat) := [.serveStart, .cancel, .watchCtx, .watchEnd (some 7), .serveEnd]

theorem okRun_done : ∃ s, runRun (runInit Nat 50) okRun = some s ∧ s.returned ∧ s.cancelled = true ∧ s.stuck ∧ s.closed = true ∧
    s.egErr = some 7 := by
  refine ⟨_, rfl, ⟨rfl, rfl⟩, rfl, ?_, rfl, rfl⟩
  intro l hl
  cases l <;> first | rfl | cases hl

example : ∃ s, runRun (runInit Nat 50) okRun = some s ∧ s.returned := by
  obtain ⟨s, h, -, hc, hst, -⟩ := okRun_done
  exact ⟨s, h, C65_returns_partial 50 okRun s h (by decide) (Or.inl hc) hst⟩
example : ∃ s, runRun (runInit Nat 50) okRun = some s ∧ (s.returned ∨ (s.serve = .serving ∧ s.closed = false ∧ s.watch = .ended)) := by
  obtain ⟨s, h, -, hc, hst, -⟩ := okRun_done
  exact ⟨s, h, C65_exact 50 okRun s h (Or.inl hc) hst⟩
example : ∃ s, runRun (runInit Nat 50) okRun = some s ∧ ((s.closed = true ∧ 0 < s.calls) ∨ s.egErr ≠ none) := by
  obtain ⟨s, h, hr, -⟩ := okRun_done
  exact ⟨s, h, C65_serves 50 okRun s h hr.1⟩
example : ∃ s, runRun (runInit Nat 50) okRun = some s ∧ s.egErr = firstErr okRun := by
  obtain ⟨s, h, -⟩ := okRun_done
  exact ⟨s, h, C67_result 50 okRun s h⟩
example : ∃ s, runRun (runInit Nat 50) okRun = some s ∧ s.closed = true := by
  obtain ⟨s, h, hr, -⟩ := okRun_done
  exact ⟨s, h, C94_released_partial 50 okRun s h (by decide) (by simp [okRun]) hr⟩
example : ∃ s, runRun (runInit Nat 50) okRun = some s ∧ ∃ x l y, okRun = x ++ l :: y ∧
    (∃ x1 x2, x = x1 ++ .serveStart :: x2) ∧ Calls 50 x l := by
  obtain ⟨s, h, -, -, -, hc, -⟩ := okRun_done
  exact ⟨s, h, (C94_exact 50 okRun s h).1 hc⟩
example : ∃ s, runRun (runInit Nat 50) okRun = some s ∧ s.calls = 1 := by
  obtain ⟨s, h, -⟩ := okRun_done
  exact ⟨s, h, (C45_exact 50 okRun s h).trans (by decide)⟩

/-- Without a time-out the lock decides: one call although there are two attempts. -/
example : ∃ s, runRun (runInit Nat 0) [.serveStart, .userShutdown, .cancel, .watchCtx, .serveEnd, .watchEnd none] = some s ∧ s.calls ≤ 1 :=
  ⟨_, rfl, C45_run_partial 0 (by decide) [.serveStart, .userShutdown, .cancel, .watchCtx, .serveEnd, .watchEnd none] (by decide)
    (by decide) _ rfl⟩
example : ([.watchCtx, .watchEnd (some 7), .serveEnd] : List (RunLbl Nat)).length ≤ 4 := by
  refine C65_terminates [.watchCtx, .watchEnd (some 7), .serveEnd]
    ((runRun (runInit Nat 50) [.serveStart, .cancel]).getD (runInit Nat 50)) _ rfl (by decide)

/-- C65_lost: a cancellation before serving begins is lost; a first Shutdown still ends the run. -/
example : ∃ s, runRun (runInit Nat 50) [.cancel, .watchCtx, .watchEnd none, .serveStart] = some s ∧
    ∃ s', runRun s [.userShutdown, .serveEnd] = some s' ∧ s'.returned :=
  ⟨_, rfl, (C65_lost _ rfl rfl rfl).1 rfl rfl⟩
/-- ... but not without a time-out, when the lock has been taken by the lost one. -/
example : ∃ s, runRun (runInit Nat 0) [.cancel, .watchCtx, .watchEnd none, .serveStart] = some s ∧
    ∀ s', runRun s [.userShutdown, .userShutdown, .signal] = some s' → ¬ s'.returned :=
  ⟨_, rfl, fun s' h => ((C65_lost _ rfl rfl rfl).2 (by decide) [.userShutdown, .userShutdown, .signal] s' (by
    intro l hl e; simp only [List.mem_cons, List.not_mem_nil, or_false] at hl; rcases hl with rfl | rfl | rfl <;> simp)
    (by decide) h).2.2⟩

/-- C66: after Shutdown alone. -/
example : ∃ s, runRun (runInit Nat 0) [.serveStart, .userShutdown, .serveEnd] = some s ∧ s.watch = .waiting ∧ ¬ s.returned :=
  ⟨_, rfl, C66_blocks 0 [.serveStart, .userShutdown, .serveEnd] _ rfl rfl rfl rfl⟩

/-- C93: again, on a server whose Shutdown has been called seven times. -/
example : ∃ s, runRun (runFrom Nat 50 7 false) okRun = some s ∧ s.returned := by
  have : ∃ s, runRun (runFrom Nat 50 7 false) okRun = some s ∧ s.cancelled = true ∧ s.stuck := by
    refine ⟨_, rfl, rfl, ?_⟩
    intro l hl
    cases l <;> first | rfl | cases hl
  obtain ⟨s, h, hc, hst⟩ := this
  exact ⟨s, h, C93_restart_partial 50 (by decide) 7 false okRun s h (by decide) (Or.inl hc) hst⟩
example : ∃ s, runRun (runFrom Nat 0 7 false) [.serveStart, .userShutdown, .cancel, .watchCtx, .watchEnd none] = some s ∧
    s.closed = false ∧ ¬ s.returned :=
  ⟨_, rfl, C93_unstoppable 0 (by decide) 7 (by decide) [.serveStart, .userShutdown, .cancel, .watchCtx, .watchEnd none] _ rfl
    (by decide) (by decide)⟩
example : ∃ s, runRun (runFrom Nat 0 7 true) [.serveStart, .serveEnd] = some s ∧ ¬ s.returned :=
  ⟨_, rfl, (C93_closed 0 7 [.serveStart, .serveEnd] _ rfl).2 rfl rfl rfl⟩
example : ((([.name b!"a"] : List Setting).foldl LifeSt.set (lifeInit 5)).shutdown).2 = true := (C93_early 5 [.name b!"a"] rfl).1

/-- C92: the settings of a server. -/
def sets : List Setting := [.name b!"a", .server (some ⟨b!"own", .user 3⟩), .tls b!"c" b!"k", .name b!"b"]
example : ∃ s' st, (sets.foldl LifeSt.set (lifeInit 5)).start [] b!":80" [] (fun _ => true) (fun _ _ => true) = .ret (s', .ok st) ∧
    st.addr = some b!":80" ∧ st.srv.name = b!"b" ∧ st.ln = .tls (.sock 5) := by
  obtain ⟨s', st, h⟩ := C92_serves 5 sets [] b!":80" [] (fun _ => true) (fun _ _ => true) (Or.inr ⟨rfl, rfl⟩)
    (fun _ _ _ => Or.inr (Or.inr rfl))
  obtain ⟨-, h2, h3, -, -, h6⟩ := C92_served 5 sets [] b!":80" [] (fun _ => true) (fun _ _ => true) s' st h
  exact ⟨s', st, h, (h2 rfl).1, h6, (h3 b!"c" b!"k" rfl (by decide) (by decide)).2⟩

/-- C44. -/
example : runListen false b!"9000" b!":1" [b!":2"] = .panic := (C44_address b!"9000" b!":1" [b!":2"]).2.1 (by decide)

/-! #### Locks of the tree -/

/-- C46: goroutine 1 registers while goroutine 3 looks up "/a" and goroutine 2 the root. -/
example : ∀ n, (lockRun lockEx [3, 1]).pcs[2]? ≠ some (.reading n) := by
  have hw : (lockRun lockEx [3, 1]).pcs[1]? = some .writing := rfl
  obtain ⟨r, hr⟩ : ∃ r, lockEx[1]? = some (.add r) := ⟨_, rfl⟩
  obtain ⟨m, hm⟩ : ∃ m, lockEx[2]? = some (.findRoot m) := ⟨_, rfl⟩
  exact fun n => (C46_exclusion lockEx [3, 1] 2 1 r hr hw).1 m n hm
example : ∃ i, (lockStep lockEx (lockRun lockEx [3, 1]) i).isSome = true :=
  C46_progress lockEx [3, 1] ⟨1, .writing, rfl, fun _ _ h => by cases h⟩
example : ∃ n res, (lockRun lockEx [0, 2, 0, 0, 2, 1, 2, 2]).pcs[2]? = some (.done n res) ∧
    n ≤ (lockRun lockEx [0, 2, 0, 0, 2, 1, 2, 2]).hist.length := by
  obtain ⟨m, hm⟩ : ∃ m, lockEx[2]? = some (.findRoot m) := ⟨_, rfl⟩
  have : (match (lockRun lockEx [0, 2, 0, 0, 2, 1, 2, 2]).pcs[2]? with | some (.done _ _) => true | _ => false) = true := by
    decide +kernel
  split at this
  · rename_i n res h
    exact ⟨n, res, h, (C46_root_atomic lockEx _ 2 m n res hm h).1⟩
  · cases this

/-! #### Locks of a handler set -/

/-- C73: a request that begins before and ends after two builder calls. -/
def setSched : List (Nat × Bool) := [(0, false), (0, false), (1, false)] ++ List.replicate 8 (0, false) ++
      [(1, false), (1, false), (2, false), (3, false)] ++ List.replicate 8 (2, false) ++
      [(3, false), (3, false), (2, false), (2, false), (0, false), (0, false)]
def setTasks : List (SetTask Nat) := [.request, .build (.before [5]), .request, .build (.last (some 7))]
example := C73_snapshot (fun _ => none) exSet setTasks setSched 0 0 2 [.init 0, .run 1, .run 2, .run 0, .run 3] true (some 7)
  (by
    have : (setLockRun (fun _ => none) exSet setTasks setSched).pcs =
      [.finished 0 [.init 0, .run 1, .run 2, .run 0, .run 3] true 2 (some 7), .built,
        .finished 1 [.init 0, .run 1, .run 2, .run 5, .run 0, .run 3] true 2 (some 7), .built] := by decide +kernel
    rw [this]; rfl)
/-- C74: the other request goes on while the first waits. -/
example : ∃ j, (setLockStep (fun _ => none) setTasks (setLockRun (fun _ => none) exSet setTasks (setSched.take 5)) j false).isSome := by
  obtain ⟨p, hp⟩ : ∃ p, (setLockRun (fun _ => none) exSet setTasks (setSched.take 5)).pcs[2]? = some p := ⟨_, rfl⟩
  have e : (setLockRun (fun _ => none) exSet setTasks (setSched.take 5)).pcs[2]? = some .idle := by decide +kernel
  exact C74_progress_partial (fun _ => none) (fun _ => rfl) exSet setTasks (setSched.take 5) 2 .idle e (by simp [SPc.over])

/-! #### Races -/

example : RaceFree ([[Call.logStdKeys 0 1, .cfgSetLevel 1], [.logClone 0 1, .logAdd 0], [.cfgClone 1, .setLogLevel 1]].map callsEvents) :=
  C79_tune_partial _ (by simp [LoggerTune])
example : RaceFree ([[Call.logAdd 0, .logError 0, .logLog 0 1], [.logLog 0 1, .logMerge 0], [.logClone 0 1, .logConfig 0 1]].map callsEvents) :=
  C79_use_partial _ (by simp [LoggerUse])
example : RaceFree ([[Call.logAdd 0, .logSetConfig 0 2], [.logAddDebug 0 1, .logConfig 0 1]].map callsEvents) :=
  C79_configure_partial _ (by simp [LoggerConfigure])
example : RaceFree ([[Call.routerFirst 0, .routerUse 0 (.deep true [4, 5])], [.routerUse 0 (.deep true [5]), .serverAdd 3 .root],
    [.find .root, .setBefore 3]].map callsEvents) := C81_registration_partial _ (by simp [Registration])
example : RaceFree (exTasks.mapIdx RaceTask.events) := C78_requests_partial exTasks (by
  intro i t h
  match i with
  | 0 => cases h; simp [RaceTask.Own, exReq, OwnCall]
  | 1 => cases h; simp [RaceTask.Own, exReq, OwnCall]
  | 2 => cases h; simp [RaceTask.Own, OwnCall]
  | n + 3 => cases h)
example : RaceFree ([[Call.ctxClone 0, .ctxSet 1, .ctxGet 1], [.ctxClone 0, .ctxSet 2, .ctxGet 0]].map callsEvents) :=
  C80_clones_partial _ (by
    intro i cs h
    match i with
    | 0 => cases h; simp [CloneUse]
    | 1 => cases h; simp [CloneUse]
    | n + 2 => cases h)
example : NoDeadlock ([RaceTask.request (smallReq (.deep 1)), .request { smallReq .root with main := [.routerUse 0 .root, .logLogf 1 2] },
    .calls [.setBefore 1, .serverAdd 1 (.deep true [3]), .logStdKeys 0 1, .ctxDebugf 0 1]].mapIdx RaceTask.events) :=
  C82_no_deadlock_partial _ (by simp [RaceTask.NoSetLock, smallReq, LocksSet])

end Verif.Witness
