import Verif.Lemmas.Deadlock
import Verif.Props.Races
/-
C82: when goroutines that use the API can block each other for good.
-/
namespace Verif
open Spec

/-- An order of the mutexes: the sets first, in the order `r`. -/
def setRank (r : Nat → Nat) (N : Nat) : Mtx → Nat
  | .set s => r s | .router _ => N + 1 | .node _ => N + 2 | .logger _ => N + 3 | .config _ => N + 4

theorem setRank_le {r : Nat → Nat} {N : Nat} (hr : ∀ s, r s ≤ N) (m : Mtx) : setRank r N m ≤ N + 4 := by
  cases m <;> simp only [setRank] <;> first | omega | skip
  rename_i s; have := hr s; omega

theorem call_ord (r : Nat → Nat) (N : Nat) (c : Call) : ord (setRank r N) [] c.events = some [] := by
  cases c
  case routerUse r' w =>
    cases w with
    | root => simp [Call.events, TreeWrite.events, ord, ord1, setRank]
    | deep new ks =>
      simp only [Call.events, TreeWrite.events, List.append_assoc]
      rw [ord_append, show ord (setRank r N) [] [.lock (.router r'), .rd (.routerAfter r'), .rd (.routerBefore r'), .rd (.routerLast r')] =
        some [(.router r', true)] by simp [ord, ord1]]
      simp only [Option.bind_some]
      rw [ord_append, show ord (setRank r N) [(.router r', true)] [.lock (.node 0), .rd .treeNodes] =
        some [(.node 0, true), (.router r', true)] by simp [ord, ord1, setRank]]
      simp only [Option.bind_some]
      rw [ord_append_same (by cases new <;> simp [ord, ord1])]
      rw [ord_append_same (a := ks.map _) (ord_map_same fun k _ => by simp [ord1])]
      simp [ord, ord1]
  case serverAdd s w =>
    simp only [Call.events]
    rw [ord_append_same (by simp [cloneSet, ord, ord1])]
    cases w with
    | root => simp [TreeWrite.events, ord, ord1]
    | deep new ks =>
      simp only [TreeWrite.events, List.append_assoc]
      rw [ord_append, show ord (setRank r N) [] [.lock (.node 0), .rd .treeNodes] = some [(.node 0, true)] by simp [ord, ord1]]
      simp only [Option.bind_some]
      rw [ord_append_same (by cases new <;> simp [ord, ord1])]
      rw [ord_append_same (a := ks.map _) (ord_map_same fun k _ => by simp [ord1])]
      simp [ord, ord1]
  case find q => cases q <;> simp [Call.events, Lookup.events, ord, ord1]
  all_goals simp [Call.events, cloneSet, cloneCfg, ord, ord1, setRank]

theorem treeWrite_ord_held {r : Nat → Nat} {N : Nat} (hr : ∀ s, r s ≤ N) (s : Nat) (w : TreeWrite) :
    ord (setRank r N) [(.set s, false)] w.events = some [(.set s, false)] := by
  have h2 : r s < N + 2 := by have := hr s; omega
  cases w with
  | root => simp [TreeWrite.events, ord, ord1, setRank, h2]
  | deep new ks =>
    simp only [TreeWrite.events, List.append_assoc]
    rw [ord_append, show ord (setRank r N) [(.set s, false)] [.lock (.node 0), .rd .treeNodes] = some [(.node 0, true), (.set s, false)] by
      simp [ord, ord1, setRank, h2]]
    simp only [Option.bind_some]
    rw [ord_append_same (by cases new <;> simp [ord, ord1])]
    rw [ord_append_same (a := ks.map _) (ord_map_same fun k _ => by simp [ord1])]
    simp [ord, ord1]

/-- A call made while a set runs, if the set it locks comes later. -/
theorem call_ord_held {r : Nat → Nat} {N : Nat} (hr : ∀ s, r s ≤ N) (s : Nat) (c : Call) (h : ∀ t, lockedSet c = some t → r s < r t) :
    ord (setRank r N) [(.set s, false)] c.events = some [(.set s, false)] := by
  have h0 := hr s
  have h1 : r s < N + 1 := by omega
  have h2 : r s < N + 2 := by omega
  have h3 : r s < N + 3 := by omega
  have h4 : r s < N + 4 := by omega
  cases c
  case routerUse r' w =>
    cases w with
    | root => simp [Call.events, TreeWrite.events, ord, ord1, setRank, h1, h2]
    | deep new ks =>
      simp only [Call.events, TreeWrite.events, List.append_assoc]
      rw [ord_append, show ord (setRank r N) [(.set s, false)] [.lock (.router r'), .rd (.routerAfter r'), .rd (.routerBefore r'),
        .rd (.routerLast r')] = some [(.router r', true), (.set s, false)] by simp [ord, ord1, setRank, h1]]
      simp only [Option.bind_some]
      rw [ord_append, show ord (setRank r N) [(.router r', true), (.set s, false)] [.lock (.node 0), .rd .treeNodes] =
        some [(.node 0, true), (.router r', true), (.set s, false)] by simp [ord, ord1, setRank, h2]]
      simp only [Option.bind_some]
      rw [ord_append_same (by cases new <;> simp [ord, ord1])]
      rw [ord_append_same (a := ks.map _) (ord_map_same fun k _ => by simp [ord1])]
      simp [ord, ord1]
  case serverAdd t w =>
    have := h t rfl
    simp only [Call.events]
    rw [ord_append_same (by simp [cloneSet, ord, ord1, setRank, this])]
    exact treeWrite_ord_held hr s w
  case find q => cases q <;> simp [Call.events, Lookup.events, ord, ord1, setRank, h2]
  all_goals simp only [lockedSet, Option.some.injEq, forall_eq', reduceCtorEq, false_implies, implies_true] at h
  all_goals simp [Call.events, cloneCfg, cloneSet, ord, ord1, setRank, h1, h3, h4, h]

theorem locks_of_call {c : Call} {u : Nat} (h : Acc.lock (.set u) ∈ c.events) : lockedSet c = some u := by
  have hw : ∀ w : TreeWrite, Acc.lock (.set u) ∉ w.events := by
    intro w hm
    cases w with
    | root => simp [TreeWrite.events] at hm
    | deep new ks => cases new <;> simp [TreeWrite.events] at hm
  cases c
  case routerUse r w => simp [Call.events, hw] at h
  case serverAdd s w => simp [Call.events, cloneSet, hw] at h; simp [lockedSet, h]
  case find q => cases q <;> simp [Call.events, Lookup.events] at h
  all_goals simp [Call.events, cloneCfg, cloneSet] at h
  all_goals simp [lockedSet, h]

theorem call_first {c : Call} {t : Nat} (h : lockedSet c = some t) : ∃ es, c.events = .lock (.set t) :: es := by
  cases c <;> simp only [lockedSet, Option.some.injEq, reduceCtorEq] at h <;> subst h <;> exact ⟨_, rfl⟩

/-! ### The handlers of a request -/

/-- What a handler of the chain reads first, the calls it makes, and the calls the chain makes around it. -/
def pieceEvents (i : Nat) (p : List Loc × List Call × Nat) : List Acc :=
  p.1.map .rd ++ callsEvents (match p.2.2 with
    | 0 => p.2.1
    | 1 => .ctxHandleName i i (i + 1) :: p.2.1
    | _ => .ctxHandleName i i (i + 1) :: p.2.1 ++ [.ctxStopped i])

def pieces (i s : Nat) (q : ReqAccess) : List (List Loc × List Call × Nat) :=
  [([.setMain s], q.init, 1)] ++ q.before.map (fun h => ([.setBefore s], h, 2)) ++
  [if q.skipMain then ([.ctxFlags i], [], 0) else ([.ctxFlags i, .setMain s], q.main, 2)] ++ q.after.map (fun h => ([.setAfter s], h, 2))

theorem chain_pieces (i s : Nat) (q : ReqAccess) : q.chain i s = (pieces i s q).map (pieceEvents i) := by
  unfold ReqAccess.chain pieces pieceEvents
  cases q.skipMain <;> simp [callsEvents, Function.comp_def]

theorem running_pieces (i s : Nat) (q : ReqAccess) :
    ReqAccess.running q = ((pieces i s q).take q.ran).map (·.2.1) ++ if q.aborted then [] else [q.last] := by
  unfold ReqAccess.running pieces
  rw [List.map_take]
  cases q.skipMain <;> simp [Function.comp_def]

/-- `es` can be gone through, holding `H`, without locking a set of `S`. -/
def Pass (rk : Mtx → Nat) (S : List Nat) (H : Held) (es : List Acc) : Prop := ord rk H es = some H ∧ ∀ u ∈ S, Acc.lock (.set u) ∉ es

/-- `es` can be gone through as far as a lock of a set of `S`, holding `H`. -/
def Stop (rk : Mtx → Nat) (S : List Nat) (H : Held) (es : List Acc) : Prop :=
  ∃ w t tail, es = w ++ .lock (.set t) :: tail ∧ t ∈ S ∧ Pass rk S H w

section
variable {rk : Mtx → Nat} {S : List Nat} {H : Held}

theorem Pass.append {a b : List Acc} (ha : Pass rk S H a) (hb : Pass rk S H b) : Pass rk S H (a ++ b) :=
  ⟨by rw [ord_append_same ha.1]; exact hb.1, fun u hu hm => (List.mem_append.1 hm).elim (ha.2 u hu) (hb.2 u hu)⟩

theorem Pass.stop {a b : List Acc} (ha : Pass rk S H a) (hb : Stop rk S H b) : Stop rk S H (a ++ b) := by
  obtain ⟨w, t, tail, rfl, h1, h2⟩ := hb
  exact ⟨a ++ w, t, tail, by simp, h1, ha.append h2⟩

theorem Stop.append {a : List Acc} (ha : Stop rk S H a) (b : List Acc) : Stop rk S H (a ++ b) := by
  obtain ⟨w, t, tail, rfl, h1, h2⟩ := ha
  exact ⟨w, t, tail ++ b, by simp, h1, h2⟩

theorem pass_nil : Pass rk S H [] := ⟨rfl, fun _ _ h => by cases h⟩

theorem pass_rds (l : List Loc) : Pass rk S H (l.map .rd) :=
  ⟨ord_map_same fun x _ => rfl, fun u _ hm => by obtain ⟨x, -, h⟩ := List.mem_map.1 hm; cases h⟩

theorem flatMap_pass {α : Type} {g : α → List Acc} : ∀ {l : List α}, (∀ x ∈ l, Pass rk S H (g x)) → Pass rk S H (l.flatMap g)
  | [], _ => pass_nil
  | a :: l, h => by
    rw [List.flatMap_cons]
    exact (h a (by simp)).append (flatMap_pass fun x hx => h x (by simp [hx]))

/-- Parts that can be passed or stopped at, one of them stopped at. -/
theorem flatMap_stop {α : Type} {g : α → List Acc} : ∀ {l : List α}, (∀ x ∈ l, Pass rk S H (g x) ∨ Stop rk S H (g x)) →
    (∃ x ∈ l, Stop rk S H (g x)) → Stop rk S H (l.flatMap g)
  | [], _, ⟨x, hx, _⟩ => by cases hx
  | a :: l, h, ⟨x, hx, hs⟩ => by
    rw [List.flatMap_cons]
    rcases h a (by simp) with k | k
    · rcases List.mem_cons.1 hx with e | e
      · subst e; exact hs.append _
      · exact k.stop (flatMap_stop (fun y hy => h y (by simp [hy])) ⟨x, e, hs⟩)
    · exact k.append _

theorem flatMap_either {α : Type} {g : α → List Acc} {l : List α} (h : ∀ x ∈ l, Pass rk S H (g x) ∨ Stop rk S H (g x)) :
    Pass rk S H (l.flatMap g) ∨ Stop rk S H (l.flatMap g) := by
  by_cases hs : ∃ x ∈ l, Stop rk S H (g x)
  · exact .inr (flatMap_stop h hs)
  · exact .inl (flatMap_pass fun x hx => (h x hx).resolve_right fun k => hs ⟨x, hx, k⟩)

end

/-- The calls of a handler of a running set can be passed, if the sets they lock come later and are not in `S`. -/
theorem calls_pass {r : Nat → Nat} {N : Nat} (hr : ∀ s, r s ≤ N) {S : List Nat} (s : Nat) {cs : List Call}
    (h : ∀ c ∈ cs, ∀ t, lockedSet c = some t → r s < r t ∧ t ∉ S) : Pass (setRank r N) S [(.set s, false)] (callsEvents cs) :=
  flatMap_pass fun c hc => ⟨call_ord_held hr s c fun t ht => (h c hc t ht).1, fun u hu hm => (h c hc u (locks_of_call hm)).2 hu⟩

theorem piece_pass {r : Nat → Nat} {N : Nat} (hr : ∀ s, r s ≤ N) {S : List Nat} (i s : Nat) {p : List Loc × List Call × Nat}
    (h : ∀ c ∈ p.2.1, ∀ t, lockedSet c = some t → r s < r t ∧ t ∉ S) : Pass (setRank r N) S [(.set s, false)] (pieceEvents i p) := by
  refine (pass_rds _).append (calls_pass hr s fun c hc t ht => ?_)
  split at hc
  · exact h c hc t ht
  · rcases List.mem_cons.1 hc with rfl | hc
    · cases ht
    · exact h c hc t ht
  · simp only [List.cons_append, List.mem_cons, List.mem_append, List.not_mem_nil, or_false] at hc
    rcases hc with rfl | hc | rfl
    · cases ht
    · exact h c hc t ht
    · cases ht

/-! ### Without a circle -/

theorem request_ord {r : Nat → Nat} {N : Nat} (hr : ∀ s, r s ≤ N) (i : Nat) (q : ReqAccess)
    (hh : ∀ s, q.set = some s → ∀ h ∈ ReqAccess.running q, ∀ c ∈ h, ∀ t, lockedSet c = some t → r s < r t) :
    ord (setRank r N) [] (q.events i) = some [] := by
  have free : ∀ cs, ord (setRank r N) [] (callsEvents cs) = some [] := fun cs => ord_flatMap_same fun c _ => call_ord r N c
  unfold ReqAccess.events
  rw [ord_append_same (by
    rw [ord_append_same (by simp [ord, ord1])]
    cases q.lookup <;> simp [Lookup.events, ord, ord1])]
  cases hset : q.set with
  | none => simp [ord]
  | some s =>
    have hh := hh s hset
    rw [running_pieces i s] at hh
    simp only [List.append_assoc]
    rw [ord_append_same (by simp [ord, ord1])]
    rw [ord_append_same (free _)]
    rw [ord_append_same (by simp [cloneCfg, ord, ord1])]
    rw [ord_append_same (by simp [ord, ord1])]
    rw [ord_append, show ord (setRank r N) [] [.rlock (.set s)] = some [(.set s, false)] by simp [ord, ord1]]
    simp only [Option.bind_some]
    have hc : Pass (setRank r N) [] [(.set s, false)] ((q.chain i s).take q.ran).flatten := by
      rw [chain_pieces, ← List.map_take, ← List.flatMap_def]
      exact flatMap_pass fun p hp => piece_pass hr i s fun c hc t ht =>
        ⟨hh p.2.1 (List.mem_append_left _ (List.mem_map_of_mem hp)) c hc t ht, by simp⟩
    rw [ord_append_same hc.1]
    rw [ord_append, show ord (setRank r N) [(.set s, false)] [.runlock (.set s), .rd (.ctxFlags i)] = some [] by simp [ord, ord1]]
    simp only [Option.bind_some]
    cases hab : q.aborted with
    | true => simp [ord]
    | false =>
      simp only [Bool.false_eq_true, if_false]
      rw [ord_append, show ord (setRank r N) [] [.rlock (.set s), .rd (.setLast s)] = some [(.set s, false)] by simp [ord, ord1]]
      simp only [Option.bind_some]
      rw [ord_append_same (calls_pass (S := []) hr s fun c hc t ht => ⟨hh q.last (by simp [hab]) c hc t ht, by simp⟩).1]
      simp [ord, ord1]

/-- Without a circle nobody is blocked for good. -/
theorem noDeadlock_of_no_circle (tasks : List RaceTask) (h : ∀ S, ¬ Circle tasks S) : NoDeadlock (tasks.mapIdx RaceTask.events) := by
  obtain ⟨r, hr1, hr2⟩ := rank_of_no_circle (Waits tasks) _
    (tasks.flatMap fun | .request q => q.set.toList ++ (ReqAccess.running q).flatMap (·.filterMap lockedSet) | .calls _ => [])
    (Nat.le_refl _) (fun S hS hc => h S ⟨hS, hc⟩)
  generalize List.length _ = N at hr1
  refine noDeadlock_of_ord (setRank_le hr1) fun es hes => ?_
  obtain ⟨i, hi, rfl⟩ := List.mem_mapIdx.mp hes
  have ht := List.getElem_mem hi
  generalize tasks[i] = t at ht
  cases t with
  | calls cs => exact ord_flatMap_same fun c _ => call_ord r N c
  | request q =>
    refine request_ord hr1 i q fun s hs x hx c hc t hl => hr2 s ?_ t ?_ ⟨q, ht, hs, x, hx, c, hc, hl⟩
    · exact List.mem_flatMap.2 ⟨_, ht, by simp [hs]⟩
    · exact List.mem_flatMap.2 ⟨_, ht, List.mem_append_right _ (List.mem_flatMap.2 ⟨x, hx, List.mem_filterMap.2 ⟨c, hc, hl⟩⟩)⟩

/-! ### With a circle -/

/-- The order for a circle: the sets of the circle first. -/
def circleRank (S : List Nat) : Mtx → Nat := setRank (fun u => if u ∈ S then 0 else 1) 1

/-- A request with a handler that locks a set of `S`: up to there. -/
theorem request_stop {S : List Nat} (i : Nat) {q : ReqAccess} {s : Nat} (hs : q.set = some s) (hS : s ∈ S)
    (hh : ∃ h ∈ ReqAccess.running q, ∃ c ∈ h, ∃ t ∈ S, lockedSet c = some t) :
    ∃ A w t tail, q.events i = A ++ (w ++ .lock (.set t) :: tail) ∧ ord (circleRank S) [] A = some [] ∧
      ord (circleRank S) [] w = some [(.set s, false)] ∧ t ∈ S ∧ ∀ u ∈ S, Acc.lock (.set u) ∉ w := by
  have hr : ∀ u, (if u ∈ S then 0 else 1 : Nat) ≤ 1 := fun u => by split <;> omega
  have callE : ∀ c : Call, Pass (circleRank S) S [(.set s, false)] c.events ∨ Stop (circleRank S) S [(.set s, false)] c.events := by
    intro c
    cases hc : lockedSet c with
    | none =>
      exact .inl ⟨call_ord_held hr s c (fun t ht => by rw [hc] at ht; cases ht), fun u _ hm => by rw [locks_of_call hm] at hc; cases hc⟩
    | some t =>
      by_cases ht : t ∈ S
      · obtain ⟨es, he⟩ := call_first hc
        exact .inr ⟨[], t, es, he, ht, pass_nil⟩
      · exact .inl ⟨call_ord_held hr s c (fun t' ht' => by rw [hc] at ht'; cases ht'; rw [if_pos hS, if_neg ht]; omega),
          fun u hu hm => by rw [locks_of_call hm] at hc; cases hc; exact ht hu⟩
  have stopC : ∀ {c : Call} {t}, t ∈ S → lockedSet c = some t → Stop (circleRank S) S [(.set s, false)] c.events := by
    intro c t ht hc
    obtain ⟨es, he⟩ := call_first hc
    exact ⟨[], t, es, he, ht, pass_nil⟩
  have callsE : ∀ cs, Pass (circleRank S) S [(.set s, false)] (callsEvents cs) ∨ Stop (circleRank S) S [(.set s, false)] (callsEvents cs) :=
    fun cs => flatMap_either fun c _ => callE c
  have stopCs : ∀ {cs : List Call} {c t}, c ∈ cs → t ∈ S → lockedSet c = some t → Stop (circleRank S) S [(.set s, false)] (callsEvents cs) :=
    fun hc ht hl => flatMap_stop (fun c _ => callE c) ⟨_, hc, stopC ht hl⟩
  have pieceE : ∀ p, Pass (circleRank S) S [(.set s, false)] (pieceEvents i p) ∨ Stop (circleRank S) S [(.set s, false)] (pieceEvents i p) :=
    fun p => (callsE _).elim (fun k => .inl ((pass_rds _).append k)) fun k => .inr ((pass_rds _).stop k)
  have stopP : ∀ {p : List Loc × List Call × Nat} {c t}, c ∈ p.2.1 → t ∈ S → lockedSet c = some t →
      Stop (circleRank S) S [(.set s, false)] (pieceEvents i p) := by
    intro p c t hc ht hl
    refine (pass_rds _).stop (stopCs (c := c) ?_ ht hl)
    split <;> simp [hc]
  have stopE : ∀ {a : List Acc}, Stop (circleRank S) S [(.set s, false)] a → ∀ (P : List Acc), ord (circleRank S) [] P = some [(.set s, false)] →
      (∀ u ∈ S, Acc.lock (.set u) ∉ P) → ∃ w t tail, P ++ a = w ++ .lock (.set t) :: tail ∧
      ord (circleRank S) [] w = some [(.set s, false)] ∧ t ∈ S ∧ ∀ u ∈ S, Acc.lock (.set u) ∉ w := by
    rintro a ⟨w, t, tail, rfl, ht, hw⟩ P hP hPS
    refine ⟨P ++ w, t, tail, by simp, ?_, ht, fun u hu hm => (List.mem_append.1 hm).elim (hPS u hu) (hw.2 u hu)⟩
    rw [ord_append, hP, Option.bind_some]
    exact hw.1
  obtain ⟨x, hx, c, hc, t, ht, hl⟩ := hh
  rw [running_pieces i s] at hx
  refine ⟨[.rd .serverFields, .rd .authState] ++ q.lookup.events ++ [.rd .serverFields] ++ callsEvents q.session ++ cloneCfg 0 ++ [.rd (.cfgLevel 0)], ?_⟩
  have hA : ord (circleRank S) [] ([.rd .serverFields, .rd .authState] ++ q.lookup.events ++ [.rd .serverFields] ++ callsEvents q.session ++
      cloneCfg 0 ++ [.rd (.cfgLevel 0)]) = some [] := by
    simp only [List.append_assoc]
    rw [ord_append_same (by simp [ord, ord1])]
    rw [ord_append_same (by cases q.lookup <;> simp [Lookup.events, ord, ord1])]
    rw [ord_append_same (by simp [ord, ord1])]
    rw [ord_append_same (show ord (circleRank S) [] (callsEvents q.session) = some [] from ord_flatMap_same fun c _ => call_ord _ _ c)]
    rw [ord_append_same (by simp [cloneCfg, ord, ord1])]
    simp [ord, ord1]
  have hC : ((q.chain i s).take q.ran).flatten = ((pieces i s q).take q.ran).flatMap (pieceEvents i) := by
    rw [chain_pieces, ← List.map_take, ← List.flatMap_def]
  have hE : q.events i = ([.rd .serverFields, .rd .authState] ++ q.lookup.events ++ [.rd .serverFields] ++ callsEvents q.session ++
      cloneCfg 0 ++ [.rd (.cfgLevel 0)]) ++ ([.rlock (.set s)] ++ (((pieces i s q).take q.ran).flatMap (pieceEvents i) ++
        ([.runlock (.set s), .rd (.ctxFlags i)] ++ if q.aborted then [] else [.rlock (.set s), .rd (.setLast s)] ++ callsEvents q.last ++ [.runlock (.set s)]))) := by
    unfold ReqAccess.events
    rw [hs]
    simp only [hC, List.append_assoc]
  have one : ord (circleRank S) [] [.rlock (.set s)] = some [(.set s, false)] := by simp [ord, ord1]
  by_cases hst : Stop (circleRank S) S [(.set s, false)] (((pieces i s q).take q.ran).flatMap (pieceEvents i))
  · obtain ⟨w, t, tail, e, h1, h2, h3⟩ := stopE (hst.append _) _ one (by simp)
    exact ⟨w, t, tail, by rw [hE, e], hA, h1, h2, h3⟩
  · have hp : Pass (circleRank S) S [(.set s, false)] (((pieces i s q).take q.ran).flatMap (pieceEvents i)) :=
      (flatMap_either fun p _ => pieceE p).resolve_right hst
    rcases List.mem_append.1 hx with hx | hx
    · obtain ⟨p, hp', rfl⟩ := List.mem_map.1 hx
      exact absurd (flatMap_stop (fun p _ => pieceE p) ⟨p, hp', stopP hc ht hl⟩) hst
    · cases hab : q.aborted with
      | true => simp [hab] at hx
      | false =>
        simp only [hab, Bool.false_eq_true, if_false, List.mem_singleton] at hx
        subst hx
        obtain ⟨w, t, tail, e, h1, h2, h3⟩ := stopE ((stopCs hc ht hl).append [.runlock (.set s)])
          ([.rlock (.set s)] ++ (((pieces i s q).take q.ran).flatMap (pieceEvents i) ++ ([.runlock (.set s), .rd (.ctxFlags i)] ++
            [.rlock (.set s), .rd (.setLast s)]))) (by
              rw [ord_append, one, Option.bind_some, ord_append_same hp.1]
              simp [ord, ord1])
          (fun u hu hm => by
            simp only [List.mem_append, List.mem_cons, reduceCtorEq, List.not_mem_nil, or_false, false_or] at hm
            exact hp.2 u hu hm)
        refine ⟨w, t, tail, ?_, hA, h1, h2, h3⟩
        rw [hE, hab, ← e]
        simp only [Bool.false_eq_true, if_false, List.append_assoc]

/-- A goroutine that runs set `u`, and its accesses in three parts: up to the set, up to the lock of a set of `S`, the rest. -/
def CirclePlan (tasks : List RaceTask) (S : List Nat) (u : Nat) (d : Nat × List Acc × List Acc × Nat × List Acc) : Prop :=
  (∃ q, tasks[d.1]? = some (.request q) ∧ q.set = some u) ∧
  (tasks.mapIdx RaceTask.events)[d.1]? = some (d.2.1 ++ (d.2.2.1 ++ .lock (.set d.2.2.2.1) :: d.2.2.2.2)) ∧
  ord (circleRank S) [] d.2.1 = some [] ∧ ord (circleRank S) [] d.2.2.1 = some [(.set u, false)] ∧ d.2.2.2.1 ∈ S ∧
  ∀ v ∈ S, Acc.lock (.set v) ∉ d.2.2.1

/-- The requests of a circle can block each other. -/
theorem circle_jams {tasks : List RaceTask} {S : List Nat} (h : Circle tasks S) :
    ∃ (sched : List Nat) (I : Nat → Nat), (∀ u ∈ S, ∃ q, tasks[I u]? = some (.request q) ∧ q.set = some u) ∧
      Jammed S I (raceRun (tasks.mapIdx RaceTask.events) sched) := by
  obtain ⟨f, hf⟩ : ∃ f : Nat → Nat × List Acc × List Acc × Nat × List Acc, ∀ u, u ∈ S → CirclePlan tasks S u (f u) := by
    refine Classical.axiomOfChoice (r := fun u d => u ∈ S → CirclePlan tasks S u d) fun u => ?_
    by_cases hu : u ∈ S
    · obtain ⟨t, ht, q, hq, hset, x, hx, c, hc, hl⟩ := h.2 u hu
      obtain ⟨i, hi⟩ := List.getElem?_of_mem hq
      obtain ⟨A, w, t, tail, e, h1, h2, h3, h4⟩ := request_stop i hset hu ⟨x, hx, c, hc, t, ht, hl⟩
      refine ⟨(i, A, w, t, tail), fun _ => ⟨⟨q, hi, hset⟩, ?_, h1, h2, h3, h4⟩⟩
      rw [List.getElem?_mapIdx, hi, Option.map_some]
      exact congrArg some e
    · exact ⟨(0, [], [], 0, []), fun k => absurd k hu⟩
  have inj : ∀ {u v}, u ∈ S → v ∈ S → (f u).1 = (f v).1 → u = v := by
    intro u v hu hv e
    obtain ⟨q, h1, h2⟩ := (hf u hu).1
    obtain ⟨q', h3, h4⟩ := (hf v hv).1
    rw [e, h3] at h1; cases h1
    rw [h4] at h2; cases h2; rfl
  -- first everybody up to the set
  have phase1 : ∀ L : List Nat, (∀ u ∈ L, u ∈ S) → ∃ sched : List Nat,
      (∀ m, (raceRun (tasks.mapIdx RaceTask.events) sched).writer m = none) ∧
      (∀ m, (raceRun (tasks.mapIdx RaceTask.events) sched).readers m = []) ∧
      (∀ u ∈ L, (raceRun (tasks.mapIdx RaceTask.events) sched).rest[(f u).1]? = some ((f u).2.2.1 ++ .lock (.set (f u).2.2.2.1) :: (f u).2.2.2.2)) ∧
      ∀ j, (∀ u ∈ L, (f u).1 ≠ j) → (raceRun (tasks.mapIdx RaceTask.events) sched).rest[j]? = (tasks.mapIdx RaceTask.events)[j]? := by
    intro L
    induction L with
    | nil => exact fun _ => ⟨[], fun _ => rfl, fun _ => rfl, fun u hu => (by cases hu), fun j _ => rfl⟩
    | cons u L ih =>
      intro hL
      obtain ⟨sched, h1, h2, h3, h4⟩ := ih fun v hv => hL v (List.mem_cons_of_mem _ hv)
      by_cases hu : u ∈ L
      · refine ⟨sched, h1, h2, fun v hv => ?_, fun j hj => h4 j fun v hv => hj v (List.mem_cons_of_mem _ hv)⟩
        rcases List.mem_cons.1 hv with rfl | hv
        · exact h3 _ hu
        · exact h3 v hv
      · have huS := hL u (List.mem_cons_self ..)
        have hne : ∀ v ∈ L, (f v).1 ≠ (f u).1 := fun v hv e => hu (inj (hL v (List.mem_cons_of_mem _ hv)) huS e ▸ hv)
        obtain ⟨-, k1, k2, -⟩ := hf u huS
        have hrest := h4 _ hne
        rw [k1] at hrest
        have hlt := (List.getElem?_eq_some_iff.1 hrest).1
        obtain ⟨more, g1, g2⟩ := alone_run (R := fun _ => []) (alone_start h1 h2) hrest k2 (fun _ _ => rfl)
        refine ⟨sched ++ more, ?_⟩
        have e : raceRun (tasks.mapIdx RaceTask.events) (sched ++ more) = raceOn (raceRun (tasks.mapIdx RaceTask.events) sched) more := by
          unfold raceRun raceOn; rw [List.foldl_append]
        rw [e]
        refine ⟨fun m => by rw [g2.wr]; simp, fun m => by rw [g2.rd]; simp, fun v hv => ?_, fun j hj => ?_⟩
        · rw [g1]
          rcases List.mem_cons.1 hv with rfl | hv
          · rw [List.getElem?_set_self hlt]
          · rw [List.getElem?_set_ne (fun e => hne v hv e.symm)]; exact h3 v hv
        · rw [g1, List.getElem?_set_ne (hj u (List.mem_cons_self ..))]
          exact h4 j fun v hv => hj v (List.mem_cons_of_mem _ hv)
  -- then one after the other into the set, as far as the lock
  have phase2 : ∀ L : List Nat, (∀ u ∈ L, u ∈ S) → ∃ sched : List Nat,
      (∀ m, (raceRun (tasks.mapIdx RaceTask.events) sched).writer m = none) ∧
      (∀ m u, m = .set u → u ∈ L → (raceRun (tasks.mapIdx RaceTask.events) sched).readers m = [(f u).1]) ∧
      (∀ m, (∀ u ∈ L, m ≠ .set u) → (raceRun (tasks.mapIdx RaceTask.events) sched).readers m = []) ∧
      (∀ u ∈ L, (raceRun (tasks.mapIdx RaceTask.events) sched).rest[(f u).1]? = some (.lock (.set (f u).2.2.2.1) :: (f u).2.2.2.2)) ∧
      ∀ u ∈ S, u ∉ L → (raceRun (tasks.mapIdx RaceTask.events) sched).rest[(f u).1]? = some ((f u).2.2.1 ++ .lock (.set (f u).2.2.2.1) :: (f u).2.2.2.2) := by
    intro L
    induction L with
    | nil =>
      intro _
      obtain ⟨sched, h1, h2, h3, -⟩ := phase1 S fun _ h => h
      exact ⟨sched, h1, fun m u _ hu => (by cases hu), fun m _ => h2 m, fun u hu => (by cases hu), fun u hu _ => h3 u hu⟩
    | cons u L ih =>
      intro hL
      obtain ⟨sched, h1, h2, h2', h3, h4⟩ := ih fun v hv => hL v (List.mem_cons_of_mem _ hv)
      by_cases hu : u ∈ L
      · have mem : ∀ v, v ∈ u :: L ↔ v ∈ L := fun v => ⟨fun k => (List.mem_cons.1 k).elim (fun e => e ▸ hu) id, List.mem_cons_of_mem _⟩
        refine ⟨sched, h1, fun m v e hv => h2 m v e ((mem v).1 hv), fun m hm => h2' m fun v hv => hm v ((mem v).2 hv),
          fun v hv => h3 v ((mem v).1 hv), fun v hv hn => h4 v hv fun k => hn ((mem v).2 k)⟩
      · have huS := hL u (List.mem_cons_self ..)
        have hne : ∀ v ∈ S, v ≠ u → (f v).1 ≠ (f u).1 := fun v hv n e => n (inj hv huS e)
        obtain ⟨-, -, -, k2, -, k3⟩ := hf u huS
        have hrest := h4 u huS hu
        have hlt := (List.getElem?_eq_some_iff.1 hrest).1
        obtain ⟨more, g1, g2⟩ := alone_run (R := (raceRun (tasks.mapIdx RaceTask.events) sched).readers) (alone_start h1 fun _ => rfl) hrest k2
          (fun m hm => h2' m fun v hv e => k3 v (hL v (List.mem_cons_of_mem _ hv)) (e ▸ hm))
        refine ⟨sched ++ more, ?_⟩
        have e : raceRun (tasks.mapIdx RaceTask.events) (sched ++ more) = raceOn (raceRun (tasks.mapIdx RaceTask.events) sched) more := by
          unfold raceRun raceOn; rw [List.foldl_append]
        rw [e]
        refine ⟨fun m => by rw [g2.wr]; simp, fun m v hm hv => ?_, fun m hm => ?_, fun v hv => ?_, fun v hv hn => ?_⟩
        · rw [g2.rd]
          subst hm
          rcases List.mem_cons.1 hv with rfl | hv
          · rw [h2' (.set v) (fun w hw e => hu (by cases e; exact hw))]; simp
          · have : v ≠ u := fun e => hu (e ▸ hv)
            rw [h2 _ v rfl hv]; simp [this]
        · rw [g2.rd, h2' m fun v hv => hm v (List.mem_cons_of_mem _ hv)]
          simp [hm u (List.mem_cons_self ..)]
        · rw [g1]
          rcases List.mem_cons.1 hv with rfl | hv
          · rw [List.getElem?_set_self hlt]
          · rw [List.getElem?_set_ne fun e => hne v (hL v (List.mem_cons_of_mem _ hv)) (fun e => hu (e ▸ hv)) e.symm]; exact h3 v hv
        · have : v ≠ u := fun e => hn (e ▸ List.mem_cons_self ..)
          rw [g1, List.getElem?_set_ne fun e => hne v hv this e.symm]
          exact h4 v hv fun k => hn (List.mem_cons_of_mem _ k)
  obtain ⟨sched, -, h2, -, h3, -⟩ := phase2 S fun _ h => h
  refine ⟨sched, fun u => (f u).1, fun u hu => (hf u hu).1, fun u hu => ⟨?_, (f u).2.2.2.1, (hf u hu).2.2.2.2.1, _, h3 u hu⟩⟩
  rw [h2 _ u rfl hu]; simp

/-! ### C82 -/

/-- **C82** (exactly).  Requests, whatever their handlers do, and goroutines that make any calls of the API never block each other for good
exactly if there is no circle: no group of handler sets each of which is run by a request with a handler that locks (changes, clones or adds to
the server) a set of the group. -/
theorem C82_exact (tasks : List RaceTask) : NoDeadlock (tasks.mapIdx RaceTask.events) ↔ ∀ S, ¬ Circle tasks S := by
  refine ⟨fun h S hS => ?_, noDeadlock_of_no_circle tasks⟩
  obtain ⟨sched, I, -, hj⟩ := circle_jams hS
  obtain ⟨more, hm⟩ := (h sched).2
  obtain ⟨u, hu⟩ := List.exists_mem_of_ne_nil _ hS.1
  have := jammed_on more hj
  unfold raceRun at hm
  rw [List.foldl_append] at hm
  obtain ⟨-, t, -, es, hr⟩ := this u hu
  cases hm _ (List.mem_of_getElem? hr)

/-- **C82** (what a circle does).  If there is a circle, its requests can come into a state in which one of each set of the circle never gets to
its end, whatever happens then. -/
theorem C82_circle (tasks : List RaceTask) (S : List Nat) (h : Circle tasks S) : ∃ sched : List Nat, ∀ more : List Nat, ∀ s ∈ S,
    ∃ (i : Nat) (q : ReqAccess) (es : List Acc), tasks[i]? = some (.request q) ∧ q.set = some s ∧
      (raceRun (tasks.mapIdx RaceTask.events) (sched ++ more)).rest[i]? = some es ∧ es ≠ [] := by
  obtain ⟨sched, I, hI, hj⟩ := circle_jams h
  refine ⟨sched, fun more s hs => ?_⟩
  obtain ⟨q, h1, h2⟩ := hI s hs
  obtain ⟨-, t, -, es, hr⟩ := jammed_on more hj s hs
  refine ⟨I s, q, .lock (.set t) :: es, h1, h2, ?_, List.cons_ne_nil _ es⟩
  unfold raceRun
  rw [List.foldl_append]
  exact hr

theorem lockedSet_locks {c : Call} {t : Nat} (h : lockedSet c = some t) : LocksSet c := by
  cases c <;> simp only [lockedSet, reduceCtorEq] at h <;> trivial

/-- **C82** (no deadlock).  Any number of requests whose handlers make no builder call on a handler set, and any number of
goroutines that make any calls of the API on any objects, never block each other for good. -/
theorem C82_no_deadlock_partial (tasks : List RaceTask) (h : ∀ t ∈ tasks, t.NoSetLock) :
    NoDeadlock (tasks.mapIdx RaceTask.events) := by
  rw [C82_exact]
  rintro S ⟨hne, hc⟩
  obtain ⟨u, hu⟩ := List.exists_mem_of_ne_nil _ hne
  obtain ⟨t, -, q, hq, -, x, hx, c, hcx, hl⟩ := hc u hu
  have hm : x ∈ [[]] ++ [q.init, q.main, q.last] ++ q.before ++ q.after := by
    unfold ReqAccess.running at hx
    rcases List.mem_append.1 hx with hx | hx
    · have := List.mem_of_mem_take hx
      cases hsk : q.skipMain <;> simp only [hsk, List.mem_append, List.mem_singleton, if_true, Bool.false_eq_true, if_false] at this <;>
        simp only [List.mem_append, List.mem_cons, List.not_mem_nil, or_false] <;> rcases this with ((k | k) | k) | k <;> simp [k]
    · cases hab : q.aborted <;> simp [hab] at hx
      simp [hx]
  rw [List.append_assoc, List.append_assoc] at hm
  rcases List.mem_append.1 hm with k | k
  · rw [List.mem_singleton] at k; subst k; cases hcx
  · exact h _ hq x (by rw [List.append_assoc]; exact k) c hcx (lockedSet_locks hl)

example : ∀ t ∈ [RaceTask.request (smallReq (.deep 1)), .request { smallReq .root with main := [.routerUse 0 .root, .logLogf 1 2] },
    .calls [.setBefore 1, .serverAdd 1 (.deep true [3]), .logStdKeys 0 1, .ctxDebugf 0 1]], t.NoSetLock := by
  simp [RaceTask.NoSetLock, smallReq, LocksSet]

/-- A request that runs set `s` with a main handler that changes set `t`. -/
def crossReq (s t : Nat) : ReqAccess := { smallReq .root with set := some s, main := [.setLast t] }

set_option maxRecDepth 20000 in
/-- **C82** (handlers that change the set of another request).  Two requests whose handlers change each other's handler set
can block each other for good. -/
theorem C82_violated : ∃ sched, ∀ (more : List Nat),
    ¬ ∀ es ∈ (raceRun [(crossReq 1 2).events 0, (crossReq 2 1).events 1] (sched ++ more)).rest, es = [] := by
  refine ⟨List.replicate 24 0 ++ List.replicate 24 1, fun more => ?_⟩
  have key : ∀ (s : RaceSt), (∃ e0 e1, s.rest = [.lock (.set 2) :: e0, .lock (.set 1) :: e1]) → s.readers (.set 1) ≠ [] →
      s.readers (.set 2) ≠ [] → ∀ more : List Nat, more.foldl (fun s i => (raceStep s i).getD s) s = s := by
    intro s ⟨e0, e1, hr⟩ h1 h2 more
    induction more with
    | nil => rfl
    | cons i t ih =>
      have : raceStep s i = none := by
        unfold raceStep
        match i with
        | 0 => simp [hr, h2]
        | 1 => simp [hr, h1]
        | n + 2 => simp [hr]
      simp only [List.foldl_cons, this, Option.getD_none]
      exact ih
  unfold raceRun
  rw [List.foldl_append]
  have := key (raceRun [(crossReq 1 2).events 0, (crossReq 2 1).events 1] (List.replicate 24 0 ++ List.replicate 24 1))
    ⟨_, _, rfl⟩ (by decide +kernel) (by decide +kernel) more
  unfold raceRun at this
  rw [this]
  intro h
  have := h _ (List.mem_cons_self)
  cases this


/-- Three requests in a circle; without the third there is none. -/
example : Circle [.request (crossReq 1 2), .request (crossReq 2 3), .request (crossReq 3 1)] [1, 2, 3] ∧
    ∀ S, ¬ Circle [.request (crossReq 1 2), .request (crossReq 2 3), .calls [.setBefore 1]] S := by
  constructor
  · refine ⟨by simp, fun s hs => ?_⟩
    simp only [List.mem_cons, List.not_mem_nil, or_false] at hs
    rcases hs with rfl | rfl | rfl
    · exact ⟨2, by simp, crossReq 1 2, by simp, rfl, [.setLast 2], by decide, .setLast 2, by simp, rfl⟩
    · exact ⟨3, by simp, crossReq 2 3, by simp, rfl, [.setLast 3], by decide, .setLast 3, by simp, rfl⟩
    · exact ⟨1, by simp, crossReq 3 1, by simp, rfl, [.setLast 1], by decide, .setLast 1, by simp, rfl⟩
  · have edge : ∀ s t, Waits [.request (crossReq 1 2), .request (crossReq 2 3), .calls [.setBefore 1]] s t → s = 1 ∧ t = 2 ∨ s = 2 ∧ t = 3 := by
      rintro s t ⟨q, hq, hs, x, hx, c, hc, hl⟩
      simp only [List.mem_cons, RaceTask.request.injEq, reduceCtorEq, List.not_mem_nil, or_false] at hq
      have run : ∀ a b, ReqAccess.running (crossReq a b) = [[], [.setLast b], []] := fun a b => rfl
      rcases hq with rfl | rfl <;> rw [run] at hx <;> simp only [List.mem_cons, List.not_mem_nil, or_false] at hx <;>
        rcases hx with rfl | rfl | rfl <;> simp at hc <;> subst hc <;> cases hs <;> cases hl <;> simp
    rintro S ⟨hne, hc⟩
    have h3 : 3 ∉ S := fun h => by
      obtain ⟨t, -, hw⟩ := hc 3 h
      rcases edge 3 t hw with ⟨h, -⟩ | ⟨h, -⟩ <;> cases h
    have h2 : 2 ∉ S := fun h => by
      obtain ⟨t, ht, hw⟩ := hc 2 h
      rcases edge 2 t hw with ⟨h, -⟩ | ⟨-, rfl⟩
      · cases h
      · exact h3 ht
    obtain ⟨u, hu⟩ := List.exists_mem_of_ne_nil _ hne
    obtain ⟨t, ht, hw⟩ := hc u hu
    rcases edge u t hw with ⟨rfl, rfl⟩ | ⟨rfl, rfl⟩
    · exact h2 ht
    · exact h2 hu

end Verif
