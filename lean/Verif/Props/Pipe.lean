import Verif.Model.Pipe
import Verif.Props.Content
/-
C120: multipart answers, for every schedule of their goroutine.
-/
namespace Verif

/-- The bytes written. -/
def written : List PipeAct → Str
  | [] => []
  | .write b :: t => b ++ written t
  | .use :: t => written t

theorem written_append (a b : List PipeAct) : written (a ++ b) = written a ++ written b := by
  induction a with
  | nil => rfl
  | cons x t ih => cases x <;> simp [written, ih]

/-- No write is empty. -/
def Solid (acts : List PipeAct) : Prop := ∀ b, .write b ∈ acts → b ≠ []

theorem copies_written {b : Str} {acts : List PipeAct} (h : Copies b acts) : written acts = b ∧ Solid acts := by
  induction h with
  | done => exact ⟨rfl, fun b h => by cases h⟩
  | nothing _ ih =>
    refine ⟨ih.1, fun b h => ih.2 b ?_⟩
    simpa using h
  | piece hp _ ih =>
    refine ⟨by simp [written, ih.1], fun b h => ?_⟩
    simp only [List.mem_cons, reduceCtorEq, false_or, PipeAct.write.injEq] at h
    rcases h with rfl | h
    · exact hp
    · exact ih.2 b h

theorem partHeader_ne (b : Str) (first : Bool) (ct : Str) (size : Int) (ra : HttpRange) : partHeader b first ct size ra ≠ [] := by
  unfold partHeader; simp

section
variable {c : Content} {boundary cType : Str} {size : Int}

/-- The goroutine writes what the sequential model says. -/
theorem partActs_written {first : Bool} {rs : List HttpRange} {acts : List PipeAct}
    (h : PartActs c boundary cType size first rs acts) :
    written acts = pipeOut c boundary cType size first rs ∧ Solid acts := by
  induction h with
  | close => exact ⟨by simp [written, pipeOut], fun b h => by simp at h; subst h; simp [partClose]⟩
  | noSeek hs =>
    refine ⟨by simp [written, pipeOut, hs], fun b h => ?_⟩
    simp at h; subst h; exact partHeader_ne _ _ _ _ _
  | short hs hl hc =>
    obtain ⟨h1, h2⟩ := copies_written hc
    refine ⟨by simp [written, pipeOut, hs, hl, h1], fun b h => ?_⟩
    simp only [List.mem_cons, PipeAct.write.injEq, reduceCtorEq, false_or] at h
    rcases h with rfl | h
    · exact partHeader_ne _ _ _ _ _
    · exact h2 b h
  | full hs hl hc _ ih =>
    obtain ⟨h1, h2⟩ := copies_written hc
    refine ⟨?_, fun b h => ?_⟩
    · rw [pipeOut, if_neg (by simp [hs])]
      dsimp only
      rw [if_neg hl, written, written, written_append, h1, ih.1, List.append_assoc]
    · simp only [List.mem_cons, PipeAct.write.injEq, reduceCtorEq, false_or, List.mem_append] at h
      rcases h with rfl | h | h
      · exact partHeader_ne _ _ _ _ _
      · exact h2 b h
      · exact ih.2 b h

/-- It begins with a write; it ends with one unless something failed. -/
theorem partActs_shape {first : Bool} {rs : List HttpRange} {acts : List PipeAct}
    (h : PartActs c boundary cType size first rs acts) : ∃ b t, acts = .write b :: t := by
  cases h <;> exact ⟨_, _, rfl⟩

theorem partActs_last (hs : c.seekable = true) {first : Bool} {rs : List HttpRange} {acts : List PipeAct}
    (hr : ∀ ra ∈ rs, ¬ ((readAt c ra.start ra.length).length : Int) < ra.length)
    (h : PartActs c boundary cType size first rs acts) : acts.getLast? = some (.write (partClose boundary)) := by
  induction h with
  | close => rfl
  | noSeek h => rw [hs] at h; cases h
  | short _ hl => exact absurd hl (hr _ List.mem_cons_self)
  | full _ _ _ hp ih =>
    have := ih (fun ra h => hr ra (List.mem_cons_of_mem _ h))
    obtain ⟨b, t, rfl⟩ := partActs_shape hp
    rw [show ∀ (x y : PipeAct) (l m : List PipeAct), x :: y :: (l ++ m) = (x :: y :: l) ++ m from fun _ _ _ _ => rfl,
      List.getLast?_append, this]
    rfl
end

/-- What holds in every state of a run: the bytes that were read and those still to come are those written, and so many are
still wanted. -/
structure PipeInv (acts : List PipeAct) (n : Nat) (s : PipeSt) : Prop where
  bytes : s.got ++ written s.todo = written acts
  count : s.got.length + s.need = n
  solid : Solid s.todo
  ended : s.alive = false → s.returned = true ∨ s.todo = []
  done : s.returned = true → s.need = 0 ∨ (s.alive = false ∧ s.todo = [])

theorem pipeInv_step {acts : List PipeAct} {n : Nat} {s s' : PipeSt} {l : PipeLbl} (hi : PipeInv acts n s)
    (h : pipeStep s l = some s') : PipeInv acts n s' := by
  obtain ⟨todo, alive, need, got, returned, late⟩ := s
  obtain ⟨h1, h2, h3, h4, h5⟩ := hi
  dsimp only at h1 h2 h3 h4 h5
  cases l with
  | use =>
    unfold pipeStep at h
    dsimp only at h
    split at h
    · rename_i t ht
      split at h
      · rename_i ha
        injection h with h; subst h
        refine ⟨h1, h2, fun b hb => h3 b (List.mem_cons_of_mem _ hb), fun h => ?_, fun h => ?_⟩
        · dsimp only at h; rw [ha] at h; cases h
        · rcases h5 h with h | ⟨h, -⟩
          · exact .inl h
          · rw [ha] at h; cases h
      · cases h
    · cases h
  | move k =>
    unfold pipeStep at h
    dsimp only at h
    split at h
    · rename_i b t
      split at h
      · rename_i ha
        obtain ⟨ha, hr, hk, hn, hb⟩ := ha
        injection h with h; subst h
        refine ⟨?_, ?_, ?_, fun h => ?_, fun h => ?_⟩
        · dsimp only
          rw [← h1]
          split
          · rename_i hkb; rw [hkb, List.take_length, written, List.append_assoc]
          · rw [written, written, List.append_assoc, ← List.append_assoc (b.take k), List.take_append_drop]
        · dsimp only
          rw [List.length_append, List.length_take]
          omega
        · dsimp only
          split
          · exact fun x hx => h3 x (List.mem_cons_of_mem _ hx)
          · rename_i hkb
            intro x hx
            simp only [List.mem_cons, PipeAct.write.injEq] at hx
            rcases hx with rfl | hx
            · intro he
              have := List.drop_eq_nil_iff.1 he
              omega
            · exact h3 x (List.mem_cons_of_mem _ hx)
        · dsimp only at h; rw [ha] at h; cases h
        · dsimp only at h; rw [hr] at h; cases h
      · cases h
    · cases h
  | fail =>
    unfold pipeStep at h
    dsimp only at h
    split at h
    · rename_i b t
      split at h
      · rename_i ha
        injection h with h; subst h
        refine ⟨h1, h2, h3, fun _ => .inl ha.2, fun h => ?_⟩
        rcases h5 ha.2 with h | ⟨-, h⟩
        · exact .inl h
        · cases h
      · cases h
    · cases h
  | finish =>
    unfold pipeStep at h
    dsimp only at h
    split at h
    · split at h
      · injection h with h; subst h
        exact ⟨h1, h2, h3, fun _ => .inr rfl, fun h => (h5 h).elim .inl fun _ => .inr ⟨rfl, rfl⟩⟩
      · cases h
    · cases h
  | done =>
    unfold pipeStep at h
    dsimp only at h
    split at h
    · rename_i ha
      injection h with h; subst h
      exact ⟨h1, h2, h3, fun h => .inl rfl, fun _ => .inl ha.2⟩
    · cases h
  | eof =>
    unfold pipeStep at h
    dsimp only at h
    split at h
    · rename_i ha
      injection h with h; subst h
      refine ⟨h1, h2, h3, fun h => .inl rfl, fun _ => .inr ⟨ha.2.2, ?_⟩⟩
      rcases h4 ha.2.2 with h | h
      · rw [ha.1] at h; cases h
      · exact h
    · cases h

theorem pipeInv_init (acts : List PipeAct) (n : Nat) (h : Solid acts) : PipeInv acts n (pipeInit acts n) :=
  ⟨rfl, by simp [pipeInit], h, fun h => (by cases h), fun h => (by cases h)⟩

theorem pipeRun_inv {acts : List PipeAct} {n : Nat} : ∀ (ls : List PipeLbl) {s s' : PipeSt}, PipeInv acts n s →
    pipeRun s ls = some s' → PipeInv acts n s'
  | [], s, s', hi, h => by injection h with h; exact h ▸ hi
  | l :: ls, s, s', hi, h => by
    unfold pipeRun at h
    cases hs : pipeStep s l with
    | none => rw [hs] at h; cases h
    | some s1 => rw [hs] at h; exact pipeRun_inv ls (pipeInv_step hi hs) h

/-- Once serveContent has returned, it has the first `n` bytes written. -/
theorem PipeInv.result {acts : List PipeAct} {n : Nat} {s : PipeSt} (hi : PipeInv acts n s) (hr : s.returned = true) :
    s.got = (written acts).take n := by
  rw [← hi.bytes]
  have hc := hi.count
  rcases hi.done hr with h | ⟨-, h⟩
  · rw [← hc, h, Nat.add_zero, List.take_left']
    rfl
  · rw [h, written, List.append_nil, List.take_of_length_le (by omega)]

/-- Every step makes this smaller. -/
def pipeLeft (s : PipeSt) : Nat :=
  (written s.todo).length + s.todo.length + (if s.alive then 1 else 0) + (if s.returned then 0 else 1)

theorem pipeLeft_step {s s' : PipeSt} {l : PipeLbl} (h : pipeStep s l = some s') : pipeLeft s' < pipeLeft s := by
  obtain ⟨todo, alive, need, got, returned, late⟩ := s
  cases l with
  | use =>
    unfold pipeStep at h
    dsimp only at h
    split at h
    · split at h
      · injection h with h; subst h; simp [pipeLeft, written]
      · cases h
    · cases h
  | move k =>
    unfold pipeStep at h
    dsimp only at h
    split at h
    · rename_i b t
      split at h
      · rename_i ha
        obtain ⟨ha, hr, hk, hn, hb⟩ := ha
        injection h with h; subst h
        unfold pipeLeft
        dsimp only
        split
        · rename_i hkb
          simp only [written, List.length_append, List.length_cons]
          omega
        · simp only [written, List.length_append, List.length_cons, List.length_drop]
          omega
      · cases h
    · cases h
  | fail =>
    unfold pipeStep at h
    dsimp only at h
    split at h
    · split at h
      · rename_i ha; injection h with h; subst h; simp [pipeLeft, ha.1]
      · cases h
    · cases h
  | finish =>
    unfold pipeStep at h
    dsimp only at h
    split at h
    · split at h
      · rename_i ha; injection h with h; subst h; simp [pipeLeft, ha]
      · cases h
    · cases h
  | done =>
    unfold pipeStep at h
    dsimp only at h
    split at h
    · rename_i ha; injection h with h; subst h; simp [pipeLeft, ha.1]
    · cases h
  | eof =>
    unfold pipeStep at h
    dsimp only at h
    split at h
    · rename_i ha; injection h with h; subst h; simp [pipeLeft, ha.1]
    · cases h

theorem pipeRun_left : ∀ (ls : List PipeLbl) {s s' : PipeSt}, pipeRun s ls = some s' → ls.length + pipeLeft s' ≤ pipeLeft s
  | [], s, s', h => by injection h with h; subst h; simp
  | l :: ls, s, s', h => by
    unfold pipeRun at h
    cases hs : pipeStep s l with
    | none => rw [hs] at h; cases h
    | some s1 =>
      rw [hs] at h
      have h1 := pipeLeft_step hs
      have h2 := pipeRun_left ls h
      rw [List.length_cons]; omega

/-- A state in which nothing can happen any more is one in which both are done. -/
theorem pipe_progress {acts : List PipeAct} {n : Nat} {s : PipeSt} (hi : PipeInv acts n s)
    (hstuck : ∀ l, pipeStep s l = none) : s.alive = false ∧ s.returned = true := by
  obtain ⟨todo, alive, need, got, returned, late⟩ := s
  obtain ⟨h1, h2, h3, h4, h5⟩ := hi
  dsimp only at *
  have hret : alive = false → returned = true := by
    intro ha
    cases hr : returned with
    | true => rfl
    | false =>
      exfalso
      cases hn : need with
      | zero => have := hstuck .done; simp [pipeStep, hr, hn] at this
      | succ m => have := hstuck .eof; simp [pipeStep, hr, hn, ha] at this
  cases ha : alive with
  | false => exact ⟨rfl, hret ha⟩
  | true =>
    exfalso
    cases todo with
    | nil => have := hstuck .finish; simp [pipeStep, ha] at this
    | cons x t =>
      cases x with
      | use => have := hstuck .use; simp [pipeStep, ha] at this
      | write b =>
        cases hr : returned with
        | true => have := hstuck .fail; simp [pipeStep, ha, hr] at this
        | false =>
          cases hn : need with
          | zero => have := hstuck .done; simp [pipeStep, hr, hn] at this
          | succ m =>
            have hb : 0 < b.length := List.length_pos_iff.2 (h3 b List.mem_cons_self)
            have := hstuck (.move 1)
            unfold pipeStep at this
            dsimp only at this
            rw [if_pos ⟨ha, hr, by omega, by omega, by omega⟩] at this
            cases this

/-! ### The content is left alone -/

/-- The last thing to do is a write, or there is nothing left to do. -/
def LastWrite (acts : List PipeAct) : Prop := acts = [] ∨ ∃ b, acts.getLast? = some (.write b)

theorem LastWrite.tail {x : PipeAct} {t : List PipeAct} (h : LastWrite (x :: t)) : LastWrite t := by
  rcases h with h | ⟨b, h⟩
  · cases h
  · cases t with
    | nil => exact .inl rfl
    | cons y u => exact .inr ⟨b, by rw [List.getLast?_cons_cons] at h; exact h⟩

theorem LastWrite.head {b b' : Str} {t : List PipeAct} (h : LastWrite (.write b :: t)) : LastWrite (.write b' :: t) := by
  cases t with
  | nil => exact .inr ⟨b', rfl⟩
  | cons y u =>
    rcases h with h | ⟨x, h⟩
    · cases h
    · exact .inr ⟨x, by rw [List.getLast?_cons_cons] at h ⊢; exact h⟩

theorem lastWrite_step {s s' : PipeSt} {l : PipeLbl} (hi : LastWrite s.todo) (h : pipeStep s l = some s') : LastWrite s'.todo := by
  obtain ⟨todo, alive, need, got, returned, late⟩ := s
  dsimp only at hi
  cases l <;> unfold pipeStep at h <;> dsimp only at h
  · split at h
    · split at h
      · injection h with h; subst h; exact hi.tail
      · cases h
    · cases h
  · split at h
    · split at h
      · injection h with h; subst h
        dsimp only
        split
        · exact hi.tail
        · exact hi.head
      · cases h
    · cases h
  · split at h
    · split at h
      · injection h with h; subst h; exact hi
      · cases h
    · cases h
  · split at h
    · split at h
      · injection h with h; subst h; exact hi
      · cases h
    · cases h
  · split at h
    · injection h with h; subst h; exact hi
    · cases h
  · split at h
    · injection h with h; subst h; exact hi
    · cases h

theorem written_nil_of_solid {acts : List PipeAct} (h1 : Solid acts) (h2 : LastWrite acts) (h3 : written acts = []) : acts = [] := by
  rcases h2 with h2 | ⟨b, h2⟩
  · exact h2
  · exfalso
    have hb := List.mem_of_getLast? h2
    obtain ⟨u, v, rfl⟩ := List.append_of_mem hb
    rw [written_append, written] at h3
    exact h1 b hb (by
      have := congrArg List.length h3
      simp only [List.length_append, List.length_nil] at this
      exact List.eq_nil_of_length_eq_zero (by omega))

/-- The number of bytes wanted fits what the goroutine writes: nothing is wanted and it begins with a write, or more than it
writes, or as much and it ends with a write. -/
def Fits (acts : List PipeAct) (n : Nat) : Prop :=
  (n = 0 ∧ ∃ b t, acts = .write b :: t) ∨ (written acts).length < n ∨ ((written acts).length = n ∧ LastWrite acts)

/-- After the return the goroutine is at most in a write. -/
def Quiet (s : PipeSt) : Prop := s.late = false ∧ (s.returned = true → s.alive = true → ∀ t, s.todo ≠ .use :: t)

/-- With nothing wanted, nothing is read. -/
theorem todo_step {acts : List PipeAct} {s s' : PipeSt} {l : PipeLbl} (hw : ∃ b t, acts = .write b :: t)
    (hi : s.need = 0 ∧ s.todo = acts) (h : pipeStep s l = some s') : s'.need = 0 ∧ s'.todo = acts := by
  obtain ⟨b, t, rfl⟩ := hw
  obtain ⟨todo, alive, need, got, returned, late⟩ := s
  obtain ⟨rfl, rfl⟩ := hi
  cases l <;> unfold pipeStep at h <;> dsimp only at h
  · cases h
  · split at h
    · rename_i ha; omega
    · cases h
  · split at h
    · injection h with h; subst h; exact ⟨rfl, rfl⟩
    · cases h
  · cases h
  · split at h
    · injection h with h; subst h; exact ⟨rfl, rfl⟩
    · cases h
  · split at h
    · rename_i ha; omega
    · cases h

theorem late_step {s s' : PipeSt} {l : PipeLbl} (hq : Quiet s) (h : pipeStep s l = some s') : s'.late = false := by
  obtain ⟨todo, alive, need, got, returned, late⟩ := s
  obtain ⟨hl, hq⟩ := hq
  dsimp only at hl hq
  subst hl
  cases l <;> unfold pipeStep at h <;> dsimp only at h
  · split at h
    · rename_i t
      split at h
      · rename_i ha
        injection h with h; subst h
        cases hr : returned with
        | false => rfl
        | true => exact absurd rfl (hq hr ha t)
      · cases h
    · cases h
  · split at h
    · split at h
      · injection h with h; subst h; rfl
      · cases h
    · cases h
  · split at h
    · split at h
      · injection h with h; subst h; rfl
      · cases h
    · cases h
  · split at h
    · split at h
      · injection h with h; subst h; rfl
      · cases h
    · cases h
  · split at h
    · injection h with h; subst h; rfl
    · cases h
  · split at h
    · injection h with h; subst h; rfl
    · cases h

theorem pipeRun_quiet {acts : List PipeAct} {n : Nat} (hf : Fits acts n) : ∀ (ls : List PipeLbl) {s s' : PipeSt},
    PipeInv acts n s → (LastWrite acts → LastWrite s.todo) →
    (n = 0 ∧ (∃ b t, acts = .write b :: t) → s.need = 0 ∧ s.todo = acts) → s.late = false →
    pipeRun s ls = some s' → s'.late = false
  | [], s, s', _, _, _, hl, h => by injection h with h; exact h ▸ hl
  | l :: ls, s, s', hi, h1, h2, hl, h => by
    unfold pipeRun at h
    cases hs : pipeStep s l with
    | none => rw [hs] at h; cases h
    | some s1 =>
      rw [hs] at h
      have hq : Quiet s := by
        refine ⟨hl, fun hr ha t ht => ?_⟩
        rcases hf with hf | hf | ⟨hf, hw⟩
        · obtain ⟨-, h4⟩ := h2 hf
          obtain ⟨-, b, u, h5⟩ := hf
          rw [ht, h5] at h4; cases h4
        · have h6 := congrArg List.length hi.bytes
          rw [List.length_append] at h6
          have h7 := hi.count
          rcases hi.done hr with h5 | ⟨h5, -⟩
          · omega
          · rw [ha] at h5; cases h5
        · have h6 := congrArg List.length hi.bytes
          rw [List.length_append] at h6
          have h7 := hi.count
          rcases hi.done hr with h5 | ⟨h5, -⟩
          · have := written_nil_of_solid hi.solid (h1 hw) (List.eq_nil_of_length_eq_zero (by omega))
            rw [ht] at this; cases this
          · rw [ha] at h5; cases h5
      exact pipeRun_quiet hf ls (pipeInv_step hi hs) (fun hw => lastWrite_step (h1 hw) hs)
        (fun hz => todo_step hz.2 (h2 hz) hs) (late_step hq hs) h

/-! ### C120 -/

section
variable (lib : Lib) (c : Content) (cType : Str) (size : Int) (rs : List HttpRange) (acts : List PipeAct)
  (hacts : PartActs c lib.boundary cType size true rs acts) (n : Nat)
include hacts

/-- C120: whatever the schedule and however the content is read in pieces, when serveContent returns it has the first n of the
bytes that the parts make up, if it wanted n. -/
theorem C120_bytes (ls : List PipeLbl) (s : PipeSt) (h : pipeRun (pipeInit acts n) ls = some s) (hr : s.returned = true) :
    s.got = (pipeOut c lib.boundary cType size true rs).take n := by
  have hw := partActs_written hacts
  have hi := pipeRun_inv ls (pipeInv_init acts n hw.2) h
  rw [hi.result hr, hw.1]

/-- C120: every schedule comes to an end, and then serveContent has returned and its goroutine is gone. -/
theorem C120_ends (ls : List PipeLbl) (s : PipeSt) (h : pipeRun (pipeInit acts n) ls = some s) :
    ls.length ≤ pipeLeft (pipeInit acts n) ∧
    ((∀ l, pipeStep s l = none) → s.returned = true ∧ s.alive = false) := by
  have hi := pipeRun_inv ls (pipeInv_init acts n (partActs_written hacts).2) h
  refine ⟨?_, fun hs => ⟨(pipe_progress hi hs).2, (pipe_progress hi hs).1⟩⟩
  have := pipeRun_left ls h
  omega

end

/-! ### The bytes wanted -/

/-- The length of the whole multipart body for these ranges. -/
def wholeLength (boundary cType : Str) (size : Int) (first : Bool) (rs : List HttpRange) : Int :=
  totalLength rs + headersLength boundary cType size first rs + (partClose boundary).length

theorem mimeSize_eq (lib : Lib) (hbound : lib.boundary.length = lib.countBoundary.length) (cType : Str) (size : Int)
    (rs : List HttpRange) (hn : ∀ ra ∈ rs, 0 ≤ ra.length) (hl : wholeLength lib.boundary cType size true rs < 2 ^ 63) :
    rangesMIMESize lib.countBoundary rs cType size = wholeLength lib.boundary cType size true rs := by
  have hhl := headersLength_boundary lib.boundary lib.countBoundary cType size hbound true rs
  have hpc : (partClose lib.countBoundary).length = (partClose lib.boundary).length := by simp [partClose, hbound]
  have htn := totalLength_nonneg rs hn
  unfold wholeLength at hl ⊢
  unfold rangesMIMESize
  simp only
  rw [mimeCount_eq lib.countBoundary cType size _ hn true 0 0 (by omega) (by omega) (by omega) (by rw [← hhl]; omega)]
  simp only
  rw [← hhl, hpc]
  generalize headersLength lib.boundary cType size true rs = H at *
  generalize (partClose lib.boundary).length = P at *
  generalize totalLength rs = T at *
  rw [i64_id (x := 0 + (H : Int) + P) (by omega) (by omega), i64_id (by omega) (by omega)]
  omega

theorem partClose_pos (b : Str) : 0 < (partClose b).length := by simp [partClose]

/-- The goroutine writes the whole body and ends with a write, or something failed and it writes less. -/
theorem partActs_length {c : Content} {boundary cType : Str} {size : Int} {first : Bool} {rs : List HttpRange}
    {acts : List PipeAct} (h : PartActs c boundary cType size first rs acts) (hn : ∀ ra ∈ rs, 0 ≤ ra.length) :
    (((written acts).length : Int) = wholeLength boundary cType size first rs ∧ LastWrite acts) ∨
    ((written acts).length : Int) < wholeLength boundary cType size first rs := by
  have hpos := partClose_pos boundary
  induction h with
  | close => left; exact ⟨by simp [written, wholeLength, totalLength, headersLength], .inr ⟨_, rfl⟩⟩
  | @noSeek first ra t hs =>
    right
    have h1 := totalLength_nonneg _ hn
    simp only [written, wholeLength, headersLength, List.append_nil]
    omega
  | @short first ra t acts hs hl hc =>
    right
    have h1 := totalLength_nonneg t fun x hx => hn x (List.mem_cons_of_mem _ hx)
    have h2 : totalLength (ra :: t) = ra.length + totalLength t := by simp [totalLength]
    simp only [written, wholeLength, headersLength, (copies_written hc).1, h2, List.length_append]
    omega
  | @full first ra t acts rest hs hl hc hp ih =>
    have h2 : totalLength (ra :: t) = ra.length + totalLength t := by simp [totalLength]
    have h3 := hn ra List.mem_cons_self
    have h4 : ((readAt c ra.start ra.length).length : Int) = ra.length := by
      have : (readAt c ra.start ra.length).length ≤ ra.length.toNat := by unfold readAt; rw [List.length_take]; omega
      omega
    have ih := ih fun x hx => hn x (List.mem_cons_of_mem _ hx)
    simp only [written, written_append, wholeLength, headersLength, (copies_written hc).1, h2, List.length_append] at ih ⊢
    rcases ih with ⟨h5, h6⟩ | h5
    · left
      refine ⟨by omega, ?_⟩
      obtain ⟨b, u, rfl⟩ := partActs_shape hp
      rcases h6 with h6 | ⟨x, h6⟩
      · cases h6
      · refine .inr ⟨x, ?_⟩
        rw [show ∀ (x y : PipeAct) (l m : List PipeAct), x :: y :: (l ++ m) = (x :: y :: l) ++ m from fun _ _ _ _ => rfl,
          List.getLast?_append, h6]
        rfl
    · right; omega

/-- The bytes `CopyN` wants: none for HEAD. -/
def wanted (r : HttpReq) (n : Int) : Nat := if r.method = b!"HEAD" then 0 else n.toNat

section
variable (lib : Lib) (r : HttpReq) (w : HttpResp) (name : Str) (modTime : Int) (c : Content) (rng : Str) (size : Int)

/-- C120: the content is not used any more once serveContent has returned, whatever the schedule, for GET and HEAD requests,
for contents that fail or are shorter than announced, as long as the whole answer has less than 2^63 bytes. -/
theorem C120_untouched (h0 : 0 ≤ size) (h1 : size < 2 ^ 63) (rs : List HttpRange) (hp : parseRange rng size = .ok rs)
    (cType : Str) (hbound : lib.boundary.length = lib.countBoundary.length)
    (hl : wholeLength lib.boundary cType size true rs < 2 ^ 63)
    (acts : List PipeAct) (hacts : PartActs c lib.boundary cType size true rs acts)
    (ls : List PipeLbl) (s : PipeSt)
    (h : pipeRun (pipeInit acts (wanted r (rangesMIMESize lib.countBoundary rs cType size))) ls = some s) :
    s.late = false := by
  have hn : ∀ ra ∈ rs, 0 ≤ ra.length := fun ra hr => (C54_bounds rng size h0 h1 rs hp ra hr).2.1
  have hf : Fits acts (wanted r (rangesMIMESize lib.countBoundary rs cType size)) := by
    unfold wanted
    split
    · exact .inl ⟨rfl, partActs_shape hacts⟩
    · rw [mimeSize_eq lib hbound cType size rs hn hl]
      rcases partActs_length hacts hn with ⟨h2, h3⟩ | h2
      · exact .inr (.inr ⟨by omega, h3⟩)
      · exact .inr (.inl (by omega))
  exact pipeRun_quiet hf ls (pipeInv_init _ _ (partActs_written hacts).2) (fun h => h)
    (fun hz => ⟨hz.1, rfl⟩) rfl h

/-- C120: the answer to a request for several ranges has in its body what was there before and what came through the pipe,
whatever the schedule. -/
theorem C120_answer (hc : c.seekable = true)
    (hpre : checkPreconditions lib.toTimeLib r (setLastModified lib.toTimeLib w modTime) modTime =
      .ret (some rng, setLastModified lib.toTimeLib w modTime)) (h0 : 0 ≤ size)
    (rs : List HttpRange) (hp : parseRange rng size = .ok rs) (hmany : 2 ≤ rs.length) (hsum : sumRangesSize rs ≤ size) :
    ∃ cType w', serveContent lib r w name modTime (some size) c = .ret (w', none) ∧ w'.status = 206 ∧
      ∀ acts, PartActs c lib.boundary cType size true rs acts → ∀ ls s,
        pipeRun (pipeInit acts (wanted r (rangesMIMESize lib.countBoundary rs cType size))) ls = some s → s.returned = true →
        w'.body = w.body ++ s.got := by
  obtain ⟨ct, w1, h1, hct, h2, h3⟩ := serve_reduces lib r w name modTime size c rng hc hpre
  have hsend : serveSized lib r w1 ct rng size c = sendRanges lib r w1 ct size c rs := by
    unfold serveSized
    rw [if_pos (by omega), hp]
    simp only
    rw [if_neg (by omega)]
  obtain ⟨ra, rb, t, rfl⟩ : ∃ ra rb t, rs = ra :: rb :: t := by
    match rs, hmany with
    | ra :: rb :: t, _ => exact ⟨ra, rb, t, rfl⟩
  refine ⟨ct, _, by rw [h1, hsend]; rfl, (sendBody_facts _ _ _ _ _).1, fun acts hacts ls s hrun hr => ?_⟩
  rw [C120_bytes lib c ct size _ acts hacts _ ls s hrun hr]
  obtain ⟨s1, s2, s3, s4⟩ := sendBody_facts r
    (lengthHeaders (w1.set b!"Content-Type" (b!"multipart/byteranges; boundary=" ++ lib.boundary))
      (rangesMIMESize lib.countBoundary (ra :: rb :: t) ct size)) 206 (pipeOut c lib.boundary ct size true (ra :: rb :: t))
      (rangesMIMESize lib.countBoundary (ra :: rb :: t) ct size)
  have hl := (lengthHeaders_facts (w1.set b!"Content-Type" (b!"multipart/byteranges; boundary=" ++ lib.boundary))
      (rangesMIMESize lib.countBoundary (ra :: rb :: t) ct size)).1
  unfold wanted
  split
  · rename_i hm; rw [s4 hm, hl, body_set, h2]; simp
  · rename_i hm; rw [s3 hm, hl, body_set, h2]

end

/-! ### Examples -/

/-- Ten bytes, two ranges, read two bytes at a time. -/
def exActs : List PipeAct :=
  [.write (partHeader b!"BBBB" true b!"x" 10 ⟨0, 3⟩), .use, .use, .write b!"01", .use, .write b!"2",
   .write (partHeader b!"BBBB" false b!"x" 10 ⟨8, 2⟩), .use, .use, .write b!"89", .write (partClose b!"BBBB")]

theorem exActs_ok : PartActs exContent exLib.boundary b!"x" 10 true [⟨0, 3⟩, ⟨8, 2⟩] exActs := by
  have h1 : Copies (readAt exContent 0 3) [.use, .write b!"01", .use, .write b!"2"] :=
    show Copies (b!"01" ++ (b!"2" ++ [])) _ from .piece (by simp) (.piece (by simp) .done)
  have h2 : Copies (readAt exContent 8 2) [.use, .write b!"89"] := show Copies (b!"89" ++ []) _ from .piece (by simp) .done
  have h3 := PartActs.full (c := exContent) (boundary := exLib.boundary) (cType := b!"x") (size := 10) (first := false)
    (ra := ⟨8, 2⟩) rfl (by decide) h2 .close
  exact PartActs.full (first := true) (ra := ⟨0, 3⟩) rfl (by decide) h1 h3

/-- There is always something for the goroutine to do. -/
theorem partActs_exist (c : Content) (boundary cType : Str) (size : Int) : ∀ (rs : List HttpRange) (first : Bool),
    ∃ acts, PartActs c boundary cType size first rs acts
  | [], first => ⟨_, .close⟩
  | ra :: t, first => by
    have hcop : ∃ acts, Copies (readAt c ra.start ra.length) acts := by
      cases hb : readAt c ra.start ra.length with
      | nil => exact ⟨_, .done⟩
      | cons x l =>
        have h : Copies ((x :: l) ++ []) _ := .piece (by simp) .done
        rw [List.append_nil] at h
        exact ⟨_, h⟩
    obtain ⟨acts, ha⟩ := hcop
    cases hs : c.seekable with
    | false => exact ⟨_, .noSeek hs⟩
    | true =>
      by_cases hl : ((readAt c ra.start ra.length).length : Int) < ra.length
      · exact ⟨_, .short hs hl ha⟩
      · obtain ⟨rest, hr⟩ := partActs_exist c boundary cType size t false
        exact ⟨_, .full hs hl ha hr⟩

/-- The provisos of `C120_untouched` are met, and a HEAD request ends without a use of the content. -/
example : parseRange b!"bytes=0-2,8-9" 10 = .ok [⟨0, 3⟩, ⟨8, 2⟩] ∧ exLib.boundary.length = exLib.countBoundary.length ∧
    wholeLength exLib.boundary b!"x" 10 true [⟨0, 3⟩, ⟨8, 2⟩] < 2 ^ 63 ∧
    pipeRun (pipeInit exActs 0) [.done, .fail] = some ⟨exActs, false, 0, [], true, false⟩ := by decide +kernel

/-- If fewer bytes were wanted than written, a use of the content could come after the return: with the first header and one
byte wanted, the content is read again afterwards. So the size the parts are counted at matters. -/
example : ∃ s, pipeRun (pipeInit [.write b!"h", .use, .write b!"a", .use, .write b!"z"] 2)
    [.move 1, .use, .move 1, .done, .use] = some s ∧ s.returned = true ∧ s.late = true := ⟨_, rfl, rfl, rfl⟩

end Verif
