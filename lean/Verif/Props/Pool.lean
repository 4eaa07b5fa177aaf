import Verif.Model.Pool
import Verif.Props.RegTree
/-
C91: concurrent requests and the pool of parameter buffers.
-/
namespace Verif
variable {σ ρ : Type} [DecidableEq ρ]

/-- The objects a request holds. -/
def Pc.held : Pc σ → List Nat
  | .start => []
  | .acquired io => [io]
  | .looking io _ all => io :: all
  | .cloning io _ _ _ _ all => io :: all
  | .copying io _ _ all => io :: all
  | .cleanup io todo _ => io :: todo
  | .regs io => [io]
  | .serving io _ => [io]
  | .failed io => [io]
  | .done => []

def itemAt (f : Nat → Args) (x : Node σ × List Str × Nat) : Item σ := ⟨x.1, x.2.1, f x.2.2⟩

/-- What is known about a request at each place, `f` being the contents of the objects. -/
def Pc.Good (t : Node σ) (rxMatch : ρ → Str → Bool) (regs : RegTable ρ σ) (r : PReq ρ σ) (f : Nat → Args) : Pc σ → Prop
  | .start => True
  | .acquired _ => True
  | .looking io q all => f io = [] ∧ (∃ vis, all = vis ++ q.map (·.2.2)) ∧
      ∃ fuel, findLoop r.method [] fuel (q.map (itemAt f)) = treeFind t r.method r.path []
  | .cloning io src ps todo q all => f io = [] ∧ (∃ vis, src ∈ vis ∧ all = vis ++ q.map (·.2.2)) ∧
      ∃ p ps', ps = p :: ps' ∧ ∃ fuel, findLoop r.method [] fuel
        (q.map (itemAt f) ++ (todo.filter fun c => c.path = p ∨ c.urlId ≠ []).map fun c => ⟨c, ps, f src⟩) =
          treeFind t r.method r.path []
  | .copying io src s all => f io = [] ∧ src ∈ all ∧ treeFind t r.method r.path [] = .ret ⟨some s, true, f src⟩
  | .cleanup io _ (some s) => treeFind t r.method r.path [] = .ret ⟨some s, true, f io⟩
  | .cleanup _ _ none => ∃ rt, treeFind t r.method r.path [] = .ret rt ∧ rt.found = false
  | .regs _ => ∃ rt, treeFind t r.method r.path [] = .ret rt ∧ rt.found = false
  | .serving io s => serverFind rxMatch r.visit t regs r.method r.path [] = .ret ⟨s, true, f io⟩
  | .failed _ => ∃ res, serverFind rxMatch r.visit t regs r.method r.path [] = .ret res ∧ res.found = false
  | .done => True

theorem Pc.Good.congr {t : Node σ} {rxMatch : ρ → Str → Bool} {regs : RegTable ρ σ} {r : PReq ρ σ} {f g : Nat → Args} {pc : Pc σ}
    (h : pc.Good t rxMatch regs r f) (hfg : ∀ a ∈ pc.held, g a = f a) : pc.Good t rxMatch regs r g := by
  have items : ∀ (q : List (Node σ × List Str × Nat)), (∀ a ∈ q.map (·.2.2), g a = f a) → q.map (itemAt g) = q.map (itemAt f) := by
    intro q hq
    refine List.map_congr_left fun x hx => ?_
    simp only [itemAt, hq _ (List.mem_map.2 ⟨x, hx, rfl⟩)]
  cases pc with
  | start => trivial
  | acquired _ => trivial
  | looking io q all =>
    obtain ⟨h1, ⟨vis, h2⟩, fuel, h3⟩ := h
    refine ⟨by rw [hfg io (by simp [Pc.held]), h1], ⟨vis, h2⟩, fuel, ?_⟩
    rw [items q (fun a ha => hfg a (by simp [Pc.held, h2, ha])), h3]
  | cloning io src ps todo q all =>
    obtain ⟨h1, ⟨vis, h0, h2⟩, p, ps', h4, fuel, h3⟩ := h
    refine ⟨by rw [hfg io (by simp [Pc.held]), h1], ⟨vis, h0, h2⟩, p, ps', h4, fuel, ?_⟩
    rw [items q (fun a ha => hfg a (by simp [Pc.held, h2, ha])), hfg src (by simp [Pc.held, h2, h0]), h3]
  | copying io src s all =>
    obtain ⟨h1, h2, h3⟩ := h
    exact ⟨by rw [hfg io (by simp [Pc.held]), h1], h2, by rw [hfg src (by simp [Pc.held, h2]), h3]⟩
  | cleanup io todo s =>
    cases s with
    | none => exact h
    | some s => show _ = _; rw [hfg io (by simp [Pc.held])]; exact h
  | regs _ => exact h
  | serving io s => show _ = _; rw [hfg io (by simp [Pc.held])]; exact h
  | failed _ => exact h
  | done => trivial

/-! ### Memory -/

theorem Mem.at_write (mem : Mem) (a b : Nat) (v : Args) (ha : a < mem.heap.length) :
    (mem.write a v).at b = if b = a then v else mem.at b := by
  unfold Mem.write Mem.at
  simp only [List.getD_eq_getElem?_getD]
  by_cases h : b = a
  · subst h; rw [if_pos rfl]; simp [ha]
  · rw [if_neg h, List.getElem?_set_ne (Ne.symm h)]

theorem Mem.at_alloc (mem : Mem) (b : Nat) : mem.alloc.at b = mem.at b := by
  unfold Mem.alloc Mem.at
  simp only [List.getD_eq_getElem?_getD]
  by_cases h : b < mem.heap.length
  · rw [List.getElem?_append_left h]
  · rw [List.getElem?_append_right (by omega), List.getElem?_eq_none (l := mem.heap) (by omega)]
    cases hb : b - mem.heap.length with
    | zero => rfl
    | succ n => rfl

theorem Acquire.at {mem mem' : Mem} {a : Nat} (h : Acquire mem a mem') (b : Nat) : mem'.at b = mem.at b := by
  cases h with
  | pooled _ => rfl
  | fresh => exact mem.at_alloc b

theorem Mem.at_out (mem : Mem) (b : Nat) (h : mem.heap.length ≤ b) : mem.at b = [] := by
  unfold Mem.at
  rw [List.getD_eq_getElem?_getD, List.getElem?_eq_none h]; rfl

/-- How often an object is in the pool or held by a request at `pc`. -/
def cnt (mem : Mem) (pc : Pc σ) (a : Nat) : Nat := mem.free.count a + pc.held.count a

theorem Acquire.count {mem mem' : Mem} {a : Nat} (h : Acquire mem a mem') (b : Nat) (hb : b < mem.heap.length) :
    mem'.free.count b + (if b = a then 1 else 0) = mem.free.count b := by
  cases h with
  | pooled h =>
    simp only
    by_cases e : b = a
    · subst e; rw [if_pos rfl, List.count_erase_self]
      have := List.count_pos_iff.2 h; omega
    · rw [if_neg e, List.count_erase_of_ne (by simpa using e)]; rfl
  | fresh => rw [if_neg (by omega)]; rfl

theorem Acquire.facts {mem mem' : Mem} {a : Nat} (h : Acquire mem a mem') :
    mem'.other = mem.other ∧ (∀ b ∈ mem'.free, b ∈ mem.free) ∧ mem.heap.length ≤ mem'.heap.length ∧
    (a ∈ mem.free ∧ mem'.heap = mem.heap ∨ a = mem.heap.length ∧ mem'.free = mem.free ∧ mem'.heap = mem.heap ++ [[]]) := by
  cases h with
  | pooled h => exact ⟨rfl, fun b hb => List.mem_of_mem_erase hb, Nat.le_refl _, .inl ⟨h, rfl⟩⟩
  | fresh => exact ⟨rfl, fun b hb => hb, by simp [Mem.alloc], .inr ⟨rfl, rfl, rfl⟩⟩

/-- What a step of a request may do to the memory. -/
structure Frame (mem : Mem) (pc : Pc σ) (mem' : Mem) (pc' : Pc σ) : Prop where
  other : mem'.other = mem.other
  grows : mem.heap.length ≤ mem'.heap.length
  old : ∀ a, a < mem.heap.length → cnt mem' pc' a ≤ cnt mem pc a
  new : ∀ a, mem.heap.length ≤ a → cnt mem' pc' a ≤ if a < mem'.heap.length then 1 else 0
  clean : ∀ a ∈ mem'.free, mem'.at a = []
  rest : ∀ a, a < mem.heap.length → cnt mem pc a = 0 → mem'.at a = mem.at a

section
variable {mem mem' : Mem} {pc pc' : Pc σ} (hc : ∀ a, cnt mem pc a ≤ 1) (hb : ∀ a, mem.heap.length ≤ a → cnt mem pc a = 0)
  (hf : ∀ a ∈ mem.free, mem.at a = [])

include hb in
theorem held_lt {a : Nat} (ha : a ∈ pc.held) : a < mem.heap.length := by
  rcases Nat.lt_or_ge a mem.heap.length with h | h
  · exact h
  · have := hb a h
    have h1 := List.count_pos_iff.2 ha
    unfold cnt at this; omega

include hc in
theorem held_not_free {a b : Nat} (ha : a ∈ pc.held) (hfr : b ∈ mem.free) : b ≠ a := by
  rintro rfl
  have h1 := List.count_pos_iff.2 ha
  have h2 := List.count_pos_iff.2 hfr
  have := hc b
  unfold cnt at this; omega

include hb hf in
theorem frame_same (hle : ∀ b, pc'.held.count b ≤ pc.held.count b) : Frame mem pc mem pc' where
  other := rfl
  grows := Nat.le_refl _
  old a _ := by have := hle a; unfold cnt; omega
  new a h := by have := hle a; have h1 := hb a h; unfold cnt at h1 ⊢; split <;> omega
  clean := hf
  rest _ _ _ := rfl

include hc hb hf in
theorem frame_write {a : Nat} {v : Args} (ha : a ∈ pc.held) (hle : ∀ b, pc'.held.count b ≤ pc.held.count b) :
    Frame mem pc (mem.write a v) pc' where
  other := rfl
  grows := by simp [Mem.write]
  old b _ := by have := hle b; unfold cnt; show mem.free.count b + _ ≤ _; omega
  new b h := by
    have := hle b; have h1 := hb b h; unfold cnt at h1 ⊢
    have : mem.free.count b + pc'.held.count b = 0 := by omega
    show mem.free.count b + _ ≤ _
    split <;> omega
  clean b h := by
    rw [mem.at_write a b v (held_lt hb ha), if_neg (held_not_free hc ha h)]
    exact hf b h
  rest b _ h := by
    rw [mem.at_write a b v (held_lt hb ha), if_neg]
    rintro rfl
    have h1 := List.count_pos_iff.2 ha
    unfold cnt at h; omega

include hc hb hf in
theorem frame_release {a : Nat} (ha : a ∈ pc.held) (hle : ∀ b, pc'.held.count b + (if b = a then 1 else 0) ≤ pc.held.count b) :
    Frame mem pc (mem.release a) pc' where
  other := rfl
  grows := by simp [Mem.release, Mem.write]
  old b _ := by
    have := hle b; unfold cnt
    show (a :: mem.free).count b + _ ≤ _
    rw [List.count_cons]
    by_cases e : b = a
    · subst e; simp at this ⊢; omega
    · rw [if_neg e] at this; rw [if_neg (by simpa using Ne.symm e)]; omega
  new b h := by
    have h0 : b ≠ a := by have := held_lt hb ha; omega
    have := hle b; have h1 := hb b h; unfold cnt at h1 ⊢
    show (a :: mem.free).count b + _ ≤ _
    rw [List.count_cons, if_neg (by simpa using Ne.symm h0)]
    split <;> omega
  clean b h := by
    show (mem.write a _).at b = []
    rw [mem.at_write a b _ (held_lt hb ha)]
    split
    · rfl
    · rename_i hne
      exact hf b ((List.mem_cons.1 h).resolve_left hne)
  rest b _ h := by
    show (mem.write a _).at b = _
    rw [mem.at_write a b _ (held_lt hb ha), if_neg]
    rintro rfl
    have h1 := List.count_pos_iff.2 ha
    unfold cnt at h; omega

include hc hb hf in
theorem frame_acquire {a : Nat} {v : Args} (hacq : Acquire mem a mem')
    (hle : ∀ b, pc'.held.count b = pc.held.count b + if b = a then 1 else 0) :
    Frame mem pc (mem'.write a v) pc' ∧ mem'.at a = [] ∧ a ∉ pc.held ∧ a < mem'.heap.length ∧
      ∀ b, (mem'.write a v).at b = if b = a then v else mem.at b := by
  obtain ⟨f1, f2, f3, f4⟩ := hacq.facts
  have ha : a < mem'.heap.length := by
    rcases f4 with ⟨h1, h2⟩ | ⟨h1, -, h2⟩
    · rcases Nat.lt_or_ge a mem'.heap.length with h | h
      · exact h
      · have := hb a (by rw [← h2]; exact h)
        have h1 := List.count_pos_iff.2 h1
        unfold cnt at this; omega
    · rw [h2, h1]; simp
  have hnot : a ∉ pc.held := by
    intro hh
    have h0 := List.count_pos_iff.2 hh
    rcases f4 with ⟨h1, h2⟩ | ⟨h1, -, h2⟩
    · have h1 := List.count_pos_iff.2 h1
      have := hc a
      unfold cnt at this; omega
    · have := hb a (by omega)
      unfold cnt at this; omega
  have hat : ∀ b, (mem'.write a v).at b = if b = a then v else mem.at b := by
    intro b
    rw [mem'.at_write a b v ha, hacq.at b]
  refine ⟨⟨f1, by simpa [Mem.write] using f3, ?_, ?_, ?_, ?_⟩, ?_, hnot, ha, hat⟩
  · intro b hlt
    have h1 := hacq.count b hlt
    have h2 := hle b
    unfold cnt
    show mem'.free.count b + _ ≤ _
    omega
  · intro b hge
    have h1 := hb b hge
    have h2 := hle b
    unfold cnt at h1 ⊢
    show mem'.free.count b + _ ≤ if b < (mem'.heap.set a v).length then 1 else 0
    rw [List.length_set]
    have h3 : mem'.free.count b = 0 := by
      rw [List.count_eq_zero]
      intro hm
      have := List.count_pos_iff.2 (f2 b hm)
      omega
    by_cases e : b = a
    · subst e; rw [if_pos rfl] at h2; rw [if_pos ha]; omega
    · rw [if_neg e] at h2; omega
  · intro b hfr
    rw [hat]
    have hfr' : b ∈ mem'.free := hfr
    have hba : b ≠ a := by
      rintro rfl
      rcases f4 with ⟨h1, h2⟩ | ⟨h1, h2, -⟩
      · have hlt : b < mem.heap.length := by rw [← h2]; exact ha
        have := hacq.count b hlt
        rw [if_pos rfl] at this
        have h3 := List.count_pos_iff.2 hfr'
        have h4 := hc b
        unfold cnt at h4; omega
      · have := hb b (by omega)
        have h3 := List.count_pos_iff.2 (f2 b hfr')
        unfold cnt at this; omega
    rw [if_neg hba]
    exact hf b (f2 b hfr')
  · intro b hlt h
    rw [hat, if_neg]
    rintro rfl
    rcases f4 with ⟨h1, -⟩ | ⟨h1, -⟩
    · have := List.count_pos_iff.2 h1
      unfold cnt at h; omega
    · omega
  · rw [hacq.at a]
    rcases f4 with ⟨h1, -⟩ | ⟨h1, -⟩
    · exact hf a h1
    · exact mem.at_out a (by omega)

end


theorem treeFind_ret (t : Node σ) (m : Method) (path : Str) : ∃ rt, treeFind t m path [] = .ret rt := ⟨_, treeFind_eq t m path []⟩

/-- Every step keeps what is known about the request. -/
theorem PStep.ok {t : Node σ} {rxMatch : ρ → Str → Bool} {regs : RegTable ρ σ} {r : PReq ρ σ} {mem mem' : Mem} {pc pc' : Pc σ}
    (h : PStep t rxMatch regs r mem pc mem' pc') (hc : ∀ a, cnt mem pc a ≤ 1)
    (hb : ∀ a, mem.heap.length ≤ a → cnt mem pc a = 0) (hf : ∀ a ∈ mem.free, mem.at a = [])
    (hg : pc.Good t rxMatch regs r mem.at) : Frame mem pc mem' pc' ∧ pc'.Good t rxMatch regs r mem'.at := by
  obtain ⟨rt, hrt⟩ := treeFind_ret t r.method r.path
  have fuel_pos : ∀ fuel q, findLoop r.method [] fuel q = treeFind t r.method r.path [] → ∃ k, fuel = k + 1 := by
    intro fuel q he
    cases fuel with
    | zero => rw [hrt] at he; cases he
    | succ k => exact ⟨k, rfl⟩
  cases h with
  | @acquire _ io ha =>
    obtain ⟨f, -⟩ := frame_acquire (pc' := .acquired io) (v := mem'.at io) hc hb hf ha (by
      intro b; simp only [Pc.held, List.count_cons, List.count_nil]
      by_cases e : b = io
      · subst e; simp
      · simp [e, Ne.symm e])
    have : mem'.write io (mem'.at io) = mem' := by
      unfold Mem.write Mem.at
      congr 1
      refine List.ext_getElem (by simp) fun k h1 h2 => ?_
      rw [List.getElem_set]
      split
      · rename_i e; subst e; simp [List.getD_eq_getElem?_getD, h2]
      · rfl
    rw [this] at f
    exact ⟨f, trivial⟩
  | @root io hp =>
    have hio : io ∈ (Pc.acquired io : Pc σ).held := by simp [Pc.held]
    refine ⟨frame_write hc hb hf hio (fun b => by simp [Pc.held]), ?_⟩
    have key : treeFind t r.method r.path [] = match t.handlers.get? r.method with
        | some (some s) => .ret ⟨some s, true, []⟩
        | _ => .ret (.notFound []) := by
      unfold treeFind treeFindFuel
      simp only [if_pos hp]
      rfl
    split
    · rename_i s hs
      show treeFind _ _ _ _ = _
      rw [key, hs, mem.at_write io io _ (held_lt hb hio), if_pos rfl]
      rfl
    · rename_i hs
      refine ⟨.notFound [], ?_, rfl⟩
      rw [key]
      split
      · rename_i s hs'; exact absurd hs' (hs s)
      · rfl
  | @begin io hp =>
    have hio : io ∈ (Pc.acquired io : Pc σ).held := by simp [Pc.held]
    have hlt := held_lt hb hio
    have f1 := frame_write (v := argsReset (mem.at io)) hc hb hf hio (pc' := .acquired io) (fun b => Nat.le_refl _)
    have hat : ∀ b, (mem.write io (argsReset (mem.at io))).alloc.at b = if b = io then [] else mem.at b := by
      intro b
      rw [Mem.at_alloc, mem.at_write io b _ hlt]
      rfl
    refine ⟨⟨rfl, by simp [Mem.alloc, Mem.write], ?_, ?_, ?_, ?_⟩, ?_⟩
    · intro b hlt
      have : b ≠ mem.heap.length := by omega
      unfold cnt
      show mem.free.count b + _ ≤ _
      simp only [Pc.held, List.count_cons, List.count_nil]
      rw [if_neg (by simpa using Ne.symm this)]
      omega
    · intro b hge
      have h1 := hb b hge
      unfold cnt at h1 ⊢
      show mem.free.count b + _ ≤ if b < ((mem.heap.set io _) ++ [[]]).length then 1 else 0
      simp only [Pc.held, List.count_cons, List.count_nil] at h1 ⊢
      rw [List.length_append, List.length_set]
      by_cases e : b = mem.heap.length
      · subst e
        rw [if_neg (c := (io == mem.heap.length) = true) (by simpa using Nat.ne_of_lt hlt)] at h1 ⊢
        simp; omega
      · rw [if_neg (c := (mem.heap.length == b) = true) (by simpa using Ne.symm e)]; omega
    · intro b hfr
      have hfr' : b ∈ mem.free := hfr
      rw [hat, if_neg (held_not_free hc hio hfr')]
      exact hf b hfr'
    · intro b hb1 hb2
      rw [hat, if_neg]
      rintro rfl
      simp [cnt, Pc.held] at hb2
    · refine ⟨by rw [hat, if_pos rfl], ⟨[], rfl⟩, t.size + 1, ?_⟩
      unfold treeFind treeFindFuel
      simp only [if_neg hp]
      simp only [List.map_cons, List.map_nil, itemAt, hat]
      have hne : mem.heap.length ≠ io := Ne.symm (Nat.ne_of_lt hlt)
      rw [if_neg hne, mem.at_out _ (Nat.le_refl _)]
      rfl
  | @exhausted io all =>
    obtain ⟨h1, h2, fuel, h3⟩ := hg
    obtain ⟨k, rfl⟩ := fuel_pos _ _ h3
    refine ⟨frame_same hb hf (fun b => Nat.le_refl _), ?_⟩
    exact ⟨_, h3.symm, rfl⟩
  | @mismatch io a n p ps q all hn =>
    obtain ⟨h1, h2, fuel, h3⟩ := hg
    obtain ⟨k, rfl⟩ := fuel_pos _ _ h3
    refine ⟨frame_same hb hf (fun b => Nat.le_refl _), ?_⟩
    simp only [List.map_cons, itemAt, findLoop] at h3
    rw [if_pos hn] at h3
    exact ⟨_, h3.symm, rfl⟩
  | @found io a n p s q all hn hs =>
    obtain ⟨h1, ⟨vis, h2⟩, fuel, h3⟩ := hg
    obtain ⟨k, rfl⟩ := fuel_pos _ _ h3
    have ha : a ∈ (Pc.looking io ((n, [p], a) :: q) all).held := by simp [Pc.held, h2]
    have hia : io ≠ a := by
      rintro rfl
      have := hc io
      simp [cnt, Pc.held, h2] at this
      omega
    refine ⟨frame_write hc hb hf ha (fun b => Nat.le_refl _), ?_, by simp [h2], ?_⟩
    · rw [mem.at_write a io _ (held_lt hb ha), if_neg hia]; exact h1
    · rw [mem.at_write a a _ (held_lt hb ha), if_pos rfl, ← h3]
      simp only [List.map_cons, itemAt, findLoop]
      rw [if_neg hn, hs]
      simp [addUrlId]
  | @missing io a n p q all hn hs =>
    obtain ⟨h1, ⟨vis, h2⟩, fuel, h3⟩ := hg
    obtain ⟨k, rfl⟩ := fuel_pos _ _ h3
    have ha : a ∈ (Pc.looking io ((n, [p], a) :: q) all).held := by simp [Pc.held, h2]
    refine ⟨frame_write hc hb hf ha (fun b => Nat.le_refl _), ?_⟩
    simp only [List.map_cons, itemAt, findLoop] at h3
    rw [if_neg hn] at h3
    exact ⟨_, h3.symm, rfl⟩
  | @expand io a n p p' ps q all hn =>
    obtain ⟨h1, ⟨vis, h2⟩, fuel, h3⟩ := hg
    obtain ⟨k, rfl⟩ := fuel_pos _ _ h3
    have ha : a ∈ (Pc.looking io ((n, p :: p' :: ps, a) :: q) all).held := by simp [Pc.held, h2]
    have hca := hc a
    have hia : io ≠ a := by
      rintro rfl
      simp [cnt, Pc.held, h2] at hca
      omega
    have haq : ∀ x ∈ q, x.2.2 ≠ a := by
      intro x hx e
      have : 0 < (q.map (·.2.2)).count a := List.count_pos_iff.2 (List.mem_map.2 ⟨x, hx, e⟩)
      simp only [cnt, Pc.held, h2, List.map_cons, List.count_cons, List.count_append, beq_self_eq_true, if_true] at hca
      omega
    refine ⟨frame_write hc hb hf ha (fun b => Nat.le_refl _), ?_, ⟨vis ++ [a], by simp, by simp [h2]⟩, p', ps, rfl, k, ?_⟩
    · rw [mem.at_write a io _ (held_lt hb ha), if_neg hia]; exact h1
    · rw [← h3]
      simp only [List.map_cons, itemAt, findLoop]
      rw [if_neg hn]
      have e1 : q.map (itemAt (mem.write a (addUrlId n p (mem.at a))).at) = q.map (itemAt mem.at) := by
        refine List.map_congr_left fun x hx => ?_
        simp only [itemAt, mem.at_write a x.2.2 _ (held_lt hb ha), if_neg (haq x hx)]
      rw [e1, mem.at_write a a _ (held_lt hb ha), if_pos rfl]
      rfl
  | @skip io src p ps c cs q all hn =>
    obtain ⟨h1, h2, p0, ps0, h4, fuel, h3⟩ := hg
    cases h4
    refine ⟨frame_same hb hf (fun b => Nat.le_refl _), h1, h2, p, ps, rfl, fuel, ?_⟩
    rw [← h3, List.filter_cons_of_neg (by simpa using hn)]
  | @clone mem1 io src b p ps c cs q all hm ha =>
    obtain ⟨h1, ⟨vis, h0, h2⟩, p0, ps0, h4, fuel, h3⟩ := hg
    cases h4
    obtain ⟨f, g1, g2, g3, g4⟩ := frame_acquire (pc' := .cloning io src (p :: ps) cs (q ++ [(c, p :: ps, b)]) (all ++ [b]))
      (v := mem1.at b ++ mem1.at src) hc hb hf ha (by
        intro x
        simp only [Pc.held, List.count_cons, List.count_append, List.count_nil]
        by_cases e : x = b
        · subst e; simp; omega
        · simp [e, Ne.symm e])
    have hheld : ∀ x ∈ (Pc.cloning io src (p :: ps) (c :: cs) q all).held, x ≠ b := by
      rintro x hx rfl; exact g2 hx
    refine ⟨f, ?_, ⟨vis, h0, by simp [h2]⟩, p, ps, rfl, fuel, ?_⟩
    · rw [g4, if_neg (hheld io (by simp [Pc.held]))]; exact h1
    · have esrc : src ≠ b := hheld src (by simp [Pc.held, h2, h0])
      have e1 : q.map (itemAt (mem1.write b (mem1.at b ++ mem1.at src)).at) = q.map (itemAt mem.at) := by
        refine List.map_congr_left fun x hx => ?_
        have : x.2.2 ≠ b := hheld _ (by
          simp only [Pc.held, h2]
          exact List.mem_cons_of_mem _ (List.mem_append_right _ (List.mem_map.2 ⟨x, hx, rfl⟩)))
        simp only [itemAt, g4, if_neg this]
      rw [← h3, List.filter_cons_of_pos (by simpa using hm), List.map_append, e1]
      simp only [List.map_cons, List.map_nil, itemAt, g4, if_neg esrc, if_true, List.append_assoc, List.cons_append, List.nil_append]
      rw [ha.at b, ha.at src]
      rw [ha.at b] at g1
      rw [g1, List.nil_append]
  | @iterate io src ps q all =>
    obtain ⟨h1, ⟨vis, h0, h2⟩, p0, ps0, h4, fuel, h3⟩ := hg
    refine ⟨frame_same hb hf (fun b => Nat.le_refl _), h1, ⟨vis, h2⟩, fuel, ?_⟩
    simpa using h3
  | @copy io src s all =>
    obtain ⟨h1, h2, h3⟩ := hg
    have hio : io ∈ (Pc.copying io src s all).held := by simp [Pc.held]
    refine ⟨frame_write hc hb hf hio (fun b => Nat.le_refl _), ?_⟩
    show _ = _
    rw [h3, mem.at_write io io _ (held_lt hb hio), if_pos rfl, h1, List.nil_append]
  | @giveBack io a todo s =>
    have hcio := hc io
    have hia : io ≠ a := by
      rintro rfl
      simp [cnt, Pc.held] at hcio
      omega
    have ha : a ∈ (Pc.cleanup io (a :: todo) s : Pc σ).held := by simp [Pc.held]
    refine ⟨frame_release hc hb hf ha (fun b => ?_), ?_⟩
    · simp only [Pc.held, List.count_cons]
      by_cases e : b = a
      · subst e; simp; omega
      · simp [e, Ne.symm e]
    · cases s with
      | none => exact hg
      | some s =>
        show treeFind _ _ _ _ = .ret ⟨_, _, (mem.write a _).at io⟩
        rw [mem.at_write a io _ (held_lt hb ha), if_neg hia]
        exact hg
  | @hit io s =>
    refine ⟨frame_same hb hf (fun b => Nat.le_refl _), ?_⟩
    obtain ⟨rt', k1, k2, -⟩ := C14_tree_first rxMatch r.visit t regs r.method r.path []
    have hg' : treeFind t r.method r.path [] = .ret ⟨some s, true, mem.at io⟩ := hg
    rw [hg'] at k1
    cases k1
    exact k2 rfl
  | @miss io => exact ⟨frame_same hb hf (fun b => Nat.le_refl _), hg⟩
  | @rxHit io hfound =>
    have hio : io ∈ (Pc.regs io : Pc σ).held := by simp [Pc.held]
    refine ⟨frame_write hc hb hf hio (fun b => Nat.le_refl _), ?_⟩
    obtain ⟨rt', g1, g2⟩ := hg
    obtain ⟨rt2, k1, -, k3, -⟩ := C14_tree_first rxMatch r.visit t regs r.method r.path []
    rw [g1] at k1
    cases k1
    show serverFind _ _ _ _ _ _ _ = _
    rw [k3 g2, mem.at_write io io _ (held_lt hb hio), if_pos rfl]
    have e : regFind rxMatch r.visit regs r.method r.path (mem.at io) = regFind rxMatch r.visit regs r.method r.path [] := rfl
    rw [e] at hfound ⊢
    rw [← hfound]
  | @rxMiss io hfound =>
    have hio : io ∈ (Pc.regs io : Pc σ).held := by simp [Pc.held]
    refine ⟨frame_write hc hb hf hio (fun b => Nat.le_refl _), ?_⟩
    obtain ⟨rt', g1, g2⟩ := hg
    obtain ⟨rt2, k1, -, k3, -⟩ := C14_tree_first rxMatch r.visit t regs r.method r.path []
    rw [g1] at k1
    cases k1
    exact ⟨_, k3 g2, hfound⟩
  | @finish io s =>
    exact ⟨frame_release hc hb hf (by simp [Pc.held]) (fun b => by
      simp only [Pc.held, List.count_cons, List.count_nil]
      by_cases e : b = io
      · subst e; simp
      · simp [e]), trivial⟩
  | @reject io =>
    exact ⟨frame_release hc hb hf (by simp [Pc.held]) (fun b => by
      simp only [Pc.held, List.count_cons, List.count_nil]
      by_cases e : b = io
      · subst e; simp
      · simp [e]), trivial⟩

/-! ### All requests together -/

/-- How often an object is in use: in the pool, by others, by a request. -/
def PoolSt.uses (s : PoolSt σ) (a : Nat) : Nat :=
  s.mem.free.count a + s.mem.other.count a + (s.pcs.flatMap Pc.held).count a

theorem count_set_held (l : List (Pc σ)) (i : Nat) (pc pc' : Pc σ) (h : l[i]? = some pc) (a : Nat) :
    ((l.set i pc').flatMap Pc.held).count a + pc.held.count a = (l.flatMap Pc.held).count a + pc'.held.count a := by
  induction l generalizing i with
  | nil => simp at h
  | cons x l ih =>
    cases i with
    | zero =>
      simp only [List.getElem?_cons_zero, Option.some.injEq] at h
      subst h
      simp only [List.set_cons_zero, List.flatMap_cons, List.count_append]
      omega
    | succ i =>
      simp only [List.getElem?_cons_succ] at h
      have := ih i h
      simp only [List.set_cons_succ, List.flatMap_cons, List.count_append]
      omega

theorem count_held_le (l : List (Pc σ)) (i : Nat) (pc : Pc σ) (h : l[i]? = some pc) (a : Nat) :
    pc.held.count a ≤ (l.flatMap Pc.held).count a := by
  induction l generalizing i with
  | nil => simp at h
  | cons x l ih =>
    cases i with
    | zero =>
      simp only [List.getElem?_cons_zero, Option.some.injEq] at h
      subst h
      simp [List.count_append]
    | succ i =>
      simp only [List.getElem?_cons_succ] at h
      have := ih i h
      simp only [List.flatMap_cons, List.count_append]
      omega

theorem count_held_two (l : List (Pc σ)) (i j : Nat) (hij : i ≠ j) (pc pc' : Pc σ) (h : l[i]? = some pc) (h' : l[j]? = some pc') (a : Nat) :
    pc.held.count a + pc'.held.count a ≤ (l.flatMap Pc.held).count a := by
  have h1 := count_set_held l i pc .done h a
  have h2 := count_held_le (l.set i .done) j pc' (by rw [List.getElem?_set_ne hij]; exact h') a
  have h3 : (Pc.done : Pc σ).held.count a = 0 := rfl
  omega

structure PoolOk (t : Node σ) (rxMatch : ρ → Str → Bool) (regs : RegTable ρ σ) (reqs : List (PReq ρ σ)) (s : PoolSt σ) : Prop where
  once : ∀ a, s.uses a ≤ 1
  bound : ∀ a, s.mem.heap.length ≤ a → s.uses a = 0
  clean : ∀ a ∈ s.mem.free, s.mem.at a = []
  good : ∀ (i : Nat) r pc, reqs[i]? = some r → s.pcs[i]? = some pc → pc.Good t rxMatch regs r s.mem.at

theorem PoolOk.step {t : Node σ} {rxMatch : ρ → Str → Bool} {regs : RegTable ρ σ} {reqs : List (PReq ρ σ)} {s s' : PoolSt σ}
    (ok : PoolOk t rxMatch regs reqs s) (h : PoolStep t rxMatch regs reqs s s') : PoolOk t rxMatch regs reqs s' := by
  -- what the others and the pool do
  have quiet : ∀ mem' : Mem, s.mem.heap.length ≤ mem'.heap.length →
      (∀ a, a < s.mem.heap.length → mem'.free.count a + mem'.other.count a ≤ s.mem.free.count a + s.mem.other.count a) →
      (∀ a, s.mem.heap.length ≤ a → mem'.free.count a + mem'.other.count a ≤ if a < mem'.heap.length then 1 else 0) →
      (∀ a ∈ mem'.free, mem'.at a = []) →
      (∀ a, s.mem.free.count a + s.mem.other.count a = 0 → mem'.at a = s.mem.at a) →
      PoolOk t rxMatch regs reqs ⟨mem', s.pcs⟩ := by
    intro mem' hg h1 h2 h3 h4
    refine ⟨fun a => ?_, fun a ha => ?_, h3, fun i r pc hr hp => ?_⟩
    · have o := ok.once a
      unfold PoolSt.uses at o ⊢
      by_cases hl : a < s.mem.heap.length
      · have := h1 a hl; simp only; omega
      · have b := ok.bound a (by omega)
        unfold PoolSt.uses at b
        have := h2 a (by omega)
        split at this <;> simp only <;> omega
    · have ha' : mem'.heap.length ≤ a := ha
      have b := ok.bound a (by omega)
      unfold PoolSt.uses at b ⊢
      have := h2 a (by omega)
      rw [if_neg (by omega)] at this
      simp only; omega
    · refine (ok.good i r pc hr hp).congr fun a ha => h4 a ?_
      have c1 := count_held_le s.pcs i pc hp a
      have c2 := List.count_pos_iff.2 ha
      have := ok.once a
      unfold PoolSt.uses at this
      omega
  cases h with
  | @request i r pc pc' mem' hr hp hs =>
    have le : ∀ a, cnt s.mem pc a ≤ s.uses a := by
      intro a
      have := count_held_le s.pcs i pc hp a
      unfold cnt PoolSt.uses; omega
    obtain ⟨f, g⟩ := hs.ok (fun a => Nat.le_trans (le a) (ok.once a))
      (fun a ha => Nat.le_zero.1 (ok.bound a ha ▸ le a)) ok.clean (ok.good i r pc hr hp)
    refine ⟨fun a => ?_, fun a ha => ?_, f.clean, fun j r' q hr' hq => ?_⟩
    · have o := ok.once a
      have c := count_set_held s.pcs i pc pc' hp a
      have c1 := count_held_le s.pcs i pc hp a
      unfold PoolSt.uses at o ⊢
      simp only [f.other]
      by_cases hl : a < s.mem.heap.length
      · have := f.old a hl; unfold cnt at this; omega
      · have b := ok.bound a (by omega)
        unfold PoolSt.uses at b
        have := f.new a (by omega)
        unfold cnt at this
        split at this <;> omega
    · have ha' : mem'.heap.length ≤ a := ha
      have hg := f.grows
      have b := ok.bound a (by omega)
      have c := count_set_held s.pcs i pc pc' hp a
      have c1 := count_held_le s.pcs i pc hp a
      have := f.new a (by omega)
      rw [if_neg (by omega)] at this
      unfold cnt at this
      unfold PoolSt.uses at b ⊢
      simp only [f.other]; omega
    · simp only at hq
      by_cases e : i = j
      · subst e
        have hi : i < s.pcs.length := by
          rcases Nat.lt_or_ge i s.pcs.length with h | h
          · exact h
          · rw [List.getElem?_eq_none h] at hp; cases hp
        rw [List.getElem?_set_self hi] at hq
        cases hq
        rw [hr] at hr'
        cases hr'
        exact g
      · rw [List.getElem?_set_ne e] at hq
        refine (ok.good j r' q hr' hq).congr fun a ha => f.rest a ?_ ?_
        · rcases Nat.lt_or_ge a s.mem.heap.length with h | h
          · exact h
          · have b := ok.bound a h
            have c1 := count_held_le s.pcs j q hq a
            have c2 := List.count_pos_iff.2 ha
            unfold PoolSt.uses at b; omega
        · have c1 := count_held_two s.pcs i j e pc q hp hq a
          have c2 := List.count_pos_iff.2 ha
          have := ok.once a
          unfold PoolSt.uses at this
          unfold cnt; omega
  | @otherAcquire a mem' ha =>
    obtain ⟨f1, f2, f3, f4⟩ := ha.facts
    have hone := ok.once a
    unfold PoolSt.uses at hone
    refine quiet { mem' with other := a :: mem'.other } f3 (fun b hb => ?_) (fun b hb => ?_) (fun b hb => ?_) (fun b hb => ha.at b)
    · have := ha.count b hb
      simp only [f1, List.count_cons]
      by_cases e : b = a
      · subst e; simp at this ⊢; omega
      · rw [if_neg e] at this
        rw [if_neg (by simpa using Ne.symm e)]; omega
    · have bb := ok.bound b hb
      unfold PoolSt.uses at bb
      have hz : mem'.free.count b = 0 := by
        rw [List.count_eq_zero]
        intro hm
        have := List.count_pos_iff.2 (f2 b hm); omega
      simp only [f1, List.count_cons]
      by_cases e : b = a
      · subst e
        rcases f4 with ⟨g1, -⟩ | ⟨g1, -, g2⟩
        · have := List.count_pos_iff.2 g1; omega
        · have hl : b < mem'.heap.length := by rw [g2, g1]; simp
          rw [if_pos (c := b < mem'.heap.length) hl]; simp; omega
      · rw [if_neg (by simpa using Ne.symm e)]; omega
    · show mem'.at b = []
      rw [ha.at]; exact ok.clean b (f2 b hb)
  | @otherWrite a v ha =>
    have h1 := List.count_pos_iff.2 ha
    have hone := ok.once a
    have hl : a < s.mem.heap.length := by
      rcases Nat.lt_or_ge a s.mem.heap.length with h | h
      · exact h
      · have b := ok.bound a h; unfold PoolSt.uses at b; omega
    refine quiet (s.mem.write a v) (by simp [Mem.write]) (fun b hb => Nat.le_refl _) (fun b hb => ?_) (fun b hb => ?_) (fun b hb => ?_)
    · have bb := ok.bound b hb
      unfold PoolSt.uses at bb
      show s.mem.free.count b + s.mem.other.count b ≤ _
      split <;> omega
    · rw [s.mem.at_write a b v hl, if_neg]
      · exact ok.clean b hb
      · rintro rfl
        have := List.count_pos_iff.2 (show b ∈ s.mem.free from hb)
        unfold PoolSt.uses at hone; omega
    · rw [s.mem.at_write a b v hl, if_neg]
      rintro rfl; omega
  | @otherRelease a ha =>
    have h1 := List.count_pos_iff.2 ha
    have hone := ok.once a
    unfold PoolSt.uses at hone
    have hl : a < s.mem.heap.length := by
      rcases Nat.lt_or_ge a s.mem.heap.length with h | h
      · exact h
      · have b := ok.bound a h; unfold PoolSt.uses at b; omega
    have hat : ∀ b, ({ s.mem.release a with other := s.mem.other.erase a } : Mem).at b = if b = a then [] else s.mem.at b :=
      fun b => s.mem.at_write a b _ hl
    have hcount : ∀ b, (a :: s.mem.free).count b + (s.mem.other.erase a).count b = s.mem.free.count b + s.mem.other.count b := by
      intro b
      rw [List.count_cons]
      by_cases e : b = a
      · subst e; rw [List.count_erase_self]; simp; omega
      · rw [if_neg (by simpa using Ne.symm e), List.count_erase_of_ne (by simpa using e)]; omega
    refine quiet { s.mem.release a with other := s.mem.other.erase a } (by simp [Mem.release, Mem.write]) (fun b hb => ?_)
      (fun b hb => ?_) (fun b hb => ?_) (fun b hb => ?_)
    · exact Nat.le_of_eq (hcount b)
    · have bb := ok.bound b hb
      unfold PoolSt.uses at bb
      have hc := hcount b
      show (a :: s.mem.free).count b + (s.mem.other.erase a).count b ≤ _
      split <;> omega
    · rw [hat]
      split
      · rfl
      · rename_i hne
        exact ok.clean b ((List.mem_cons.1 (show b ∈ a :: s.mem.free from hb)).resolve_left hne)
    · rw [hat, if_neg]
      rintro rfl; omega
  | @drop a ha =>
    have hle : ∀ b, (s.mem.free.erase a).count b ≤ s.mem.free.count b := fun b => (List.erase_sublist).count_le b
    refine quiet { s.mem with free := s.mem.free.erase a } (Nat.le_refl _) (fun b hb => ?_) (fun b hb => ?_) (fun b hb => ?_)
      (fun b hb => rfl)
    · have := hle b; simp only; omega
    · have bb := ok.bound b hb
      unfold PoolSt.uses at bb
      have := hle b
      simp only
      split <;> omega
    · exact ok.clean b (List.mem_of_mem_erase hb)

theorem PoolOk.of_reach {t : Node σ} {rxMatch : ρ → Str → Bool} {regs : RegTable ρ σ} {reqs : List (PReq ρ σ)} {s : PoolSt σ}
    (h : PoolReach t rxMatch regs reqs s) : PoolOk t rxMatch regs reqs s := by
  induction h with
  | init =>
    have hz : ∀ a, (poolInit reqs.length : PoolSt σ).uses a = 0 := by
      intro a
      have : ∀ n, ((List.replicate n (Pc.start : Pc σ)).flatMap Pc.held) = [] := by
        intro n
        simp [Pc.held]
      simp [PoolSt.uses, poolInit, this]
    refine ⟨fun a => by rw [hz]; omega, fun a _ => hz a, fun a ha => by simp [poolInit] at ha, ?_⟩
    intro i r pc _ hp
    simp only [poolInit, List.getElem?_replicate] at hp
    split at hp
    · cases hp; trivial
    · cases hp
  | step _ hs ih => exact ih.step hs

/-! ### Executing -/

/-- One way to acquire: the first object of the pool, or a new one. -/
def acquireFn (mem : Mem) : Nat × Mem :=
  match mem.free with
  | a :: _ => (a, { mem with free := mem.free.erase a })
  | [] => (mem.heap.length, mem.alloc)

theorem acquireFn_ok (mem : Mem) : Acquire mem (acquireFn mem).1 (acquireFn mem).2 := by
  unfold acquireFn
  split
  · rename_i a l h; exact .pooled (by rw [h]; simp)
  · exact .fresh

/-- The next step of a request, with that way to acquire. -/
def stepFn (t : Node σ) (rxMatch : ρ → Str → Bool) (regs : RegTable ρ σ) (r : PReq ρ σ) (mem : Mem) : Pc σ → Option (Mem × Pc σ)
  | .start => some ((acquireFn mem).2, .acquired (acquireFn mem).1)
  | .acquired io =>
    if (splitPath r.path).length = 1 then some (mem.write io (argsReset (mem.at io)),
      .cleanup io [] (match t.handlers.get? r.method with | some (some s) => some s | _ => none))
    else some ((mem.write io (argsReset (mem.at io))).alloc, .looking io [(t, splitPath r.path, mem.heap.length)] [mem.heap.length])
  | .looking io [] all => some (mem, .cleanup io all none)
  | .looking _ ((_, [], _) :: _) _ => none
  | .looking io ((n, [p], a) :: _) all =>
    if n.urlId = [] ∧ n.path ≠ p then some (mem, .cleanup io all none)
    else match n.handlers.get? r.method with
      | some (some s) => some (mem.write a (addUrlId n p (mem.at a)), .copying io a s all)
      | _ => some (mem.write a (addUrlId n p (mem.at a)), .cleanup io all none)
  | .looking io ((n, p :: p' :: ps, a) :: q) all =>
    if n.urlId = [] ∧ n.path ≠ p then some (mem, .cleanup io all none)
    else some (mem.write a (addUrlId n p (mem.at a)), .cloning io a (p' :: ps) n.children q all)
  | .cloning io _ _ [] q all => some (mem, .looking io q all)
  | .cloning _ _ [] (_ :: _) _ _ => none
  | .cloning io src (p :: ps) (c :: cs) q all =>
    if c.path = p ∨ c.urlId ≠ [] then
      some ((acquireFn mem).2.write (acquireFn mem).1 ((acquireFn mem).2.at (acquireFn mem).1 ++ (acquireFn mem).2.at src),
        .cloning io src (p :: ps) cs (q ++ [(c, p :: ps, (acquireFn mem).1)]) (all ++ [(acquireFn mem).1]))
    else some (mem, .cloning io src (p :: ps) cs q all)
  | .copying io src s all => some (mem.write io (mem.at io ++ mem.at src), .cleanup io all (some s))
  | .cleanup io (a :: todo) s => some (mem.release a, .cleanup io todo s)
  | .cleanup io [] (some s) => some (mem, .serving io (some s))
  | .cleanup io [] none => some (mem, .regs io)
  | .regs io =>
    if (regFind rxMatch r.visit regs r.method r.path (mem.at io)).found = true then
      some (mem.write io (regFind rxMatch r.visit regs r.method r.path (mem.at io)).args,
        .serving io (regFind rxMatch r.visit regs r.method r.path (mem.at io)).set)
    else some (mem.write io (regFind rxMatch r.visit regs r.method r.path (mem.at io)).args, .failed io)
  | .serving io _ => some (mem.release io, .done)
  | .failed io => some (mem.release io, .done)
  | .done => none

theorem stepFn_ok (t : Node σ) (rxMatch : ρ → Str → Bool) (regs : RegTable ρ σ) (r : PReq ρ σ) (mem mem' : Mem) (pc pc' : Pc σ)
    (h : stepFn t rxMatch regs r mem pc = some (mem', pc')) : PStep t rxMatch regs r mem pc mem' pc' := by
  unfold stepFn at h
  split at h
  · cases h; exact .acquire (acquireFn_ok mem)
  · split at h
    · cases h; exact .root (by assumption)
    · cases h; exact .begin (by assumption)
  · cases h; exact .exhausted
  · cases h
  · split at h
    · cases h; exact .mismatch (by assumption)
    · split at h
      · cases h; exact .found (by assumption) (by assumption)
      · rename_i hn _ hs; cases h; exact .missing hn (fun s e => hs s e)
  · split at h
    · cases h; exact .mismatch (by assumption)
    · cases h; exact .expand (by assumption)
  · cases h; exact .iterate
  · cases h
  · split at h
    · cases h; exact .clone (by assumption) (acquireFn_ok mem)
    · cases h; exact .skip (by assumption)
  · cases h; exact .copy
  · cases h; exact .giveBack
  · cases h; exact .hit
  · cases h; exact .miss
  · split at h
    · cases h; exact .rxHit (by assumption)
    · rename_i hf; cases h; exact .rxMiss (by simpa using hf)
  · cases h; exact .finish
  · cases h; exact .reject
  · cases h

/-- Let the requests take steps in the given order. -/
def schedule (t : Node σ) (rxMatch : ρ → Str → Bool) (regs : RegTable ρ σ) (reqs : List (PReq ρ σ)) : List Nat → PoolSt σ → PoolSt σ
  | [], s => s
  | i :: is, s =>
    match reqs[i]?, s.pcs[i]? with
    | some r, some pc =>
      match stepFn t rxMatch regs r s.mem pc with
      | some (mem', pc') => schedule t rxMatch regs reqs is ⟨mem', s.pcs.set i pc'⟩
      | none => schedule t rxMatch regs reqs is s
    | _, _ => schedule t rxMatch regs reqs is s

theorem schedule_reach (t : Node σ) (rxMatch : ρ → Str → Bool) (regs : RegTable ρ σ) (reqs : List (PReq ρ σ)) (is : List Nat)
    (s : PoolSt σ) (h : PoolReach t rxMatch regs reqs s) : PoolReach t rxMatch regs reqs (schedule t rxMatch regs reqs is s) := by
  induction is generalizing s with
  | nil => exact h
  | cons i is ih =>
    unfold schedule
    split
    · rename_i r pc hr hp
      split
      · rename_i mem' pc' hs
        exact ih _ (h.step (.request hr hp (stepFn_ok t rxMatch regs r _ _ _ _ hs)))
      · exact ih _ h
    · exact ih _ h

/-! ### Steps -/

/-- At most this many steps are left, whatever the pool does. -/
def Pc.left (t : Node σ) : Pc σ → Nat
  | .start => 7 * t.size + 9
  | .acquired _ => 7 * t.size + 8
  | .looking _ q all => (q.map fun x => 7 * x.1.size - 3).sum + all.length + 5
  | .cloning _ _ _ todo q all => (todo.map fun c => 7 * c.size).sum + (q.map fun x => 7 * x.1.size - 3).sum + all.length + 6
  | .copying _ _ _ all => all.length + 5
  | .cleanup _ todo _ => todo.length + 4
  | .regs _ => 3
  | .serving _ _ => 2
  | .failed _ => 2
  | .done => 0

theorem sizes_eq (cs : List (Node σ)) : (cs.map fun c => 7 * c.size).sum = 7 * Node.size.sizes cs := by
  induction cs with
  | nil => rfl
  | cons c cs ih => simp only [List.map_cons, List.sum_cons, ih, Node.size.sizes]; omega

theorem size_children (n : Node σ) : n.size = 1 + Node.size.sizes n.children := by
  cases n with
  | mk p u h cs => rw [Node.size]; rfl

theorem PStep.left_lt {t : Node σ} {rxMatch : ρ → Str → Bool} {regs : RegTable ρ σ} {r : PReq ρ σ} {mem mem' : Mem} {pc pc' : Pc σ}
    (h : PStep t rxMatch regs r mem pc mem' pc') : pc'.left t < pc.left t := by
  have hs := size_children t
  cases h <;> simp only [Pc.left, List.map_cons, List.map_nil, List.sum_cons, List.sum_nil, List.length_cons, List.length_nil,
    List.map_append, List.sum_append, List.length_append] <;> try omega
  case found io a n p s q all hn hg =>
    have := size_children n
    omega
  case expand a n p p' ps q all hn =>
    have := size_children n
    rw [sizes_eq]
    omega
  case skip io src p ps c cs q all hn =>
    have := size_children c
    omega
  case clone io src b p ps c cs q all hm ha =>
    have := size_children c
    omega

/-- The reachable states with the number of steps request `i` has taken. -/
inductive PoolSteps (t : Node σ) (rxMatch : ρ → Str → Bool) (regs : RegTable ρ σ) (reqs : List (PReq ρ σ)) (i : Nat) :
    PoolSt σ → Nat → Prop where
  | init : PoolSteps t rxMatch regs reqs i (poolInit reqs.length) 0
  | own {s : PoolSt σ} {n : Nat} {r : PReq ρ σ} {pc pc' : Pc σ} {mem' : Mem} : PoolSteps t rxMatch regs reqs i s n →
      reqs[i]? = some r → s.pcs[i]? = some pc → PStep t rxMatch regs r s.mem pc mem' pc' →
      PoolSteps t rxMatch regs reqs i ⟨mem', s.pcs.set i pc'⟩ (n + 1)
  | others {s s' : PoolSt σ} {n : Nat} : PoolSteps t rxMatch regs reqs i s n → PoolStep t rxMatch regs reqs s s' →
      s'.pcs[i]? = s.pcs[i]? → PoolSteps t rxMatch regs reqs i s' n

section
variable {t : Node σ} {rxMatch : ρ → Str → Bool} {regs : RegTable ρ σ} {reqs : List (PReq ρ σ)} {s : PoolSt σ}

/-- **C91.** Whatever requests run at the same time, however their steps interleave, and whatever others do with the pool:
when the handlers of a request run, its parameter buffer holds exactly what the lookup of its own path, done alone,
yields (and the handlers are those this lookup yields). -/
theorem C91_own_parameters (h : PoolReach t rxMatch regs reqs s) (i : Nat) (r : PReq ρ σ) (hr : reqs[i]? = some r) (io : Nat)
    (set : Option σ) (hs : s.pcs[i]? = some (.serving io set)) (buf : Args) :
    serverFind rxMatch r.visit t regs r.method r.path buf = .ret ⟨set, true, s.mem.at io⟩ := by
  rw [(C12_server_buffer rxMatch r.visit t regs r.method r.path buf []).1]
  exact (PoolOk.of_reach h).good i r _ hr hs

/-- **C91.** As long as they run, nobody else has this buffer: no other request, no other user of the pool, nor can it be
acquired. -/
theorem C91_exclusive (h : PoolReach t rxMatch regs reqs s) (i : Nat) (io : Nat) (set : Option σ)
    (hs : s.pcs[i]? = some (.serving io set)) :
    io < s.mem.heap.length ∧ io ∉ s.mem.free ∧ io ∉ s.mem.other ∧ ∀ (j : Nat) pc, j ≠ i → s.pcs[j]? = some pc → io ∉ pc.held := by
  have ok := PoolOk.of_reach h
  have c0 := count_held_le s.pcs i _ hs io
  have c1 : (Pc.serving io set : Pc σ).held.count io = 1 := by simp [Pc.held]
  have o := ok.once io
  unfold PoolSt.uses at o
  refine ⟨?_, fun hm => ?_, fun hm => ?_, fun j pc hij hp hm => ?_⟩
  · rcases Nat.lt_or_ge io s.mem.heap.length with h | h
    · exact h
    · have b := ok.bound io h
      unfold PoolSt.uses at b; omega
  · have := List.count_pos_iff.2 hm; omega
  · have := List.count_pos_iff.2 hm; omega
  · have := List.count_pos_iff.2 hm
    have c2 := count_held_two s.pcs i j (Ne.symm hij) _ pc hs hp io
    omega

/-- **C91.** A request is answered "not found" only if the lookup of its path, done alone, finds nothing. -/
theorem C91_not_found (h : PoolReach t rxMatch regs reqs s) (i : Nat) (r : PReq ρ σ) (hr : reqs[i]? = some r) (io : Nat)
    (hs : s.pcs[i]? = some (.failed io)) (buf : Args) :
    ∃ res, serverFind rxMatch r.visit t regs r.method r.path buf = .ret res ∧ res.found = false := by
  rw [(C12_server_buffer rxMatch r.visit t regs r.method r.path buf []).1]
  exact (PoolOk.of_reach h).good i r _ hr hs

/-- **C91.** No request is ever stuck: as long as it is not done it can take a step, whatever the others are doing. -/
theorem C91_progress (h : PoolReach t rxMatch regs reqs s) (i : Nat) (r : PReq ρ σ) (hr : reqs[i]? = some r) (pc : Pc σ)
    (hp : s.pcs[i]? = some pc) (hd : pc ≠ .done) : ∃ mem' pc', PStep t rxMatch regs r s.mem pc mem' pc' := by
  have hg := (PoolOk.of_reach h).good i r pc hr hp
  obtain ⟨rt, hrt⟩ := treeFind_ret t r.method r.path
  have : ∃ x, stepFn t rxMatch regs r s.mem pc = some x := by
    unfold stepFn
    split <;> try exact ⟨_, rfl⟩
    · split <;> exact ⟨_, rfl⟩
    · obtain ⟨-, -, fuel, hf⟩ := hg
      rw [hrt] at hf
      cases fuel with
      | zero => cases hf
      | succ k => simp only [List.map_cons, itemAt, findLoop] at hf; cases hf
    · split
      · exact ⟨_, rfl⟩
      · split <;> exact ⟨_, rfl⟩
    · split <;> exact ⟨_, rfl⟩
    · obtain ⟨-, -, p, ps, hf, -⟩ := hg
      cases hf
    · split <;> exact ⟨_, rfl⟩
    · split <;> exact ⟨_, rfl⟩
    · exact absurd rfl hd
  obtain ⟨x, hx⟩ := this
  exact ⟨x.1, x.2, stepFn_ok t rxMatch regs r s.mem x.1 pc x.2 hx⟩

/-- **C91.** And it takes at most `7 * size + 9` steps, `size` being the number of nodes of the tree. -/
theorem C91_bounded (i n : Nat) (hi : i < reqs.length) (h : PoolSteps t rxMatch regs reqs i s n) : n ≤ 7 * t.size + 9 := by
  suffices hb : ∃ pc, s.pcs[i]? = some pc ∧ n + pc.left t ≤ 7 * t.size + 9 by
    obtain ⟨pc, -, h⟩ := hb; omega
  induction h with
  | init => exact ⟨.start, by simp [poolInit, hi], by simp [Pc.left]⟩
  | @own s n r pc pc' mem' _ _ hp hs ih =>
    obtain ⟨pc0, h1, h2⟩ := ih
    rw [hp] at h1
    cases h1
    have hl : i < s.pcs.length := by
      rcases Nat.lt_or_ge i s.pcs.length with h | h
      · exact h
      · rw [List.getElem?_eq_none h] at hp; cases hp
    refine ⟨pc', List.getElem?_set_self hl, ?_⟩
    have := hs.left_lt
    omega
  | others _ _ he ih =>
    obtain ⟨pc, h1, h2⟩ := ih
    exact ⟨pc, by rw [he]; exact h1, h2⟩
end

/-! ### Concrete requests -/

namespace PoolEx

def tree : Node Nat := treeOf [⟨mGet, b!"/a/:id", 0⟩, ⟨mGet, b!"/:x/:y", 1⟩]
def reqs : List (PReq Nat Nat) := [⟨mGet, b!"/a/7", id⟩, ⟨mGet, b!"/b/8", id⟩]

def look (s : PoolSt Nat) : List (List (Nat × Option Nat × List (Str × Str))) :=
  s.pcs.map fun pc => match pc with
    | .serving io set => [(io, set, s.mem.at io)]
    | _ => []

/-- The state after a schedule. -/
def after (is : List Nat) : PoolSt Nat := schedule tree (fun (_ : Nat) _ => false) newRegTree reqs is (poolInit 2)

theorem after_reach (is : List Nat) : PoolReach tree (fun (_ : Nat) _ => false) newRegTree reqs (after is) :=
  schedule_reach tree _ _ reqs is _ .init

def alt : Nat → List Nat
  | 0 => []
  | n + 1 => 0 :: 1 :: alt n

def own : Nat → Nat → List Nat
  | _, 0 => []
  | i, n + 1 => i :: own i n

set_option synthInstance.maxSize 1000
set_option synthInstance.maxHeartbeats 200000
-- two requests in lock step: each has its own buffer and its own parameters
example : look (after (alt 15 ++ own 0 5)) = [[(0, some 0, [(b!"id", b!"7")])], [(1, some 1, [(b!"x", b!"b"), (b!"y", b!"8")])]] := by
  decide +kernel

end PoolEx

set_option synthInstance.maxSize 1000 in
set_option synthInstance.maxHeartbeats 200000 in
/-- C63, what the violation leads to: a goroutine that is left over from a request (after Abort, say) still has the
request's buffer, number `io`; the request is done, the pool gives the buffer to the next request, and the goroutine
reads the parameters of that one.  (Both states are reachable, the second one from the first.) -/
theorem C63_violated_leak :
    ∃ (t : Node Nat) (reqs : List (PReq Nat Nat)) (s s' : PoolSt Nat) (is : List Nat) (io : Nat),
      PoolReach t (fun _ _ => false) newRegTree reqs s ∧ s' = schedule t (fun _ _ => false) newRegTree reqs is s ∧
      (∃ set, s.pcs[0]? = some (.serving io set)) ∧ s.mem.at io = [(b!"id", b!"7")] ∧
      (∃ set, s'.pcs[1]? = some (.serving io set)) ∧ s'.mem.at io = [(b!"x", b!"b"), (b!"y", b!"8")] := by
  have e : ∀ (s : PoolSt Nat) (i io : Nat) (set : Option Nat) (v : List (Str × Str)),
      (PoolEx.look s)[i]? = some [(io, set, v)] → s.pcs[i]? = some (.serving io set) ∧ s.mem.at io = v := by
    intro s i io set v h
    simp only [PoolEx.look, List.getElem?_map] at h
    cases hp : s.pcs[i]? with
    | none => rw [hp] at h; cases h
    | some pc =>
      rw [hp] at h
      simp only [Option.map_some, Option.some.injEq] at h
      cases pc <;> simp only [reduceCtorEq, List.cons.injEq, Prod.mk.injEq, and_true] at h
      obtain ⟨rfl, rfl, rfl⟩ := h
      exact ⟨rfl, rfl⟩
  obtain ⟨a1, a2⟩ := e (PoolEx.after (PoolEx.own 0 20)) 0 0 (some 0) [(b!"id", b!"7")] (by decide +kernel)
  obtain ⟨b1, b2⟩ := e (schedule PoolEx.tree (fun (_ : Nat) _ => false) newRegTree PoolEx.reqs (0 :: PoolEx.own 1 15) (PoolEx.after (PoolEx.own 0 20))) 1 0
    (some 1) [(b!"x", b!"b"), (b!"y", b!"8")] (by decide +kernel)
  exact ⟨PoolEx.tree, PoolEx.reqs, _, _, 0 :: PoolEx.own 1 15, 0, PoolEx.after_reach _, rfl, ⟨_, a1⟩, a2, ⟨_, b1⟩, b2⟩

end Verif
