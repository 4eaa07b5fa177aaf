import Verif.Spec.Order
import Verif.Props.Orderly
import Verif.Model.Auth
/-
C132: when the order of registration matters.
-/
namespace Verif
open Spec
variable {σ : Type}

/-- The registrations in either order. -/
def Spec.OrderFree (r o : Reg σ) : Prop := orderFree (routePats r) r.method (routePats o) o.method

theorem OrderFree.symm {r o : Reg σ} (h : OrderFree r o) : OrderFree o r :=
  ⟨h.2.1, h.1, fun ⟨e, x, h1, h2⟩ => h.2.2 ⟨e.symm, x, h2, h1⟩⟩

theorem outranks_irrefl {R : List (List Pat)} {n i : Nat} : ¬ outranks R n i i := by
  rintro ⟨k, _, h, _⟩; omega

theorem allLit_take {p : List Pat} (h : allLit p = true) (k : Nat) : allLit (p.take k) = true := by
  unfold allLit at h ⊢
  rw [List.all_eq_true] at h ⊢
  exact fun x hx => h x (List.mem_of_mem_take hx)

/-- Routes that do not get into each other's way make an orderly table. -/
theorem orderly_of_free (R : List (List Pat))
    (h : ∀ (i j : Nat) p q, R[i]? = some p → R[j]? = some q → i ≠ j → ¬ disturbs p q) : orderly R := by
  intro i j p q hi hj hm hout
  by_cases hij : i = j
  · subst hij; exact outranks_irrefl hout
  · have hd := h i j p q hi hj hij
    have hm' := (meets_iff p q).1 hm
    have hs : allLit q = true ∧ p.take q.length = q := by
      refine Classical.byContradiction fun hn => hd ⟨hm', hn⟩
    obtain ⟨k, hk, o1, -⟩ := hout
    obtain ⟨-, -, -, a4⟩ := birth_spec R i k p hi
    obtain ⟨-, -, -, b4⟩ := birth_spec R j k q hj
    have e : p.take k = q.take k := by
      rw [← hs.2, List.take_take, Nat.min_eq_left hk]
    have hl := allLit_take hs.1 k
    rw [a4 (by rw [e]; exact hl), b4 hl, e] at o1
    exact Nat.lt_irrefl _ o1

theorem pairwise_at {α : Type} {P : α → α → Prop} (hs : ∀ a b, P a b → P b a) {l : List α} (h : l.Pairwise P) {i j : Nat} {a b : α}
    (hi : l[i]? = some a) (hj : l[j]? = some b) (hij : i ≠ j) : P a b := by
  obtain ⟨il, rfl⟩ := List.getElem?_eq_some_iff.1 hi
  obtain ⟨jl, rfl⟩ := List.getElem?_eq_some_iff.1 hj
  rw [List.pairwise_iff_getElem] at h
  rcases Nat.lt_or_gt_of_ne hij with c | c
  · exact h i j il jl c
  · exact hs _ _ (h j i jl il c)

theorem orderly_of_pairwise {hist : List (Reg σ)} (h : hist.Pairwise OrderFree) : orderly (hist.map routePats) := by
  refine orderly_of_free _ ?_
  intro i j p q hi hj hij
  rw [List.getElem?_map, Option.map_eq_some_iff] at hi hj
  obtain ⟨r, hi, rfl⟩ := hi
  obtain ⟨o, hj, rfl⟩ := hj
  exact (pairwise_at (fun _ _ => OrderFree.symm) h hi hj hij).1

/-- C132.  If no two registrations of a table get into each other's way, the order of the registrations does not matter: every permutation of them
answers every lookup the same, set and parameters. -/
theorem C132_any_order (hist hist' : List (Reg σ)) (hperm : hist.Perm hist') (hclean : ∀ r ∈ hist, Clean r)
    (h : hist.Pairwise OrderFree) (m : Method) (path : Str) (buf buf' : Args) :
    treeFind (treeOf hist) m path buf = treeFind (treeOf hist') m path buf' := by
  have h' : hist'.Pairwise OrderFree := hperm.pairwise h (fun {_ _} => OrderFree.symm)
  refine C97_order hist hist' hperm hclean (orderly_of_pairwise h) (orderly_of_pairwise h') m path buf buf' ?_
  intro r hr o ho h1 h2 h3 h4
  obtain ⟨i, hi⟩ := List.mem_iff_getElem?.1 hr
  obtain ⟨j, hj⟩ := List.mem_iff_getElem?.1 ho
  by_cases hij : i = j
  · subst hij; exact Option.some.inj (hi.symm.trans hj)
  · exfalso
    have hf := pairwise_at (fun _ _ => OrderFree.symm) h hi hj hij
    obtain ⟨b, hb⟩ := Option.isSome_iff_exists.1 h1
    have hs : allLit (routePats o) = true ∧ (routePats r).take (routePats o).length = routePats o :=
      Classical.byContradiction fun hn => hf.1 ⟨⟨_, competes_of_match hb, h3⟩, hn⟩
    have hl : (routePats o).length = (routePats r).length := by rw [match_length h1, match_length h3]
    rw [hl, List.take_length] at hs
    exact hf.2.2 ⟨hs.2, m, h2, h4⟩

/-- The ranks in a table of two routes. -/
theorem outranks_two (p q : List Pat) (n : Nat) (h : ¬ (allLit (q.take n) = true ∧ p.take n = q.take n)) :
    outranks [p, q] n 0 1 := by
  have b0 : ∀ k, birth [p, q] 0 k = 0 := by
    intro k; have := (birth_spec [p, q] 0 k p rfl).2.1; omega
  have b1 : ∀ k, birth [p, q] 1 k ≤ 1 := fun k => (birth_spec [p, q] 1 k q rfl).2.1
  have hn : birth [p, q] 1 n = 1 := by
    refine Classical.byContradiction fun hne => h ?_
    have h0 : birth [p, q] 1 n = 0 := by have := b1 n; omega
    obtain ⟨⟨x, hx, ex⟩, -, b3, -⟩ := birth_spec [p, q] 1 n q rfl
    rw [h0] at hx
    simp only [List.getElem?_cons_zero, Option.some.injEq] at hx
    subst hx
    refine ⟨?_, ex⟩
    cases hl : allLit (q.take n) with
    | true => rfl
    | false => exact absurd (b3 hl) hne
  -- the least such depth
  have key : ∀ n, birth [p, q] 1 n = 1 → ∃ k ≤ n, birth [p, q] 1 k = 1 ∧ ∀ l < k, birth [p, q] 1 l = 0 := by
    intro n
    induction n using Nat.strongRecOn with
    | ind n ih =>
      intro hn
      by_cases hex : ∃ l < n, birth [p, q] 1 l = 1
      · obtain ⟨l, hl, h1⟩ := hex
        obtain ⟨k, hk, h2, h3⟩ := ih l hl h1
        exact ⟨k, by omega, h2, h3⟩
      · refine ⟨n, Nat.le_refl _, hn, fun l hl => ?_⟩
        have := b1 l
        have : ¬ birth [p, q] 1 l = 1 := fun h => hex ⟨l, hl, h⟩
        omega
  obtain ⟨k, hk, h1, h2⟩ := key n hn
  exact ⟨k, hk, by rw [b0, h1]; decide, fun l hl => by rw [b0, h2 l hl]⟩

theorem covers_some (m : Method) : ∃ x, covers m x = true := by
  unfold covers
  by_cases e1 : m = b!"GETPOST"
  · exact ⟨b!"GET", by simp [e1]⟩
  · by_cases e2 : m = b!"GETHEAD"
    · exact ⟨b!"GET", by simp [e2]⟩
    · exact ⟨m, by simp [e1, e2]⟩

theorem clean_two {a b : Reg σ} (ha : Clean a) (hb : Clean b) : ∀ x ∈ [a, b], Clean x := by
  intro x hx
  simp only [List.mem_cons, List.not_mem_nil, or_false] at hx
  rcases hx with rfl | rfl
  · exact ha
  · exact hb

/-- A route that gets into the way of another: the order matters. -/
theorem disturbs_differ (r o : Reg σ) (hr : Clean r) (ho : Clean o) (hs : r.set ≠ o.set)
    (tr : ∀ s ∈ segs r.route, ¬ EndsWithSpace s) (to : ∀ s ∈ segs o.route, ¬ EndsWithSpace s)
    (hd : disturbs (routePats r) (routePats o)) :
    ∃ m path, treeFind (treeOf [r, o]) m path [] ≠ treeFind (treeOf [o, r]) m path [] := by
  have hm := (meets_iff _ _).2 hd.1
  obtain ⟨h1, h2, h3⟩ := meeting_ok _ _ hm
  obtain ⟨path, hpath⟩ := path_of_segs (meeting (routePats r) (routePats o)) (by
    intro s hs
    have seg : ∀ r : Reg σ, Clean r → (∀ s ∈ segs r.route, ¬ EndsWithSpace s) → Pat.lit s ∈ routePats r →
        s ≠ [] ∧ (47 : UInt8) ∉ s ∧ ¬ EndsWithSpace s := by
      intro r hr ht hl
      have := lit_of_seg hl
      refine ⟨?_, C10_no_slash _ s this, ht s this⟩
      rintro rfl
      exact hr [] this rfl
    rcases h3 s hs with rfl | h | h
    · refine ⟨by decide, by decide, ?_⟩
      rintro ⟨x, hx, h⟩
      revert x
      decide +kernel
    · exact seg r hr tr h
    · exact seg o ho to h)
  rw [← hpath] at h1 h2
  obtain ⟨m, hm⟩ := covers_some o.method
  refine ⟨m, path, ?_⟩
  have hlen := match_length h2
  have hco : competes (routePats o) (segs path) = true := by obtain ⟨b, hb⟩ := Option.isSome_iff_exists.1 h2; exact competes_of_match hb
  -- in both orders the older one has the older branch
  have o1 : outranks [routePats r, routePats o] (segs path).length 0 1 := by
    refine outranks_two _ _ _ ?_
    rw [← hlen, List.take_length]
    exact hd.2
  have o2 : outranks [routePats o, routePats r] (segs path).length 0 1 := by
    refine outranks_two _ _ _ ?_
    rw [← hlen, List.take_length]
    rintro ⟨g1, g2⟩
    exact hd.2 ⟨by rw [g2]; exact g1, g2.symm⟩
  have c1 := clean_two hr ho
  have c2 := clean_two ho hr
  -- the second order serves `o`
  have f2 : ∃ args, treeFind (treeOf [o, r]) m path [] = .ret ⟨some o.set, true, args⟩ := by
    obtain ⟨s, args, hf⟩ := (C03_exact [o, r] c2 m path []).2 ⟨0, 0, o, by
      refine ⟨routePats o, rfl, hco, ?_⟩
      intro j q hj hq
      match j with
      | 0 => exact Or.inr fun _ _ => rfl
      | 1 => exact Or.inl o2
      | j + 2 => simp at hj, rfl, fun _ _ => rfl, h2, hm⟩
    obtain ⟨i, x, hi, e, -, -, g⟩ := C04_arbitration [o, r] c2 m path [] _ hf rfl
    match i with
    | 0 =>
      simp only [List.getElem?_cons_zero, Option.some.injEq] at hi e
      subst hi; subst e
      exact ⟨args, hf⟩
    | 1 =>
      rcases g 0 o rfl hco with g | ⟨g, -⟩
      · exact absurd g (outranks_asymm o2)
      · exact absurd (sameBranch_symm g) (outranks_not_same o2)
    | i + 2 => simp at hi
  obtain ⟨args, f2⟩ := f2
  rw [f2]
  intro hf
  obtain ⟨i, x, hi, e, -, -, g⟩ := C04_arbitration [r, o] c1 m path [] _ hf rfl
  match i with
  | 0 =>
    simp only [List.getElem?_cons_zero, Option.some.injEq] at hi e
    subst hi
    exact hs e.symm
  | 1 =>
    rcases g 0 r rfl h1 with g | ⟨g, -⟩
    · exact absurd g (outranks_asymm o1)
    · exact absurd (sameBranch_symm g) (outranks_not_same o1)
  | i + 2 => simp at hi

theorem match_self (ss : List Str) : (matchRoute (ss.map segPat) ss).isSome = true := by
  induction ss with
  | nil => rfl
  | cons s ss ih =>
    by_cases hc : s.head? = some 58
    · simp only [List.map_cons, segPat_colon hc, matchRoute, Option.isSome_map]; exact ih
    · simp only [List.map_cons, segPat_lit hc, matchRoute, if_true]; exact ih

theorem orderly_two (a b : Reg σ) (n1 : ¬ disturbs (routePats a) (routePats b)) (n2 : ¬ disturbs (routePats b) (routePats a)) :
    orderly ([a, b].map routePats) := by
  refine orderly_of_free _ ?_
  intro i j p q hi hj hij
  rcases i with _ | _ | i
  · rcases j with _ | _ | j
    · exact absurd rfl hij
    · cases hi; cases hj; exact n1
    · cases hj
  · rcases j with _ | _ | j
    · cases hi; cases hj; exact n2
    · exact absurd rfl hij
    · cases hj
  · cases hi

theorem reading_two (a b : Reg σ) (ha : Clean a) (hb : Clean b) (n1 : ¬ disturbs (routePats a) (routePats b))
    (n2 : ¬ disturbs (routePats b) (routePats a)) (m : Method) (path : Str) (hp : (matchRoute (routePats b) (segs path)).isSome = true)
    (hm : covers b.method m = true) :
    treeFind (treeOf [a, b]) m path [] = .ret ⟨some b.set, true, params (routePats b) (segs path)⟩ := by
  rw [C97_reading [a, b] (clean_two ha hb) (orderly_two a b n1 n2) m path []]
  simp only [List.reverse_cons, List.reverse_nil, List.nil_append, List.cons_append, List.find?_cons, hp, hm, Bool.and_self]

/-- C132, exactly.  For two registrations of different handler sets, all lookups are the same in both orders iff neither gets into the way of the
other and they are not registrations of one route for one method. -/
theorem C132_exact (r o : Reg σ) (hr : Clean r) (ho : Clean o) (hs : r.set ≠ o.set)
    (tr : ∀ s ∈ segs r.route, ¬ EndsWithSpace s) (to : ∀ s ∈ segs o.route, ¬ EndsWithSpace s) :
    (∀ m path, treeFind (treeOf [r, o]) m path [] = treeFind (treeOf [o, r]) m path []) ↔ OrderFree r o := by
  constructor
  · intro h
    have d1 : ¬ disturbs (routePats r) (routePats o) := fun hd => by
      obtain ⟨m, path, hne⟩ := disturbs_differ r o hr ho hs tr to hd
      exact hne (h m path)
    have d2 : ¬ disturbs (routePats o) (routePats r) := fun hd => by
      obtain ⟨m, path, hne⟩ := disturbs_differ o r ho hr (Ne.symm hs) to tr hd
      exact hne (h m path).symm
    refine ⟨d1, d2, ?_⟩
    rintro ⟨e, x, hx, hx'⟩
    -- one route, one method: the later one is served
    have e1 := reading_two r o hr ho d1 d2 x o.route (match_self _) hx'
    have e2 := reading_two o r ho hr d2 d1 x o.route (by rw [e]; exact match_self _) hx
    have := h x o.route
    rw [e1, e2] at this
    simp only [Outcome.ret.injEq, FindResult.mk.injEq, Option.some.injEq] at this
    exact hs this.1.symm
  · intro hf m path
    exact C132_any_order [r, o] [o, r] (List.Perm.swap ..) (clean_two hr ho)
      (by simp [hf]) m path [] []

/-- C132, whole requests.  Servers that differ in the order of such registrations answer every request alike, with the same effects. -/
theorem C132_requests {υ ρ : Type} [DecidableEq ρ] (hist hist' : List (Reg σ)) (hperm : hist.Perm hist') (hclean : ∀ r ∈ hist, Clean r)
    (h : hist.Pairwise OrderFree) (u : Str → Str) (env : Env υ) (rxMatch : ρ → Str → Bool)
    (visit : GoMap ρ (Option σ) → List (ρ × Option σ)) (srv : Srv υ σ ρ) (ba : BaseAuth) (req : Req) (resp : Resp)
    (store : Args → υ) (buf buf' : Args) (clock : Nat) :
    serveHTTP u env rxMatch visit { srv with tree := treeOf hist } ba req resp store buf clock =
      serveHTTP u env rxMatch visit { srv with tree := treeOf hist' } ba req resp store buf' clock := by
  have hr : ∀ resp, runHTTP env rxMatch visit { srv with tree := treeOf hist } req.method req.path resp store buf clock =
      runHTTP env rxMatch visit { srv with tree := treeOf hist' } req.method req.path resp store buf' clock := by
    intro resp
    unfold runHTTP serverFind
    simp only [C132_any_order hist hist' hperm hclean h req.method req.path buf buf']
  unfold serveHTTP
  simp only [hr]

/-- C132, decided: whether the order of two registrations matters can be read off the two rows. -/
theorem C132_check (p : List Pat) (m : Str) (q : List Pat) (m' : Str) : orderFreeCheck p m q m' = true ↔ orderFree p m q m' := by
  have hd : ∀ p q : List Pat, (!meets p q || (allLit q && decide (p.take q.length = q))) = true ↔ ¬ disturbs p q := by
    intro p q
    unfold disturbs
    rw [← meets_iff]
    cases meets p q <;> simp
  have hc : ([b!"GET", b!"POST", b!"HEAD", m].any fun x => covers m x && covers m' x) = true ↔ ∃ x, covers m x = true ∧ covers m' x = true := by
    rw [List.any_eq_true]
    constructor
    · rintro ⟨x, -, h⟩
      exact ⟨x, by simpa using h⟩
    · rintro ⟨x, h1, h2⟩
      refine ⟨x, ?_, by simp [h1, h2]⟩
      unfold covers at h1
      split at h1
      · simp only [Bool.or_eq_true, decide_eq_true_eq] at h1
        rcases h1 with rfl | rfl <;> simp
      · split at h1
        · simp only [Bool.or_eq_true, decide_eq_true_eq] at h1
          rcases h1 with rfl | rfl <;> simp
        · simp only [decide_eq_true_eq] at h1
          simp [h1]
  unfold orderFreeCheck orderFree
  rw [Bool.and_eq_true, Bool.and_eq_true, hd, hd, and_assoc, Bool.not_eq_true', ← hc]
  constructor
  · rintro ⟨h1, h2, h3⟩
    refine ⟨h1, h2, fun ⟨e, hx⟩ => ?_⟩
    rw [hx] at h3
    simp [e] at h3
  · rintro ⟨h1, h2, h3⟩
    refine ⟨h1, h2, ?_⟩
    rw [Bool.and_eq_false_iff]
    by_cases e : p = q
    · right
      exact Bool.eq_false_iff.2 fun hx => h3 ⟨e, hx⟩
    · left; simp [e]

/-! ### The hypotheses are met -/

/-- A table whose order does not matter: literals, a parameter below them, and one route for two methods. -/
def freeTable : List (Reg Nat) := [⟨b!"GET", b!"/user", 1⟩, ⟨b!"GET", b!"/user/:id", 2⟩, ⟨b!"POST", b!"/user", 3⟩, ⟨b!"GET", b!"/shop/:cat/help", 4⟩,
  ⟨b!"GET", b!"/", 5⟩, ⟨b!"GET", b!"/a/b/c", 6⟩, ⟨b!"GET", b!"/a/b", 7⟩]

theorem freeTable_free : freeTable.Pairwise OrderFree ∧ ∀ r ∈ freeTable, Clean r := by
  refine ⟨List.Pairwise.imp (R := fun r o => orderFreeCheck (routePats r) r.method (routePats o) o.method = true)
    (fun {r o} h => (C132_check _ _ _ _).1 h) (by decide +kernel), by decide +kernel⟩

example (m : Method) (path : Str) : treeFind (treeOf freeTable) m path [] = treeFind (treeOf freeTable.reverse) m path [] :=
  C132_any_order _ _ (List.reverse_perm _).symm freeTable_free.2 freeTable_free.1 m path [] []

/-- The order matters: a parameter beside a literal; a longer route over a shorter one; one parameter route for two methods; one route twice. -/
example : ¬ orderFree [.lit b!"user", .par b!"id"] b!"GET" [.lit b!"user", .lit b!"me"] b!"GET" ∧
    ¬ orderFree [.par b!"a", .lit b!"x"] b!"GET" [.lit b!"b"] b!"GET" ∧
    ¬ orderFree [.lit b!"user", .par b!"id"] b!"GET" [.lit b!"user", .par b!"id"] b!"POST" ∧
    ¬ orderFree [.lit b!"user"] b!"GETPOST" [.lit b!"user"] b!"GETHEAD" ∧
    orderFree [.lit b!"user"] b!"POST" [.lit b!"user"] b!"GETHEAD" ∧
    orderFree [.par b!"a", .lit b!"x"] b!"GET" [.lit b!"b", .lit b!"y"] b!"GET" := by
  simp only [← C132_check]
  decide +kernel

end Verif
