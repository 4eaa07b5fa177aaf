import Verif.Lemmas.Ctx
import Verif.Lemmas.CtxHeap
import Verif.Props.Routing
/-
C36–C43, C64: request parameters, context data, cookies.
-/
set_option linter.unusedSectionVars false
namespace Verif
open Spec

/-! ### C36 -/

/-- C36.  `PeekParam` is the first non-empty of the (first) URL value, the (first) query value and the (first) form
value of the name; a name that none of them has gives nil. -/
theorem C36_peek (c : Sources) (k : Str) :
    (∀ v, FirstVal c.url k v → v ≠ [] → peekParam c k = some v) ∧
    (¬ HasVal c.url k → ∀ v, FirstVal c.query k v → v ≠ [] → peekParam c k = some v) ∧
    (¬ HasVal c.url k → ¬ HasVal c.query k → ∀ v, FirstVal c.form k v → peekParam c k = some v) ∧
    (¬ HasVal c.url k → ¬ HasVal c.query k → Absent c.form k → peekParam c k = none) := by
  unfold peekParam
  refine ⟨?_, ?_, ?_, ?_⟩
  · intro v hv hne
    rw [if_pos ((lenOpt_hasVal _ _).2 ⟨v, hv, hne⟩)]
    exact (argsPeek_firstVal _ _ _).2 hv
  · intro h v hv hne
    rw [if_neg (by rwa [lenOpt_hasVal]), if_pos ((lenOpt_hasVal _ _).2 ⟨v, hv, hne⟩)]
    exact (argsPeek_firstVal _ _ _).2 hv
  · intro h h' v hv
    rw [if_neg (by rwa [lenOpt_hasVal]), if_neg (by rwa [lenOpt_hasVal])]
    exact (argsPeek_firstVal _ _ _).2 hv
  · intro h h' ha
    rw [if_neg (by rwa [lenOpt_hasVal]), if_neg (by rwa [lenOpt_hasVal])]
    exact (argsPeek_absent _ _).2 ha

/-- C36, all values.  `PeekMultiParam` (and its string form) is the list of all values of the name in the first
source that has the name at all. -/
theorem C36_peekMulti (c : Sources) (k : Str) :
    (¬ Absent c.url k → peekMultiParam c k = valuesOf c.url k) ∧
    (Absent c.url k → ¬ Absent c.query k → peekMultiParam c k = valuesOf c.query k) ∧
    (Absent c.url k → Absent c.query k → peekMultiParam c k = valuesOf c.form k) ∧
    peekMultiStringParam c k = peekMultiParam c k := by
  have hs : ∀ l acc : List Str, l.foldl (fun out v => out ++ [v]) acc = acc ++ l := by
    intro l
    induction l with
    | nil => simp
    | cons a t ih => intro acc; rw [List.foldl_cons, ih]; simp
  have hl : ∀ a : Args, (valuesOf a k).length > 0 ↔ ¬ Absent a k := by
    intro a; rw [← valuesOf_nil, gt_iff_lt, List.length_pos_iff]
  unfold peekMultiStringParam
  rw [hs, List.nil_append]
  unfold peekMultiParam
  rw [argsPeekMulti_eq, argsPeekMulti_eq, argsPeekMulti_eq]
  refine ⟨fun h => by rw [if_pos ((hl _).2 h)],
    fun h h' => by rw [if_neg (by rw [hl]; exact fun x => x h), if_pos ((hl _).2 h')],
    fun h h' => by rw [if_neg (by rw [hl]; exact fun x => x h), if_neg (by rw [hl]; exact fun x => x h')], rfl⟩

/-- All three sources have the name; the query's first value is empty. -/
example :
    let c : Sources := ⟨[], [(b!"q", []), (b!"q", b!"2")], [(b!"q", b!"3")]⟩
    peekParam c b!"q" = some b!"3" ∧ peekMultiParam c b!"q" = [[], b!"2"] ∧
      ¬ HasVal c.url b!"q" ∧ ¬ HasVal c.query b!"q" ∧ FirstVal c.form b!"q" b!"3" := by
  refine ⟨by decide, by decide, ?_, ?_, (argsPeek_firstVal _ _ _).1 (by decide)⟩ <;>
    (rw [← lenOpt_hasVal]; decide)

/-! ### C37 -/

/-- What the URL parameters of a served request hold under a name. -/
theorem url_value {σ : Type} (hist : List (Reg σ)) (m : Method) (path : Str) (buf : Args)
    (res : FindResult σ) (h : treeFind (treeOf hist) m path buf = .ret res) (hf : res.found = true) :
    ∃ r ∈ hist, res.set = some r.set ∧ (Clean r →
      ∀ (i : Nat) (n s : Str), (routePats r)[i]? = some (.par n) → (∀ j < i, (routePats r)[j]? ≠ some (.par n)) →
        (segs path)[i]? = some s → argsPeek res.args n = some s) := by
  obtain ⟨r, hr, h1, -, h2, h3⟩ := C05_params hist m path buf res h hf
  refine ⟨r, hr, h1, ?_⟩
  intro hcl i n s hi hj hs
  rw [h3 hcl]
  unfold Spec.params
  clear h3 h1 hr h2
  generalize routePats r = ps at hi hj
  generalize segs path = ss at hs
  clear h hf
  induction ps generalizing ss i with
  | nil => simp at hi
  | cons p ps ih =>
    cases ss with
    | nil => simp at hs
    | cons t ss =>
      cases i with
      | zero =>
        simp only [List.getElem?_cons_zero, Option.some.injEq] at hi hs
        subst hi hs
        simp [argsPeek]
      | succ i =>
        simp only [List.getElem?_cons_succ] at hi hs
        have h0 := hj 0 (by omega)
        simp only [List.getElem?_cons_zero, ne_eq, Option.some.injEq] at h0
        have := ih i hi (fun j hj' => by have := hj (j + 1) (by omega); simpa using this) ss hs
        cases p with
        | lit t' => simpa using this
        | par n' =>
          have hn : n' ≠ n := fun e => h0 (by rw [e])
          rw [List.zip_cons_cons, List.filterMap_cons]
          unfold argsPeek at this ⊢
          simp only
          rw [List.find?_cons_of_neg (by simpa using hn)]
          exact this

/-- C37 (partial: the matched segment must not be empty, and the served route must be clean as in C02).  If the route that is served
has the parameter `n` at position `i` and nowhere before, and the request's segment there is not empty, then
`PeekParam(n)` is that segment, whatever the query and the form contain. -/
theorem C37_url_wins_partial {σ : Type} (hist : List (Reg σ)) (m : Method) (path : Str) (buf : Args)
    (res : FindResult σ) (h : treeFind (treeOf hist) m path buf = .ret res) (hf : res.found = true) :
    ∃ r ∈ hist, res.set = some r.set ∧ (Clean r →
      ∀ (i : Nat) (n s : Str), (routePats r)[i]? = some (.par n) → (∀ j < i, (routePats r)[j]? ≠ some (.par n)) →
        (segs path)[i]? = some s → s ≠ [] → ∀ query form, peekParam ⟨res.args, query, form⟩ n = some s) := by
  obtain ⟨r, hr, h1, h2⟩ := url_value hist m path buf res h hf
  refine ⟨r, hr, h1, ?_⟩
  intro hcl i n s hi hj hs hne q f
  apply (C36_peek ⟨res.args, q, f⟩ n).1 s _ hne
  exact (argsPeek_firstVal _ _ _).1 (h2 hcl i n s hi hj hs)

/-- C37, exactly: if the segment is empty, `PeekParam` is what it would be for a request without URL parameters — the value
of the query if it has one, else that of the form; so the query or form decides exactly if the segment is empty.
`PeekMultiParam` never looks at query and form for a name the route binds, and begins with the segment, empty or not. -/
theorem C37_exact {σ : Type} (hist : List (Reg σ)) (m : Method) (path : Str) (buf : Args)
    (res : FindResult σ) (h : treeFind (treeOf hist) m path buf = .ret res) (hf : res.found = true) :
    ∃ r ∈ hist, res.set = some r.set ∧ (Clean r →
      ∀ (i : Nat) (n s : Str), (routePats r)[i]? = some (.par n) → (∀ j < i, (routePats r)[j]? ≠ some (.par n)) →
        (segs path)[i]? = some s →
        (s = [] → ∀ query form, peekParam ⟨res.args, query, form⟩ n = peekParam ⟨[], query, form⟩ n) ∧
        ((∀ query form, peekParam ⟨res.args, query, form⟩ n = some s) ↔ s ≠ []) ∧
        ∃ more, ∀ query form, peekMultiParam ⟨res.args, query, form⟩ n = s :: more) := by
  obtain ⟨r, hr, h1, h2⟩ := url_value hist m path buf res h hf
  refine ⟨r, hr, h1, ?_⟩
  intro hcl i n s hi hj hs
  have ha := h2 hcl i n s hi hj hs
  have hfv := (argsPeek_firstVal _ _ _).1 ha
  have empty : s = [] → ∀ query form, peekParam ⟨res.args, query, form⟩ n = peekParam ⟨[], query, form⟩ n := by
    intro he q f
    unfold peekParam
    simp only [ha, he]
    rfl
  refine ⟨empty, ⟨fun hall he => ?_, fun hne q f => ?_⟩, ?_⟩
  · have := hall [(n, [1])] []
    rw [empty he, he] at this
    simp [peekParam, argsPeek, lenOpt] at this
  · exact (C36_peek ⟨res.args, q, f⟩ n).1 s hfv hne
  · have hp : ¬ Absent res.args n := by
      rw [← argsPeek_absent, ha]; simp
    refine ⟨(valuesOf res.args n).tail, fun q f => ?_⟩
    rw [(C36_peekMulti ⟨res.args, q, f⟩ n).1 hp]
    have hv : (valuesOf res.args n).head? = some s := by
      clear empty hp hfv h2 hs hi h hf h1
      rw [← ha]
      unfold argsPeek
      generalize res.args = l
      induction l with
      | nil => rfl
      | cons e t ih =>
        by_cases he : e.1 = n
        · simp [he, valuesOf]
        · simp [he, valuesOf] at ih ⊢; exact ih
    show valuesOf res.args n = _
    generalize valuesOf res.args n = l at hv
    cases l with
    | nil => cases hv
    | cons a t => simp at hv; rw [hv]; rfl

/-- The route of this example binds `id` to "7"; the query cannot change it. -/
example :
    let hist : List (Reg Nat) := [⟨b!"GET", b!"/a/:id", 1⟩]
    (∀ r ∈ hist, Clean r) ∧
      treeFind (treeOf hist) b!"GET" b!"/a/7" [] = .ret ⟨some 1, true, [(b!"id", b!"7")]⟩ ∧
      peekParam ⟨[(b!"id", b!"7")], [(b!"id", b!"admin")], []⟩ b!"id" = some b!"7" := by decide +kernel

/-- C37 is violated when the segment is empty, which a request path ending in white space and a slash reaches: the
route binds `id` to "" and `PeekParam("id")` is what the query says. -/
theorem C37_violated :
    let hist : List (Reg Nat) := [⟨b!"GET", b!"/a/:id", 1⟩]
    (∀ r ∈ hist, Clean r) ∧
      treeFind (treeOf hist) b!"GET" b!"/a/ /" [] = .ret ⟨some 1, true, [(b!"id", [])]⟩ ∧
      peekParam ⟨[(b!"id", [])], [(b!"id", b!"admin")], []⟩ b!"id" = some b!"admin" := by decide +kernel

/-! ### C38 -/

/-- C38.  For every form and name: no value — the name is absent; one value — that string; several — the list of
exactly those values, with the first two swapped. -/
theorem C38_squeeze (c : Sources) (k : Str) :
    (valuesOf c.form k = [] → (squeezeParams c).get? k = none) ∧
    (∀ v, valuesOf c.form k = [v] → (squeezeParams c).get? k = some (.one v)) ∧
    (∀ v w r, valuesOf c.form k = v :: w :: r → (squeezeParams c).get? k = some (.many (w :: v :: r)) ∧
      (w :: v :: r).Perm (valuesOf c.form k)) := by
  have h := squeeze_get c.form [] [] (by intro k; rfl) k
  rw [List.nil_append] at h
  refine ⟨fun e => ?_, fun v e => ?_, fun v w r e => ⟨?_, ?_⟩⟩
  · unfold squeezeParams; rw [h, e]; rfl
  · unfold squeezeParams; rw [h, e]; rfl
  · unfold squeezeParams; rw [h, e]; rfl
  · rw [e]; exact List.Perm.swap _ _ _

/-- The values are not in form order. -/
theorem C38_violated_order :
    GoMap.get? (squeezeParams ⟨[], [], [(b!"a", b!"1"), (b!"b", b!"x"), (b!"a", b!"2"), (b!"a", b!"3")]⟩) b!"a" =
      some (.many [b!"2", b!"1", b!"3"]) := by decide +kernel

example : valuesOf [(b!"a", b!"1"), (b!"b", b!"x"), (b!"a", b!"2"), (b!"a", b!"3")] b!"a" = [b!"1", b!"2", b!"3"] := by
  decide

/-! ### C39 -/

/-- C39.  `PeekBoolParam` is false exactly when the parameter is absent or empty, "0", or "f" / "false" in any letter
case.  `hu`: no string with a non-ASCII byte is lower-cased to one of the four (a fact about the Unicode tables). -/
theorem C39_bool (u : Str → Str) (hu : ∀ s, isAscii s = false → u s ∉ [[], b!"0", b!"f", b!"false"]) (c : Sources) (k : Str) :
    peekBoolParam u c k = false ↔
      peekParam c k = none ∨ ∃ v, peekParam c k = some v ∧
        (v = [] ∨ v = b!"0" ∨ EqIgnoreCase v b!"f" ∨ EqIgnoreCase v b!"false") := by
  have key : peekBoolParam u c k = false ↔ (peekStringParam c k) = [] ∨ (peekStringParam c k) = b!"0" ∨
      EqIgnoreCase (peekStringParam c k) b!"f" ∨ EqIgnoreCase (peekStringParam c k) b!"false" := by
    unfold peekBoolParam
    generalize peekStringParam c k = s
    simp only
    rw [eqIgnoreCase_iff s b!"f" (by decide), eqIgnoreCase_iff s b!"false" (by decide)]
    have h0 : s.map lowerByte = b!"0" ↔ s = b!"0" := by
      rw [← eqIgnoreCase_iff s b!"0" (by decide)]
      constructor
      · intro h
        cases h with
        | cons h1 h2 =>
          cases h2
          rw [sameLetter_lower _ _ (by decide)] at h1
          have : ∀ c : UInt8, lowerByte c = 48 → c = 48 := u8_all (by decide +kernel)
          rw [this _ h1]
      · rintro rfl; exact .cons (Or.inl rfl) .nil
    unfold toLower
    cases ha : isAscii s with
    | true =>
      simp only [if_true]
      have e : (s.map lowerByte = [] ∨ s.map lowerByte = b!"0" ∨ s.map lowerByte = b!"f" ∨ s.map lowerByte = b!"false") ↔
          (s = [] ∨ s = b!"0" ∨ s.map lowerByte = b!"f" ∨ s.map lowerByte = b!"false") := by
        rw [h0]; simp
      rw [← e]
      split <;> simp_all
    | false =>
      simp only [Bool.false_eq_true, if_false]
      have := hu s ha
      simp only [List.mem_cons, List.not_mem_nil, or_false, not_or] at this
      rw [if_neg (by simp [this])]
      simp only [Bool.true_eq_false, false_iff, not_or]
      refine ⟨?_, ?_, ?_, ?_⟩
      · rintro rfl; simp [isAscii] at ha
      · rintro rfl; simp [isAscii] at ha
      · intro h; rw [isAscii_of_lower s _ h (by decide)] at ha; simp at ha
      · intro h; rw [isAscii_of_lower s _ h (by decide)] at ha; simp at ha
  rw [key]
  unfold peekStringParam
  cases hp : peekParam c k with
  | none => simp
  | some v => simp

/-- "FaLsE" is false; "no", "off" and "False " are true. -/
example : peekBoolParam id ⟨[], [(b!"x", b!"FaLsE")], []⟩ b!"x" = false ∧
    peekBoolParam id ⟨[], [(b!"x", b!"no")], []⟩ b!"x" = true ∧
    peekBoolParam id ⟨[], [(b!"x", b!"False ")], []⟩ b!"x" = true ∧
    (∀ s : Str, isAscii s = false → id s ∉ [[], b!"0", b!"f", b!"false"]) := by
  refine ⟨by decide, by decide, by decide, ?_⟩
  intro s hs hm
  simp only [id, List.mem_cons, List.not_mem_nil, or_false] at hm
  rcases hm with rfl | rfl | rfl | rfl <;> simp [isAscii] at hs

/-! ### C40, C64 -/

/-- C40.  After any history of calls on any number of contexts, `Get` on a context returns what the value semantics
says: each context has a map of its own, a clone starts with a copy. -/
theorem C40_data {ν : Type} (ops : List (CtxOp ν)) (i : Nat) (k : Str) :
    ctxGet (ctxRun ops) i k = ((dataOf ops)[i]?).bind (· k) := by
  obtain ⟨⟨h1, h2, h3, h4⟩, -⟩ := ctxRun_inv ops
  unfold ctxGet
  cases hc : (ctxRun ops).ctxs[i]? with
  | none =>
    have : (dataOf ops)[i]? = none := by simp at hc ⊢; omega
    rw [this]; rfl
  | some c =>
    obtain ⟨b1, -, -, b4⟩ := h4 i c hc
    cases hm : (dataOf ops)[i]? with
    | none =>
      have := (List.getElem?_eq_some_iff.1 hc).1
      simp at hm; omega
    | some m =>
      simp only [b1]
      rw [b4 m hm k]; rfl

/-- C40, read on single calls: `Get` returns the value just set; a `Set` changes no other key and no other context;
a new clone has what its original has. -/
theorem C40_calls {ν : Type} (ops : List (CtxOp ν)) (i j : Nat) (k k' : Str) (v : ν) :
    (i < (dataOf ops).length → ctxGet (ctxRun (ops ++ [.set i k v])) i k = some v) ∧
    ((i ≠ j ∨ k ≠ k') → ctxGet (ctxRun (ops ++ [.set i k v])) j k' = ctxGet (ctxRun ops) j k') ∧
    (i < (dataOf ops).length →
      ctxGet (ctxRun (ops ++ [.clone i])) (dataOf ops).length k = ctxGet (ctxRun ops) i k) := by
  simp only [C40_data]
  unfold dataOf
  simp only [List.foldl_append, List.foldl_cons, List.foldl_nil, dataStep]
  generalize ops.foldl dataStep [] = s
  refine ⟨fun hi => ?_, fun h => ?_, fun hi => ?_⟩
  · simp [List.getElem?_modify, hi]
  · rw [List.getElem?_modify]
    cases hs : s[j]? with
    | none => simp
    | some m =>
      by_cases hij : i = j
      · subst hij
        rcases h with h | h
        · exact absurd rfl h
        · simp [Ne.symm h]
      · simp [hij]
  · rw [List.getElem?_eq_getElem hi]
    simp

/-- C40.  The SameSite mode that the next cookie of a context gets: what SetSameSite set last on this context, else what the
context it was cloned from had at that moment, else none.  Setting it on another context changes nothing. -/
theorem C40_site {ν : Type} (ops : List (CtxOp ν)) : (ctxRun ops).ctxs.map (·.sameSite) = siteOf ops := by
  unfold ctxRun siteOf
  have key : ∀ (ops : List (CtxOp ν)) (h : CtxHeap ν) (s : List Nat), h.ctxs.map (·.sameSite) = s →
      (ops.foldl (fun h o => (ctxStep h o).1) h).ctxs.map (·.sameSite) = ops.foldl siteStep s := by
    intro ops
    induction ops with
    | nil => intro h s e; exact e
    | cons o t ih =>
      intro h s e
      refine ih _ _ ?_
      subst e
      have flag : ∀ (f : CtxObj → CtxObj) (i : Nat), (∀ c, (f c).sameSite = c.sameSite) →
          (h.ctxs.modify i f).map (·.sameSite) = h.ctxs.map (·.sameSite) := by
        intro f i hf
        apply List.ext_getElem?
        intro k
        simp only [List.getElem?_map, List.getElem?_modify]
        cases h.ctxs[k]? with
        | none => rfl
        | some c => by_cases hik : i = k <;> simp [hik, hf]
      cases o with
      | new => simp [ctxStep, siteStep]
      | clone i =>
        simp only [ctxStep, siteStep, List.getElem?_map]
        cases h.ctxs[i]? <;> simp
      | set i k v =>
        simp only [ctxStep, siteStep]
        cases h.ctxs[i]? <;> rfl
      | setSameSite i m =>
        simp only [ctxStep, siteStep]
        apply List.ext_getElem?
        intro k
        simp only [List.getElem?_map, List.getElem?_modify]
        cases h.ctxs[k]? with
        | none => rfl
        | some c => by_cases hik : i = k <;> simp [hik]
      | stop i =>
        simp only [ctxStep, siteStep]
        cases h.ctxs[i]? with
        | none => rfl
        | some c => exact flag _ i fun _ => rfl
      | abort i =>
        simp only [ctxStep, siteStep]
        cases h.ctxs[i]? with
        | none => rfl
        | some c => exact flag _ i fun _ => rfl
      | skipMain i =>
        simp only [ctxStep, siteStep]
        cases h.ctxs[i]? with
        | none => rfl
        | some c => exact flag _ i fun _ => rfl
  exact key ops _ _ rfl

/-- C64.  No other call panics, on any context. -/
theorem C64_others {ν : Type} (ops : List (CtxOp ν)) (o : CtxOp ν) (h : ∀ i, o ≠ .stop i ∧ o ≠ .abort i ∧ o ≠ .skipMain i) :
    (ctxStep (ctxRun ops) o).2 = true := by
  cases o with
  | new => rfl
  | clone i => simp only [ctxStep]; split <;> rfl
  | set i k v => simp only [ctxStep]; split <;> rfl
  | setSameSite i m => rfl
  | stop i => exact absurd rfl (h i).1
  | abort i => exact absurd rfl (h i).2.1
  | skipMain i => exact absurd rfl (h i).2.2

/-- C64.  Stop, Abort and SkipMain panic exactly on contexts made by Clone (which have no logger), and calling one of
them, or anything else, on a context never makes another context count as stopped. -/
theorem C64_clone_control {ν : Type} (ops : List (CtxOp ν)) (i j : Nat) (hi : i < (clonedOf ops).length) :
    (((ctxStep (ctxRun ops) (.stop i)).2 = false ↔ (clonedOf ops)[i]? = some true) ∧
     ((ctxStep (ctxRun ops) (.abort i)).2 = false ↔ (clonedOf ops)[i]? = some true) ∧
     ((ctxStep (ctxRun ops) (.skipMain i)).2 = false ↔ (clonedOf ops)[i]? = some true)) ∧
    (∀ o, o ≠ .stop j → o ≠ .abort j → j < (clonedOf ops).length →
      ctxStopped (ctxRun (ops ++ [o])) j = ctxStopped (ctxRun ops) j) := by
  obtain ⟨⟨h1, h2, h3, h4⟩, -⟩ := ctxRun_inv ops
  constructor
  · have hi' : i < (ctxRun ops).ctxs.length := by omega
    have hc := List.getElem?_eq_getElem hi'
    obtain ⟨-, a2, a3, -⟩ := h4 i _ hc
    simp only [ctxStep, hc, a2, a3]
    rw [List.getElem?_eq_getElem hi]
    generalize (clonedOf ops)[i] = b
    cases b <;> simp
  · intro o ho1 ho2 hj
    have hj' : j < (ctxRun ops).ctxs.length := by omega
    have e : ctxRun (ops ++ [o]) = (ctxStep (ctxRun ops) o).1 := by simp [ctxRun]
    rw [e]
    generalize ctxRun ops = h at hj' ⊢
    unfold ctxStopped
    cases o with
    | new => simp [ctxStep, List.getElem?_append_left hj']
    | clone k =>
      simp only [ctxStep]
      cases h.ctxs[k]? with
      | none => rfl
      | some c => simp [List.getElem?_append_left hj']
    | set k x v =>
      simp only [ctxStep]
      cases h.ctxs[k]? <;> rfl
    | setSameSite k m =>
      simp only [ctxStep, List.getElem?_modify]
      by_cases hk : k = j <;> simp [hk, List.getElem?_eq_getElem hj']
    | stop k =>
      have hk : k ≠ j := fun e => ho1 (by rw [e])
      simp only [ctxStep]
      cases h.ctxs[k]? with
      | none => rfl
      | some c => simp [List.getElem?_modify, hk]
    | abort k =>
      have hk : k ≠ j := fun e => ho2 (by rw [e])
      simp only [ctxStep]
      cases h.ctxs[k]? with
      | none => rfl
      | some c => simp [List.getElem?_modify, hk]
    | skipMain k =>
      simp only [ctxStep]
      cases h.ctxs[k]? with
      | none => rfl
      | some c => by_cases hk : k = j <;> simp [hk, List.getElem?_modify, List.getElem?_eq_getElem hj']

theorem called_snoc {ν : Type} (x o : CtxOp ν) (j : Nat) (ops : List (CtxOp ν)) :
    Called x j (ops ++ [o]) ↔ Called x j ops ∨ (o = x ∧ j < (clonedOf ops).length) := by
  constructor
  · rintro ⟨a, b, e, h⟩
    rcases List.eq_nil_or_concat b with rfl | ⟨b', y, rfl⟩
    · have := List.append_inj' e rfl
      obtain ⟨e1, e2⟩ := this
      subst e1
      exact Or.inr ⟨by simpa using e2, h⟩
    · rw [List.concat_eq_append, ← List.cons_append, ← List.append_assoc] at e
      exact Or.inl ⟨a, b', (List.append_inj' e rfl).1, h⟩
  · rintro (⟨a, b, e, h⟩ | ⟨rfl, h⟩)
    · exact ⟨a, b ++ [o], by simp [e], h⟩
    · exact ⟨ops, [], rfl, h⟩

/-- C64, the flags: a context is stopped, aborted, or skips its main handler, exactly if Stop or Abort, Abort, SkipMain was
called on that very context since it was made: a clone starts with none of them, and calls on other contexts, clones or
originals, never count. -/
theorem C64_flags {ν : Type} (ops : List (CtxOp ν)) (j : Nat) :
    (ctxStopped (ctxRun ops) j = true ↔ Called (.stop j) j ops ∨ Called (.abort j) j ops) ∧
    (ctxAborted (ctxRun ops) j = true ↔ Called (.abort j) j ops) ∧
    (ctxSkipped (ctxRun ops) j = true ↔ Called (.skipMain j) j ops) := by
  have key : ∀ n, ∀ ops : List (CtxOp ν), ops.length = n → ∀ c, (ctxRun ops).ctxs[j]? = some c →
      (c.stopped = true ↔ Called (.stop j) j ops) ∧ (c.aborted = true ↔ Called (.abort j) j ops) ∧
      (c.skipped = true ↔ Called (.skipMain j) j ops) := by
    intro n
    induction n with
    | zero =>
      intro ops h c hc
      have : ops = [] := List.length_eq_zero_iff.1 h
      subst this
      simp [ctxRun] at hc
    | succ n ih =>
      intro ops h c hc
      rcases List.eq_nil_or_concat ops with rfl | ⟨pre, o, rfl⟩
      · simp at h
      rw [List.concat_eq_append] at h hc ⊢
      have hn : pre.length = n := by simpa using h
      have hlen : (ctxRun pre).ctxs.length = (clonedOf pre).length := by
        obtain ⟨⟨h1, h2, h3, h4⟩, -⟩ := ctxRun_inv pre
        omega
      have IH := ih pre hn
      have e : ctxRun (pre ++ [o]) = (ctxStep (ctxRun pre) o).1 := by simp [ctxRun]
      rw [e] at hc
      have hnone : (clonedOf pre).length ≤ j → ∀ x, ¬ Called x j pre := by
        rintro hj x ⟨a, b, e', hlt⟩
        have mono : ∀ (l : List (CtxOp ν)) (s : List Bool), s.length ≤ (l.foldl clonedStep s).length := by
          intro l
          induction l with
          | nil => intro s; exact Nat.le_refl _
          | cons y l ihl =>
            intro s
            refine Nat.le_trans ?_ (ihl _)
            cases y <;> simp only [clonedStep] <;> (try split) <;> simp
        have := mono (x :: b) (clonedOf a)
        rw [e'] at hj
        unfold clonedOf at hj hlt this
        rw [List.foldl_append] at hj
        omega
      simp only [called_snoc]
      rw [← hlen]
      rw [← hlen] at hnone
      generalize ctxRun pre = hp at *
      have fresh : ∀ x, hp.ctxs.length = j → ¬ Called x j pre := fun x hx => hnone (by omega) x
      cases o with
      | new =>
        simp only [ctxStep] at hc
        by_cases hj : j < hp.ctxs.length
        · rw [List.getElem?_append_left hj] at hc
          simpa using IH c hc
        · have hj' : hp.ctxs.length = j := by
            have := (List.getElem?_eq_some_iff.1 hc).1
            simp at this; omega
          rw [List.getElem?_append_right (by omega)] at hc
          simp [← hj'] at hc
          subst hc
          simp [fresh _ hj']
      | clone k =>
        simp only [ctxStep] at hc
        cases hk : hp.ctxs[k]? with
        | none =>
          simp only [hk] at hc
          simpa using IH c hc
        | some c0 =>
          simp only [hk] at hc
          by_cases hj : j < hp.ctxs.length
          · rw [List.getElem?_append_left hj] at hc
            simpa using IH c hc
          · have hj' : hp.ctxs.length = j := by
              have := (List.getElem?_eq_some_iff.1 hc).1
              simp at this; omega
            rw [List.getElem?_append_right (by omega)] at hc
            simp [← hj'] at hc
            subst hc
            simp [fresh _ hj']
      | set k x v =>
        simp only [ctxStep] at hc
        cases hk : hp.ctxs[k]? with
        | none => simp only [hk] at hc; simpa using IH c hc
        | some c0 => simp only [hk] at hc; simpa using IH c hc
      | setSameSite k m =>
        simp only [ctxStep, List.getElem?_modify] at hc
        cases hj : hp.ctxs[j]? with
        | none => simp [hj] at hc
        | some c0 =>
          have := IH c0 hj
          by_cases hk : k = j <;> simp [hj, hk] at hc <;> subst hc <;> simpa using this
      | stop k =>
        simp only [ctxStep] at hc
        cases hk : hp.ctxs[k]? with
        | none =>
          simp only [hk] at hc
          have hne : k ≠ j := by intro e; subst e; rw [hk] at hc; cases hc
          simpa [hne] using IH c hc
        | some c1 =>
          simp only [hk, List.getElem?_modify] at hc
          cases hj : hp.ctxs[j]? with
          | none => simp [hj] at hc
          | some c0 =>
            have := IH c0 hj
            have hlt := (List.getElem?_eq_some_iff.1 hj).1
            by_cases hkj : k = j <;> simp [hj, hkj] at hc <;> subst hc <;> simp [hkj, hlt, this]
      | abort k =>
        simp only [ctxStep] at hc
        cases hk : hp.ctxs[k]? with
        | none =>
          simp only [hk] at hc
          have hne : k ≠ j := by intro e; subst e; rw [hk] at hc; cases hc
          simpa [hne] using IH c hc
        | some c1 =>
          simp only [hk, List.getElem?_modify] at hc
          cases hj : hp.ctxs[j]? with
          | none => simp [hj] at hc
          | some c0 =>
            have := IH c0 hj
            have hlt := (List.getElem?_eq_some_iff.1 hj).1
            by_cases hkj : k = j <;> simp [hj, hkj] at hc <;> subst hc <;> simp [hkj, hlt, this]
      | skipMain k =>
        simp only [ctxStep] at hc
        cases hk : hp.ctxs[k]? with
        | none =>
          simp only [hk] at hc
          have hne : k ≠ j := by intro e; subst e; rw [hk] at hc; cases hc
          simpa [hne] using IH c hc
        | some c1 =>
          simp only [hk, List.getElem?_modify] at hc
          cases hj : hp.ctxs[j]? with
          | none => simp [hj] at hc
          | some c0 =>
            have := IH c0 hj
            have hlt := (List.getElem?_eq_some_iff.1 hj).1
            by_cases hkj : k = j <;> simp [hj, hkj] at hc <;> subst hc <;> simp [hkj, hlt, this]
  have none' : (ctxRun ops).ctxs[j]? = none → ∀ x, ¬ Called x j ops := by
    rintro hj x ⟨a, b, rfl, hlt⟩
    have hlen : (ctxRun (a ++ x :: b)).ctxs.length = (clonedOf (a ++ x :: b)).length := by
      obtain ⟨⟨h1, h2, h3, h4⟩, -⟩ := ctxRun_inv (a ++ x :: b)
      omega
    have mono : ∀ (l : List (CtxOp ν)) (s : List Bool), s.length ≤ (l.foldl clonedStep s).length := by
      intro l
      induction l with
      | nil => intro s; exact Nat.le_refl _
      | cons y l ihl =>
        intro s
        refine Nat.le_trans ?_ (ihl _)
        cases y <;> simp only [clonedStep] <;> (try split) <;> simp
    have := mono (x :: b) (clonedOf a)
    rw [List.getElem?_eq_none_iff] at hj
    unfold clonedOf at *
    rw [List.foldl_append] at hlen
    omega
  unfold ctxStopped ctxAborted ctxSkipped
  cases hj : (ctxRun ops).ctxs[j]? with
  | none => simp [none' hj]
  | some c =>
    obtain ⟨k1, k2, k3⟩ := key _ ops rfl c hj
    refine ⟨?_, k2, k3⟩
    simp only [Bool.or_eq_true, k1, k2]
    exact Or.comm

example : Called (.abort 1) 1 ([.new, .clone 0, .abort 1] : List (CtxOp Nat)) ∧
    ¬ Called (.abort 0) 0 ([.new, .clone 0, .abort 1] : List (CtxOp Nat)) := by
  refine ⟨⟨[.new, .clone 0], [], rfl, by decide⟩, fun ⟨a, b, e, _⟩ => ?_⟩
  have : CtxOp.abort 0 ∈ ([.new, .clone 0, .abort 1] : List (CtxOp Nat)) := by rw [e]; simp
  simp at this

/-- A history with a clone of a clone: three contexts, different data. -/
example :
    let ops : List (CtxOp Nat) := [.new, .set 0 b!"a" 1, .clone 0, .set 1 b!"a" 2, .clone 1, .set 0 b!"a" 3, .stop 2]
    (List.map (fun i => ctxGet (ctxRun ops) i b!"a") [0, 1, 2]) = [some 3, some 2, some 2] ∧
      clonedOf ops = [false, true, true] ∧ ctxStopped (ctxRun ops) 0 = false := by decide +kernel

/-! ### C41 -/

/-- C41.  `splitHost` never panics and returns exactly the host part of what it is given. -/
theorem C41_host (hp : Str) : ∃ h, splitHost hp = .ret h ∧ ∀ h', HostOf hp h' ↔ h' = h := by
  obtain ⟨base, hb, hspec⟩ := stripPort_spec hp
  have huniq : ∀ base', (EndsInPort hp base' ∨ (base' = hp ∧ ∀ b, ¬ EndsInPort hp b)) → base' = base := by
    intro base' h'
    rcases hspec with h1 | ⟨rfl, h1⟩ <;> rcases h' with h2 | ⟨rfl, h2⟩
    · exact endsInPort_unique h2 h1
    · exact absurd h1 (h2 _)
    · exact absurd h2 (h1 _)
    · rfl
  by_cases hbr : ∃ x, base = 91 :: x ++ [93]
  · obtain ⟨x, rfl⟩ := hbr
    refine ⟨x, ?_, ?_⟩
    · unfold splitHost
      rw [hb, Outcome.bind_ret, if_pos ((bracket_cases _).2 ⟨x, rfl⟩)]
      simp [goSlice]
    · intro h'
      constructor
      · rintro ⟨b', hb', hh⟩
        rw [huniq b' hb'] at hh
        rcases hh with hh | ⟨-, hh⟩
        · simpa using hh.symm
        · exact absurd rfl (hh x)
      · rintro rfl; exact ⟨_, hspec, Or.inl rfl⟩
  · have hbr' : ∀ x, base ≠ 91 :: x ++ [93] := fun x e => hbr ⟨x, e⟩
    refine ⟨base, ?_, ?_⟩
    · unfold splitHost
      rw [hb, Outcome.bind_ret, if_neg]
      rw [bracket_cases]; exact hbr
    · intro h'
      constructor
      · rintro ⟨b', hb', hh⟩
        rw [huniq b' hb'] at hh
        rcases hh with hh | ⟨hh, -⟩
        · exact absurd hh (hbr' _)
        · exact hh
      · rintro rfl; exact ⟨_, hspec, Or.inr ⟨rfl, hbr'⟩⟩

/-- C41, the usual hosts: a name without ':' and '[', with or without a port; a bracketed address with or
without a port. -/
theorem C41_usual (name port v6 : Str) (h1 : 58 ∉ name) (h2 : 91 ∉ name) (hp : ∀ c ∈ port, 48 ≤ c ∧ c ≤ 57) :
    splitHost name = .ret name ∧ splitHost (name ++ 58 :: port) = .ret name ∧
    splitHost (91 :: v6 ++ [93] ++ 58 :: port) = .ret v6 ∧ splitHost (91 :: v6 ++ [93]) = .ret v6 := by
  have use : ∀ hp h, HostOf hp h → splitHost hp = .ret h := by
    intro hp h hh
    obtain ⟨x, e1, e2⟩ := C41_host hp
    rw [(e2 h).1 hh]; exact e1
  have hb : ∀ x, name ≠ 91 :: x ++ [93] := by rintro x rfl; exact h2 (by simp)
  refine ⟨use _ _ ⟨name, Or.inr ⟨rfl, ?_⟩, Or.inr ⟨rfl, hb⟩⟩, use _ _ ⟨name, Or.inl ⟨port, rfl, hp⟩, Or.inr ⟨rfl, hb⟩⟩,
    use _ _ ⟨_, Or.inl ⟨port, rfl, hp⟩, Or.inl rfl⟩, use _ _ ⟨_, Or.inr ⟨rfl, ?_⟩, Or.inl rfl⟩⟩
  · rintro b ⟨d, rfl, -⟩; exact h1 (by simp)
  · rintro b ⟨d, e, hd⟩
    have e' := congrArg List.getLast? e
    rw [List.getLast?_append, List.getLast?_append] at e'
    cases d with
    | nil => simp at e'
    | cons q qs =>
      have hm : (93 : UInt8) ∈ q :: qs := by
        have : (58 :: q :: qs).getLast? = (q :: qs).getLast? := List.getLast?_cons_cons
        rw [this] at e'
        cases hq : (q :: qs).getLast? with
        | none => simp at hq
        | some z =>
          rw [hq] at e'
          simp at e'
          exact e' ▸ List.mem_of_getLast? hq
      exact absurd (hd 93 hm).2 (by decide)

example : splitHost b!"example.com:8080" = .ret b!"example.com" ∧ splitHost b!"[::1]:80" = .ret b!"::1" ∧
    splitHost b!"a:b" = .ret b!"a:b" ∧ splitHost [] = .ret [] := by decide

/-- Outside the usual hosts: an unbracketed IPv6 address loses its last group. -/
example : splitHost b!"::1" = .ret b!":" := by decide

/-! ### C42 -/

theorem escText_escape (v : Str) : EscText (queryEscape v) := by
  induction v with
  | nil => exact .nil
  | cons c t ih =>
    unfold queryEscape
    split
    · exact .plus ih
    · next hc =>
      split
      · obtain ⟨h1, h2, -⟩ := hexDigit_spec c
        exact .pct h1 h2 ih
      · next hs => exact .plain (escape_unreserved c (by simpa using hs) hc).2.2 ih

theorem queryUnescape_plain (c : UInt8) (t : Str) (h1 : c ≠ 43) (h2 : c ≠ 37) :
    queryUnescape (c :: t) = (queryUnescape t).map (c :: ·) := by
  match t with
  | [] => simp [queryUnescape, h1, h2]
  | [x] => simp [queryUnescape, h1, h2]
  | x :: y :: t' =>
    rw [queryUnescape, if_neg h1, if_neg h2]

theorem queryUnescape_plus (t : Str) : queryUnescape (43 :: t) = (queryUnescape t).map (32 :: ·) := by
  match t with
  | [] => simp [queryUnescape]
  | [x] => simp [queryUnescape]
  | x :: y :: t' => rw [queryUnescape, if_pos rfl]

theorem unescape_escape (v : Str) : queryUnescape (queryEscape v) = some v := by
  induction v with
  | nil => rfl
  | cons c t ih =>
    unfold queryEscape
    split
    · next hc => subst hc; rw [queryUnescape_plus, ih]; rfl
    · next hc =>
      split
      · obtain ⟨-, -, h3, h4, h5⟩ := hexDigit_spec c
        rw [queryUnescape]
        simp [h3, h4, ih, h5]
      · next hs =>
        obtain ⟨h1, h2, -⟩ := escape_unreserved c (by simpa using hs) hc
        rw [queryUnescape_plain c _ h1 h2, ih]; rfl

/-- Bytes of escaped text. -/
theorem escText_bytes (s : Str) (h : EscText s) : ∀ c ∈ s, unreserved c ∨ c = 43 ∨ c = 37 := by
  have hex : ∀ x : UInt8, x ∈ b!"0123456789ABCDEF" → unreserved x := by
    unfold unreserved
    exact u8_all (by decide +kernel)
  induction h with
  | nil => simp
  | plain h1 _ ih =>
    intro c hc
    rcases List.mem_cons.1 hc with rfl | hc
    · exact Or.inl h1
    · exact ih c hc
  | plus _ ih =>
    intro c hc
    rcases List.mem_cons.1 hc with rfl | hc
    · exact Or.inr (Or.inl rfl)
    · exact ih c hc
  | pct h1 h2 _ ih =>
    intro c hc
    simp only [List.mem_cons] at hc
    rcases hc with rfl | rfl | rfl | hc
    · exact Or.inr (Or.inr rfl)
    · exact Or.inl (hex _ h1)
    · exact Or.inl (hex _ h2)
    · exact ih c hc

theorem normalizePath_root : normalizePath b!"/" = b!"/" := by decide +kernel

/-- C42.  SetCookie never panics; the stored cookie has the given name and attributes; its value is escaped text — so no
separator, quote, white space, control or non-ASCII byte — from which unescaping gives back the value; an empty
path becomes "/", an empty domain the request's host (C41), and SameSite=None forces Secure. -/
theorem C42_cookie (host : Str) (sameSite : Nat) (name value : Str) (maxAge : Int) (path domain : Str)
    (secure httpOnly : Bool) :
    ∃ c, setCookie host sameSite name value maxAge path domain secure httpOnly = .ret c ∧
      c.key = name ∧ c.maxAge = maxAge ∧ c.httpOnly = httpOnly ∧ c.sameSite = sameSite ∧
      (c.secure = true ↔ secure = true ∨ sameSite = 4) ∧
      EscText c.value ∧ queryUnescape c.value = some value ∧
      (∀ b ∈ c.value, 33 ≤ b ∧ b < 127 ∧ b ∉ b!";,=\"\\&") ∧
      (path = [] → c.path = b!"/") ∧ (path ≠ [] → c.path = normalizePath path) ∧
      (domain ≠ [] → c.domain = domain) ∧ (domain = [] → HostOf host c.domain) := by
  have hbytes : ∀ b ∈ queryEscape value, 33 ≤ b ∧ b < 127 ∧ b ∉ b!";,=\"\\&" := by
    intro b hb
    have := escText_bytes _ (escText_escape value) b hb
    revert this
    unfold unreserved
    revert b
    have key : ∀ b : UInt8, ((((97 ≤ b ∧ b ≤ 122) ∨ (65 ≤ b ∧ b ≤ 90) ∨ (48 ≤ b ∧ b ≤ 57) ∨ b ∈ b!"-_.~") ∨ b = 43 ∨ b = 37) →
        33 ≤ b ∧ b < 127 ∧ b ∉ b!";,=\"\\&") := u8_all (by decide +kernel)
    intro b _
    exact key b
  have hpath : path = [] → normalizePath (if path = [] then b!"/" else path) = b!"/" := by
    rintro rfl; decide +kernel
  have hpath2 : path ≠ [] → normalizePath (if path = [] then b!"/" else path) = normalizePath path := by
    intro h; rw [if_neg h]
  unfold setCookie
  simp only
  generalize normalizePath (if path = [] then b!"/" else path) = np at hpath hpath2 ⊢
  generalize normalizePath path = np2 at hpath2 ⊢
  by_cases hd : domain = []
  · obtain ⟨h, e1, e2⟩ := C41_host host
    simp only [hd, if_true, e1, Outcome.bind_ret]
    refine ⟨_, rfl, rfl, rfl, rfl, rfl, by simp [sameSiteNone], escText_escape value, unescape_escape value, hbytes, hpath, hpath2,
      by simp, fun _ => (e2 h).2 rfl⟩
  · simp only [hd, if_false, Outcome.bind_ret]
    refine ⟨_, rfl, rfl, rfl, rfl, rfl, by simp [sameSiteNone], escText_escape value, unescape_escape value, hbytes, hpath, hpath2,
      by simp, by simp⟩

example : queryEscape b!"a b;c\r\n%é" = b!"a+b%3Bc%0D%0A%25%C3%A9" := by decide +kernel

/-! ### C43 -/

/-- C43, cookies.  On a slice without nil entries `Cookies.Get` returns the first cookie with the name, or an empty
cookie (`none`) if there is none. -/
theorem C43_cookies {ν : Type} (cs : List (Str × ν)) (name : Str) :
    (∀ pre c post, cs = pre ++ c :: post → (∀ d ∈ pre, d.1 ≠ name) → c.1 = name →
      cookiesGet (cs.map some) name = .ret (some c)) ∧
    ((∀ d ∈ cs, d.1 ≠ name) → cookiesGet (cs.map some) name = .ret none) := by
  constructor
  · rintro pre c post rfl hpre hc
    induction pre with
    | nil => simp [cookiesGet, hc]
    | cons p ps ih =>
      simp only [List.cons_append, List.map_cons, cookiesGet]
      rw [if_neg (hpre p (by simp))]
      exact ih fun d hd => hpre d (by simp [hd])
  · intro h
    induction cs with
    | nil => rfl
    | cons p ps ih =>
      simp only [List.map_cons, cookiesGet]
      rw [if_neg (h p (by simp))]
      exact ih fun d hd => h d (by simp [hd])

/-- C43, parameters. -/
theorem C43_params (ps : List (Str × List Str)) (name : Str) :
    (∀ pre c post, ps = pre ++ c :: post → (∀ d ∈ pre, d.1 ≠ name) → c.1 = name →
      paramsGet ps name = (c.2, true) ∧ (paramsByName ps name = .panic ↔ c.2 = []) ∧
      ∀ v t, c.2 = v :: t → paramsByName ps name = .ret v) ∧
    ((∀ d ∈ ps, d.1 ≠ name) → paramsGet ps name = ([], false) ∧ paramsByName ps name = .ret []) := by
  constructor
  · rintro pre c post rfl hpre hc
    have hg : paramsGet (pre ++ c :: post) name = (c.2, true) := by
      induction pre with
      | nil => simp [paramsGet, hc]
      | cons p ps ih =>
        simp only [List.cons_append, paramsGet]
        rw [if_neg (hpre p (by simp))]
        exact ih fun d hd => hpre d (by simp [hd])
    refine ⟨hg, ?_, ?_⟩
    · unfold paramsByName; rw [hg]; cases c.2 <;> simp
    · intro v t hv; unfold paramsByName; rw [hg]; simp [hv]
  · intro h
    have hg : paramsGet ps name = ([], false) := by
      induction ps with
      | nil => rfl
      | cons p ps ih =>
        simp only [paramsGet]
        rw [if_neg (h p (by simp))]
        exact ih fun d hd => h d (by simp [hd])
    exact ⟨hg, by unfold paramsByName; rw [hg]; simp⟩

example : paramsByName [(b!"a", [b!"1", b!"2"]), (b!"b", []), (b!"a", [b!"3"])] b!"a" = .ret b!"1" ∧
    paramsByName [(b!"b", [])] b!"b" = .panic ∧
    cookiesGet [some (b!"x", 1), some (b!"y", 2), some (b!"y", 3)] b!"y" = .ret (some (b!"y", 2)) := by decide

end Verif
