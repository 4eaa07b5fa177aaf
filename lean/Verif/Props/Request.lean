import Verif.Lemmas.Quiet
import Verif.Props.RegTree
/-
Properties C21–C25 and C63: one whole request (`runHTTP`).

`d.trace` is what happened during the request: handler calls and their results, control calls,
goroutines, and finally the release of the pooled URL parameter buffer.  All theorems hold for every
server, request, behaviour of handlers and goroutines, and schedule.
-/
namespace Verif
set_option linter.unusedSectionVars false
set_option linter.unusedSimpArgs false
set_option linter.unusedVariables false
open Spec
section
variable {υ : Type} {σ ρ : Type} [DecidableEq ρ]
variable {env : Env υ} {rxMatch : ρ → Str → Bool} {visit : GoMap ρ (Option σ) → List (ρ × Option σ)}
  {srv : Srv υ σ ρ} {meth : Method} {path : Str} {resp : Resp} {store : Args → υ} {buf : Args} {clock : Nat}
  {d : Done υ}

/-- The ways a request can go. -/
inductive ReqShape (env : Env υ) (srv : Srv υ σ ρ) (res : FindResult σ) (ini : RCtx υ) (path : Str) : Done υ → Prop
  | notFound {d : Done υ} (hf : res.found = false) (hc : d.ctx = none) (hfl : d.flow ≠ .panicked) :
      ReqShape env srv res ini path d
  | sessFail {d : Done υ} {cf : RCtx υ} {b : Block} (hc : d.ctx = some cf) (hcan : cf.cancelled = true)
      (hin : srv.initCtx.isSome = true) (ht : cf.trace = flat [b] ++ [.released]) (hi : Inner [b])
      (hid : b.id = .sess) (hd : b.d = false)
      (ho : b.o = .panic ∧ d.flow = .panicked ∨
        ∃ e, b.o = .err e ∧ d.flow = .returned (some (.leaf 0 (b!"path '" ++ path ++ b!"': " ++ e.error)))) :
      ReqShape env srv res ini path d
  | nilSet {d : Done υ} {cf : RCtx υ} {sb : List Block} (hc : d.ctx = some cf) (hcan : cf.cancelled = true)
      (hset : res.set = none) (ht : cf.trace = flat sb ++ [.released]) (hi : Inner sb)
      (hsb : ∀ b ∈ sb, b.id = .sess ∧ b.o = .ok ∧ b.d = false)
      (hlen : sb.length = if srv.initCtx.isSome then 1 else 0)
      (hfl : d.flow = .panicked) : ReqShape env srv res ini path d
  | routed {d : Done υ} {cf c : RCtx υ} {sb bs : List Block} {s : σ} {f : Flow} {W L : List Ev}
      (hc : d.ctx = some cf) (hcan : cf.cancelled = true)
      (hset : res.set = some s) (hi : Inner sb) (hsb : ∀ b ∈ sb, b.id = .sess ∧ b.o = .ok ∧ b.d = false)
      (hlen : sb.length = if srv.initCtx.isSome then 1 else 0)
      (hx : ChainExt env ini { c with level := 5 } (flat sb)) (hlv : c.level = srv.logLevel)
      (hqn : (∀ p, srv.initCtx = some p → ∀ x, Quiet (p x)) → c.names = [])
      (hr : Routed env (srv.sets s) c bs f W L d.flow)
      (ht : cf.trace = flat sb ++ flat bs ++ W ++ L ++ [.released])
      (hcf : cf = ({ (runRouted env (srv.sets s) c).1 with cancelled := true }).event .released) :
      ReqShape env srv res ini path d

theorem request_shape (hrun : runHTTP env rxMatch visit srv meth path resp store buf clock = .ret d) :
    ∃ res, serverFind rxMatch visit srv.tree srv.regs meth path buf = .ret res ∧
      ReqShape env srv res (newContext resp (store res.args) clock) path d := by
  cases hres : serverFind rxMatch visit srv.tree srv.regs meth path buf with
  | panic => unfold runHTTP at hrun; rw [hres] at hrun; simp [Outcome.bind] at hrun
  | outOfFuel => unfold runHTTP at hrun; rw [hres] at hrun; simp [Outcome.bind] at hrun
  | ret res =>
    refine ⟨res, rfl, ?_⟩
    cases hf : res.found with
    | false =>
      unfold runHTTP at hrun
      rw [hres] at hrun
      simp only [Outcome.bind_ret, hf, Bool.false_eq_true, not_false_eq_true, if_true, Outcome.ret.injEq] at hrun
      subst hrun
      exact .notFound hf rfl (by simp)
    | true =>
      obtain ⟨cf, flow, h1, h2, h3⟩ := runHTTP_shape env rxMatch visit srv meth path resp store buf clock res hres hf
      rw [h1] at hrun
      simp only [Outcome.ret.injEq] at hrun
      subst hrun
      rcases h3 with ⟨b, g1, g2, g3, g4, g5, g6⟩ | ⟨S, c, g1, g2, gq, g3, g4⟩
      · refine .sessFail rfl h2 g1 (by simpa [flat] using g2) ?_ g3 g4 g6
        intro x hx; simp only [List.mem_singleton] at hx; subst hx; exact g5
      · obtain ⟨sb, e1, e2, e3, e4⟩ := g1.blocks
        subst e1
        rcases g4 with ⟨k1, k2, k3⟩ | ⟨s, bs, f, W, L, k1, k2, k3, k4⟩
        · exact .nilSet rfl h2 k1 k3 e2 e3 e4 k2
        · exact .routed rfl h2 k1 e2 e3 e4 g3 g2 gq k2 k3 k4

theorem inner_single {b : Block} (h : ∀ e ∈ b.body, e.inner = true) : Inner [b] := by
  intro x hx; simp only [List.mem_singleton] at hx; subst hx; exact h

theorem no_start_released {pre post : List Ev} {i : HId} {dn : Bool} (h : [Ev.released] = pre ++ .start i dn :: post) : False := by
  cases pre with
  | nil => simp at h
  | cons a l => simp at h

/-- What is known at the call of the last handler. -/
theorem last_call {res : FindResult σ} {ini : RCtx υ} (hini : ini.gos = [] ∧ ini.aborted = false ∧ ini.egErr = none)
    (h : ReqShape env srv res ini path d) {pre post : List Ev} {e : Option GoErr} {dn : Bool}
    (heq : d.trace = pre ++ .start (.last e) dn :: post) :
    ∃ s l b, ∃ (B : List Block) (b' : Block), res.set = some s ∧ (srv.sets s).last = some l ∧
      post = b ++ [.ret b'.o b'.d', .released] ∧ (∀ x ∈ b, x.inner = true) ∧
      d.flow = (match b'.o with | .panic => .panicked | .err e => .returned (some e) | .ok => .returned none) ∧ dn = true ∧
      starts pre = B.map (·.id) ∧ rets pre = B.map (·.o) ∧ (∀ x ∈ B, ∀ e, x.id ≠ .last e) ∧
      (∀ x ∈ B, x.o ≠ .panic) ∧ spawned pre = ended pre ∧ Ev.ctl .abort ∉ pre ∧
      (srv.initCtx.isSome = true → (rets pre).head? = some .ok) ∧
      e = combine (chainErr pre) (goErrs pre).head? := by
  cases h with
  | notFound hf hc hfl => simp [Done.trace, hc] at heq
  | @sessFail cf b hc hcan hin ht hi hid hd ho =>
    exfalso
    simp only [Done.trace, hc, ht] at heq
    rcases flat_split_start hi heq with ⟨bs1, b', bs2, e1, e2, _⟩ | ⟨pre2, _, e2⟩
    · have : b' ∈ [b] := by rw [e1]; simp
      simp only [List.mem_singleton] at this
      rw [this, hid] at e2; simp at e2
    · exact no_start_released e2
  | @nilSet cf sb hc hcan hset ht hi hsb hlen hfl =>
    exfalso
    simp only [Done.trace, hc, ht] at heq
    rcases flat_split_start hi heq with ⟨bs1, b', bs2, e1, e2, _⟩ | ⟨pre2, _, e2⟩
    · rw [(hsb b' (by rw [e1]; simp)).1] at e2; simp at e2
    · exact no_start_released e2
  | @routed cf c sb bs s f W L hc hcan hset hi hsb hlen hx hlv hqn hr ht hcf =>
    have hB : Inner (sb ++ bs) := by
      intro x hx
      rcases List.mem_append.1 hx with hx | hx
      · exact hi x hx
      · exact hr.inner x hx
    have hBl : ∀ x ∈ sb ++ bs, ∀ e, x.id ≠ .last e := by
      intro x hx e
      rcases List.mem_append.1 hx with hx | hx
      · rw [(hsb x hx).1]; simp
      · exact (runs_chain_ids hr.runs x hx).2 e
    simp only [Done.trace, hc, ht] at heq
    rw [← flat_append, List.append_assoc, List.append_assoc] at heq
    rcases flat_split_start hB heq with ⟨bs1, b', bs2, e1, e2, _⟩ | ⟨pre2, e1, e2⟩
    · exact absurd e2 (hBl b' (by rw [e1]; simp) e)
    rcases hr.rest with ⟨rfl, rfl, _, _⟩ | ⟨hab, hW, hcnt, err, rfl, hl⟩
    · exact absurd e2 (by intro h; exact no_start_released (by simpa using h))
    obtain ⟨pre3, e3, e4⟩ := go_split_start hW e2
    rcases hl with ⟨_, rfl, _⟩ | ⟨hl1, b, rfl, hb1, hb2, _, hb3, hb4⟩
    · exact absurd e4 (by intro h; exact no_start_released (by simpa using h))
    obtain ⟨l, hl⟩ := Option.isSome_iff_exists.1 hl1
    have hbi := inner_single hb1
    have e5 : flat [b] ++ [Ev.released] = pre3 ++ .start (.last e) dn :: post := by rw [← e4]; simp [flat]
    rcases flat_split_start hbi e5 with ⟨bs1, b', bs2, k1, k2, k3, k4, k5⟩ | ⟨pre4, _, k⟩
    rotate_left
    · exact absurd k no_start_released
    have hbs : bs1 = [] ∧ bs2 = [] ∧ b' = b := by
      cases bs1 with
      | nil => simp at k1; exact ⟨rfl, k1.2, k1.1.symm⟩
      | cons z zs => have := congrArg List.length k1; simp at this
    obtain ⟨rfl, rfl, rfl⟩ := hbs
    simp only [flat_nil, List.nil_append] at k4 k5
    subst k4
    simp only [List.append_nil] at e3
    subst e3
    subst e1
    have hWi := isGo_inner hW
    -- facts about the state at the start of the chain
    have hc_gos := hx.cnt
    have hc_ab := hx.ab
    have hc_eg := hx.eg
    simp only [hini.1, hini.2.1, hini.2.2, List.length_nil, Bool.false_or, Option.none_or, Nat.zero_add] at hc_gos hc_ab hc_eg
    have hrets : rets (flat (sb ++ bs) ++ pre2) = (sb ++ bs).map (·.o) := by
      rw [rets_append, rets_flat hB, rets_inner hWi, List.append_nil]
    obtain ⟨r1, r2, r3⟩ := runs_chainErr hr.runs hr.inner
    have hsbOk : ∀ x ∈ sb, x.o = .ok := fun x hx => (hsb x hx).2.1
    refine ⟨s, l, b'.body, sb ++ bs, b', hset, hl, ?_, hb1, hb4, ?_, ?_, hrets, hBl, ?_, ?_, ?_, ?_, ?_⟩
    · exact k5
    · rw [← k3, hb2]
    · rw [starts_append, starts_flat hB, starts_inner hWi, List.append_nil]
    · intro x hx
      rcases List.mem_append.1 hx with hx | hx
      · simp [hsbOk x hx]
      · exact r3 x hx
    · rw [flat_append, List.append_assoc, spawned_append, ended_append]; omega
    · rw [flat_append, List.append_assoc]
      intro h
      rcases List.mem_append.1 h with h | h
      · have := (hasCtl_iff .abort (flat sb)).2 h
        rw [hc_ab, this] at hab; simp at hab
      · rcases List.mem_append.1 h with h | h
        · have := (hasCtl_iff .abort (flat bs)).2 h
          rw [this] at hab; simp at hab
        · exact isGo_noctl hW _ h
    · intro hin
      rw [hin] at hlen
      rw [hrets]
      cases sb with
      | nil => simp at hlen
      | cons z zs => simp [hsbOk z (by simp)]
    · have he : e = combine err (c.egErr.or (goErrs (flat bs ++ pre2)).head?) := by
        rw [k2] at hb3; exact HId.last.inj hb3
      have c1 : chainErr (flat (sb ++ bs) ++ pre2) = err := by
        rw [chainErr, hrets, List.map_append, List.findSome?_append]
        have : (sb.map (·.o)).findSome? errOf = none := by
          rw [List.findSome?_eq_none_iff]
          intro o ho
          obtain ⟨z, hz, rfl⟩ := List.mem_map.1 ho
          rw [hsbOk z hz]; rfl
        rw [this, Option.none_or, ← rets_flat hr.inner]
        exact r1
      have c2 : (goErrs (flat (sb ++ bs) ++ pre2)).head? = c.egErr.or (goErrs (flat bs ++ pre2)).head? := by
        rw [hc_eg, flat_append, List.append_assoc, goErrs_append, List.head?_append]
      rw [c1, c2]; exact he


theorem newContext_ini (resp : Resp) (st : υ) (clock : Nat) :
    (newContext resp st clock).gos = [] ∧ (newContext resp st clock).aborted = false ∧
      (newContext resp st clock).egErr = none := ⟨rfl, rfl, rfl⟩

theorem combine_none {a b : Option GoErr} : combine a b = none ↔ a = none ∧ b = none := by
  cases a <;> cases b <;> simp [combine]

theorem chainErr_none {t : List Ev} (h : HOut.panic ∉ rets t) : chainErr t = none ↔ ∀ o ∈ rets t, o = .ok := by
  rw [chainErr, List.findSome?_eq_none_iff]
  constructor
  · intro h1 o ho
    have := h1 o ho
    cases o with
    | ok => rfl
    | err e => simp [errOf] at this
    | panic => exact absurd ho h
  · intro h1 o ho; rw [h1 o ho]; rfl

/-! ### C21 -/

/-- C21.  (1) At the moment the last handler starts: no handler runs after it, it has not run before, every
goroutine that was started has ended, the request was not aborted, the session initialiser succeeded and
no handler panicked; and it gets nil exactly if all handlers and all goroutines succeeded.
(2) It does run if there is one, the request is routed, the session initialiser did not fail, nothing
panicked and the request was not aborted. -/
theorem C21_last (hrun : runHTTP env rxMatch visit srv meth path resp store buf clock = .ret d) :
    (∀ pre e dn post, d.trace = pre ++ .start (.last e) dn :: post →
      starts post = [] ∧ (∀ e', HId.last e' ∉ starts pre) ∧ spawned pre = ended pre ∧
      Ev.ctl .abort ∉ pre ∧ HOut.panic ∉ rets pre ∧
      (srv.initCtx.isSome = true → (rets pre).head? = some .ok) ∧
      (e = none ↔ (∀ o ∈ rets pre, o = .ok) ∧ goErrs pre = [])) ∧
    (∀ res s l, serverFind rxMatch visit srv.tree srv.regs meth path buf = .ret res → res.found = true →
      res.set = some s → (srv.sets s).last = some l → d.flow ≠ .panicked → Ev.ctl .abort ∉ d.trace →
      (srv.initCtx.isSome = true → ∀ e, (rets d.trace).head? ≠ some (.err e)) →
      ∃ e, HId.last e ∈ starts d.trace) := by
  obtain ⟨res, hres, hsh⟩ := request_shape hrun
  constructor
  · intro pre e dn post heq
    obtain ⟨s, l, b, B, b', h1, h2, h3, h4, h5, h6, h7, h8, h9, h10, h11, h12, h13, h14⟩ :=
      last_call (newContext_ini _ _ _) hsh heq
    have hp : HOut.panic ∉ rets pre := by
      rw [h8]; intro h
      obtain ⟨x, hx, hx'⟩ := List.mem_map.1 h
      exact h10 x hx hx'
    refine ⟨?_, ?_, h11, h12, hp, h13, ?_⟩
    · rw [h3, starts_append, starts_inner h4]; rfl
    · intro e' h
      rw [h7] at h
      obtain ⟨x, hx, hx'⟩ := List.mem_map.1 h
      exact h9 x hx e' hx'
    · rw [h14, combine_none, chainErr_none hp]
      simp
  · intro res' s l hres' hf hset hl hp hab hse
    rw [hres] at hres'
    simp only [Outcome.ret.injEq] at hres'
    subst hres'
    cases hsh with
    | notFound h => rw [h] at hf; simp at hf
    | @sessFail cf b hc hcan hin ht hi hid hd ho =>
      exfalso
      rcases ho with ⟨_, h⟩ | ⟨e, h, _⟩
      · exact hp h
      · refine hse hin e ?_
        simp only [Done.trace, hc, ht]
        rw [rets_append, rets_flat hi]; simp [h]
    | @nilSet cf sb hc hcan hset' => rw [hset] at hset'; simp at hset'
    | @routed cf c sb bs s' f W L hc hcan hset' hi hsb hlen hx hlv hqn hr ht hcf =>
      have : s' = s := by rw [hset] at hset'; simpa using hset'.symm
      subst this
      simp only [Done.trace, hc, ht] at hab ⊢
      rcases hr.rest with ⟨_, _, hfl, h⟩ | ⟨_, _, _, err, _, ⟨h, _⟩ | ⟨_, b, hL, hb, _, _, hid, _⟩⟩
      · exfalso
        rcases h with h | h
        · exact hp (by rw [hfl, h])
        · have hca := hx.ab
          simp only [newContext, Bool.false_or] at hca
          rw [hca, ← hasCtl_append, hasCtl_iff] at h
          exact hab (by simp only [List.append_assoc] at *; rw [← List.append_assoc]; exact List.mem_append_left _ h)
      · rw [hl] at h; simp at h
      · refine ⟨combine err (c.egErr.or (goErrs (flat bs ++ W)).head?), ?_⟩
        rw [starts_append, starts_append, hL, starts_evs hb, hid]
        simp

/-! ### C22 -/

/-- C22.  (1) What the last handler is given: with a chain error, an error that has the chain's error as
cause and ends with its message; with no chain error, the first goroutine error (in order of completion);
whenever a goroutine failed it is not nil and mentions the first goroutine's error.
(2) The same holds of the error reported for the request when there is no last handler. -/
theorem C22_errors (hrun : runHTTP env rxMatch visit srv meth path resp store buf clock = .ret d) :
    ∀ e t, ((∃ dn post, d.trace = t ++ .start (.last e) dn :: post) ∨
      (d.flow = .returned e ∧ d.trace = t ∧ Ev.ctl .abort ∉ t ∧
        ∃ res s, serverFind rxMatch visit srv.tree srv.regs meth path buf = .ret res ∧ res.found = true ∧ res.set = some s ∧
          (srv.sets s).last = none ∧ (srv.initCtx.isSome = true → (rets t).head? = some .ok))) →
      (∀ ce, chainErr t = some ce → ∃ e', e = some e' ∧ e'.cause = ce.cause ∧ ∃ p, e'.error = p ++ ce.error) ∧
      (chainErr t = none → e = (goErrs t).head?) ∧
      (∀ g, (goErrs t).head? = some g → ∃ e' p q, e = some e' ∧ e'.error = p ++ g.error ++ q) := by
  intro e t h
  have he : e = combine (chainErr t) (goErrs t).head? := by
    obtain ⟨res, hres, hsh⟩ := request_shape hrun
    rcases h with ⟨dn, post, heq⟩ | ⟨hfl, rfl, hab, res', s, hres', hf, hset, hl, hse⟩
    · exact (last_call (newContext_ini _ _ _) hsh heq).elim fun s h => by
        obtain ⟨l, b, B, b', h1, h2, h3, h4, h5, h6, h7, h8, h9, h10, h11, h12, h13, h14⟩ := h
        exact h14
    · rw [hres] at hres'
      simp only [Outcome.ret.injEq] at hres'
      subst hres'
      cases hsh with
      | notFound h => rw [h] at hf; simp at hf
      | @sessFail cf b hc hcan hin ht hi hid hd ho =>
        exfalso
        have := hse hin
        simp only [Done.trace, hc, ht] at this
        rw [rets_append, rets_flat hi] at this
        rcases ho with ⟨h, _⟩ | ⟨e, h, _⟩ <;> simp [h] at this
      | @nilSet cf sb hc hcan hset' => rw [hset] at hset'; simp at hset'
      | @routed cf c sb bs s' f W L hc hcan hset' hi hsb hlen hx hlv hqn hr ht hcf =>
        have : s' = s := by rw [hset] at hset'; simpa using hset'.symm
        subst this
        simp only [Done.trace, hc, ht] at hab ⊢
        rcases hr.rest with ⟨_, _, hfl', h⟩ | ⟨_, hW, _, err, hf', ⟨_, hL, h⟩ | ⟨h, _⟩⟩
        · exfalso
          rcases h with h | h
          · rw [hfl', h] at hfl; simp at hfl
          · have hca := hx.ab
            simp only [newContext, Bool.false_or] at hca
            rw [hca, ← hasCtl_append, hasCtl_iff] at h
            exact hab (by simp only [List.append_assoc] at *; rw [← List.append_assoc]; exact List.mem_append_left _ h)
        · have hWi := isGo_inner hW
          have hrs : rets (flat sb ++ flat bs ++ W ++ L ++ [Ev.released]) = sb.map (·.o) ++ bs.map (·.o) := by
            rw [hL]
            simp only [rets_append, rets_flat hi, rets_flat hr.inner, rets_inner hWi]
            simp [rets]
          have hgs : goErrs (flat sb ++ flat bs ++ W ++ L ++ [Ev.released]) = goErrs (flat sb) ++ goErrs (flat bs ++ W) := by
            rw [hL]
            simp only [goErrs_append]
            simp [goErrs]
          have heg := hx.eg
          simp only [newContext, Option.none_or] at heg
          rw [hf'] at hr
          obtain ⟨r1, r2, r3⟩ := runs_chainErr hr.runs hr.inner
          have hce : chainErr (flat sb ++ flat bs ++ W ++ L ++ [Ev.released]) = err := by
            rw [chainErr, hrs, List.findSome?_append]
            have : (sb.map (·.o)).findSome? errOf = none := by
              rw [List.findSome?_eq_none_iff]
              intro o ho
              obtain ⟨z, hz, rfl⟩ := List.mem_map.1 ho
              rw [(hsb z hz).2.1]; rfl
            rw [this, Option.none_or, ← rets_flat hr.inner]
            exact r1
          rw [hce, hgs, List.head?_append, ← heg]
          rw [hfl] at h
          simpa using h
        · rw [hl] at h; simp at h
  subst he
  refine ⟨?_, ?_, ?_⟩
  · intro ce hce
    rw [hce]
    cases (goErrs t).head? with
    | none => exact ⟨ce, rfl, rfl, [], rfl⟩
    | some g => exact ⟨.wrap ce g.error, rfl, rfl, g.error ++ b!": ", rfl⟩
  · intro hce
    rw [hce]; rfl
  · intro g hg
    rw [hg]
    cases chainErr t with
    | none => exact ⟨g, [], [], rfl, by simp⟩
    | some ce => exact ⟨.wrap ce g.error, [], b!": " ++ ce.error, rfl, by simp [GoErr.error]⟩


/-! ### C23 -/

theorem flag_of_ext {ini cb : RCtx υ} {es : List Ev} (h : ChainExt env ini cb es)
    (h0 : ini.cancelled = false ∧ ini.egCancelled = false ∧ ini.egErr = none ∧ ini.parentDone = false) :
    ((Ev.ctl .abort ∈ es ∨ Ev.ctl .egWait ∈ es ∨ goErrs es ≠ []) → cb.done = true) ∧
    (cb.done = true → Ev.ctl .abort ∈ es ∨ Ev.ctl .egWait ∈ es ∨ goErrs es ≠ [] ∨
      ∃ t, ini.clock ≤ t ∧ t < cb.clock ∧ env.parent t = true) := by
  obtain ⟨i1, i2, i3, i4⟩ := h0
  have hca := h.ca
  rw [i1, Bool.false_or] at hca
  constructor
  · rintro (h1 | h1 | h1)
    · rw [← hasCtl_iff] at h1
      simp [RCtx.done, hca, h1]
    · simp [RCtx.done, h.egw h1]
    · have heg := h.eg
      rw [i3, Option.none_or] at heg
      have hs : cb.egErr.isSome = true := by
        rw [heg]
        cases hg : goErrs es with
        | nil => exact absurd hg h1
        | cons a l => rfl
      have := h.ok (by simp [i3]) hs
      simp [RCtx.done, this]
  · intro hd
    simp only [RCtx.done, Bool.or_eq_true] at hd
    rcases hd with (hd | hd) | hd
    · rw [hca, hasCtl_iff] at hd; exact Or.inl hd
    · rcases h.egc hd with h1 | h1 | h1
      · rw [i2] at h1; simp at h1
      · exact Or.inr (Or.inl h1)
      · exact Or.inr (Or.inr (Or.inl h1))
    · rcases h.par.2 hd with h1 | h1
      · rw [i4] at h1; simp at h1
      · exact Or.inr (Or.inr (Or.inr h1))

/-- C23.  (1) When request processing is over — however it ended — the request context is cancelled.
(2) A handler finds the request context cancelled if Abort or EGWait was called or a goroutine failed
before, and the last handler always does; (3) and otherwise only if the connection's own context ended since the
request began. -/
theorem C23_cancel (hrun : runHTTP env rxMatch visit srv meth path resp store buf clock = .ret d) :
    (∀ cf, d.ctx = some cf → cf.done = true) ∧
    (∀ pre h dn post, d.trace = pre ++ .start h dn :: post →
      ((Ev.ctl .abort ∈ pre ∨ Ev.ctl .egWait ∈ pre ∨ goErrs pre ≠ [] ∨ ∃ e, h = .last e) → dn = true) ∧
      (dn = true → Ev.ctl .abort ∈ pre ∨ Ev.ctl .egWait ∈ pre ∨ goErrs pre ≠ [] ∨ (∃ e, h = .last e) ∨
        ∃ t, clock ≤ t ∧ env.parent t = true)) := by
  obtain ⟨res, hres, hsh⟩ := request_shape hrun
  constructor
  · intro cf hcf
    cases hsh with
    | notFound _ hc => rw [hc] at hcf; simp at hcf
    | sessFail hc hcan => rw [hc] at hcf; cases hcf; simp [RCtx.done, hcan]
    | nilSet hc hcan => rw [hc] at hcf; cases hcf; simp [RCtx.done, hcan]
    | routed hc hcan => rw [hc] at hcf; cases hcf; simp [RCtx.done, hcan]
  · intro pre h dn post heq
    have first : ∀ {sb : List Block} {R : List Ev}, Inner sb → (∀ b ∈ sb, b.d = false) → sb.length ≤ 1 →
        (∃ bs1 b bs2, sb = bs1 ++ b :: bs2 ∧ b.id = h ∧ b.d = dn ∧ pre = flat bs1) → dn = false ∧ pre = [] := by
      rintro sb R hi hd hlen ⟨bs1, b, bs2, e1, _, e3, e4⟩
      have hb := hd b (by rw [e1]; simp)
      have : bs1 = [] := by
        rw [e1] at hlen; simp at hlen
        exact List.length_eq_zero_iff.1 (by omega)
      subst this
      exact ⟨by rw [← e3, hb], by rw [e4]; rfl⟩
    have conc : dn = false ∧ pre = [] → (∀ e, h ≠ .last e) →
        ((Ev.ctl .abort ∈ pre ∨ Ev.ctl .egWait ∈ pre ∨ goErrs pre ≠ [] ∨ ∃ e, h = .last e) → dn = true) ∧
        (dn = true → Ev.ctl .abort ∈ pre ∨ Ev.ctl .egWait ∈ pre ∨ goErrs pre ≠ [] ∨ (∃ e, h = .last e) ∨
          ∃ t, clock ≤ t ∧ env.parent t = true) := by
      rintro ⟨rfl, rfl⟩ hne
      refine ⟨?_, by simp⟩
      rintro (h | h | h | ⟨e, h⟩)
      · simp at h
      · simp at h
      · simp [goErrs] at h
      · exact absurd h (hne e)
    cases hsh with
    | notFound hf hc hfl => simp [Done.trace, hc] at heq
    | @sessFail cf b hc hcan hin ht hi hid hd ho =>
      simp only [Done.trace, hc, ht] at heq
      rcases flat_split_start hi heq with ⟨bs1, b', bs2, e1, e2, e3, e4, _⟩ | ⟨pre2, _, e2⟩
      · have hb : b' = b := by
          have : b' ∈ [b] := by rw [e1]; simp
          simpa using this
        refine conc (first (R := []) hi (by simp [hd]) (by simp) ⟨bs1, b', bs2, e1, e2, e3, e4⟩) ?_
        intro e h; rw [← e2, hb, hid] at h; simp at h
      · exact (no_start_released e2).elim
    | @nilSet cf sb hc hcan hset ht hi hsb hlen hfl =>
      simp only [Done.trace, hc, ht] at heq
      rcases flat_split_start hi heq with ⟨bs1, b', bs2, e1, e2, e3, e4, _⟩ | ⟨pre2, _, e2⟩
      · refine conc (first (R := []) hi (fun b hb => (hsb b hb).2.2) (by rw [hlen]; split <;> simp) ⟨bs1, b', bs2, e1, e2, e3, e4⟩) ?_
        intro e h; rw [← e2, (hsb b' (by rw [e1]; simp)).1] at h; simp at h
      · exact (no_start_released e2).elim
    | @routed cf c sb bs s f W L hc hcan hset hi hsb hlen hx hlv hqn hr ht hcf =>
      have heq0 := heq
      simp only [Done.trace, hc, ht] at heq
      rw [List.append_assoc, List.append_assoc, List.append_assoc] at heq
      rcases flat_split_start hi heq with ⟨bs1, b', bs2, e1, e2, e3, e4, _⟩ | ⟨pre2, e1, e2⟩
      · refine conc (first (R := []) hi (fun b hb => (hsb b hb).2.2) (by rw [hlen]; split <;> simp) ⟨bs1, b', bs2, e1, e2, e3, e4⟩) ?_
        intro e h; rw [← e2, (hsb b' (by rw [e1]; simp)).1] at h; simp at h
      · rcases flat_split_start hr.inner e2 with ⟨bs1, b', bs2, k1, k2, k3, k4, _⟩ | ⟨pre3, k1, k2⟩
        · obtain ⟨cb, hcb, hbd⟩ := hr.dn bs1 b' bs2 k1
          have hx' : ChainExt env (newContext resp (store res.args) clock) c (flat sb) := { hx with }
          have := flag_of_ext (hx'.trans hcb) ⟨rfl, rfl, rfl, rfl⟩
          have hpre : pre = flat sb ++ flat bs1 := by rw [e1, k4]
          rw [← hpre, ← hbd, k3] at this
          have hne : ∀ e, h ≠ .last e := by
            intro e; rw [← k2]; exact (runs_chain_ids hr.runs b' (by rw [k1]; simp)).2 e
          constructor
          · rintro (g | g | g | ⟨e, g⟩)
            · exact this.1 (Or.inl g)
            · exact this.1 (Or.inr (Or.inl g))
            · exact this.1 (Or.inr (Or.inr g))
            · exact absurd g (hne e)
          · intro g
            rcases this.2 g with g | g | g | ⟨t, a, -, g⟩
            · exact Or.inl g
            · exact Or.inr (Or.inl g)
            · exact Or.inr (Or.inr (Or.inl g))
            · exact Or.inr (Or.inr (Or.inr (Or.inr ⟨t, a, g⟩)))
        · -- only the last handler is left
          have hlast : ∃ e, h = .last e := by
            rcases hr.rest with ⟨hW, hL, _⟩ | ⟨_, hW, _, err, _, ⟨_, hL, _⟩ | ⟨_, b, hL, hb, _, _, hid, _⟩⟩
            · rw [hW, hL] at k2; exact (no_start_released (by simpa using k2)).elim
            · obtain ⟨pre4, _, g⟩ := go_split_start hW k2
              rw [hL] at g; exact (no_start_released (by simpa using g)).elim
            · obtain ⟨pre4, _, g⟩ := go_split_start hW k2
              have g' : flat [b] ++ [Ev.released] = pre4 ++ .start h dn :: post := by rw [← g, hL]; simp [flat]
              rcases flat_split_start (inner_single hb) g' with ⟨bs1, b', bs2, j1, j2, _⟩ | ⟨pre5, _, j⟩
              · have : b' ∈ [b] := by rw [j1]; simp
                simp only [List.mem_singleton] at this
                exact ⟨_, by rw [← j2, this, hid]⟩
              · exact (no_start_released j).elim
          refine ⟨fun _ => ?_, fun _ => Or.inr (Or.inr (Or.inr (Or.inl hlast)))⟩
          obtain ⟨e, rfl⟩ := hlast
          obtain ⟨_, _, _, _, _, _, _, _, _, _, hdn, _⟩ := last_call (newContext_ini _ _ _)
            (ReqShape.routed (path := path) hc hcan hset hi hsb hlen hx hlv hqn hr ht hcf) heq0
          exact hdn

/-! ### C24 -/

/-- C24.  If the handlers themselves neither add to the debug trace nor change the log level, then after a
routed request the list reported by CalledHandles() is, in debug mode, exactly the names of the route's
handlers that were executed, in order (the main handler for Init and again for Run; the last handler is
not recorded), and outside debug mode only the fixed message. -/
theorem C24_debug (hrun : runHTTP env rxMatch visit srv meth path resp store buf clock = .ret d)
    (hqi : ∀ p, srv.initCtx = some p → ∀ c, Quiet (p c)) (hq : ∀ s, QuietSet (srv.sets s))
    (res : FindResult σ) (s : σ) (cf : RCtx υ)
    (hres : serverFind rxMatch visit srv.tree srv.regs meth path buf = .ret res) (hset : res.set = some s)
    (hcf : d.ctx = some cf) (hse : srv.initCtx.isSome = true → (rets d.trace).head? = some .ok) :
    if srv.logLevel ≥ 5 then
      (calledHandles cf).map some = ((starts d.trace).filter ofRoute).map (nameOf (srv.sets s))
    else calledHandles cf = [b!"available in debug mode only"] := by
  obtain ⟨res', hres', hsh⟩ := request_shape hrun
  rw [hres] at hres'
  simp only [Outcome.ret.injEq] at hres'
  subst hres'
  cases hsh with
  | notFound h hc => rw [hc] at hcf; simp at hcf
  | @sessFail cf b hc hcan hin ht hi hid hd ho =>
    exfalso
    have := hse hin
    simp only [Done.trace, hc, ht] at this
    rw [rets_append, rets_flat hi] at this
    rcases ho with ⟨h, _⟩ | ⟨e, h, _⟩ <;> simp [h] at this
  | nilSet hc hcan hset' => rw [hset] at hset'; simp at hset'
  | @routed cf' c sb bs s' f W L hc hcan hset' hi hsb hlen hx hlv hqn hr ht hcf' =>
    rw [hset] at hset'
    simp only [Option.some.injEq] at hset'
    subst hset'
    rw [hc] at hcf
    simp only [Option.some.injEq] at hcf
    subst hcf
    obtain ⟨new, h1, h2, h3⟩ := runSet_names env (srv.sets s) (hq s) c
    have hdb := dbg_runRouted env (srv.sets s) (hq s) c
    have hlv' : cf'.level = srv.logLevel := by
      rw [hcf']
      have := congrArg Prod.fst hdb
      simp only [dbg] at this
      show (runRouted env (srv.sets s) c).1.level = _
      rw [this, h2, hlv]
    have hnm : cf'.names.map some = if srv.logLevel ≥ 5 then (starts new).map (nameOf (srv.sets s)) else [] := by
      rw [hcf']
      have := congrArg Prod.snd hdb
      simp only [dbg] at this
      show (runRouted env (srv.sets s) c).1.names.map some = _
      rw [this, h3, hqn hqi, hlv]; rfl
    -- the handlers of the route among all handlers
    have hstarts : (starts d.trace).filter ofRoute = starts new := by
      have key : ∀ bs0 f0 W0 L0 fl0, Routed env (srv.sets s) c bs0 f0 W0 L0 fl0 →
          (starts (flat bs0 ++ W0 ++ L0)).filter ofRoute = starts (flat bs0) := by
        intro bs0 f0 W0 L0 fl0 h
        have hch : (starts (flat bs0)).filter ofRoute = starts (flat bs0) := by
          rw [List.filter_eq_self, starts_flat h.inner]
          intro a ha
          obtain ⟨b, hb, rfl⟩ := List.mem_map.1 ha
          have := runs_chain_ids h.runs b hb
          cases hid : b.id <;> simp_all [ofRoute]
        have hW : starts W0 = [] := by
          rcases h.rest with ⟨hW, _⟩ | ⟨_, hW, _⟩
          · rw [hW]; rfl
          · exact starts_inner (isGo_inner hW)
        have hL : (starts L0).filter ofRoute = [] := by
          rcases h.rest with ⟨_, hL, _⟩ | ⟨_, _, _, err, _, ⟨_, hL, _⟩ | ⟨_, b, hL, hb, _, _, hid, _⟩⟩
          · rw [hL]; rfl
          · rw [hL]; rfl
          · rw [hL, starts_evs hb, hid]; rfl
        rw [starts_append, starts_append, List.filter_append, List.filter_append, hch, hW, hL]; simp
      have hsb0 : (starts (flat sb)).filter ofRoute = [] := by
        rw [starts_flat hi, List.filter_eq_nil_iff]
        intro a ha
        obtain ⟨b, hb, rfl⟩ := List.mem_map.1 ha
        rw [(hsb b hb).1]; simp [ofRoute]
      have htr : d.trace = flat sb ++ (flat bs ++ W ++ L) ++ [.released] := by
        simp only [Done.trace, hc, ht, List.append_assoc]
      have e1 : starts (flat bs) = starts new := by
        have := hr.ext.tr
        rw [h1] at this
        rw [List.append_cancel_left this]
      rw [htr, starts_append, starts_append, List.filter_append, List.filter_append, hsb0, key _ _ _ _ _ hr, e1]
      simp [starts]
    unfold calledHandles
    rw [hlv']
    by_cases h5 : srv.logLevel ≥ 5
    · simp only [h5, not_true_eq_false, if_false, if_true]
      rw [hnm, if_pos h5, hstarts]
    · simp only [h5, not_false_eq_true, if_true, if_false]

/-! ### C25 -/

/-- C25.  For a server on which exactly the tree routes `hist` and the regular expressions `rxs` are
registered: if the tree finds no route and no registered expression of a covering method matches the
path, the request is answered 404 "not found", and no context is created — no initialiser, handler or
last handler runs. -/
theorem C25_unrouted (hist : List (Reg σ)) (rxs : List (RxReg ρ σ)) (hm : ∀ r ∈ rxs, r.method ∈ rxMethods)
    (hv : AnyOrder visit) (ht : srv.tree = treeOf hist) (hr : srv.regs = regOf rxs)
    (hnf : ∀ res, treeFind (treeOf hist) meth path buf = .ret res → res.found = false)
    (hrx : ∀ r ∈ rxs, covers r.method meth = true → rxMatch r.rx path = false) :
    ∃ d, runHTTP env rxMatch visit srv meth path resp store buf clock = .ret d ∧ d.ctx = none ∧ d.trace = [] ∧
      d.resp.status = 404 ∧ d.resp.body = b!"not found" := by
  obtain ⟨rt, h1, h2, h3, h4⟩ := C14_tree_first rxMatch visit srv.tree srv.regs meth path buf
  have hrt : rt.found = false := hnf rt (by rw [← ht]; exact h1)
  have h5 := h3 hrt
  have h6 : (regFind rxMatch visit srv.regs meth path []).found = false := by
    cases hf : (regFind rxMatch visit srv.regs meth path []).found with
    | false => rfl
    | true =>
      exfalso
      have := (C13_found_iff rxs hm rxMatch visit hv meth path []).1
      rw [← hr] at this
      obtain ⟨r, g1, g2, g3⟩ := this.1 hf
      rw [hrx r g1 g2] at g3; simp at g3
  unfold runHTTP
  rw [h5]
  simp only [Outcome.bind_ret, h6, Bool.false_eq_true, not_false_eq_true, if_true]
  exact ⟨_, rfl, rfl, rfl, rfl, rfl⟩

/-- C25 in terms of routes: no tree route (all of the regular form) and no expression matches. -/
theorem C25_no_route (hist : List (Reg σ)) (rxs : List (RxReg ρ σ)) (hm : ∀ r ∈ rxs, r.method ∈ rxMethods)
    (hclean : ∀ r ∈ hist, Clean r)
    (hv : AnyOrder visit) (ht : srv.tree = treeOf hist) (hr : srv.regs = regOf rxs)
    (hnf : ∀ r ∈ hist, covers r.method meth = true → matchRoute (routePats r) (segs path) = none)
    (hrx : ∀ r ∈ rxs, covers r.method meth = true → rxMatch r.rx path = false) :
    ∃ d, runHTTP env rxMatch visit srv meth path resp store buf clock = .ret d ∧ d.ctx = none ∧ d.trace = [] ∧
      d.resp.status = 404 ∧ d.resp.body = b!"not found" := by
  refine C25_unrouted hist rxs hm hv ht hr ?_ hrx
  intro res h
  cases hf : res.found with
  | false => rfl
  | true =>
    exfalso
    obtain ⟨r, h1, _, h2, h3⟩ := sound_clean hist hclean meth path buf res h hf
    rw [hnf r h1 h2] at h3; simp at h3

/-- C25, conversely: a 404 by the router itself (no context) happens only then. -/
theorem C25_only_unrouted (hrun : runHTTP env rxMatch visit srv meth path resp store buf clock = .ret d)
    (hc : d.ctx = none) :
    (∃ rt, treeFind srv.tree meth path buf = .ret rt ∧ rt.found = false) ∧
    (regFind rxMatch visit srv.regs meth path []).found = false := by
  obtain ⟨res, hres, hsh⟩ := request_shape hrun
  obtain ⟨rt, h1, h2, h3, h4⟩ := C14_tree_first rxMatch visit srv.tree srv.regs meth path buf
  cases hsh with
  | notFound hf _ _ => have := (h4 res hres).1 hf; exact ⟨⟨rt, h1, this.1⟩, this.2⟩
  | sessFail hc' => rw [hc] at hc'; simp at hc'
  | nilSet hc' => rw [hc] at hc'; simp at hc'
  | routed hc' => rw [hc] at hc'; simp at hc'

/-! ### C63 -/

theorem no_released {bs : List Block} (h : Inner bs) : Ev.released ∉ flat bs := by
  intro hm
  simp only [flat, List.mem_flatMap] at hm
  obtain ⟨b, hb, hm⟩ := hm
  simp only [Block.evs, List.cons_append, List.mem_cons, List.mem_append, List.not_mem_nil, or_false, reduceCtorEq,
    false_or] at hm
  have := h b hb _ hm
  simp [Ev.inner] at this

/-- C63 (partial).  The pooled parameter buffer is released once, as the very last action.  No request
goroutine is running then, provided that nothing panicked, the request was not aborted, the session
initialiser succeeded and the last handler started no goroutine.  (Without these provisos: see
`C63_violated`.) -/
theorem C63_release_partial (hrun : runHTTP env rxMatch visit srv meth path resp store buf clock = .ret d)
    (hctx : d.ctx.isSome = true) :
    ∃ t, d.trace = t ++ [.released] ∧ Ev.released ∉ t ∧
      (d.flow ≠ .panicked → Ev.ctl .abort ∉ t → (srv.initCtx.isSome = true → (rets t).head? = some .ok) →
        (∀ pre e dn post, t = pre ++ .start (.last e) dn :: post → Ev.spawn ∉ post) → spawned t = ended t) := by
  obtain ⟨res, hres, hsh⟩ := request_shape hrun
  cases hsh with
  | notFound _ hc => rw [hc] at hctx; simp at hctx
  | @sessFail cf b hc hcan hin ht hi hid hd ho =>
    refine ⟨flat [b], by simp [Done.trace, hc, ht], no_released hi, ?_⟩
    intro hp _ hse
    exfalso
    have := hse hin
    rw [rets_flat hi] at this
    rcases ho with ⟨h, _⟩ | ⟨e, h, _⟩ <;> simp [h] at this
  | @nilSet cf sb hc hcan hset ht hi hsb hlen hfl =>
    exact ⟨flat sb, by simp [Done.trace, hc, ht], no_released hi, fun h => absurd hfl h⟩
  | @routed cf c sb bs s f W L hc hcan hset hi hsb hlen hx hlv hqn hr ht hcf =>
    refine ⟨flat sb ++ flat bs ++ W ++ L, by simp [Done.trace, hc, ht], ?_, ?_⟩
    · have hWL : Ev.released ∉ W ∧ Ev.released ∉ L := by
        rcases hr.rest with ⟨rfl, rfl, _⟩ | ⟨_, hW, _, err, _, ⟨_, rfl, _⟩ | ⟨_, b, rfl, hb, _⟩⟩
        · simp
        · exact ⟨fun h => by have := hW _ h; simp [Ev.isGo] at this, by simp⟩
        · refine ⟨fun h => by have := hW _ h; simp [Ev.isGo] at this, ?_⟩
          have := no_released (inner_single hb)
          simpa [flat] using this
      simp only [List.mem_append, not_or]
      exact ⟨⟨⟨no_released hi, no_released hr.inner⟩, hWL.1⟩, hWL.2⟩
    · intro hp hab _ hsp
      have hcnt := hx.cnt
      have hca := hx.ab
      simp only [newContext, List.length_nil, Bool.false_or, Nat.zero_add] at hcnt hca
      rcases hr.rest with ⟨_, _, hfl, h⟩ | ⟨_, hW, hc2, err, _, ⟨_, rfl, _⟩ | ⟨_, b, rfl, hb, _, hle, hid, _⟩⟩
      · exfalso
        rcases h with h | h
        · exact hp (by rw [hfl, h])
        · rw [hca, ← hasCtl_append, hasCtl_iff] at h
          exact hab (by simp only [List.append_assoc] at *; rw [← List.append_assoc]; exact List.mem_append_left _ h)
      · simp only [spawned_append, ended_append] at *
        have : spawned [] = 0 := rfl
        have : ended [] = 0 := rfl
        omega
      · have h0 : spawned b.evs = 0 := by
          have h1 : Ev.spawn ∉ b.body ++ [.ret b.o b.d'] :=
            hsp (flat sb ++ flat bs ++ W) (combine err (c.egErr.or (goErrs (flat bs ++ W)).head?)) b.d
              (b.body ++ [.ret b.o b.d']) (by simp [Block.evs, hid])
          simp only [spawned, List.countP_eq_zero]
          intro e he
          have : e ≠ .spawn := by
            rintro rfl
            apply h1
            simpa [Block.evs] using he
          cases e <;> simp_all
        simp only [spawned_append, ended_append] at *
        omega

end

/-! ### Concrete requests -/

namespace ReqEx
open ChainEx

/-- A last handler. -/
def lastH (ops : List (COp Nat)) (o : HOut) : LastH Nat := ⟨b!"last", fun _ => (does [] ops o).run⟩

/-- Nothing runs until it is waited for. -/
def lazy : Env Nat := ⟨env.fin, fun _ => [], fun _ => false⟩

/-- A server with GET /a/:id and GET /b (set 1 and 2). -/
def server (logLevel : Int) (ini : Option (RCtx Nat → Prog Nat)) (s1 s2 : HSetV Nat) : Srv Nat Nat Nat :=
  { tree := treeOf [⟨mGet, b!"/a/:id", 1⟩, ⟨mGet, b!"/b", 2⟩], regs := newRegTree,
    sets := fun n => if n = 1 then s1 else s2, initCtx := ini, logLevel := logLevel }

def empty : HSetV Nat := ⟨[], [], none, some (mainH [] [] .ok)⟩

def run (e : Env Nat) (s : Srv Nat Nat Nat) (p : Str) : List Ev × Flow × Nat :=
  match runHTTP e (fun _ _ => false) id s mGet p ⟨200, [], []⟩ (fun a => a.length) [] 0 with
  | .ret d => (d.trace, d.flow, d.resp.status)
  | _ => ([], .next, 0)

def names (e : Env Nat) (s : Srv Nat Nat Nat) (p : Str) : List Str :=
  match runHTTP e (fun _ _ => false) id s mGet p ⟨200, [], []⟩ (fun a => a.length) [] 0 with
  | .ret ⟨some c, _, _⟩ => calledHandles c
  | _ => []

def set1 : HSetV Nat := ⟨[some (does b!"auth" [.go (.ret 0), .go (.ret 1)] .ok)], [some (does b!"log" [] .ok)],
  some (lastH [] .ok), some (mainH [] [] (.err (.leaf 5 b!"bad")))⟩

-- C21, C22, C23: goroutine 1 fails with "g1", the main handler with "bad"; the last handler gets both
example : run lazy (server 5 none set1 empty) b!"/a/7" =
    ([.start .init false, .ret .ok false, .start (.before 0) false, .spawn, .spawn, .ret .ok false,
      .start .main false, .ret (.err (.leaf 5 b!"bad")) false, .goEnd none, .goEnd (some (.leaf 1 b!"g1")),
      .start (.last (some (.wrap (.leaf 5 b!"bad") b!"g1"))) true, .ret .ok true, .released], .returned none, 200) := by
  decide +kernel
-- a goroutine that fails early cancels the request context for the following handlers
example : startsDone (run env (server 5 none ⟨[some (does b!"auth" [.go (.ret 1)] .ok)], [], none,
    some (mainH [] [] .ok)⟩ empty) b!"/a/7").1 = [(.init, false), (.before 0, false), (.main, true)] := by decide +kernel
-- an abort: no last handler
example : starts (run lazy (server 5 none ⟨[some (does b!"auth" [.abort] .ok)], [], some (lastH [] .ok),
    some (mainH [] [] .ok)⟩ empty) b!"/a/7").1 = [.init, .before 0] := by decide +kernel
-- a failing session initialiser
example : run lazy (server 5 (some (does [] [] (.err (.leaf 3 b!"no db"))).run) set1 empty) b!"/b" =
    ([.start .sess false, .ret (.err (.leaf 3 b!"no db")) false, .released],
      .returned (some (.leaf 0 b!"path '/b': no db")), 200) := by decide +kernel
-- C24: the debug trace
example : names lazy (server 5 none set1 empty) b!"/a/7" = [b!"m", b!"auth", b!"m"] ∧
    names lazy (server 4 none set1 empty) b!"/a/7" = [b!"available in debug mode only"] := by decide +kernel
theorem quietEx : QuietSet set1 := by
  have hd : ∀ (ops : List (COp Nat)) (o : HOut), (∀ op ∈ ops, (∀ l, op ≠ .setLevel l) ∧ ∀ s, op ≠ .addName s) →
      ∀ n c, Quiet ((does n ops o).run c) := by
    intro ops o h n c
    show Quiet (ops.foldr (fun op p => Prog.call op fun _ => p) (.ret o))
    induction ops with
    | nil => exact .ret o
    | cons op ops ih =>
      exact .call op _ (h op (by simp)).1 (h op (by simp)).2 fun _ => ih fun x hx => h x (by simp [hx])
  refine ⟨?_, ?_, ?_⟩
  · intro m hm
    simp only [set1, Option.some.injEq] at hm
    subst hm
    exact ⟨hd _ _ (by simp) [], hd _ _ (by simp) []⟩
  · intro h hh
    simp only [set1, List.singleton_append, List.mem_cons, Option.some.injEq, List.not_mem_nil, or_false] at hh
    rcases hh with rfl | rfl
    · exact hd _ _ (by simp) []
    · exact hd _ _ (by simp) []
  · intro l hl e
    simp only [set1, Option.some.injEq] at hl
    subst hl
    exact hd _ _ (by simp) []
-- C25
example : run lazy (server 5 none set1 empty) b!"/c" =
    ([], .returned (some (.leaf 0 b!"path '/c' not found")), 404) := by decide +kernel
example : (∀ r ∈ [(⟨mGet, b!"/a/:id", 1⟩ : Reg Nat), ⟨mGet, b!"/b", 2⟩],
    covers r.method mGet = true → matchRoute (routePats r) (segs b!"/c") = none) := by decide +kernel

end ReqEx

/-- C63 is violated: after Abort the pooled buffer is released while a request goroutine is running. -/
theorem C63_violated : ∃ (env : Env Nat) (srv : Srv Nat Nat Nat) (d : Done Nat) (t : List Ev),
    runHTTP (ρ := Nat) env (fun _ _ => false) id srv mGet b!"/a/7" ⟨200, [], []⟩ (fun a => a.length) [] 0 = .ret d ∧
    d.trace = t ++ [.released] ∧ d.flow = .returned none ∧ ended t < spawned t := by
  refine ⟨ReqEx.lazy, ReqEx.server 5 none ⟨[some (ChainEx.does b!"auth" [.go (.ret 0), .abort] .ok)], [], none,
    some (ChainEx.mainH [] [] .ok)⟩ ReqEx.empty, ?_⟩
  have h : ∀ o : Outcome (Done Nat), (match o with | .ret _ => true | _ => false) = true → ∃ d, o = .ret d := by
    intro o h; cases o <;> simp_all
  obtain ⟨d, hd⟩ := h (runHTTP ReqEx.lazy (fun _ _ => false) id (ReqEx.server 5 none
    ⟨[some (ChainEx.does b!"auth" [.go (.ret 0), .abort] .ok)], [], none, some (ChainEx.mainH [] [] .ok)⟩ ReqEx.empty)
    mGet b!"/a/7" ⟨200, [], []⟩ (fun a => a.length) [] 0) (by decide +kernel)
  have h2 : ReqEx.run ReqEx.lazy (ReqEx.server 5 none ⟨[some (ChainEx.does b!"auth" [.go (.ret 0), .abort] .ok)], [], none,
      some (ChainEx.mainH [] [] .ok)⟩ ReqEx.empty) b!"/a/7" =
      ([.start .init false, .ret .ok false, .start (.before 0) false, .spawn, .ctl .abort, .ret .ok true] ++ [.released],
        .returned none, 200) := by decide +kernel
  unfold ReqEx.run at h2
  rw [hd] at h2
  simp only [Prod.mk.injEq] at h2
  exact ⟨d, _, hd, h2.1, h2.2.1, by decide⟩

/-- The run of a server as its trace shows it. -/
theorem run_seen {srv : Srv Nat Nat Nat} {t : List Ev} {f : Flow} {n : Nat} (h : ReqEx.run ReqEx.lazy srv b!"/a/7" = (t, f, n)) (ht : t ≠ []) :
    ∃ d, runHTTP ReqEx.lazy (fun _ _ => false) id srv mGet b!"/a/7" ⟨200, [], []⟩ (fun a => a.length) [] 0 = .ret d ∧
      d.trace = t ∧ d.flow = f := by
  unfold ReqEx.run at h
  split at h
  · next d hd =>
    simp only [Prod.mk.injEq] at h
    exact ⟨d, hd, h.1, h.2.1⟩
  · simp only [Prod.mk.injEq] at h
    exact absurd h.1.symm ht

/-- A goroutine is left running when the buffer is given back. -/
def LeavesRunning (srv : Srv Nat Nat Nat) (f : Flow) (t : List Ev) : Prop :=
  ∃ d : Done Nat, runHTTP ReqEx.lazy (fun _ _ => false) id srv mGet b!"/a/7" ⟨200, [], []⟩ (fun a => a.length) [] 0 = .ret d ∧
    d.trace = t ++ [.released] ∧ d.flow = f ∧ ended t < spawned t

/-- C63, each proviso of `C63_release_partial` is needed: with any one of them not met (and all others met) a goroutine may be
left running when the buffer is given back — a handler panics; a handler aborts; the session initialiser fails; the last
handler starts a goroutine. -/
theorem C63_provisos :
    (∃ srv t, LeavesRunning srv .panicked t ∧ Ev.ctl .abort ∉ t ∧ srv.initCtx = none ∧ ∀ e dn, Ev.start (.last e) dn ∉ t) ∧
    (∃ srv t, LeavesRunning srv (.returned none) t ∧ Ev.ctl .abort ∈ t ∧ srv.initCtx = none ∧ ∀ e dn, Ev.start (.last e) dn ∉ t) ∧
    (∃ srv t f, LeavesRunning srv f t ∧ f ≠ .panicked ∧ Ev.ctl .abort ∉ t ∧ srv.initCtx.isSome = true ∧ (rets t).head? ≠ some .ok ∧
      ∀ e dn, Ev.start (.last e) dn ∉ t) ∧
    (∃ srv t, LeavesRunning srv (.returned none) t ∧ Ev.ctl .abort ∉ t ∧ srv.initCtx = none ∧
      ∃ pre e dn post, t = pre ++ .start (.last e) dn :: post ∧ Ev.spawn ∈ post ∧ Ev.spawn ∉ pre) := by
  refine ⟨?_, ?_, ?_, ?_⟩
  · refine ⟨ReqEx.server 5 none ⟨[some (ChainEx.does b!"auth" [.go (.ret 0)] .panic)], [], none, some (ChainEx.mainH [] [] .ok)⟩ ReqEx.empty,
      [.start .init false, .ret .ok false, .start (.before 0) false, .spawn, .ret .panic false], ?_, by decide, rfl, by simp⟩
    obtain ⟨d, h1, h2, h3⟩ := run_seen (srv := ReqEx.server 5 none ⟨[some (ChainEx.does b!"auth" [.go (.ret 0)] .panic)], [], none,
      some (ChainEx.mainH [] [] .ok)⟩ ReqEx.empty) (t := [.start .init false, .ret .ok false, .start (.before 0) false, .spawn, .ret .panic false] ++ [.released])
      (f := .panicked) (n := 200) (by decide +kernel) (by decide)
    exact ⟨d, h1, h2, h3, by decide⟩
  · refine ⟨ReqEx.server 5 none ⟨[some (ChainEx.does b!"auth" [.go (.ret 0), .abort] .ok)], [], none, some (ChainEx.mainH [] [] .ok)⟩ ReqEx.empty,
      [.start .init false, .ret .ok false, .start (.before 0) false, .spawn, .ctl .abort, .ret .ok true], ?_, by decide, rfl, by simp⟩
    obtain ⟨d, h1, h2, h3⟩ := run_seen (srv := ReqEx.server 5 none ⟨[some (ChainEx.does b!"auth" [.go (.ret 0), .abort] .ok)], [], none,
      some (ChainEx.mainH [] [] .ok)⟩ ReqEx.empty) (t := [.start .init false, .ret .ok false, .start (.before 0) false, .spawn, .ctl .abort, .ret .ok true] ++ [.released])
      (f := .returned none) (n := 200) (by decide +kernel) (by decide)
    exact ⟨d, h1, h2, h3, by decide⟩
  · refine ⟨ReqEx.server 5 (some (ChainEx.does [] [.go (.ret 0)] (.err (.leaf 3 b!"no db"))).run) ReqEx.empty ReqEx.empty,
      [.start .sess false, .spawn, .ret (.err (.leaf 3 b!"no db")) false], .returned (some (.leaf 0 b!"path '/a/7': no db")), ?_, by decide, by decide, rfl,
      by decide, by simp⟩
    obtain ⟨d, h1, h2, h3⟩ := run_seen (srv := ReqEx.server 5 (some (ChainEx.does [] [.go (.ret 0)] (.err (.leaf 3 b!"no db"))).run) ReqEx.empty ReqEx.empty)
      (t := [.start .sess false, .spawn, .ret (.err (.leaf 3 b!"no db")) false] ++ [.released])
      (f := .returned (some (.leaf 0 b!"path '/a/7': no db"))) (n := 200) (by decide +kernel) (by decide)
    exact ⟨d, h1, h2, h3, by decide⟩
  · refine ⟨ReqEx.server 5 none ⟨[], [], some (ReqEx.lastH [.go (.ret 0)] .ok), some (ChainEx.mainH [] [] .ok)⟩ ReqEx.empty,
      [.start .init false, .ret .ok false, .start .main false, .ret .ok false, .start (.last none) true, .spawn, .ret .ok true], ?_, by decide, rfl,
      [.start .init false, .ret .ok false, .start .main false, .ret .ok false], none, true, [.spawn, .ret .ok true], rfl, by decide, by decide⟩
    obtain ⟨d, h1, h2, h3⟩ := run_seen (srv := ReqEx.server 5 none ⟨[], [], some (ReqEx.lastH [.go (.ret 0)] .ok), some (ChainEx.mainH [] [] .ok)⟩ ReqEx.empty)
      (t := [.start .init false, .ret .ok false, .start .main false, .ret .ok false, .start (.last none) true, .spawn, .ret .ok true] ++ [.released])
      (f := .returned none) (n := 200) (by decide +kernel) (by decide)
    exact ⟨d, h1, h2, h3, by decide⟩

end Verif
