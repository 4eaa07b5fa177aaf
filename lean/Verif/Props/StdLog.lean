import Verif.Model.StdLog
import Verif.Spec.StdLog
import Verif.Props.Auth
import Verif.Base.FastPath
/-
C88: what the server prints about failed requests.
-/
namespace Verif
set_option linter.unusedSectionVars false
open Spec

section
variable {υ σ ρ : Type} [DecidableEq ρ] {u : Str → Str} {env : Env υ} {rxMatch : ρ → Str → Bool}
  {visit : GoMap ρ (Option σ) → List (ρ × Option σ)} {srv : Srv υ σ ρ} {ba : BaseAuth} {req : Req} {resp : Resp}
  {store : Args → υ} {buf : Args} {clock : Nat} {sv : Served υ} {d : Done υ} {meth : Method} {path : Str}

/-- The error runHTTP returns. -/
theorem failure_flow (hrun : runHTTP env rxMatch visit srv meth path resp store buf clock = .ret d) (hp : d.flow ≠ .panicked) :
    ∃ r, d.flow = .returned r ∧ r.map (·.error) = reasonOf d.ctx.isSome path d.trace := by
  have hnf : d.ctx = none → d.flow = .returned (some (.leaf 0 (b!"path '" ++ path ++ b!"' not found"))) := by
    intro hc
    unfold runHTTP at hrun
    cases hf : serverFind rxMatch visit srv.tree srv.regs meth path buf with
    | panic => rw [hf] at hrun; cases hrun
    | outOfFuel => rw [hf] at hrun; cases hrun
    | ret res =>
      rw [hf] at hrun
      simp only [Outcome.bind] at hrun
      by_cases hfound : res.found = true
      · rw [if_neg (by simp [hfound])] at hrun
        simp only [Outcome.ret.injEq] at hrun
        rw [← hrun] at hc; cases hc
      · rw [if_pos hfound] at hrun
        simp only [Outcome.ret.injEq] at hrun
        rw [← hrun]
  obtain ⟨res, hres, hsh⟩ := request_shape hrun
  cases hsh with
  | notFound hf hc hfl =>
    refine ⟨_, hnf hc, ?_⟩
    rw [hc]
    rfl
  | @sessFail cf b hc hcan hin ht hi hid hd ho =>
    rcases ho with ⟨_, h⟩ | ⟨e, h1, h2⟩
    · exact absurd h hp
    · refine ⟨_, h2, ?_⟩
      have hs : starts (cf.trace) = [.sess] := by
        rw [ht, starts_append, starts_flat hi]; simp [hid, starts]
      have hr : rets (cf.trace) = [.err e] := by
        rw [ht, rets_append, rets_flat hi]; simp [h1, rets]
      simp only [reasonOf, hc, Done.trace, Option.isSome_some, Bool.true_eq_false, if_false, sessErr, hs, hr, List.head?_cons,
        Option.map_some]
      rfl
  | nilSet hc hcan hset ht hi hsb hlen hfl => exact absurd hfl hp
  | @routed cf c sb bs s f W L hc hcan hset hi hsb hlen hx hlv hqn hr ht hcf =>
    have hsess : ∀ R, (starts R).head? ≠ some .sess → sessErr (flat sb ++ R) = none := by
      intro R hR
      cases sb with
      | nil =>
        unfold sessErr
        simp only [flat_nil, List.nil_append]
        split
        · rename_i h _; exact absurd h hR
        · rfl
      | cons z zs =>
        have hz := (hsb z (by simp)).2.1
        unfold sessErr
        have : (rets (flat (z :: zs) ++ R)).head? = some .ok := by
          rw [rets_append, rets_flat hi]; simp [hz]
        rw [this]
        split
        · rename_i h; cases h
        · rfl
    have hbsSess : ∀ R, (starts R).head? ≠ some .sess → (starts (flat bs ++ R)).head? ≠ some .sess := by
      intro R hR
      rw [starts_append, starts_flat hr.inner]
      cases bs with
      | nil => simpa using hR
      | cons z zs =>
        simp only [List.map_cons, List.cons_append, List.head?_cons, ne_eq, Option.some.injEq]
        exact (runs_chain_ids hr.runs z (by simp)).1
    have hnoLast : (sb.map (·.id) ++ bs.map (·.id)).any isLast = false := by
      rw [List.any_eq_false]
      intro x hx
      rcases List.mem_append.1 hx with hx | hx
      · obtain ⟨z, hz, rfl⟩ := List.mem_map.1 hx
        rw [(hsb z hz).1]; simp [isLast]
      · obtain ⟨z, hz, rfl⟩ := List.mem_map.1 hx
        have := (runs_chain_ids hr.runs z hz).2
        cases hid : z.id with
        | last e => exact absurd hid (this e)
        | _ => simp [isLast]
    have hsbOk : (sb.map (·.o)).findSome? errOf = none := by
      rw [List.findSome?_eq_none_iff]
      intro o ho
      obtain ⟨z, hz, rfl⟩ := List.mem_map.1 ho
      rw [(hsb z hz).2.1]; rfl
    have hca := hx.ab
    simp only [newContext, Bool.false_or] at hca
    have heg := hx.eg
    simp only [newContext, Option.none_or] at heg
    have htr : d.trace = flat sb ++ (flat bs ++ (W ++ (L ++ [Ev.released]))) := by
      simp only [Done.trace, hc, ht, List.append_assoc]
    rcases hr.rest with ⟨rfl, rfl, hfl', h⟩ | ⟨hab, hW, _, err, hf', hl⟩
    · -- panicked or aborted
      rcases h with h | h
      · rw [hfl', h] at hp; exact absurd rfl hp
      · cases hf : f with
        | next => rw [hf] at hr; exact absurd rfl hr.runs.ne_next
        | panicked => rw [hfl', hf] at hp; exact absurd rfl hp
        | returned err =>
          rw [hf] at hr
          obtain ⟨r1, r2, r3⟩ := runs_chainErr hr.runs hr.inner
          refine ⟨err, by rw [hfl', hf], ?_⟩
          have hs1 : sessErr d.trace = none := by
            rw [htr]; exact hsess _ (hbsSess _ (by simp [starts]))
          have hl1 : lastRan d.trace = false := by
            rw [htr, lastRan, starts_append, starts_append, starts_flat hi, starts_flat hr.inner]
            have : starts ([] ++ ([] ++ [Ev.released])) = [] := rfl
            rw [this, List.append_nil]; exact hnoLast
          have ha1 : called .abort d.trace = true := by
            rw [htr, called]
            rw [hca, ← hasCtl_append, hasCtl] at h
            rw [← List.append_assoc]
            simp only [List.contains_iff_mem, List.mem_append] at h ⊢
            exact Or.inl h
          have hc1 : chainErr d.trace = err := by
            rw [htr, chainErr, rets_append, rets_append, rets_flat hi, List.findSome?_append, hsbOk, Option.none_or,
              List.findSome?_append]
            have : rets ([] ++ ([] ++ [Ev.released])) = [] := rfl
            rw [this]
            have := r1
            rw [chainErr] at this
            rw [this]; simp
          simp [reasonOf, hc, hs1, hl1, ha1, hc1]
    · have hWi := isGo_inner hW
      rw [hf'] at hr
      obtain ⟨r1, r2, r3⟩ := runs_chainErr hr.runs hr.inner
      rcases hl with ⟨hnl, rfl, hfl⟩ | ⟨hl1, b, rfl, hb1, hb2, _, hb3, hb4⟩
      · -- no last handler
        refine ⟨_, hfl, ?_⟩
        have hst : starts (W ++ ([] ++ [Ev.released])) = [] := by
          rw [starts_append, starts_inner hWi]; rfl
        have hrt : rets (W ++ ([] ++ [Ev.released])) = [] := by
          rw [rets_append, rets_inner hWi]; rfl
        have hs1 : sessErr d.trace = none := by
          rw [htr]; exact hsess _ (hbsSess _ (by rw [hst]; simp))
        have hl1 : lastRan d.trace = false := by
          rw [htr, lastRan, starts_append, starts_append, starts_flat hi, starts_flat hr.inner, hst, List.append_nil]
          exact hnoLast
        have ha1 : called .abort d.trace = false := by
          rw [hca, ← hasCtl_append] at hab
          cases hcl : called .abort d.trace with
          | false => rfl
          | true =>
            exfalso
            rw [htr, called, List.contains_iff_mem] at hcl
            rw [← List.append_assoc] at hcl
            rcases List.mem_append.1 hcl with h | h
            · rw [(hasCtl_iff _ _).2 h] at hab; simp at hab
            · rcases List.mem_append.1 h with h | h
              · exact isGo_noctl hW _ h
              · simp at h
        have hc1 : chainErr d.trace = err := by
          rw [htr, chainErr, rets_append, rets_append, rets_flat hi, List.findSome?_append, hsbOk, Option.none_or, hrt,
            List.append_nil]
          exact r1
        have hg1 : (goErrs d.trace).head? = c.egErr.or (goErrs (flat bs ++ W)).head? := by
          rw [htr, heg, goErrs_append, goErrs_append, goErrs_append]
          have : goErrs ([] ++ [Ev.released]) = [] := rfl
          rw [this, List.append_nil, List.head?_append, ← goErrs_append]
        simp [reasonOf, hc, hs1, hl1, ha1, hc1, hg1]
      · -- the last handler ran
        have hbi := inner_single hb1
        have hLs : starts b.evs = [b.id] := by
          have := starts_flat hbi
          simpa [flat] using this
        have hLr : rets b.evs = [b.o] := by
          have := rets_flat hbi
          simpa [flat] using this
        have hst : starts (W ++ (b.evs ++ [Ev.released])) = [b.id] := by
          rw [starts_append, starts_inner hWi, starts_append, hLs]; rfl
        have hs1 : sessErr d.trace = none := by
          rw [htr]; exact hsess _ (hbsSess _ (by rw [hst, hb3]; simp))
        have hl1 : lastRan d.trace = true := by
          rw [htr, lastRan, starts_append, starts_append, hst, hb3]
          simp [isLast]
        have hr1 : (rets d.trace).getLast? = some b.o := by
          rw [htr, rets_append, rets_append, rets_append, rets_append, hLr]
          have : rets [Ev.released] = [] := rfl
          rw [this]
          simp only [List.append_nil, ← List.append_assoc, List.getLast?_concat]
        cases ho : b.o with
        | panic => rw [hb4, ho] at hp; exact absurd rfl hp
        | ok =>
          refine ⟨none, by rw [hb4, ho], ?_⟩
          simp [reasonOf, hc, hs1, hl1, hr1, ho, errOf]
        | err e =>
          refine ⟨some e, by rw [hb4, ho], ?_⟩
          simp [reasonOf, hc, hs1, hl1, hr1, ho, errOf]

/-- **C88.** What is printed about a request: nothing if it was refused by authentication or a handler panicked;
otherwise the address and the reason if it failed, and nothing if it did not. -/
theorem C88_message (addr : Str) (h : serveHTTP u env rxMatch visit srv ba req resp store buf clock = .ret sv) :
    stdLog addr sv =
      match sv.ran with
      | none => []
      | some d =>
        if d.flow = .panicked then []
        else match reasonOf d.ctx.isSome req.path d.trace with
          | none => []
          | some reason => b!"[" ++ addr ++ b!"] " ++ reason ++ b!"\n" := by
  have main : ∀ r d, sv.ran = some d → runHTTP env rxMatch visit srv req.method req.path r store buf clock = .ret d →
      stdLog addr sv = if d.flow = .panicked then [] else match reasonOf d.ctx.isSome req.path d.trace with
          | none => []
          | some reason => b!"[" ++ addr ++ b!"] " ++ reason ++ b!"\n" := by
    intro r d hd hr
    by_cases hp : d.flow = .panicked
    · rw [if_pos hp]
      simp only [stdLog, hd, hp]
    · rw [if_neg hp]
      obtain ⟨e, h1, h2⟩ := failure_flow hr hp
      simp only [stdLog, hd, h1, ← h2]
      cases e <;> rfl
  rcases serve_shape h with ⟨h1, h2, k, h3, h4, h5⟩ | ⟨h1, h2, d', h3, h4, h5⟩
  · rcases h5 with ⟨k1, k2, k3⟩ | ⟨k1, d', k2, k3, k4⟩
    · simp only [stdLog, k2, printError]
    · rw [main _ _ k3 k2, k3]
  · rw [main _ _ h4 h3, h4]

/-- **C88.** If neither the address nor the reason contains a newline, one line is printed; in general one more than they
contain. -/
theorem C88_lines_partial (addr : Str) (h : serveHTTP u env rxMatch visit srv ba req resp store buf clock = .ret sv)
    (hd : sv.ran = some d) (hp : d.flow ≠ .panicked) :
    lineCount (stdLog addr sv) =
      match reasonOf d.ctx.isSome req.path d.trace with
      | none => 0
      | some reason => lineCount addr + lineCount reason + 1 := by
  rw [C88_message addr h, hd]
  simp only [if_neg hp]
  cases reasonOf d.ctx.isSome req.path d.trace with
  | none => rfl
  | some reason =>
    simp only [lineCount, List.count_append]
    have h1 : List.count 10 b!"[" = 0 := by decide
    have h2 : List.count 10 b!"] " = 0 := by decide
    have h3 : List.count 10 b!"\n" = 1 := by decide
    omega

end

/-- **C88, violated.** A client forges a line about another address: the path of the request "/x%0A[10.0.0.1:1]%20ok%0A",
as decoded by the HTTP library, is printed as it is. -/
theorem C88_violated :
    normalizePath b!"/x%0A[10.0.0.1:1]%20ok%0A" = b!"/x\n[10.0.0.1:1] ok\n" ∧
    ∃ sv, serveHTTP (υ := Nat) (σ := Nat) (ρ := Nat) (fun s => s) ReqEx.lazy (fun _ _ => false) id
        (ReqEx.server 5 none ReqEx.set1 ReqEx.empty) newBaseAuth ⟨mGet, b!"/x\n[10.0.0.1:1] ok\n", []⟩ ⟨200, [], []⟩
        (fun a => a.length) [] 0 = .ret sv ∧
      stdLog b!"192.0.2.7:5" sv = b!"[192.0.2.7:5] path '/x\n" ++ b!"[10.0.0.1:1] ok\n" ++ b!"' not found\n" := by
  refine ⟨by decide +kernel, ?_⟩
  have key : ∀ o : Outcome (Served Nat), (match o with | .ret sv => stdLog b!"192.0.2.7:5" sv | _ => []) =
      b!"[192.0.2.7:5] path '/x\n" ++ b!"[10.0.0.1:1] ok\n" ++ b!"' not found\n" →
      ∃ sv, o = .ret sv ∧ stdLog b!"192.0.2.7:5" sv =
        b!"[192.0.2.7:5] path '/x\n" ++ b!"[10.0.0.1:1] ok\n" ++ b!"' not found\n" := by
    intro o h
    cases o with
    | ret sv => exact ⟨sv, rfl, h⟩
    | panic => exact absurd h (by decide)
    | outOfFuel => exact absurd h (by decide)
  exact key _ (by decide +kernel)

/-- **C88.** Requests with different endings: main handler and goroutine fail but the last handler returns nil (nothing is
printed), without a last handler, aborted, with a failing session initialiser. -/
example :
    let msg := fun (ini : Option (RCtx Nat → Prog Nat)) (s : HSetV Nat) =>
      match serveHTTP (υ := Nat) (σ := Nat) (ρ := Nat) (fun s => s) ReqEx.lazy (fun _ _ => false) id
        (ReqEx.server 5 ini s ReqEx.empty) newBaseAuth ⟨mGet, b!"/a/7", []⟩ ⟨200, [], []⟩ (fun a => a.length) [] 0 with
      | .ret sv => stdLog b!"::1" sv
      | _ => b!"-"
    let bad : Option (MainH Nat) := some (ChainEx.mainH [] [.go (.ret 1)] (.err (.leaf 5 b!"bad")))
    msg none ⟨[], [], some (ReqEx.lastH [] .ok), bad⟩ = [] ∧
    msg none ⟨[], [], some (ReqEx.lastH [] (.err (.leaf 6 b!"end"))), bad⟩ = b!"[::1] end\n" ∧
    msg none ⟨[], [], none, bad⟩ = b!"[::1] g1: bad\n" ∧
    msg none ⟨[some (ChainEx.does [] [.go (.ret 1), .abort] (.err (.leaf 7 b!"no")))], [], none, bad⟩ = b!"[::1] no\n" ∧
    msg (some (ChainEx.does [] [] (.err (.leaf 3 b!"no db"))).run) ⟨[], [], none, bad⟩ = b!"[::1] path '/a/7': no db\n" := by
  decide +kernel

end Verif
