import Verif.Props.Request
/-
C63: which part of a request leaves goroutines running when the parameter buffer is given back.
-/
namespace Verif
set_option linter.unusedSectionVars false
open Spec
variable {υ : Type} {σ ρ : Type} [DecidableEq ρ]
variable {env : Env υ} {rxMatch : ρ → Str → Bool} {visit : GoMap ρ (Option σ) → List (ρ × Option σ)}
  {srv : Srv υ σ ρ} {meth : Method} {path : Str} {resp : Resp} {store : Args → υ} {buf : Args} {clock : Nat}
  {d : Done υ}

/-- C63, where: goroutines are running when the buffer is given back iff either the last handler was called and not all goroutines started since then
have ended - whatever it did otherwise, everything started before it has ended -, or the last handler was not called, not all goroutines have ended,
and a handler panicked, the request was aborted, or the session initialiser did not succeed.  (All of these occur: `C63_provisos`.) -/
theorem C63_where (hrun : runHTTP env rxMatch visit srv meth path resp store buf clock = .ret d) (hctx : d.ctx.isSome = true) :
    ∃ t, d.trace = t ++ [.released] ∧ Ev.released ∉ t ∧
      (spawned t ≠ ended t ↔
        (∃ pre e dn post, t = pre ++ .start (.last e) dn :: post ∧ spawned pre = ended pre ∧ spawned post ≠ ended post) ∨
        ((∀ e dn, Ev.start (.last e) dn ∉ t) ∧ spawned t ≠ ended t ∧
          (d.flow = .panicked ∨ Ev.ctl .abort ∈ t ∨ (srv.initCtx.isSome = true ∧ (rets t).head? ≠ some .ok)))) := by
  obtain ⟨t, ht, hr, hrel⟩ := C63_release_partial hrun hctx
  refine ⟨t, ht, hr, ?_⟩
  by_cases hl : ∃ e dn, Ev.start (.last e) dn ∈ t
  · obtain ⟨e, dn, hm⟩ := hl
    obtain ⟨pre, post, rfl⟩ := List.append_of_mem hm
    have hsum : ∀ (pre post : List Ev) (e : Option GoErr) (dn : Bool), spawned (pre ++ .start (.last e) dn :: post) = spawned pre + spawned post ∧
        ended (pre ++ .start (.last e) dn :: post) = ended pre + ended post := by
      intro pre post e dn
      constructor <;> simp [spawned, ended]
    have heq := ((C21_last hrun).1 pre e dn (post ++ [.released]) (by rw [ht]; simp)).2.2.1
    constructor
    · intro h
      refine Or.inl ⟨pre, e, dn, post, rfl, heq, fun h' => h ?_⟩
      rw [(hsum pre post e dn).1, (hsum pre post e dn).2, heq, h']
    · rintro (⟨pre', e', dn', post', h1, h2, h3⟩ | ⟨h, -⟩)
      · rw [h1, (hsum pre' post' e' dn').1, (hsum pre' post' e' dn').2]
        omega
      · exact absurd hm (h e dn)
  · have hno : ∀ e dn, Ev.start (.last e) dn ∉ t := fun e dn h => hl ⟨e, dn, h⟩
    constructor
    · intro h
      refine Or.inr ⟨hno, h, ?_⟩
      by_cases h1 : d.flow = .panicked
      · exact Or.inl h1
      · by_cases h2 : Ev.ctl .abort ∈ t
        · exact Or.inr (Or.inl h2)
        · by_cases h3 : srv.initCtx.isSome = true → (rets t).head? = some .ok
          · exfalso
            refine h (hrel h1 h2 h3 ?_)
            intro pre e dn post hp
            exact absurd (by rw [hp]; simp) (hno e dn)
          · exact Or.inr (Or.inr (Classical.not_imp.1 h3))
    · rintro (⟨pre, e, dn, post, h, -⟩ | ⟨-, h, -⟩)
      · exact absurd (by rw [h]; simp) (hno e dn)
      · exact h

end Verif
