import Verif.Lemmas.Rename
import Verif.Props.Routing
import Verif.Model.Auth
import Verif.Model.Ctx
/-
C131: routing looks at segments only to compare them, and not at the names of parameters.
-/
namespace Verif
open Spec

variable {σ : Type}

/-- The two tables are the same up to the spelling of literals and the names of parameters: the same methods and sets in the same order, and
routes that are respelled segment by segment. -/
def Spec.SameTable (f : Str → Str) (N : Str → Str → Prop) : List (Reg σ) → List (Reg σ) → Prop :=
  All2 fun r r' => r.method = r'.method ∧ r.set = r'.set ∧ All2 (Respelled f N) (routePats r) (routePats r')

theorem sameTable_regs {f : Str → Str} {N : Str → Str → Prop} {hist hist' : List (Reg σ)} (h : SameTable f N hist hist') :
    All2 (SameReg f N) hist hist' :=
  All2.imp (fun _ _ h => ⟨h.1, h.2.1, All2.map_iff segPat segPat _ _ h.2.2⟩) h

/-- C131.  Spell the literal segments of all routes and of the path asked for differently (different ones staying different), and give the parameters
other names (`N`, any relation that gives a name for a name, may be different for different routes): the lookup finds the same set, or nothing just
as before, and the parameters are the same ones in the same order, under the new names and in the new spelling.  For every sequence of
registrations, every method, every path, whatever the buffers held. -/
theorem C131_routing (f : Str → Str) (hf : Spelling f) (N : Str → Str → Prop) (hN : Naming N) (hist hist' : List (Reg σ))
    (h : SameTable f N hist hist') (m : Method) (path path' : Str) (hp : segs path' = (segs path).map f) (buf buf' : Args) :
    ∃ r r', treeFind (treeOf hist) m path buf = .ret r ∧ treeFind (treeOf hist') m path' buf' = .ret r' ∧
      r'.found = r.found ∧ r'.set = r.set ∧ SameParams f N r.args r'.args := by
  obtain ⟨r, r', h1, h2, h3⟩ := treeFind_sim hf hN (treeOf_sim hf hN (sameTable_regs h)) m hp buf buf'
  exact ⟨r, r', h1, h2, h3.2.1, h3.1, h3.2.2⟩

theorem spelling_id : Spelling (fun s => s) := ⟨fun _ _ h => h, rfl⟩

/-- C131, names.  When only names of parameters are changed, each parameter `n` to `g n`, a lookup finds the same and reports the same parameters,
under the new names. -/
theorem C131_names (g : Str → Str) (hg : ∀ n, n = [] ↔ g n = []) (hist hist' : List (Reg σ))
    (h : SameTable (fun s => s) (fun n n' => n' = g n) hist hist') (m : Method) (path : Str) (buf buf' : Args) :
    ∃ r, treeFind (treeOf hist) m path buf = .ret r ∧
      treeFind (treeOf hist') m path buf' = .ret { r with args := r.args.map fun a => (g a.1, a.2) } := by
  obtain ⟨r, r', h1, h2, h3, h4, h5⟩ := C131_routing (fun s => s) spelling_id (fun n n' => n' = g n)
    (fun n n' hn => by rw [hn]; exact hg n) hist hist' h m path path (by simp) buf buf'
  refine ⟨r, h1, ?_⟩
  rw [h2]
  have e : r'.args = r.args.map fun a => (g a.1, a.2) := by
    have key : ∀ {a a' : Args}, SameParams (fun s => s) (fun n n' => n' = g n) a a' → a' = a.map fun a => (g a.1, a.2) := by
      intro a a' ha
      unfold SameParams at ha
      induction ha with
      | nil => rfl
      | cons hab _ ih => rw [ih, List.map_cons]; congr 1; exact Prod.ext hab.1 hab.2
    exact key h5
  obtain ⟨s, fd, a⟩ := r
  obtain ⟨s', fd', a'⟩ := r'
  simp only at h3 h4 e
  rw [h3, h4, e]

/-- C131, whole requests.  Two servers that differ in the names of the parameters of their routes answer every request alike, with the same
effects, authentication, regular-expression routes and errors included, when their handlers read the parameters under the names of their own
server: `store` and `store'` are what the handlers of the two start from. -/
theorem C131_requests {υ ρ : Type} [DecidableEq ρ] (N : Str → Str → Prop) (hN : Naming N) (hist hist' : List (Reg σ))
    (h : SameTable (fun s => s) N hist hist') (u : Str → Str) (env : Env υ) (rxMatch : ρ → Str → Bool)
    (visit : GoMap ρ (Option σ) → List (ρ × Option σ)) (srv : Srv υ σ ρ) (ba : BaseAuth) (req : Req) (resp : Resp)
    (store store' : Args → υ) (hs : ∀ a a', SameParams (fun s => s) N a a' → store' a' = store a) (buf buf' : Args) (clock : Nat) :
    serveHTTP u env rxMatch visit { srv with tree := treeOf hist } ba req resp store buf clock =
      serveHTTP u env rxMatch visit { srv with tree := treeOf hist' } ba req resp store' buf' clock := by
  have hr : ∀ resp, runHTTP env rxMatch visit { srv with tree := treeOf hist } req.method req.path resp store buf clock =
      runHTTP env rxMatch visit { srv with tree := treeOf hist' } req.method req.path resp store' buf' clock := by
    intro resp
    obtain ⟨⟨s, fd, a⟩, ⟨s', fd', a'⟩, h1, h2, h3, h4, h5⟩ :=
      C131_routing (fun s => s) spelling_id N hN hist hist' h req.method req.path req.path (by simp) buf buf'
    simp only at h3 h4 h5
    subst h3 h4
    unfold runHTTP serverFind
    simp only [h1, h2, Outcome.bind]
    have e : store' a' = store a := hs _ _ h5
    cases fd' with
    | true => simp only [if_true, e]
    | false =>
      have e1 : regFind rxMatch visit srv.regs req.method req.path a = regFind rxMatch visit srv.regs req.method req.path a' := rfl
      have e2 : (regFind rxMatch visit srv.regs req.method req.path a').args = [] := by
        unfold regFind
        simp only [argsReset, FindResult.notFound]
        split
        · rfl
        · split <;> rfl
      simp only [e1, Bool.false_eq_true, if_false]
      generalize regFind rxMatch visit srv.regs req.method req.path a' = x at e2
      obtain ⟨xs, xf, xa⟩ := x
      simp only at e2
      subst e2
      have e0 : store' [] = store [] := hs _ _ .nil
      cases xf <;> simp [FindResult.notFound, e0]
  unfold serveHTTP
  simp only [hr]

/-- C131, reading by name.  A handler that reads the parameter `k` before, and `g k` after the renaming, reads the same. -/
theorem C131_read (g : Str → Str) (hg : ∀ a b, g a = g b → a = b) (k : Str) (a a' : Args)
    (h : SameParams (fun s => s) (fun n n' => n' = g n) a a') : argsPeek a' (g k) = argsPeek a k := by
  unfold SameParams at h
  unfold argsPeek
  induction h with
  | nil => rfl
  | @cons x y _ _ hab _ ih =>
    obtain ⟨x1, x2⟩ := x
    obtain ⟨y1, y2⟩ := y
    obtain ⟨h1, h2⟩ := hab
    simp only at h1 h2
    subst h1 h2
    by_cases hk : x1 = k
    · subst hk; simp
    · have : ¬ g x1 = g k := fun h => hk (hg _ _ h)
      simp only [List.find?_cons, hk, this, decide_false]
      exact ih

/-! ### The hypotheses are met: a shop under other names -/

/-- GET /user/:id/order/:nr and GET /user/:id, beside POST /user/me. -/
def shopTable : List (Reg Nat) := [⟨b!"GET", b!"/user/:id/order/:nr", 1⟩, ⟨b!"POST", b!"/user/me", 2⟩, ⟨b!"GET", b!"/user/:id", 3⟩]

/-- The same with `:name` for the first `:id`, `:who` for the second one and `:number` for `:nr`. -/
def shopTable' : List (Reg Nat) := [⟨b!"GET", b!"/user/:name/order/:number", 1⟩, ⟨b!"POST", b!"/user/me", 2⟩, ⟨b!"GET", b!"/user/:who", 3⟩]

/-- Any name for any name. -/
def anyName (n n' : Str) : Prop := n = [] ↔ n' = []

theorem shop_same : SameTable (fun s => s) anyName shopTable shopTable' := by
  refine .cons ⟨rfl, rfl, ?_⟩ (.cons ⟨rfl, rfl, ?_⟩ (.cons ⟨rfl, rfl, ?_⟩ .nil))
  · rw [show routePats (σ := Nat) ⟨b!"GET", b!"/user/:id/order/:nr", 1⟩ = [.lit b!"user", .par b!"id", .lit b!"order", .par b!"nr"] by decide +kernel,
      show routePats (σ := Nat) ⟨b!"GET", b!"/user/:name/order/:number", 1⟩ = [.lit b!"user", .par b!"name", .lit b!"order", .par b!"number"] by decide +kernel]
    exact .cons (.lit _) (.cons (.par _ _ (by unfold anyName; decide +kernel)) (.cons (.lit _) (.cons (.par _ _ (by unfold anyName; decide +kernel)) .nil)))
  · rw [show routePats (σ := Nat) ⟨b!"POST", b!"/user/me", 2⟩ = [.lit b!"user", .lit b!"me"] by decide +kernel]
    exact .cons (.lit _) (.cons (.lit _) .nil)
  · rw [show routePats (σ := Nat) ⟨b!"GET", b!"/user/:id", 3⟩ = [.lit b!"user", .par b!"id"] by decide +kernel,
      show routePats (σ := Nat) ⟨b!"GET", b!"/user/:who", 3⟩ = [.lit b!"user", .par b!"who"] by decide +kernel]
    exact .cons (.lit _) (.cons (.par _ _ (by unfold anyName; decide +kernel)) .nil)

example (m : Method) (path : Str) (buf : Args) : ∃ r r', treeFind (treeOf shopTable) m path buf = .ret r ∧
    treeFind (treeOf shopTable') m path buf = .ret r' ∧ r'.found = r.found ∧ r'.set = r.set ∧ SameParams (fun s => s) anyName r.args r'.args :=
  C131_routing _ spelling_id anyName (fun _ _ h => h) _ _ shop_same m path path (by simp) buf buf

example : treeFind (treeOf shopTable) b!"GET" b!"/user/7/order/12" [] = .ret ⟨some 1, true, [(b!"id", b!"7"), (b!"nr", b!"12")]⟩ ∧
    treeFind (treeOf shopTable') b!"GET" b!"/user/7/order/12" [] = .ret ⟨some 1, true, [(b!"name", b!"7"), (b!"number", b!"12")]⟩ := by
  decide +kernel

/-- Handlers that read every parameter in order start from the same. -/
example (a a' : Args) (h : SameParams (fun s => s) anyName a a') : a'.map (·.2) = a.map (·.2) := by
  unfold SameParams at h
  induction h with
  | nil => rfl
  | cons hab _ ih => simp only [List.map_cons, ih, hab.2]

/-- A spelling: every segment twice. -/
theorem spelling_twice : Spelling fun s => s ++ s := by
  refine ⟨?_, rfl⟩
  intro a b h
  have hl : a.length = b.length := by have := congrArg List.length h; simp only [List.length_append] at this; omega
  exact (List.append_inj h hl).1

/-- The spelling matters when different segments become one: without `Spelling` the claim is false. -/
example : treeFind (treeOf [(⟨b!"GET", b!"/a", 1⟩ : Reg Nat), ⟨b!"GET", b!"/b", 2⟩]) b!"GET" b!"/a" [] = .ret ⟨some 1, true, []⟩ ∧
    treeFind (treeOf [(⟨b!"GET", b!"/c", 1⟩ : Reg Nat), ⟨b!"GET", b!"/c", 2⟩]) b!"GET" b!"/c" [] = .ret ⟨some 2, true, []⟩ := by
  decide +kernel

/-- A name matters when there is none: `/:` is not a parameter. -/
example : (treeFind (treeOf [(⟨b!"GET", b!"/:n", 1⟩ : Reg Nat)]) b!"GET" b!"/x" [] = .ret ⟨some 1, true, [(b!"n", b!"x")]⟩) ∧
    treeFind (treeOf [(⟨b!"GET", b!"/:", 1⟩ : Reg Nat)]) b!"GET" b!"/x" [] = .ret ⟨none, false, []⟩ := by
  decide +kernel

end Verif
