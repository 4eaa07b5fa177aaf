import Verif.Props.Ctx
import Verif.Props.Text
import Verif.Props.Cookie
import Verif.Props.SetCookie
import Verif.Witness.Routing
/-
Witnesses: the theorems of Props/Ctx, Props/Text, Props/Cookie and Props/SetCookie applied to concrete requests.
-/
namespace Verif.Witness
open Verif Verif.Spec

/-- A request with all three sources. -/
def src : Sources := ⟨[(b!"id", b!"7"), (b!"e", [])], [(b!"id", b!"8"), (b!"e", b!"q"), (b!"q", b!"1"), (b!"q", b!"2")],
  [(b!"id", b!"9"), (b!"f", b!"x"), (b!"b", b!"F"), (b!"b", b!"y"), (b!"b", b!"z")]⟩

/-- C36. -/
example : peekParam src b!"id" = some b!"7" :=
  (C36_peek src b!"id").1 b!"7" ⟨[], [(b!"e", [])], rfl, by simp⟩ (by decide)
example : peekParam src b!"nn" = none := by
  have noVal : ∀ a : Args, (∀ x ∈ a, x.1 ≠ b!"nn") → ¬ HasVal a b!"nn" := by
    rintro a h ⟨v, ⟨pre, post, e, -⟩, -⟩
    exact h (b!"nn", v) (by rw [e]; simp) rfl
  have hn : ∀ a : Args, (∀ x ∈ a, x.1 ≠ b!"nn") → Absent a b!"nn" := fun a h => h
  exact (C36_peek src b!"nn").2.2.2 (noVal _ (by decide +kernel)) (noVal _ (by decide +kernel)) (hn _ (by decide +kernel))
example : peekMultiParam src b!"q" = [b!"1", b!"2"] :=
  ((C36_peekMulti src b!"q").2.1 (by unfold Absent; decide +kernel) (by unfold Absent; decide +kernel)).trans (by decide +kernel)

/-- C37. -/
example := C37_url_wins_partial pars b!"GET" b!"/u/7/posts/" [(b!"old", b!"x")] _ found_posts rfl
example := C37_exact pars b!"GET" b!"/u/7/posts/" [(b!"old", b!"x")] _ found_posts rfl

/-- C38, C39. -/
example : (squeezeParams src).get? b!"b" = some (.many [b!"y", b!"F", b!"z"]) :=
  ((C38_squeeze src b!"b").2.2 b!"F" b!"y" [b!"z"] (by decide +kernel)).1
example : peekBoolParam (fun s => s) src b!"b" = false :=
  (C39_bool (fun s => s) (by
      intro s hs hm
      have : ∀ t ∈ ([[], b!"0", b!"f", b!"false"] : List Str), isAscii t = true := by decide +kernel
      rw [this s hm] at hs; cases hs) src b!"b").2
    (Or.inr ⟨b!"F", by decide +kernel, Or.inr (Or.inr (Or.inl (.cons (by unfold sameLetter; decide) .nil)))⟩)

/-- C40, C64: a context, a value, a clone, another value in the clone. -/
def cops : List (CtxOp Nat) := [.new, .set 0 b!"a" 1, .clone 0, .set 1 b!"a" 2]
example : ctxGet (ctxRun (cops ++ [.set 1 b!"a" 5])) 0 b!"a" = some 1 :=
  ((C40_calls cops 1 0 b!"a" b!"a" 5).2.1 (Or.inl (by decide))).trans (by decide +kernel)
example : ((ctxStep (ctxRun cops) (.stop 1)).2 = false ↔ (clonedOf cops)[1]? = some true) :=
  (C64_clone_control cops 1 0 (by decide +kernel)).1.1
example : (ctxRun (cops ++ [.setSameSite 0 2, .clone 0, .setSameSite 0 3])).ctxs.map (·.sameSite) = [3, 0, 2] :=
  (C40_site _).trans (by decide +kernel)
example : (ctxStep (ctxRun cops) (.set 1 b!"b" 3)).2 = true := C64_others cops _ fun _ => ⟨nofun, nofun, nofun⟩

/-- C41, C42. -/
example : splitHost b!"example.com:8080" = .ret b!"example.com" :=
  (C41_usual b!"example.com" b!"8080" b!"::1" (by decide) (by decide) (by decide)).2.1
example : ∃ c, setCookie b!"example.com:80" 0 b!"sid" b!"a b;c" 60 [] [] true false = .ret c ∧
    queryUnescape c.value = some b!"a b;c" ∧ c.path = b!"/" ∧ HostOf b!"example.com:80" c.domain := by
  obtain ⟨c, h0, -, -, -, -, -, -, h1, -, h2, -, -, h3⟩ := C42_cookie b!"example.com:80" 0 b!"sid" b!"a b;c" 60 [] [] true false
  exact ⟨c, h0, h1, h2 rfl, h3 rfl⟩

/-- C43. -/
example : cookiesGet ([(b!"a", 1), (b!"b", 2), (b!"b", 3)].map some) b!"b" = .ret (some (b!"b", 2)) :=
  (C43_cookies [(b!"a", 1), (b!"b", 2), (b!"b", 3)] b!"b").1 [(b!"a", 1)] (b!"b", 2) [(b!"b", 3)] rfl (by decide) rfl
example : paramsGet [(b!"a", [b!"1"]), (b!"b", [])] b!"b" = ([], true) :=
  ((C43_params [(b!"a", [b!"1"]), (b!"b", [])] b!"b").1 [(b!"a", [b!"1"])] (b!"b", []) [] rfl (by decide) rfl).1

/-- C60. -/
example : goTrimString b!"x y" = .ret b!"x y" := C60_idempotent b!" \tx y\r\n" b!"x y" (by decide +kernel)

/-- C83: the cookies of Props/Cookie. -/
theorem exSent_valid : ∀ c ∈ exSent.flatten, c.Valid := by
  intro c hc
  simp only [exSent, List.flatten_cons, List.flatten_nil, List.append_nil, List.cons_append, List.nil_append, List.mem_cons,
    List.not_mem_nil, or_false] at hc
  rcases hc with rfl | rfl | rfl | rfl <;> exact ⟨by decide, by decide, by decide⟩
example : cookieCall (exSent.map cookieHeader) b!"sid" = some ([], b!"x%20y") :=
  (C83_exact exSent exSent_valid b!"sid").2.2.1 b!"x%20y" (by decide +kernel) (by decide) (by decide)
example : cookieCall (exSent.map cookieHeader) b!"t" = some (b!"k", b!"v=w") :=
  (C83_exact exSent exSent_valid b!"t").2.2.2 b!"k" b!"v=w" (by decide +kernel) (by decide)
example := C83_roundtrip_partial b!"h" 0 b!"a" b!"1" 0 [] [] false false
  ⟨b!"a", b!"1", b!"h", b!"/", 0, false, false, 0⟩ (by decide +kernel) exSent exSent_valid (by decide +kernel) (by decide)

/-- C99: the calls of Props/SetCookie on a request for example.com:8080. -/
theorem exCalls_writable : ∀ b ∈ exCookieCalls, Writable b!"example.com" b ∧ ∀ x ∈ b.name, x ∉ b!"\" " := by
  have g : ∀ s : Str, (s.all fun b => decide (b ∉ b!";\t ")) = true → GoodText s := by
    intro s h
    exact NoSep.good fun b hb => of_decide_eq_true (List.all_eq_true.1 h b hb)
  intro b hb
  simp only [exCookieCalls, List.mem_cons, List.not_mem_nil, or_false] at hb
  rcases hb with rfl | rfl | rfl <;>
    exact ⟨⟨⟨by decide, by decide, g _ (by decide +kernel)⟩, g _ (by decide +kernel), g _ (by decide +kernel)⟩, by decide⟩
theorem example_host : HostOf b!"example.com:8080" b!"example.com" := by
  obtain ⟨h, h1, h2⟩ := C41_host b!"example.com:8080"
  have : splitHost b!"example.com:8080" = .ret b!"example.com" := by decide +kernel
  rw [this] at h1
  injection h1 with h1
  exact (h2 _).2 h1
example := C99_line_partial b!"example.com:8080" b!"example.com" example_host exCookieCalls[2]
  (exCalls_writable _ (List.getElem_mem _)).1
example := (C99_exact b!"example.com:8080" b!"example.com" example_host exCookieCalls[2]).2
  (exCalls_writable _ (List.getElem_mem _)).1
example := C99_comes_back_partial b!"example.com:8080" b!"example.com" b!"/login" example_host exCookieCalls
  (exCookieCalls.take 2) [] exCookieCalls[2] rfl (by simp) exCalls_writable (by decide) (by decide +kernel) (by decide +kernel)
  exJar (by
    intro c hc
    simp only [exJar, List.mem_singleton] at hc
    subst hc
    exact ⟨by decide, by decide, by decide, by decide⟩)

end Verif.Witness
