import Verif.Spec.Session
import Verif.Props.SetCookie
/-
C125: a cookie as the memory of a client, over any number of visits.
-/
namespace Verif
open Spec

section
variable (name dom path : Str)

/-- The cookie with this value. -/
def theCookie (x : Str) : Stored := ⟨name, queryEscape x, dom, false, path⟩

/-- What the store knows: nothing of the cookie, or one value. -/
structure Knows (jar : List Stored) (o : Option Str) : Prop where
  valid : ∀ c ∈ jar, SentCookie.Valid ⟨c.name, c.value, false⟩
  none_ : o = none → ∀ c ∈ jar, c.name ≠ name
  some_ : ∀ x, o = some x → theCookie name dom path x ∈ jar ∧ ∀ c ∈ jar, c.name = name → c = theCookie name dom path x

/-- The effect of one call on what is known. -/
def noteCall (o : Option Str) (b : CookieCall) : Option Str := if b.name = name then some b.value else o

theorem put_mem_same {jar : List Stored} {s t : Stored} (h : t ∈ put jar s) : t = s ∨ (t ∈ jar ∧ s.same t = false) := by
  unfold put at h
  split at h
  · obtain ⟨x, hx, rfl⟩ := List.mem_map.1 h
    split
    · exact .inl rfl
    · next hs => exact .inr ⟨hx, by simpa using hs⟩
  · next hn =>
    rcases List.mem_append.1 h with h | h
    · refine .inr ⟨h, ?_⟩
      cases hs : s.same t with
      | false => rfl
      | true => exact absurd (List.any_eq_true.2 ⟨t, h, hs⟩) hn
    · exact .inl (List.mem_singleton.1 h)

theorem escape_valid {n v : Str} (h : GoodName n) (hq : ∀ x ∈ n, x ∉ b!"\" ") : SentCookie.Valid ⟨n, queryEscape v, false⟩ := by
  refine ⟨h.1, ?_, ?_⟩
  · intro x hx hm
    simp only [List.mem_cons, List.not_mem_nil, or_false] at hm
    rcases hm with rfl | rfl | rfl | rfl
    · exact h.2.1 hx
    · exact h.2.2.1 hx
    · exact hq _ hx (by decide)
    · exact hq _ hx (by decide)
  · intro x hx hb
    have h1 := escape_sep v x hx
    simp only [List.mem_cons, List.not_mem_nil, or_false] at hb h1
    obtain ⟨c, h2, -, -, -, -, -, -, -, h3, -⟩ := C42_cookie [] 0 [] v 0 [] b!"x" false false
    simp only [setCookie, show (b!"x" = []) = False from by simp, if_false, Outcome.bind_ret, Outcome.ret.injEq] at h2
    subst h2
    have h4 := (h3 x hx).2.2
    rcases hb with rfl | rfl | rfl
    · exact h1 (.inl rfl)
    · exact h4 (by decide)
    · exact h1 (.inr (.inr rfl))

/-- One header of an answer. -/
theorem knows_receive {host req : Str} {b : CookieCall} (hw : Writable host b) (hq : ∀ x ∈ b.name, x ∉ b!"\" ")
    (hd : b.name = name → askedDomain host b ≠ [] ∧ storedDomain host b = dom ∧ domainMatch host dom = true)
    (hp : b.name = name → askedPath b = path) {jar : List Stored} {o : Option Str} (h : Knows name dom path jar o) :
    Knows name dom path (receive host req jar (cookieOf host b).line) (noteCall name o b) := by
  unfold noteCall
  by_cases hn : b.name = name
  · obtain ⟨h1, h2, h3⟩ := hd hn
    rw [if_pos hn, receive_accepted hw h1 (by rw [h2]; exact h3), h2, hp hn, hn]
    refine ⟨?_, fun e => (by cases e), ?_⟩
    · intro c hc
      rcases put_mem hc with rfl | hc
      · have := escape_valid (v := b.value) hw.name hq
        rw [hn] at this
        exact this
      · exact h.valid c hc
    · intro x e
      cases e
      refine ⟨put_self _ _, fun c hc hcn => ?_⟩
      rcases put_mem_same hc with rfl | ⟨hc, hs⟩
      · rfl
      · exfalso
        cases o with
        | none => exact h.none_ rfl c hc hcn
        | some y =>
          rw [(h.some_ y rfl).2 c hc hcn] at hs
          simp [Stored.same, theCookie] at hs
  · rw [if_neg hn]
    rcases receive_call (req := req) hw jar with e | ⟨s, e1, e2, e3⟩
    · rw [e]; exact h
    · rw [e3]
      refine ⟨?_, ?_, ?_⟩
      · intro c hc
        rcases put_mem hc with rfl | hc
        · rw [e1, e2]; exact escape_valid hw.name hq
        · exact h.valid c hc
      · intro ho c hc
        rcases put_mem hc with rfl | hc
        · rw [e1]; exact hn
        · exact h.none_ ho c hc
      · intro x ho
        obtain ⟨g1, g2⟩ := h.some_ x ho
        refine ⟨put_keep g1 (by rw [e1]; exact Ne.symm hn), fun c hc hcn => ?_⟩
        rcases put_mem hc with rfl | hc
        · exact absurd (e1.symm.trans hcn) hn
        · exact g2 c hc hcn

theorem note_none {l : List CookieCall} (h : ∀ b ∈ l, b.name ≠ name) (o : Option Str) : l.foldl (noteCall name) o = o := by
  induction l generalizing o with
  | nil => rfl
  | cons b t ih =>
    rw [List.foldl_cons, ih fun x hx => h x (List.mem_cons_of_mem _ hx)]
    exact if_neg (h b (by simp))

theorem note_last {l : List CookieCall} {x : Str} (h : SetLast name l x) (o : Option Str) : l.foldl (noteCall name) o = some x := by
  obtain ⟨pre, a, post, rfl, h1, h2, h3⟩ := h
  rw [List.foldl_append, List.foldl_cons, note_none name h3]
  unfold noteCall
  rw [if_pos h1, h2]

theorem last_or_none (l : List CookieCall) : (∃ x, SetLast name l x) ∨ ∀ b ∈ l, b.name ≠ name := by
  induction l with
  | nil => exact .inr fun b h => by cases h
  | cons a t ih =>
    rcases ih with ⟨x, pre, b, post, rfl, h1, h2, h3⟩ | h
    · exact .inl ⟨x, a :: pre, b, post, rfl, h1, h2, h3⟩
    · by_cases ha : a.name = name
      · exact .inl ⟨a.value, [], a, t, rfl, ha, rfl, h⟩
      · refine .inr fun b hb => ?_
        rcases List.mem_cons.1 hb with rfl | hb
        · exact ha
        · exact h b hb

theorem lines_of {f : CookieCall → Str} {calls : List CookieCall} {cs : List (Str × Str)} (h : ∀ x ∈ cs, ∃ b ∈ calls, x = (b.name, f b)) :
    ∃ bs : List CookieCall, cs = bs.map (fun b => (b.name, f b)) ∧ ∀ b ∈ bs, b ∈ calls := by
  induction cs with
  | nil => exact ⟨[], rfl, fun b hb => by cases hb⟩
  | cons x t ih =>
    obtain ⟨bs, e, hb⟩ := ih fun y hy => h y (List.mem_cons_of_mem _ hy)
    obtain ⟨b, hb', rfl⟩ := h x (by simp)
    refine ⟨b :: bs, by rw [List.map_cons, ← e], fun c hc => ?_⟩
    rcases List.mem_cons.1 hc with rfl | hc
    · exact hb'
    · exact hb c hc

theorem note_unique {bs : List CookieCall} (hn : (bs.map (·.name)).Nodup) {b : CookieCall} (hb : b ∈ bs) (e : b.name = name) (o : Option Str) :
    bs.foldl (noteCall name) o = some b.value := by
  refine note_last name ?_ o
  obtain ⟨pre, post, rfl⟩ := List.append_of_mem hb
  refine ⟨pre, b, post, rfl, e, rfl, fun c hc hcn => ?_⟩
  rw [List.map_append, List.map_cons, List.nodup_append] at hn
  exact (List.nodup_cons.1 hn.2.1).1 (List.mem_map.2 ⟨c, hc, hcn.trans e.symm⟩)

/-- One visit. -/
theorem knows_visit {v : Visit} (hv : KeepsTo name dom path v) {jar : List Stored} {o : Option Str} (h : Knows name dom path jar o) :
    ∃ cs, setCookieCalls v.hostHeader [] v.calls = .ret cs ∧
      Knows name dom path (receiveAll v.host v.path jar (setCookieLines cs)) (v.calls.foldl (noteCall name) o) := by
  refine ⟨_, calls_fold hv.host v.calls [], ?_⟩
  obtain ⟨hn, hfrom, hlast⟩ := calls_lines (fun a => (cookieOf v.host a).line) v.calls [] (by simp)
  generalize v.calls.foldl (fun cs a => setArg cs a.name (cookieOf v.host a).line) [] = cs at hn hfrom hlast
  obtain ⟨bs, rfl, hbs⟩ := lines_of (calls := v.calls) fun x hx => (hfrom x hx).resolve_left (by simp)
  have hn' : (bs.map (·.name)).Nodup := by rw [List.map_map] at hn; exact hn
  have hsame : v.calls.foldl (noteCall name) o = bs.foldl (noteCall name) o := by
    rcases last_or_none name v.calls with ⟨x, hx⟩ | hx
    · rw [note_last name hx]
      obtain ⟨pre, a, post, e, h1, h2, h3⟩ := hx
      obtain ⟨b, hb, e2⟩ := List.mem_map.1 (hlast pre a post e (fun c hc => by rw [h1]; exact h3 c hc))
      have e3 := (Prod.mk.inj e2).2
      have ha : a ∈ v.calls := by rw [e]; simp
      have r := read_call (hv.writable b (hbs b hb)).1
      rw [e3, read_call (hv.writable a ha).1] at r
      injection r with r
      injection r with _ r _
      have : a.value = b.value := by
        have u1 := unescape_of a.value
        rw [r, unescape_of] at u1
        exact (Option.some.inj u1).symm
      rw [note_unique name hn' hb ((Prod.mk.inj e2).1.trans h1), ← h2, this]
    · rw [note_none name hx, note_none name fun b hb => hx b (hbs b hb)]
  rw [hsame]
  clear hsame hn hfrom hlast hn'
  unfold setCookieLines receiveAll
  rw [List.map_map]
  induction bs generalizing jar o with
  | nil => exact h
  | cons b t ih =>
    rw [List.map_cons, List.foldl_cons, List.foldl_cons]
    have hb := hbs b (by simp)
    exact ih (knows_receive name dom path (hv.writable b hb).1 (hv.writable b hb).2 (hv.domain b hb) (hv.path b hb) h)
      fun c hc => hbs c (List.mem_cons_of_mem _ hc)

/-- Any number of visits. -/
theorem knows_visits {vs : List Visit} (hv : ∀ v ∈ vs, KeepsTo name dom path v) {jar : List Stored} {o : Option Str} (h : Knows name dom path jar o) :
    ∃ jar', Visited jar vs jar' ∧ (∀ j, Visited jar vs j → j = jar') ∧ Knows name dom path jar' ((vs.flatMap (·.calls)).foldl (noteCall name) o) := by
  induction vs generalizing jar o with
  | nil => exact ⟨jar, .start jar, fun j hj => by cases hj; rfl, h⟩
  | cons v t ih =>
    obtain ⟨cs, e, hk⟩ := knows_visit name dom path (hv v (by simp)) h
    obtain ⟨jar', h1, h2, h3⟩ := ih (fun x hx => hv x (List.mem_cons_of_mem _ hx)) hk
    refine ⟨jar', .visit e h1, fun j hj => ?_, ?_⟩
    · cases hj with
      | visit e' hj => rw [e] at e'; cases e'; exact h2 j hj
    · rw [List.flatMap_cons, List.foldl_append]; exact h3

/-- **C125** A cookie that is always set for one domain and one path is a variable of the client: a client that follows RFC 6265, and did
not have the cookie, makes any number of visits, in each of which handlers make any SetCookie calls, for this and other cookies. In the
next request, if the cookie covers it, `Cookie(name)` gives the value that was set last, whatever the order in which the client sends its
cookies; it gives none if that was the empty text, or if the cookie was never set, or does not cover the request. -/
theorem C125_session (vs : List Visit) (hv : ∀ v ∈ vs, KeepsTo name dom path v)
    (jar : List Stored) (hjar : ∀ c ∈ jar, c.name ≠ name ∧ SentCookie.Valid ⟨c.name, c.value, false⟩) :
    ∃ jar', Visited jar vs jar' ∧ (∀ j, Visited jar vs j → j = jar') ∧
      ∀ host req sent, SentWith jar' host req sent →
        (domainMatch host dom = true → pathMatch req path = true → ∀ x, SetLast name (vs.flatMap (·.calls)) x → x ≠ [] →
          ∃ v, cookieCall [cookieHeader sent] name = some ([], v) ∧ queryUnescape v = some x) ∧
        (SetLast name (vs.flatMap (·.calls)) [] ∨ (∀ b ∈ vs.flatMap (·.calls), b.name ≠ name) ∨ domainMatch host dom = false ∨ pathMatch req path = false →
          cookieCall [cookieHeader sent] name = none) := by
  obtain ⟨jar', h1, h2, h3⟩ := knows_visits name dom path hv (jar := jar) (o := none)
    ⟨fun c hc => (hjar c hc).2, fun _ c hc => (hjar c hc).1, fun x e => by cases e⟩
  refine ⟨jar', h1, h2, fun host req sent hs => ?_⟩
  unfold SentWith at hs
  have hsv : ∀ c ∈ [sent].flatten, c.Valid := by
    intro c hc
    rw [List.flatten_singleton] at hc
    obtain ⟨s, hs1, rfl⟩ := List.mem_map.1 (hs.mem_iff.1 hc)
    exact h3.valid s (List.mem_filter.1 hs1).1
  have hC := C83_exact [sent] hsv name
  rw [List.flatten_singleton] at hC
  have hfirst : domainMatch host dom = true → pathMatch req path = true → ∀ x, SetLast name (vs.flatMap (·.calls)) x →
      firstValue name sent = some (queryEscape x) := by
    intro hd hp x hx
    obtain ⟨g1, g2⟩ := h3.some_ x (note_last name hx none)
    refine firstValue_perm hs ?_ ?_
    · intro c hc hcn
      obtain ⟨s, hs1, rfl⟩ := List.mem_map.1 hc
      rw [g2 s (List.mem_filter.1 hs1).1 hcn]
      rfl
    · exact ⟨⟨name, queryEscape x, false⟩, List.mem_map.2 ⟨_, List.mem_filter.2 ⟨g1, by simp [Stored.applies, theCookie, hd, hp]⟩, rfl⟩, rfl⟩
  have hno : (∀ c ∈ sent, c.name ≠ name) → cookieCall [cookieHeader sent] name = none := by
    intro hc
    refine hC.1 ?_
    clear hs hsv hC hfirst
    induction sent with
    | nil => rfl
    | cons d t ih =>
      unfold firstValue
      rw [if_neg (hc d (by simp))]
      exact ih fun c h => hc c (List.mem_cons_of_mem _ h)
  have hcover : ∀ c ∈ sent, c.name = name → domainMatch host dom = true ∧ pathMatch req path = true ∧ ∃ b ∈ vs.flatMap (·.calls), b.name = name := by
    intro c hc hcn
    obtain ⟨s, hs1, rfl⟩ := List.mem_map.1 (hs.mem_iff.1 hc)
    obtain ⟨m1, m2⟩ := List.mem_filter.1 hs1
    rcases last_or_none name (vs.flatMap (·.calls)) with ⟨x, hx⟩ | hx
    · have e := (h3.some_ x (note_last name hx none)).2 s m1 hcn
      rw [e] at m2
      simp only [Stored.applies, theCookie, Bool.false_eq_true, if_false, Bool.and_eq_true] at m2
      obtain ⟨pre, a, post, e, h, -⟩ := hx
      exact ⟨m2.1, m2.2, a, by rw [e]; simp, h⟩
    · exact absurd hcn (h3.none_ (note_none name hx none) s m1)
  refine ⟨fun hd hp x hx hne => ?_, ?_⟩
  · refine ⟨queryEscape x, hC.2.2.1 _ (hfirst hd hp x hx) ?_ ?_, unescape_of _⟩
    · intro e
      have := unescape_of x
      rw [e] at this
      simp only [queryUnescape, Option.some.injEq] at this
      exact hne this.symm
    · intro hx
      obtain ⟨c, h2, -, -, -, -, -, -, -, h3, -⟩ := C42_cookie [] 0 [] x 0 [] b!"x" false false
      simp only [setCookie, show (b!"x" = []) = False from by simp, if_false, Outcome.bind_ret, Outcome.ret.injEq] at h2
      subst h2
      exact (h3 61 hx).2.2 (by decide)
  · rintro (h | h | h | h)
    · by_cases hd : domainMatch host dom = true
      · by_cases hp : pathMatch req path = true
        · exact hC.2.1 (hfirst hd hp [] h)
        · exact hno fun c hc hcn => hp (hcover c hc hcn).2.1
      · exact hno fun c hc hcn => hd (hcover c hc hcn).1
    · exact hno fun c hc hcn => by
        obtain ⟨-, -, b, hb, e⟩ := hcover c hc hcn
        exact h b hb e
    · exact hno fun c hc hcn => by rw [(hcover c hc hcn).1] at h; cases h
    · exact hno fun c hc hcn => by rw [(hcover c hc hcn).2.1] at h; cases h

end

/-! ### A shop -/

namespace SessionEx

/-- Logging in, choosing a colour (for another path), changing the user, logging out. -/
def login : Visit := ⟨b!"shop.example:8080", b!"shop.example", b!"/login", [{ name := b!"sid", value := b!"a=1; b" }]⟩
def theme : Visit := ⟨b!"shop.example:8080", b!"shop.example", b!"/theme", [{ name := b!"theme", value := b!"dark", path := b!"/app", maxAge := 3600 }]⟩
def change : Visit := ⟨b!"shop.example:8080", b!"shop.example", b!"/change",
  [{ name := b!"sid", value := b!"x" }, { name := b!"sid", value := b!"new", httpOnly := true }]⟩
def logout : Visit := ⟨b!"shop.example:8080", b!"shop.example", b!"/logout", [{ name := b!"sid", value := [] }]⟩

theorem good (s : Str) (h : (s.all fun b => decide (b ∉ b!";\t ")) = true) : GoodText s :=
  NoSep.good fun b hb => of_decide_eq_true (List.all_eq_true.1 h b hb)

theorem host : HostOf b!"shop.example:8080" b!"shop.example" :=
  ⟨b!"shop.example", Or.inl ⟨b!"8080", rfl, by decide⟩, Or.inr ⟨rfl, fun x h => by cases h⟩⟩

theorem keeps : ∀ v ∈ [login, theme, change, logout], KeepsTo b!"sid" b!"shop.example" b!"/" v := by
  intro v hv
  simp only [List.mem_cons, List.not_mem_nil, or_false] at hv
  have key : ∀ b : CookieCall, b ∈ login.calls ++ theme.calls ++ change.calls ++ logout.calls →
      (Writable b!"shop.example" b ∧ ∀ x ∈ b.name, x ∉ b!"\" ") ∧
      (b.name = b!"sid" → (askedDomain b!"shop.example" b ≠ [] ∧ storedDomain b!"shop.example" b = b!"shop.example" ∧
        domainMatch b!"shop.example" b!"shop.example" = true) ∧ askedPath b = b!"/") := by
    intro b hb
    simp only [login, theme, change, logout, List.mem_append, List.mem_cons, List.not_mem_nil, or_false] at hb
    rcases hb with ((rfl | rfl) | rfl | rfl) | rfl <;>
      exact ⟨⟨⟨⟨by decide, by decide, good _ (by decide +kernel)⟩, good _ (by decide +kernel), good _ (by decide +kernel)⟩, by decide⟩, by decide +kernel⟩
  have hm : v.calls ⊆ login.calls ++ theme.calls ++ change.calls ++ logout.calls := by
    intro b hb
    rcases hv with rfl | rfl | rfl | rfl <;> simp [hb]
  have hh : v.hostHeader = b!"shop.example:8080" ∧ v.host = b!"shop.example" := by rcases hv with rfl | rfl | rfl | rfl <;> exact ⟨rfl, rfl⟩
  refine ⟨by rw [hh.1, hh.2]; exact host, ?_, ?_, ?_⟩ <;> intro b hb
  · rw [hh.2]; exact (key b (hm hb)).1
  · rw [hh.2]; exact fun e => ((key b (hm hb)).2 e).1
  · exact fun e => ((key b (hm hb)).2 e).2

/-- After the change the new user, after logging out nobody. -/
example : ∃ jar jar', Visited [] [login, theme, change] jar ∧ Visited [] [login, theme, change, logout] jar' ∧
    (∀ sent, SentWith jar b!"shop.example" b!"/app/x" sent → ∃ v, cookieCall [cookieHeader sent] b!"sid" = some ([], v) ∧ queryUnescape v = some b!"new") ∧
    (∀ sent, SentWith jar' b!"shop.example" b!"/app/x" sent → cookieCall [cookieHeader sent] b!"sid" = none) := by
  obtain ⟨j, h1, -, h2⟩ := C125_session b!"sid" b!"shop.example" b!"/" [login, theme, change]
    (fun v hv => keeps v (by simp only [List.mem_cons, List.not_mem_nil, or_false] at hv ⊢; rcases hv with h | h | h <;> simp [h])) []
    (fun c hc => by cases hc)
  obtain ⟨j', h1', -, h2'⟩ := C125_session b!"sid" b!"shop.example" b!"/" [login, theme, change, logout] keeps [] (fun c hc => by cases hc)
  refine ⟨j, j', h1, h1', fun sent hs => ?_, fun sent hs => ?_⟩
  · exact (h2 _ _ sent hs).1 (by decide +kernel) (by decide +kernel) b!"new"
      ⟨[{ name := b!"sid", value := b!"a=1; b" }, { name := b!"theme", value := b!"dark", path := b!"/app", maxAge := 3600 },
        { name := b!"sid", value := b!"x" }], _, [], rfl, rfl, rfl, fun b hb => by cases hb⟩ (by decide)
  · exact (h2' _ _ sent hs).2 (.inl ⟨[{ name := b!"sid", value := b!"a=1; b" }, { name := b!"theme", value := b!"dark", path := b!"/app", maxAge := 3600 },
        { name := b!"sid", value := b!"x" }, { name := b!"sid", value := b!"new", httpOnly := true }], _, [], rfl, rfl, rfl, fun b hb => by cases hb⟩)

/-- The same cookie for two paths. -/
def inner : Visit := ⟨b!"shop.example:8080", b!"shop.example", b!"/a", [{ name := b!"sid", value := b!"old", path := b!"/app" }]⟩
def outer : Visit := ⟨b!"shop.example:8080", b!"shop.example", b!"/b", [{ name := b!"sid", value := b!"new" }]⟩
def both : Visit := ⟨b!"shop.example:8080", b!"shop.example", b!"/c", inner.calls ++ outer.calls⟩

theorem visited_one {jar : List Stored} {v : Visit} {cs : List (Str × Str)} (h : setCookieCalls v.hostHeader [] v.calls = .ret cs) {rest : List Visit}
    {j : List Stored} (hr : Visited (receiveAll v.host v.path jar (setCookieLines cs)) rest j) : Visited jar (v :: rest) j := .visit h hr

end SessionEx

open SessionEx in
/-- **C125** (one path is needed).  A cookie set for two paths is two cookies, and where both apply the client may send the older first; and if both
are set in one answer, the client gets only the one set last. -/
theorem C125_paths :
    (∃ jar sent, Visited [] [inner, outer] jar ∧ SentWith jar b!"shop.example" b!"/app/x" sent ∧ cookieCall [cookieHeader sent] b!"sid" = some ([], b!"old")) ∧
    (∀ jar, Visited [] [both] jar → jar = [⟨b!"sid", b!"new", b!"shop.example", false, b!"/"⟩]) := by
  refine ⟨⟨[⟨b!"sid", b!"old", b!"shop.example", false, b!"/app"⟩, ⟨b!"sid", b!"new", b!"shop.example", false, b!"/"⟩],
    [⟨b!"sid", b!"old", false⟩, ⟨b!"sid", b!"new", false⟩], ?_, ?_, by decide +kernel⟩, ?_⟩
  · refine visited_one (cs := [(b!"sid", b!"sid=old; domain=shop.example; path=/app")]) (by decide +kernel) ?_
    have e : receiveAll inner.host inner.path [] (setCookieLines [(b!"sid", b!"sid=old; domain=shop.example; path=/app")]) =
      [⟨b!"sid", b!"old", b!"shop.example", false, b!"/app"⟩] := by decide +kernel
    rw [e]
    refine visited_one (cs := [(b!"sid", b!"sid=new; domain=shop.example; path=/")]) (by decide +kernel) ?_
    have e : receiveAll outer.host outer.path [⟨b!"sid", b!"old", b!"shop.example", false, b!"/app"⟩]
        (setCookieLines [(b!"sid", b!"sid=new; domain=shop.example; path=/")]) =
      [⟨b!"sid", b!"old", b!"shop.example", false, b!"/app"⟩, ⟨b!"sid", b!"new", b!"shop.example", false, b!"/"⟩] := by decide +kernel
    rw [e]
    exact .start _
  · unfold SentWith
    have e : ([⟨b!"sid", b!"old", b!"shop.example", false, b!"/app"⟩, ⟨b!"sid", b!"new", b!"shop.example", false, b!"/"⟩] : List Stored).filter
        (fun c => c.applies b!"shop.example" b!"/app/x") =
      [⟨b!"sid", b!"old", b!"shop.example", false, b!"/app"⟩, ⟨b!"sid", b!"new", b!"shop.example", false, b!"/"⟩] := by decide +kernel
    rw [e]
    exact .refl _
  · intro jar h
    cases h with
    | visit e h =>
      have e' : setCookieCalls both.hostHeader [] both.calls = .ret [(b!"sid", b!"sid=new; domain=shop.example; path=/")] := by decide +kernel
      rw [e'] at e
      cases e
      have e : receiveAll both.host both.path [] (setCookieLines [(b!"sid", b!"sid=new; domain=shop.example; path=/")]) =
        [⟨b!"sid", b!"new", b!"shop.example", false, b!"/"⟩] := by decide +kernel
      rw [e] at h
      cases h
      rfl

end Verif
