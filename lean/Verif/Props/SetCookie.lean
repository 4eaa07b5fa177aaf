import Verif.Model.SetCookie
import Verif.Spec.SetCookie
import Verif.Props.Cookie
import Verif.Props.Content
import Verif.Props.Json
import Verif.Props.Static
import Verif.Lemmas.Path
/-
C99: a cookie set in a response comes back.
-/
namespace Verif
open Spec

theorem trimWsp_none {s : Str} (h : ∀ b ∈ s, wsp b = false) : trimWsp s = s := by
  unfold trimWsp rdropWhile
  rw [dropWhile_none h, dropWhile_none (fun b hb => h b (List.mem_reverse.1 hb)), List.reverse_reverse]

theorem trimWsp_space {s : Str} (h : ∀ b ∈ s, wsp b = false) : trimWsp (32 :: s) = s := by
  have : trimWsp (32 :: s) = trimWsp s := by
    unfold trimWsp; rw [List.dropWhile_cons, if_pos (by decide)]
  rw [this, trimWsp_none h]

theorem cut_until {c : UInt8} {a : Str} (b : Str) (h : c ∉ a) : cut c (a ++ c :: b) = some (a, b) := by
  unfold cut
  rw [if_pos (by simp), takeWhile_until _ h, dropWhile_until _ h]
  rfl

theorem readAttr_pair {k v : Str} (hk : 61 ∉ k) (wk : ∀ b ∈ k, wsp b = false) (wv : trimWsp v = v) :
    readAttr (32 :: k ++ 61 :: v) = (k, v) := by
  unfold readAttr
  rw [cut_until v (show (61 : UInt8) ∉ 32 :: k by simp [hk])]
  simp only
  rw [trimWsp_space wk, wv]

theorem splitByte_parts (c : UInt8) (p : Str) (parts : List Str) (hp : c ∉ p) (h : ∀ x ∈ parts, c ∉ x) :
    splitByte c (p ++ parts.flatMap (c :: ·)) = p :: parts := by
  induction parts generalizing p with
  | nil => simpa using splitByte_single c p hp
  | cons x t ih =>
    rw [List.flatMap_cons, List.cons_append, splitByte_append c p _ hp,
      ih x (h x (by simp)) (fun y hy => h y (List.mem_cons_of_mem _ hy))]

/-- The attributes of a cookie, as they are written. -/
def Cookie.attrs (c : Cookie) : List (Str × Str) :=
  (if c.maxAge > 0 then [(b!"max-age", formatNat c.maxAge.toNat)] else []) ++
  (if c.domain ≠ [] then [(b!"domain", c.domain)] else []) ++
  (if c.path ≠ [] then [(b!"path", c.path)] else []) ++
  (if c.httpOnly then [(b!"HttpOnly", [])] else []) ++
  (if c.secure then [(b!"secure", [])] else []) ++
  (match c.sameSite with
   | 1 => [(b!"SameSite", [])]
   | 2 => [(b!"SameSite", b!"Lax")]
   | 3 => [(b!"SameSite", b!"Strict")]
   | 4 => [(b!"SameSite", b!"None")]
   | _ => [])

def Cookie.parts (c : Cookie) : List Str :=
  (if c.maxAge > 0 then [32 :: b!"max-age" ++ 61 :: formatNat c.maxAge.toNat] else []) ++
  (if c.domain ≠ [] then [32 :: b!"domain" ++ 61 :: c.domain] else []) ++
  (if c.path ≠ [] then [32 :: b!"path" ++ 61 :: c.path] else []) ++
  (if c.httpOnly then [b!" HttpOnly"] else []) ++
  (if c.secure then [b!" secure"] else []) ++
  (match c.sameSite with
   | 1 => [b!" SameSite"]
   | 2 => [b!" SameSite=Lax"]
   | 3 => [b!" SameSite=Strict"]
   | 4 => [b!" SameSite=None"]
   | _ => [])

/-- Texts without ';', space and tab. -/
def NoSep (s : Str) : Prop := ∀ b ∈ s, b ∉ b!";\t "

theorem trimWsp_iff (s : Str) : trimWsp s = s ↔ ∀ b, s.head? = some b ∨ s.getLast? = some b → wsp b = false := by
  constructor
  · intro h b hb
    cases hw : wsp b with
    | false => rfl
    | true =>
      exfalso
      have hlen : (trimWsp s).length < s.length := by
        unfold trimWsp rdropWhile
        have hle : (s.dropWhile wsp).length ≤ s.length := (List.dropWhile_suffix _).length_le
        have hle2 : ∀ l : Str, (l.reverse.dropWhile wsp).reverse.length ≤ l.length := by
          intro l
          rw [List.length_reverse]
          exact Nat.le_trans (List.dropWhile_suffix _).length_le (by simp)
        rcases hb with hb | hb
        · cases s with
          | nil => simp at hb
          | cons c t =>
            simp only [List.head?_cons, Option.some.injEq] at hb
            subst hb
            rw [List.dropWhile_cons, if_pos hw]
            have h1 := hle2 (t.dropWhile wsp)
            have h2 : (t.dropWhile wsp).length ≤ t.length := (List.dropWhile_suffix _).length_le
            simp only [List.length_cons]; omega
        · by_cases he : s.dropWhile wsp = []
          · rw [he]
            cases s with
            | nil => simp at hb
            | cons c t => simp
          · have hlast : (s.dropWhile wsp).getLast? = some b := by
              obtain ⟨p, hp⟩ := List.dropWhile_suffix wsp (l := s)
              rw [← hp] at hb
              rw [List.getLast?_append] at hb
              rw [List.getLast?_eq_some_getLast he] at hb ⊢
              simpa using hb
            obtain ⟨l, hl⟩ : ∃ l, s.dropWhile wsp = l ++ [b] := ⟨_, (List.getLast?_eq_some_iff.1 hlast).choose_spec⟩
            rw [hl]
            have h1 := hle2 l
            rw [hl] at hle
            simp only [List.reverse_append, List.reverse_singleton, List.singleton_append, List.dropWhile_cons, hw, if_true]
            simp only [List.length_append, List.length_singleton] at hle
            omega
      rw [h] at hlen; omega
  · intro h
    cases s with
    | nil => rfl
    | cons c t =>
      unfold trimWsp rdropWhile
      rw [List.dropWhile_cons, if_neg (by simp [h c (.inl rfl)])]
      obtain ⟨l, b, hl⟩ : ∃ l b, c :: t = l ++ [b] := ⟨_, _, (List.dropLast_concat_getLast (by simp : c :: t ≠ [])).symm⟩
      rw [hl]
      have hb : wsp b = false := h b (.inr (by rw [hl]; simp))
      simp [List.dropWhile_cons, hb]

theorem Spec.GoodText.trim {s : Str} (h : GoodText s) : trimWsp s = s := (trimWsp_iff s).2 h.2

theorem Spec.GoodText.semi {s : Str} (h : GoodText s) : (59 : UInt8) ∉ s := h.1

theorem NoSep.good {s : Str} (h : NoSep s) : GoodText s := by
  have hw : ∀ b ∈ s, wsp b = false := by
    intro b hb
    have := h b hb
    simp only [List.mem_cons, List.not_mem_nil, or_false, not_or] at this
    simp [Spec.wsp, this.2.1, this.2.2]
  exact ⟨fun hb => h 59 hb (by decide), (trimWsp_iff s).1 (trimWsp_none hw)⟩

theorem Spec.GoodName.text {s : Str} (h : GoodName s) : GoodText s := h.2.2

theorem formatNat_good (n : Nat) : GoodText (formatNat n) := NoSep.good <| by
  intro b hb
  have h : isDigit b = true := formatNat_digits n b hb
  revert h
  exact u8_all (P := fun b => isDigit b = true → b ∉ b!";\t ") (by decide +kernel) b

theorem line_parts (c : Cookie) (hk : c.key ≠ []) :
    c.line = (c.key ++ 61 :: c.value) ++ c.parts.flatMap (59 :: ·) := by
  unfold Cookie.line Cookie.parts cookiePart
  rw [if_pos hk]
  simp only [List.flatMap_append, List.append_assoc, List.cons_append, List.nil_append]
  congr 2
  congr 1
  congr 1
  · split <;> simp
  congr 1
  · split <;> simp
  congr 1
  · split <;> simp
  congr 1
  · split <;> simp
  congr 1
  · split <;> simp
  generalize c.sameSite = n
  match n with
  | 0 | 1 | 2 | 3 | 4 | _ + 5 => rfl

theorem parts_semi (c : Cookie) (hd : GoodText c.domain) (hp : GoodText c.path) : ∀ x ∈ c.parts, (59 : UInt8) ∉ x := by
  intro x hx
  unfold Cookie.parts at hx
  simp only [List.mem_append] at hx
  rcases hx with ((((h | h) | h) | h) | h) | h
  · split at h <;> simp only [List.mem_singleton, List.not_mem_nil] at h
    subst h; simp [(formatNat_good _).semi]
  · split at h <;> simp only [List.mem_singleton, List.not_mem_nil] at h
    subst h; simp [hd.semi]
  · split at h <;> simp only [List.mem_singleton, List.not_mem_nil] at h
    subst h; simp [hp.semi]
  · split at h <;> simp only [List.mem_singleton, List.not_mem_nil] at h
    subst h; decide
  · split at h <;> simp only [List.mem_singleton, List.not_mem_nil] at h
    subst h; decide
  · split at h <;> simp only [List.mem_singleton, List.not_mem_nil] at h <;> subst h <;> decide

theorem parts_attrs (c : Cookie) (hd : GoodText c.domain) (hp : GoodText c.path) : c.parts.map readAttr = c.attrs := by
  unfold Cookie.parts Cookie.attrs
  simp only [List.map_append]
  congr 1
  · congr 1
    · congr 1
      · congr 1
        · congr 1
          · split
            · rw [List.map_singleton, readAttr_pair (by decide) (by decide) (formatNat_good _).trim]
            · rfl
          · split
            · rw [List.map_singleton, readAttr_pair (by decide) (by decide) hd.trim]
            · rfl
        · split
          · rw [List.map_singleton, readAttr_pair (by decide) (by decide) hp.trim]
          · rfl
      · split <;> decide
    · split <;> decide
  · split <;> decide

/-- The client reads what was written. -/
theorem read_line (c : Cookie) (hk : GoodName c.key) (hv : GoodText c.value) (hd : GoodText c.domain) (hp : GoodText c.path) :
    readSetCookie c.line = some ⟨c.key, c.value, c.attrs⟩ := by
  have n61 : (61 : UInt8) ∉ c.key := hk.2.1
  unfold readSetCookie
  rw [line_parts c hk.1, splitByte_parts 59 _ _ (by simp [hk.text.semi, hv.semi]) (parts_semi c hd hp)]
  simp only
  rw [cut_until _ n61]
  simp only
  rw [hk.text.trim, hv.trim, if_neg hk.1, parts_attrs c hd hp]

/-! ### Looking attributes up -/

theorem attr_append (n v : Str) (a b : List (Str × Str)) (k : Str) :
    (Said.mk n v (a ++ b)).attr k = ((Said.mk n v b).attr k).or ((Said.mk n v a).attr k) := by
  unfold Said.attr
  simp only [List.reverse_append, List.find?_append]
  cases b.reverse.find? fun x => decide (x.1.map lowerByte = k) <;> simp

theorem attrs_said (n v : Str) (c : Cookie) :
    (Said.mk n v c.attrs).attr b!"max-age" = (if c.maxAge > 0 then some (formatNat c.maxAge.toNat) else none) ∧
    (Said.mk n v c.attrs).attr b!"domain" = (if c.domain ≠ [] then some c.domain else none) ∧
    (Said.mk n v c.attrs).attr b!"path" = (if c.path ≠ [] then some c.path else none) ∧
    (Said.mk n v c.attrs).attr b!"httponly" = (if c.httpOnly then some [] else none) ∧
    (Said.mk n v c.attrs).attr b!"secure" = (if c.secure then some [] else none) ∧
    (Said.mk n v c.attrs).attr b!"samesite" = (match c.sameSite with
      | 1 => some []
      | 2 => some b!"Lax"
      | 3 => some b!"Strict"
      | 4 => some b!"None"
      | _ => none) := by
  have one : ∀ (p : Prop) [Decidable p] (x : Str × Str) (k : Str), (Said.mk n v (if p then [x] else [])).attr k =
      if p ∧ x.1.map lowerByte = k then some x.2 else none := by
    intro p _ x k
    by_cases hp : p
    · simp only [hp, if_true, true_and, Said.attr, List.reverse_singleton, List.find?_singleton]
      by_cases hx : x.1.map lowerByte = k <;> simp [hx]
    · simp [hp, Said.attr]
  have site : ∀ k, (Said.mk n v (match c.sameSite with
      | 1 => [(b!"SameSite", [])]
      | 2 => [(b!"SameSite", b!"Lax")]
      | 3 => [(b!"SameSite", b!"Strict")]
      | 4 => [(b!"SameSite", b!"None")]
      | _ => [])).attr k = if b!"samesite" = k then (match c.sameSite with
      | 1 => some []
      | 2 => some b!"Lax"
      | 3 => some b!"Strict"
      | 4 => some b!"None"
      | _ => none) else none := by
    intro k
    have e : b!"SameSite".map lowerByte = b!"samesite" := by decide
    split <;> simp only [Said.attr, List.reverse_singleton, List.find?_singleton, e, List.reverse_nil, List.find?_nil] <;>
      by_cases hk : b!"samesite" = k <;> simp [hk]
  unfold Cookie.attrs
  refine ⟨?_, ?_, ?_, ?_, ?_, ?_⟩ <;>
    (simp only [attr_append, one, site, show b!"max-age".map lowerByte = b!"max-age" from by decide,
      show b!"domain".map lowerByte = b!"domain" from by decide, show b!"path".map lowerByte = b!"path" from by decide,
      show b!"HttpOnly".map lowerByte = b!"httponly" from by decide, show b!"secure".map lowerByte = b!"secure" from by decide]
     simp)

/-! ### One call -/

/-- The cookie of a call. -/
def cookieOf (host : Str) (a : CookieCall) : Cookie where
  key := a.name
  value := queryEscape a.value
  domain := askedDomain host a
  path := askedPath a
  maxAge := a.maxAge
  secure := a.secure || a.sameSite == sameSiteNone
  httpOnly := a.httpOnly
  sameSite := a.sameSite

theorem setCookie_of {hostHeader host : Str} (hh : HostOf hostHeader host) (a : CookieCall) :
    setCookie hostHeader a.sameSite a.name a.value a.maxAge a.path a.domain a.secure a.httpOnly = .ret (cookieOf host a) := by
  obtain ⟨h, e1, e2⟩ := C41_host hostHeader
  have : host = h := (e2 host).1 hh
  subst this
  unfold setCookie cookieOf askedDomain askedPath
  have hp : normalizePath (if a.path = [] then b!"/" else a.path) = if a.path = [] then b!"/" else normalizePath a.path := by
    split
    · exact normalizePath_root
    · rfl
  by_cases hd : a.domain = []
  · simp only [hd, if_true, e1, Outcome.bind_ret, hp]
  · simp only [hd, if_false, Outcome.bind_ret, hp]

theorem askedPath_slash (a : CookieCall) : ∃ p, askedPath a = 47 :: p := by
  unfold askedPath
  split
  · exact ⟨[], rfl⟩
  · obtain ⟨l, t, -, h, -⟩ := request_path a.path
    exact ⟨t, h⟩

theorem escape_sep (v : Str) : NoSep (queryEscape v) := by
  obtain ⟨c, h1, -, -, -, -, -, -, -, h2, -⟩ := C42_cookie [] 0 [] v 0 [] b!"x" false false
  simp only [setCookie, show (b!"x" = []) = False from by simp, if_false, Outcome.bind_ret, Outcome.ret.injEq] at h1
  subst h1
  intro b hb hm
  have h3 := h2 b hb
  simp only [List.mem_cons, List.not_mem_nil, or_false] at hm
  rcases hm with rfl | rfl | rfl
  · exact h3.2.2 (by decide)
  · exact absurd h3.1 (by decide)
  · exact absurd h3.1 (by decide)

theorem escape_good (v : Str) : GoodText (queryEscape v) := (escape_sep v).good

theorem unescape_of (v : Str) : queryUnescape (queryEscape v) = some v := unescape_escape v

theorem read_call {host : Str} {a : CookieCall} (h : Writable host a) :
    readSetCookie (cookieOf host a).line = some ⟨a.name, queryEscape a.value, (cookieOf host a).attrs⟩ :=
  read_line (cookieOf host a) h.name (escape_good _) h.domain h.path

theorem call_said (host : Str) (a : CookieCall) (n v : Str) :
    (Said.mk n v (cookieOf host a).attrs).attr b!"max-age" = (if a.maxAge > 0 then some (formatNat a.maxAge.toNat) else none) ∧
    (Said.mk n v (cookieOf host a).attrs).attr b!"domain" = (if askedDomain host a ≠ [] then some (askedDomain host a) else none) ∧
    (Said.mk n v (cookieOf host a).attrs).attr b!"path" = (if askedPath a ≠ [] then some (askedPath a) else none) ∧
    (Said.mk n v (cookieOf host a).attrs).attr b!"httponly" = (if a.httpOnly then some [] else none) ∧
    (Said.mk n v (cookieOf host a).attrs).attr b!"secure" =
      (if (a.secure || a.sameSite == sameSiteNone) = true then some [] else none) ∧
    (Said.mk n v (cookieOf host a).attrs).attr b!"samesite" = (match a.sameSite with
      | 1 => some []
      | 2 => some b!"Lax"
      | 3 => some b!"Strict"
      | 4 => some b!"None"
      | _ => none) := attrs_said n v (cookieOf host a)

/-- **C99** (what the client is told).  If name, domain and path have no ';' and no space or tab at the ends, and the
name is not empty and has no '=', the one Set-Cookie line of a call is read by a client as the name, a value from which
unescaping gives the value, and exactly the attributes asked for: the lifetime if it is positive, the domain or the
host, the path or "/", and the flags. -/
theorem C99_line_partial (hostHeader host : Str) (hh : HostOf hostHeader host) (a : CookieCall) (h : Writable host a) :
    ∃ cs line said, setCookieCalls hostHeader [] [a] = .ret cs ∧ setCookieLines cs = [line] ∧ readSetCookie line = some said ∧
      SaysAsked host a said := by
  obtain ⟨p, hp⟩ := askedPath_slash a
  obtain ⟨m, d, pa, ho, se, si⟩ := call_said host a a.name (queryEscape a.value)
  refine ⟨[(a.name, (cookieOf host a).line)], _, _, ?_, rfl, read_call h, rfl, unescape_of _, ?_, ?_, ?_, ?_, ?_, ?_, ?_, ?_, ?_, ?_,
    ?_, ?_⟩
  · simp only [setCookieCalls, setCookieCall, setCookie_of hh, Outcome.bind_ret]
    rfl
  · intro h; rw [m, if_neg]; exact Int.not_lt.2 h
  · intro h; rw [m, if_pos h]; exact ⟨_, rfl, formatNat_number _⟩
  · intro h; rw [d, if_pos h]
  · rw [pa, if_pos]
    rw [hp]; simp
  · rw [ho]; cases a.httpOnly <;> simp
  · have hn : (Said.mk a.name (queryEscape a.value) (cookieOf host a).attrs).attr b!"samesite" = some b!"None" ↔ a.sameSite = 4 := by
      rw [si]
      split <;> simp_all
    rw [hn, se]
    cases hb : (a.secure || a.sameSite == sameSiteNone) <;> simpa [sameSiteNone] using hb
  · intro h; rw [si, h]; rfl
  · intro h; rw [si, h]; rfl
  · intro h; rw [si, h]; rfl
  · intro h; rw [si, h]; rfl
  · intro h; rw [si, h]; rfl
  intro x hx
  simp only [Cookie.attrs, List.mem_append] at hx
  rcases hx with ((((h | h) | h) | h) | h) | h
  · split at h <;> simp only [List.mem_singleton, List.not_mem_nil] at h
    subst h; exact of_decide_eq_true (by dsimp only; rfl)
  · split at h <;> simp only [List.mem_singleton, List.not_mem_nil] at h
    subst h; exact of_decide_eq_true (by dsimp only; rfl)
  · split at h <;> simp only [List.mem_singleton, List.not_mem_nil] at h
    subst h; exact of_decide_eq_true (by dsimp only; rfl)
  · split at h <;> simp only [List.mem_singleton, List.not_mem_nil] at h
    subst h; decide
  · split at h <;> simp only [List.mem_singleton, List.not_mem_nil] at h
    subst h; decide
  · split at h <;> simp only [List.mem_singleton, List.not_mem_nil] at h <;> subst h <;> decide

theorem trimWsp_trim (s : Str) : trimWsp (trimWsp s) = trimWsp s := by
  rw [trimWsp_iff]
  intro b hb
  cases hw : wsp b with
  | false => rfl
  | true =>
    exfalso
    unfold trimWsp rdropWhile at hb
    have hd : ∀ l : Str, ∀ c, (l.dropWhile wsp).head? = some c → wsp c = false := by
      intro l c hc
      have := List.head?_dropWhile_not wsp l
      rw [hc] at this
      simpa using this
    rcases hb with hb | hb
    · -- the first byte of what is left is the first byte of the middle text
      have hpre : (((s.dropWhile wsp).reverse.dropWhile wsp).reverse) <+: s.dropWhile wsp := by
        have := List.dropWhile_suffix wsp (l := (s.dropWhile wsp).reverse)
        rw [← List.reverse_prefix] at this
        simpa using this
      obtain ⟨r, hr⟩ := hpre
      have : (s.dropWhile wsp).head? = some b := by
        rw [← hr, List.head?_append, hb]; rfl
      rw [hd s b this] at hw; cases hw
    · rw [List.getLast?_reverse] at hb
      rw [hd _ b hb] at hw; cases hw

theorem trimWsp_sublist (s : Str) : (trimWsp s).Sublist s := by
  unfold trimWsp rdropWhile
  have h1 : ((s.dropWhile wsp).reverse.dropWhile wsp).reverse.Sublist (s.dropWhile wsp) := by
    have := (List.dropWhile_suffix wsp (l := (s.dropWhile wsp).reverse)).sublist.reverse
    simpa using this
  exact h1.trans (List.dropWhile_suffix _).sublist

/-- A text that is read has no ';' if the line had none, and no blanks at its ends. -/
theorem trimWsp_good {s : Str} (h : (59 : UInt8) ∉ s) : GoodText (trimWsp s) :=
  ⟨fun hb => h ((trimWsp_sublist s).subset hb), (trimWsp_iff _).1 (trimWsp_trim s)⟩

theorem cut_sub {b : UInt8} {s : Str} {x : Str × Str} (h : cut b s = some x) :
    x.1.Sublist s ∧ x.2.Sublist s ∧ b ∉ x.1 := by
  unfold cut at h
  split at h
  · simp only [Option.some.injEq] at h
    subst h
    refine ⟨(List.takeWhile_prefix _).sublist, (List.drop_sublist ..).trans (List.dropWhile_suffix _).sublist, ?_⟩
    intro hb
    simpa using List.all_takeWhile (p := (· != b)) (l := s) |> List.all_eq_true.1 |> (· b hb)
  · cases h

theorem readAttr_good {s : Str} (h : (59 : UInt8) ∉ s) : GoodText (readAttr s).2 := by
  unfold readAttr
  split
  · next x hx => exact trimWsp_good (fun hb => h ((cut_sub hx).2.1.subset hb))
  · exact ⟨by simp, by simp⟩

theorem splitByte_no (c : UInt8) (s : Str) : ∀ x ∈ splitByte c s, c ∉ x := by
  induction hn : s.length using Nat.strongRecOn generalizing s with
  | _ n ih =>
    by_cases hc : c ∈ s
    · obtain ⟨p, r, rfl, hp⟩ := List.eq_append_cons_of_mem hc
      rw [splitByte_append c p r hp]
      intro x hx
      rcases List.mem_cons.1 hx with rfl | hx
      · exact hp
      · exact ih r.length (by simp at hn; omega) r rfl x hx
    · rw [splitByte_single c s hc]
      intro x hx
      rw [List.mem_singleton.1 hx]; exact hc

theorem read_good {line : Str} {said : Said} (h : readSetCookie line = some said) :
    GoodName said.name ∧ ∀ k v, said.attr k = some v → GoodText v := by
  unfold readSetCookie at h
  cases hs : splitByte 59 line with
  | nil => simp [hs] at h
  | cons pair avs =>
    rw [hs] at h
    have hno := splitByte_no 59 line
    rw [hs] at hno
    simp only at h
    cases hc : cut 61 pair with
    | none => simp [hc] at h
    | some x =>
      rw [hc] at h
      simp only at h
      split at h
      · cases h
      · next hne =>
        simp only [Option.some.injEq] at h
        subst h
        have hp := hno pair (by simp)
        obtain ⟨s1, -, s3⟩ := cut_sub hc
        refine ⟨⟨hne, fun hb => s3 ((trimWsp_sublist _).subset hb), trimWsp_good (fun hb => hp (s1.subset hb))⟩, ?_⟩
        intro k v hv
        unfold Said.attr at hv
        simp only [Option.map_eq_some_iff] at hv
        obtain ⟨e, he, rfl⟩ := hv
        have hm := List.mem_of_find?_eq_some he
        rw [List.mem_reverse, List.mem_map] at hm
        obtain ⟨y, hy, rfl⟩ := hm
        exact readAttr_good (hno y (by simp [hy]))

/-- **C99 (exact)** A client is told what was asked for exactly if the name is not empty and has no '=', and name,
domain (or host) and normalised path have no ';' and no space or tab at the ends. -/
theorem C99_exact (hostHeader host : Str) (hh : HostOf hostHeader host) (a : CookieCall) :
    (∃ cs line said, setCookieCalls hostHeader [] [a] = .ret cs ∧ setCookieLines cs = [line] ∧ readSetCookie line = some said ∧
      SaysAsked host a said) ↔ Writable host a := by
  refine ⟨?_, C99_line_partial hostHeader host hh a⟩
  rintro ⟨cs, line, said, -, -, hr, hs⟩
  obtain ⟨h1, h2⟩ := read_good hr
  refine ⟨hs.name ▸ h1, ?_, h2 _ _ hs.path⟩
  by_cases hd : askedDomain host a = []
  · rw [hd]; exact ⟨by simp, by simp⟩
  · exact h2 _ _ (hs.domain hd)

/-! ### Several calls, and the next request -/

theorem setArg_keys {l : List (Str × Str)} {k v : Str} {x : Str × Str} (hn : (l.map (·.1)).Nodup) :
    x ∈ setArg l k v ↔ x = (k, v) ∨ (x ∈ l ∧ x.1 ≠ k) := by
  induction l with
  | nil => simp [setArg]
  | cons e t ih =>
    rw [List.map_cons, List.nodup_cons] at hn
    unfold setArg
    split
    · next h =>
      rw [List.mem_cons]
      constructor
      · rintro (rfl | hx)
        · exact .inl rfl
        · exact .inr ⟨List.mem_cons_of_mem _ hx, fun e1 => hn.1 (by rw [h, ← e1]; exact List.mem_map_of_mem hx)⟩
      · rintro (rfl | ⟨hx, hk⟩)
        · exact .inl rfl
        · rcases List.mem_cons.1 hx with rfl | hx
          · exact absurd h hk
          · exact .inr hx
    · next h =>
      rw [List.mem_cons, ih hn.2, List.mem_cons]
      constructor
      · rintro (rfl | rfl | ⟨hx, hk⟩)
        · exact .inr ⟨.inl rfl, h⟩
        · exact .inl rfl
        · exact .inr ⟨.inr hx, hk⟩
      · rintro (rfl | ⟨rfl | hx, hk⟩)
        · exact .inr (.inl rfl)
        · exact .inl rfl
        · exact .inr (.inr ⟨hx, hk⟩)

theorem setArg_nodup {l : List (Str × Str)} {k v : Str} (hn : (l.map (·.1)).Nodup) : ((setArg l k v).map (·.1)).Nodup := by
  induction l with
  | nil => simp [setArg]
  | cons e t ih =>
    have hn' := hn
    rw [List.map_cons, List.nodup_cons] at hn
    unfold setArg
    split
    · next h => simpa [h] using hn'
    · next h =>
      rw [List.map_cons, List.nodup_cons]
      refine ⟨?_, ih hn.2⟩
      intro hm
      obtain ⟨x, hx, hxe⟩ := List.mem_map.1 hm
      rcases (setArg_keys hn.2).1 hx with rfl | ⟨hx, -⟩
      · exact h hxe.symm
      · exact hn.1 (hxe ▸ List.mem_map_of_mem hx)

theorem calls_fold {hostHeader host : Str} (hh : HostOf hostHeader host) (calls : List CookieCall) (cs : List (Str × Str)) :
    setCookieCalls hostHeader cs calls = .ret (calls.foldl (fun cs a => setArg cs a.name (cookieOf host a).line) cs) := by
  induction calls generalizing cs with
  | nil => rfl
  | cons a t ih =>
    simp only [setCookieCalls, setCookieCall, setCookie_of hh, Outcome.bind_ret, List.foldl_cons]
    exact ih _

/-- The lines of a response: one per name, that of the last call with the name. -/
theorem calls_lines (f : CookieCall → Str) (calls : List CookieCall) (cs : List (Str × Str)) (hn : (cs.map (·.1)).Nodup) :
    ((calls.foldl (fun cs a => setArg cs a.name (f a)) cs).map (·.1)).Nodup ∧
    (∀ x ∈ calls.foldl (fun cs a => setArg cs a.name (f a)) cs, x ∈ cs ∨ ∃ a ∈ calls, x = (a.name, f a)) ∧
    (∀ pre a post, calls = pre ++ a :: post → (∀ b ∈ post, b.name ≠ a.name) →
      (a.name, f a) ∈ calls.foldl (fun cs a => setArg cs a.name (f a)) cs) := by
  induction calls generalizing cs with
  | nil =>
    refine ⟨hn, fun x hx => .inl hx, ?_⟩
    intro pre a post h
    simp at h
  | cons c t ih =>
    obtain ⟨h1, h2, h3⟩ := ih (setArg cs c.name (f c)) (setArg_nodup hn)
    refine ⟨h1, ?_, ?_⟩
    · intro x hx
      rcases h2 x hx with h | ⟨a, ha, rfl⟩
      · rcases (setArg_keys hn).1 h with rfl | ⟨h, -⟩
        · exact .inr ⟨c, by simp, rfl⟩
        · exact .inl h
      · exact .inr ⟨a, List.mem_cons_of_mem _ ha, rfl⟩
    · intro pre a post e hp
      cases pre with
      | nil =>
        rw [List.nil_append, List.cons.injEq] at e
        obtain ⟨rfl, rfl⟩ := e
        rw [List.foldl_cons]
        have keep : ∀ (l : List CookieCall) (cs : List (Str × Str)), (∀ b ∈ l, b.name ≠ c.name) → (cs.map (·.1)).Nodup →
            (c.name, f c) ∈ cs → (c.name, f c) ∈ l.foldl (fun cs a => setArg cs a.name (f a)) cs := by
          intro l
          induction l with
          | nil => exact fun _ _ _ h => h
          | cons b l ihl =>
            intro cs hb hn hm
            rw [List.foldl_cons]
            refine ihl _ (fun x hx => hb x (List.mem_cons_of_mem _ hx)) (setArg_nodup hn) ?_
            exact (setArg_keys hn).2 (.inr ⟨hm, Ne.symm (hb b (by simp))⟩)
        exact keep t _ hp (setArg_nodup hn) ((setArg_keys hn).2 (.inl rfl))
      | cons d pre =>
        rw [List.cons_append, List.cons.injEq] at e
        obtain ⟨rfl, rfl⟩ := e
        exact h3 pre a post rfl hp

theorem over_number {n : Nat} {t : Str} (h : Number n t) (hn : 0 < n) : over t = false := by
  obtain ⟨⟨hne, hd⟩, hv, hz⟩ := h
  cases t with
  | nil => exact absurd rfl hne
  | cons c ds =>
    have hc := hd c (by simp)
    unfold over
    split
    · next h => cases h; exact absurd hc.1 (by decide)
    · next h => cases h
    · next h =>
      cases hall : (c :: ds).all (· == 48) with
      | false => rfl
      | true =>
        rw [List.all_cons, Bool.and_eq_true, beq_iff_eq] at hall
        have e := hz (by rw [hall.1]; rfl)
        rw [e] at hv
        simp [decVal] at hv
        omega

/-- The stored cookie of a call, if the client accepts it. -/
theorem receive_call {host req : Str} {a : CookieCall} (h : Writable host a) (jar : List Stored) :
    receive host req jar (cookieOf host a).line = jar ∨
    ∃ s : Stored, s.name = a.name ∧ s.value = queryEscape a.value ∧ receive host req jar (cookieOf host a).line = put jar s := by
  obtain ⟨m, -⟩ := call_said host a a.name (queryEscape a.value)
  unfold receive
  rw [read_call h]
  simp only
  split
  · exact .inl rfl
  · next d hd =>
    rw [m]
    by_cases hm : a.maxAge > 0
    · rw [if_pos hm]
      have : over (formatNat a.maxAge.toNat) = false := over_number (formatNat_number _) (by omega)
      simp only [this]
      exact .inr ⟨_, rfl, rfl, rfl⟩
    · rw [if_neg hm]
      exact .inr ⟨_, rfl, rfl, rfl⟩

theorem put_mem {jar : List Stored} {s t : Stored} (h : t ∈ put jar s) : t = s ∨ t ∈ jar := by
  unfold put at h
  split at h
  · obtain ⟨x, hx, rfl⟩ := List.mem_map.1 h
    split
    · exact .inl rfl
    · exact .inr hx
  · rcases List.mem_append.1 h with h | h
    · exact .inr h
    · exact .inl (List.mem_singleton.1 h)

theorem put_self (jar : List Stored) (s : Stored) : s ∈ put jar s := by
  unfold put
  split
  · next h =>
    obtain ⟨x, hx, hs⟩ := List.any_eq_true.1 h
    exact List.mem_map.2 ⟨x, hx, by rw [if_pos hs]⟩
  · simp

theorem put_keep {jar : List Stored} {s t : Stored} (h : t ∈ jar) (hn : t.name ≠ s.name) : t ∈ put jar s := by
  unfold put
  split
  · refine List.mem_map.2 ⟨t, h, ?_⟩
    rw [if_neg]
    simp [Stored.same, Ne.symm hn]
  · exact List.mem_append.2 (.inl h)

theorem receive_accepted {host req : Str} {a : CookieCall} (h : Writable host a) (hne : askedDomain host a ≠ [])
    (hd : domainMatch host (storedDomain host a) = true) (jar : List Stored) :
    receive host req jar (cookieOf host a).line =
      put jar ⟨a.name, queryEscape a.value, storedDomain host a, false, askedPath a⟩ := by
  obtain ⟨m, d, pa, -⟩ := call_said host a a.name (queryEscape a.value)
  obtain ⟨p, hp⟩ := askedPath_slash a
  have hdom : (Said.mk a.name (queryEscape a.value) (cookieOf host a).attrs).domain host = some (storedDomain host a, false) := by
    unfold Said.domain
    rw [d, if_pos hne]
    cases hx : askedDomain host a with
    | nil => exact absurd hx hne
    | cons c t =>
      simp only
      have : storedDomain host a = (trimPrefix (c :: t) b!".").map lowerByte := by unfold storedDomain; rw [hx]
      rw [← this, if_pos hd]
  have hpath : (Said.mk a.name (queryEscape a.value) (cookieOf host a).attrs).path req = askedPath a := by
    unfold Said.path
    rw [pa, hp, if_pos (by simp)]
    rfl
  unfold receive
  rw [read_call h]
  simp only
  rw [hdom, hpath]
  simp only
  rw [m]
  by_cases hm : a.maxAge > 0
  · rw [if_pos hm]
    have : over (formatNat a.maxAge.toNat) = false := over_number (formatNat_number _) (by omega)
    simp only [this]
    rfl
  · rw [if_neg hm]

theorem firstValue_perm {l l' : List SentCookie} {name v : Str} (hp : l.Perm l') (hall : ∀ c ∈ l', c.name = name → c.value = v)
    (hex : ∃ c ∈ l', c.name = name) : firstValue name l = some v := by
  have h1 : ∀ c ∈ l, c.name = name → c.value = v := fun c hc => hall c (hp.mem_iff.1 hc)
  obtain ⟨c, hc, hn⟩ := hex
  have h2 : ∃ c ∈ l, c.name = name := ⟨c, hp.mem_iff.2 hc, hn⟩
  clear hp hall hc
  induction l with
  | nil => obtain ⟨c, hc, -⟩ := h2; cases hc
  | cons d t ih =>
    unfold firstValue
    split
    · next h => rw [h1 d (by simp) h]
    · next h =>
      refine ih (fun c hc => h1 c (List.mem_cons_of_mem _ hc)) ?_
      obtain ⟨c, hc, hn⟩ := h2
      rcases List.mem_cons.1 hc with rfl | hc
      · exact absurd hn h
      · exact ⟨c, hc, hn⟩

/-- **C99** (the cookie comes back).  A client, whose store has no cookie with this name, gets an answer in which a handler has
made any number of SetCookie calls with writable texts, the last of them for the name with a value that is not empty and a
domain (by default its host) that covers the host.  With any later request, to a host and path covered by the cookie, however
it orders the cookies it sends, `Cookie(name)` returns a cookie whose unescaped value is the value of that last call. -/
theorem C99_comes_back_partial (hostHeader host req : Str) (hh : HostOf hostHeader host)
    (calls pre post : List CookieCall) (a : CookieCall) (hcalls : calls = pre ++ a :: post) (hlast : ∀ b ∈ post, b.name ≠ a.name)
    (hw : ∀ b ∈ calls, Writable host b ∧ ∀ x ∈ b.name, x ∉ b!"\" ") (hv : a.value ≠ [])
    (hne : askedDomain host a ≠ []) (hd : domainMatch host (storedDomain host a) = true)
    (jar : List Stored) (hjar : ∀ c ∈ jar, c.name ≠ a.name ∧ SentCookie.Valid ⟨c.name, c.value, false⟩) :
    ∃ cs, setCookieCalls hostHeader [] calls = .ret cs ∧
      ∀ host' req', domainMatch host' (storedDomain host a) = true → pathMatch req' (askedPath a) = true →
        ∀ sent, SentWith (receiveAll host req jar (setCookieLines cs)) host' req' sent →
          ∃ k v, cookieCall [cookieHeader sent] a.name = some (k, v) ∧ queryUnescape v = some a.value := by
  refine ⟨_, calls_fold hh calls [], ?_⟩
  intro host' req' hd' hp' sent hs
  obtain ⟨hn, hfrom, hlast'⟩ := calls_lines (fun a => (cookieOf host a).line) calls [] (by simp)
  have hm := hlast' pre a post hcalls hlast
  generalize calls.foldl (fun cs a => setArg cs a.name (cookieOf host a).line) [] = cs at hn hfrom hm hs
  have ha : a ∈ calls := by rw [hcalls]; simp
  have hw' := (hw a ha).1
  have esc : ∀ b : Str, ∀ x ∈ queryEscape b, x ∉ b!";\" " := by
    intro b x hx hb
    have h1 := escape_sep b x hx
    simp only [List.mem_cons, List.not_mem_nil, or_false] at hb h1
    obtain ⟨c, h2, -, -, -, -, -, -, -, h3, -⟩ := C42_cookie [] 0 [] b 0 [] b!"x" false false
    simp only [setCookie, show (b!"x" = []) = False from by simp, if_false, Outcome.bind_ret, Outcome.ret.injEq] at h2
    subst h2
    have h4 := (h3 x hx).2.2
    rcases hb with rfl | rfl | rfl
    · exact h1 (.inl rfl)
    · exact h4 (by decide)
    · exact h1 (.inr (.inr rfl))
  have valid : ∀ b ∈ calls, SentCookie.Valid ⟨b.name, queryEscape b.value, false⟩ := by
    intro b hb
    obtain ⟨hb1, hb2⟩ := hw b hb
    refine ⟨hb1.name.1, ?_, esc _⟩
    intro x hx hm
    simp only [List.mem_cons, List.not_mem_nil, or_false] at hm
    rcases hm with rfl | rfl | rfl | rfl
    · exact hb1.name.2.1 hx
    · exact hb1.name.2.2.1 hx
    · exact hb2 _ hx (by decide)
    · exact hb2 _ hx (by decide)
  -- the store after the answer
  have main : ∀ (l : List (Str × Str)) (jar : List Stored), (l.map (·.1)).Nodup → (∀ x ∈ l, ∃ b ∈ calls, x = (b.name, (cookieOf host b).line)) →
      (∀ c ∈ jar, SentCookie.Valid ⟨c.name, c.value, false⟩ ∧ (c.name = a.name → c.value = queryEscape a.value)) →
      (∀ x ∈ l, x.1 = a.name → x.2 = (cookieOf host a).line) →
      (∀ c ∈ receiveAll host req jar (l.map (·.2)), SentCookie.Valid ⟨c.name, c.value, false⟩ ∧ (c.name = a.name → c.value = queryEscape a.value)) ∧
      (∀ s ∈ jar, s.name = a.name → (∀ x ∈ l, x.1 ≠ a.name) → s ∈ receiveAll host req jar (l.map (·.2))) ∧
      ((a.name, (cookieOf host a).line) ∈ l →
        (⟨a.name, queryEscape a.value, storedDomain host a, false, askedPath a⟩ : Stored) ∈ receiveAll host req jar (l.map (·.2))) := by
    intro l
    induction l with
    | nil => intro jar _ _ hj _; exact ⟨hj, fun s hs _ _ => hs, fun h => by cases h⟩
    | cons x t ih =>
      intro jar hn hfr hj hx2
      rw [List.map_cons, List.nodup_cons] at hn
      obtain ⟨b, hb, rfl⟩ := hfr x (by simp)
      have hjar' : ∀ c ∈ receive host req jar (cookieOf host b).line,
          SentCookie.Valid ⟨c.name, c.value, false⟩ ∧ (c.name = a.name → c.value = queryEscape a.value) := by
        intro c hc
        rcases receive_call (req := req) (hw b hb).1 jar with h | ⟨s, h1, h2, h3⟩
        · rw [h] at hc; exact hj c hc
        · rw [h3] at hc
          rcases put_mem hc with rfl | hc
          · rw [h1, h2]
            refine ⟨valid b hb, fun e => ?_⟩
            have := hx2 _ (List.mem_cons_self ..) e
            have e1 := read_call (hw b hb).1
            rw [show (cookieOf host b).line = (cookieOf host a).line from this, read_call hw'] at e1
            injection e1 with e1; injection e1 with _ e1 _
            exact e1.symm
          · exact hj c hc
      obtain ⟨i1, i2, i3⟩ := ih _ hn.2 (fun y hy => hfr y (List.mem_cons_of_mem _ hy)) hjar'
        (fun y hy => hx2 y (List.mem_cons_of_mem _ hy))
      refine ⟨i1, ?_, ?_⟩
      · intro s hs hsn hno
        refine i2 s ?_ hsn (fun y hy => hno y (List.mem_cons_of_mem _ hy))
        have hbn : b.name ≠ a.name := hno _ (List.mem_cons_self ..)
        rcases receive_call (req := req) (hw b hb).1 jar with h | ⟨s', h1, h2, h3⟩
        · show s ∈ receive host req jar (cookieOf host b).line
          rw [h]; exact hs
        · show s ∈ receive host req jar (cookieOf host b).line
          rw [h3]
          exact put_keep hs (by rw [hsn, h1]; exact Ne.symm hbn)
      · intro hmem
        rcases List.mem_cons.1 hmem with h | h
        · have h1 : a.name = b.name := (Prod.mk.inj h).1
          have h2 : (cookieOf host a).line = (cookieOf host b).line := (Prod.mk.inj h).2
          refine i2 _ ?_ rfl ?_
          · show _ ∈ receive host req jar (cookieOf host b).line
            rw [← h2, receive_accepted hw' hne hd]
            exact put_self _ _
          · intro y hy hyn
            exact hn.1 (List.mem_map.2 ⟨y, hy, hyn.trans h1⟩)
        · exact i3 h
  have huniq : ∀ x ∈ cs, x.1 = a.name → x.2 = (cookieOf host a).line := by
    intro x hx hxn
    have : ∀ (l : List (Str × Str)), (l.map (·.1)).Nodup → ∀ x ∈ l, ∀ y ∈ l, x.1 = y.1 → x = y := by
      intro l
      induction l with
      | nil => intro _ x hx; cases hx
      | cons e t ih =>
        intro hn x hx y hy hxy
        rw [List.map_cons, List.nodup_cons] at hn
        rcases List.mem_cons.1 hx with hx | hx <;> rcases List.mem_cons.1 hy with hy | hy
        · rw [hx, hy]
        · exact absurd (List.mem_map.2 ⟨y, hy, hxy ▸ hx ▸ rfl⟩) hn.1
        · exact absurd (List.mem_map.2 ⟨x, hx, hxy.trans (hy ▸ rfl)⟩) hn.1
        · exact ih hn.2 x hx y hy hxy
    rw [this cs hn x hx _ hm hxn]
  obtain ⟨j1, -, j3⟩ := main cs jar hn (fun x hx => (hfrom x hx).resolve_left (by simp))
    (fun c hc => ⟨(hjar c hc).2, fun e => absurd e (hjar c hc).1⟩) huniq
  have hin := j3 hm
  unfold SentWith at hs
  have hfirst : firstValue a.name sent = some (queryEscape a.value) := by
    refine firstValue_perm hs ?_ ?_
    · intro c hc hcn
      obtain ⟨s, hs1, rfl⟩ := List.mem_map.1 hc
      exact (j1 s (List.mem_filter.1 hs1).1).2 hcn
    · refine ⟨⟨a.name, queryEscape a.value, false⟩, List.mem_map.2 ⟨_, List.mem_filter.2 ⟨hin, ?_⟩, rfl⟩, rfl⟩
      simp [Stored.applies, hd', hp']
  have hsv : ∀ c ∈ [sent].flatten, c.Valid := by
    intro c hc
    rw [List.flatten_singleton] at hc
    obtain ⟨s, hs1, rfl⟩ := List.mem_map.1 (hs.mem_iff.1 hc)
    exact (j1 s (List.mem_filter.1 hs1).1).1
  have hve : queryEscape a.value ≠ [] := by
    intro e
    have := unescape_of a.value
    rw [e] at this
    simp only [queryUnescape, Option.some.injEq] at this
    exact hv this.symm
  have h61 : (61 : UInt8) ∉ queryEscape a.value := by
    intro hx
    obtain ⟨c, h2, -, -, -, -, -, -, -, h3, -⟩ := C42_cookie [] 0 [] a.value 0 [] b!"x" false false
    simp only [setCookie, show (b!"x" = []) = False from by simp, if_false, Outcome.bind_ret, Outcome.ret.injEq] at h2
    subst h2
    exact (h3 61 hx).2.2 (by decide)
  refine ⟨[], queryEscape a.value, ?_, unescape_of _⟩
  exact (C83_exact [sent] hsv a.name).2.2.1 _ (by rw [List.flatten_singleton]; exact hfirst) hve h61

/-- A login: two cookies, one of them set twice. -/
def exCookieCalls : List CookieCall :=
  [{ name := b!"sid", value := b!"old" }, { name := b!"theme", value := b!"dark; blue", path := b!"/app", maxAge := 3600 },
   { name := b!"sid", value := b!"x y=1", httpOnly := true, sameSite := 2 }]

def exJar : List Stored := [⟨b!"lang", b!"de", b!"example.com", true, b!"/"⟩]

example : setCookieCalls b!"example.com:8080" [] exCookieCalls = .ret
    [(b!"sid", b!"sid=x+y%3D1; domain=example.com; path=/; HttpOnly; SameSite=Lax"),
     (b!"theme", b!"theme=dark%3B+blue; max-age=3600; domain=example.com; path=/app")] := by decide +kernel

/-- The case meets the hypotheses of `C99_comes_back_partial`. -/
example : (∀ b ∈ exCookieCalls, Writable b!"example.com" b ∧ ∀ x ∈ b.name, x ∉ b!"\" ") ∧
    domainMatch b!"example.com" (storedDomain b!"example.com" exCookieCalls[2]) = true ∧
    (∀ c ∈ exJar, c.name ≠ b!"sid" ∧ SentCookie.Valid ⟨c.name, c.value, false⟩) ∧
    domainMatch b!"www.example.com" (storedDomain b!"example.com" exCookieCalls[2]) = true ∧
    pathMatch b!"/app/x" (askedPath exCookieCalls[2]) = true := by
  refine ⟨?_, by decide +kernel, ?_, by decide +kernel, by decide +kernel⟩
  · have g : ∀ s : Str, (s.all fun b => decide (b ∉ b!";\t ")) = true → GoodText s := by
      intro s h
      exact NoSep.good fun b hb => of_decide_eq_true (List.all_eq_true.1 h b hb)
    intro b hb
    simp only [exCookieCalls, List.mem_cons, List.not_mem_nil, or_false] at hb
    rcases hb with rfl | rfl | rfl <;>
      exact ⟨⟨⟨by decide, by decide, g _ (by decide +kernel)⟩, g _ (by decide +kernel), g _ (by decide +kernel)⟩, by decide⟩
  · intro c hc
    simp only [exJar, List.mem_singleton] at hc
    subst hc
    exact ⟨by decide, by decide, by decide, by decide⟩

/-- **C99** (where it fails).  No call of SetCookie makes a client forget a cookie, whatever the lifetime given: after any
writable call every cookie of the store is still there, perhaps with a new value.  And a ';' written as an escape in the path ends the attribute: a client
discards the cookie set here, because the rest of the path is read as a lifetime of zero. -/
theorem C99_violated :
    (∀ (hostHeader host req : Str) (a : CookieCall) (jar : List Stored) cs, HostOf hostHeader host → Writable host a →
      setCookieCalls hostHeader [] [a] = .ret cs → ∀ s ∈ jar, ∃ t ∈ receiveAll host req jar (setCookieLines cs), s.same t = true) ∧
    (∃ cs, setCookieCalls b!"h" [] [{ name := b!"sid", value := b!"v", path := b!"/a%3BMax-Age=0", maxAge := 3600 }] = .ret cs ∧
      receiveAll b!"h" b!"/" [] (setCookieLines cs) = []) := by
  constructor
  · intro hostHeader host req a jar cs hh h hcs
    simp only [setCookieCalls, setCookieCall, setCookie_of hh, Outcome.bind_ret, Outcome.ret.injEq] at hcs
    subst hcs
    show ∀ s ∈ jar, ∃ t ∈ receive host req jar (cookieOf host a).line, s.same t = true
    have refl : ∀ s : Stored, s.same s = true := fun s => by simp [Stored.same]
    intro t ht
    rcases receive_call (req := req) h jar with e | ⟨s, -, -, e⟩
    · rw [e]; exact ⟨t, ht, refl t⟩
    · rw [e]
      unfold put
      split
      · refine ⟨_, List.mem_map_of_mem ht, ?_⟩
        split
        · next hs =>
          simp only [Stored.same, Bool.and_eq_true, decide_eq_true_eq] at hs ⊢
          exact ⟨⟨hs.1.1.symm, hs.1.2.symm⟩, hs.2.symm⟩
        · exact refl t
      · exact ⟨t, by simp [ht], refl t⟩
  · exact ⟨[(b!"sid", b!"sid=v; max-age=3600; domain=h; path=/a;Max-Age=0")], by decide +kernel, by decide +kernel⟩

end Verif
