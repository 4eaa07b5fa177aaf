import Verif.Model.Cookie
import Verif.Spec.Cookie
import Verif.Props.Ctx
import Verif.Lemmas.SplitPath
/-
C83: reading cookies.
-/
namespace Verif
open Spec

theorem dropWhile_none {p : UInt8 → Bool} {s : Str} (h : ∀ b ∈ s, p b = false) : s.dropWhile p = s := by
  cases s with
  | nil => rfl
  | cons a t => rw [List.dropWhile_cons, h a (by simp)]; rfl

theorem trim_none {s : Str} (h : 32 ∉ s) : trimByte 32 s = s := by
  have h1 : ∀ b ∈ s, (b == (32 : UInt8)) = false := by
    intro b hb
    rw [beq_eq_false_iff_ne]
    intro e; subst e; exact h hb
  unfold trimByte trimLeftByte rdropWhile
  rw [dropWhile_none h1, dropWhile_none (fun b hb => h1 b (List.mem_reverse.1 hb)), List.reverse_reverse]

theorem trim_space {s : Str} (h : 32 ∉ s) : trimByte 32 (32 :: s) = s := by
  have : trimByte 32 (32 :: s) = trimByte 32 s := by
    unfold trimByte trimLeftByte
    rw [List.dropWhile_cons, if_pos (by decide)]
  rw [this, trim_none h]

theorem decode_plain {q : Bool} {s : Str} (h : 32 ∉ s) (h' : 34 ∉ s) : decodeCookieArg q s = s := by
  unfold decodeCookieArg
  simp only
  rw [trim_none h, if_neg]
  rintro ⟨-, -, h1, -⟩
  exact h' (List.mem_of_mem_head? h1)

theorem decode_quoted {s : Str} (h : 32 ∉ s) : decodeCookieArg true (b!"\"" ++ s ++ b!"\"") = s := by
  unfold decodeCookieArg
  simp only
  have h1 : (32 : UInt8) ∉ b!"\"" ++ s ++ b!"\"" := by simp [h]
  rw [trim_none h1, if_pos]
  · simp
  · exact ⟨trivial, by simp, by simp, by rw [List.getLast?_append]; rfl⟩

theorem takeWhile_until {c : UInt8} {a : Str} (b : Str) (h : c ∉ a) : (a ++ c :: b).takeWhile (· != c) = a := by
  induction a with
  | nil => simp
  | cons x a ih =>
    simp only [List.mem_cons, not_or] at h
    rw [List.cons_append, List.takeWhile_cons, if_pos (by simpa using Ne.symm h.1), ih h.2]

theorem dropWhile_until {c : UInt8} {a : Str} (b : Str) (h : c ∉ a) : (a ++ c :: b).dropWhile (· != c) = c :: b := by
  induction a with
  | nil => simp
  | cons x a ih =>
    simp only [List.mem_cons, not_or] at h
    rw [List.cons_append, List.dropWhile_cons, if_pos (by simpa using Ne.symm h.1), ih h.2]

theorem takeWhile_none {c : UInt8} {a : Str} (h : c ∉ a) : a.takeWhile (· != c) = a := by
  induction a with
  | nil => rfl
  | cons x a ih =>
    simp only [List.mem_cons, not_or] at h
    rw [List.takeWhile_cons, if_pos (by simpa using Ne.symm h.1), ih h.2]

/-- What a client sends is read back. -/
theorem scanPair_text {c : SentCookie} (h : c.Valid) (sp : Bool) :
    scanPair ((if sp then b!" " else []) ++ c.text) = (c.name, c.value) := by
  have n61 : (61 : UInt8) ∉ c.name := fun hb => h.name_ok 61 hb (by decide)
  have n34 : (34 : UInt8) ∉ c.name := fun hb => h.name_ok 34 hb (by decide)
  have n32 : (32 : UInt8) ∉ c.name := fun hb => h.name_ok 32 hb (by decide)
  have v34 : (34 : UInt8) ∉ c.value := fun hb => h.value_ok 34 hb (by decide)
  have v32 : (32 : UInt8) ∉ c.value := fun hb => h.value_ok 32 hb (by decide)
  have e : (if sp then b!" " else []) ++ c.text = ((if sp then b!" " else []) ++ c.name) ++ 61 ::
      (if c.quoted then b!"\"" ++ c.value ++ b!"\"" else c.value) := by simp [SentCookie.text]
  have m : (61 : UInt8) ∉ (if sp then b!" " else []) ++ c.name := by
    cases sp <;> simp [n61]
  rw [e]
  unfold scanPair
  rw [if_pos (by simp), takeWhile_until _ m, dropWhile_until _ m]
  congr 1
  · cases sp
    · exact decode_plain n32 n34
    · unfold decodeCookieArg
      simp only [if_true]
      rw [show (b!" " ++ c.name : Str) = 32 :: c.name from rfl, trim_space n32, if_neg (by simp)]
  · simp only [List.drop_succ_cons, List.drop_zero]
    cases c.quoted
    · exact decode_plain v32 v34
    · exact decode_quoted v32

theorem text_no_semicolon {c : SentCookie} (h : c.Valid) : (59 : UInt8) ∉ c.text := by
  have n59 : (59 : UInt8) ∉ c.name := fun hb => h.name_ok 59 hb (by decide)
  have v59 : (59 : UInt8) ∉ c.value := fun hb => h.value_ok 59 hb (by decide)
  unfold SentCookie.text
  cases c.quoted <;> simp [n59, v59]

theorem parse_cookieHeader {l : List SentCookie} (h : ∀ c ∈ l, c.Valid) :
    ∀ sp : Bool, (l = [] → sp = false) →
      parseRequestCookies ((if sp then b!" " else []) ++ cookieHeader l) = l.map fun c => (c.name, c.value) := by
  have keep : ∀ c ∈ l, decide ((c.name, c.value).1 ≠ [] ∨ (c.name, c.value).2 ≠ []) = true := by
    intro c hc; simp [(h c hc).name_ne]
  have sp59 : ∀ sp : Bool, (59 : UInt8) ∉ (if sp then b!" " else [] : Str) := by intro sp; cases sp <;> simp
  induction l with
  | nil => intro sp hsp; rw [hsp rfl]; rfl
  | cons c t ih =>
    intro sp _
    have hc := h c (by simp)
    cases t with
    | nil =>
      unfold parseRequestCookies
      simp only [cookieHeader]
      rw [splitByte_single 59 _ (by simp [sp59, text_no_semicolon hc])]
      simp [scanPair_text hc, hc.name_ne]
    | cons d t =>
      have := ih (fun c hc => h c (List.mem_cons_of_mem _ hc)) (fun c hc => keep c (List.mem_cons_of_mem _ hc)) true (by simp)
      unfold parseRequestCookies at this ⊢
      rw [show (if sp then b!" " else []) ++ cookieHeader (c :: d :: t) =
        ((if sp then b!" " else []) ++ c.text) ++ 59 :: ((if true then b!" " else []) ++ cookieHeader (d :: t)) by
          simp [cookieHeader]]
      rw [splitByte_append 59 _ _ (by simp [sp59, text_no_semicolon hc]), List.map_cons, scanPair_text hc, List.filter_cons,
        if_pos (by simp [hc.name_ne]), this]
      simp

theorem requestCookies_sent {groups : List (List SentCookie)} (h : ∀ c ∈ groups.flatten, c.Valid) :
    requestCookies (groups.map cookieHeader) = groups.flatten.map fun c => (c.name, c.value) := by
  induction groups with
  | nil => rfl
  | cons g t ih =>
    have h1 := parse_cookieHeader (l := g) (fun c hc => h c (by simp [hc])) false (by simp)
    simp only [Bool.false_eq_true, if_false, List.nil_append] at h1
    have h2 := ih fun c hc => h c (by simp only [List.flatten_cons, List.mem_append]; exact .inr hc)
    unfold requestCookies at h2 ⊢
    rw [List.map_cons, List.flatMap_cons, h1, h2]
    simp

/-- The values of cookies have no ';', whatever the headers are. -/
theorem requestCookies_no_semicolon (headers : List Str) (p : Str × Str) (hp : p ∈ requestCookies headers) : 59 ∉ p.2 := by
  unfold requestCookies at hp
  obtain ⟨hd, -, hp⟩ := List.mem_flatMap.1 hp
  unfold parseRequestCookies at hp
  obtain ⟨hp, -⟩ := List.mem_filter.1 hp
  obtain ⟨s, hs, rfl⟩ := List.mem_map.1 hp
  have h59 := splitByte_not_mem 59 hd s hs
  have dec : ∀ (t : Str), (59 : UInt8) ∉ t → (59 : UInt8) ∉ decodeCookieArg true t := by
    intro t ht
    have h1 : ∀ b ∈ trimByte 32 t, b ∈ t := by
      intro b hb
      unfold trimByte rdropWhile trimLeftByte at hb
      exact (List.dropWhile_sublist _).subset (List.mem_reverse.1 ((List.dropWhile_sublist _).subset (List.mem_reverse.1 hb)))
    unfold decodeCookieArg
    simp only
    split
    · intro hb
      exact ht (h1 _ (List.mem_of_mem_drop (List.dropLast_subset _ hb)))
    · intro hb; exact ht (h1 _ hb)
  unfold scanPair
  split
  · exact dec _ fun hb => h59 ((List.dropWhile_sublist _).subset (List.mem_of_mem_drop hb))
  · exact dec _ h59

theorem peek_first (name : Str) (l : List SentCookie) :
    argsPeek (l.map fun c => (c.name, c.value)) name = firstValue name l := by
  unfold argsPeek
  induction l with
  | nil => rfl
  | cons c t ih =>
    rw [List.map_cons, List.find?_cons, firstValue]
    by_cases h : c.name = name
    · simp [h]
    · simp only [h, decide_false, if_false]; exact ih

theorem firstValue_mem {name v : Str} {l : List SentCookie} (h : firstValue name l = some v) : ∃ c ∈ l, c.value = v := by
  induction l with
  | nil => cases h
  | cons c t ih =>
    unfold firstValue at h
    split at h
    · cases h; exact ⟨c, by simp, rfl⟩
    · obtain ⟨d, hd, e⟩ := ih h; exact ⟨d, by simp [hd], e⟩

/-- **C83** (what Cookie returns).  For every request with valid cookies, in any number of headers, plain or quoted: an error
if no cookie with the name was sent, or an empty one; otherwise a cookie that is made from the *value* of the first cookie
with that name: without a key if there is no '=' in it, and otherwise split at the first '='. -/
theorem C83_exact (groups : List (List SentCookie)) (h : ∀ c ∈ groups.flatten, c.Valid) (name : Str) :
    (firstValue name groups.flatten = none → cookieCall (groups.map cookieHeader) name = none) ∧
    (firstValue name groups.flatten = some [] → cookieCall (groups.map cookieHeader) name = none) ∧
    (∀ v, firstValue name groups.flatten = some v → v ≠ [] → 61 ∉ v →
      cookieCall (groups.map cookieHeader) name = some ([], v)) ∧
    (∀ a b, firstValue name groups.flatten = some (a ++ 61 :: b) → 61 ∉ a →
      cookieCall (groups.map cookieHeader) name = some (a, b)) := by
  have hp := peek_first name groups.flatten
  rw [← requestCookies_sent h] at hp
  have hv : ∀ v, firstValue name groups.flatten = some v → ∀ x, x ∈ v → x ∉ b!";\" " := by
    intro v hv
    obtain ⟨c, hc, e⟩ := firstValue_mem hv
    intro x hx; exact (h c hc).value_ok x (e ▸ hx)
  refine ⟨?_, ?_, ?_, ?_⟩
  · intro h1; unfold cookieCall; rw [hp, h1]
  · intro h1; unfold cookieCall; rw [hp, h1]; rfl
  · intro v h1 hne heq
    unfold cookieCall
    rw [hp, h1]
    simp only
    have hb := hv v h1
    rw [if_neg (by simpa using hne), parseCookie, if_neg hne, takeWhile_none (fun hx => hb 59 hx (by decide)), scanPair,
      if_neg heq, decode_plain (fun hx => hb 32 hx (by decide)) (fun hx => hb 34 hx (by decide))]
  · intro a b h1 ha
    unfold cookieCall
    rw [hp, h1]
    simp only
    have hb := hv _ h1
    have a32 : (32 : UInt8) ∉ a := fun hx => hb 32 (by simp [hx]) (by decide)
    have a34 : (34 : UInt8) ∉ a := fun hx => hb 34 (by simp [hx]) (by decide)
    have b32 : (32 : UInt8) ∉ b := fun hx => hb 32 (by simp [hx]) (by decide)
    have b34 : (34 : UInt8) ∉ b := fun hx => hb 34 (by simp [hx]) (by decide)
    rw [if_neg (by simp), parseCookie, if_neg (by simp), takeWhile_none (fun hx => hb 59 hx (by decide)), scanPair,
      if_pos (by simp), takeWhile_until _ ha, dropWhile_until _ ha, decode_plain a32 a34]
    rw [List.drop_succ_cons, List.drop_zero, decode_plain b32 b34]

/-- **C83** (values come back).  A cookie set with SetCookie and sent back by the client, among any others, is read by Cookie
with its escaped value, from which unescaping gives the value set. -/
theorem C83_roundtrip_partial (host : Str) (sameSite : Nat) (name value : Str) (maxAge : Int) (path domain : Str)
    (secure httpOnly : Bool) (c : Cookie)
    (hset : setCookie host sameSite name value maxAge path domain secure httpOnly = .ret c)
    (groups : List (List SentCookie)) (h : ∀ d ∈ groups.flatten, d.Valid)
    (hsent : firstValue name groups.flatten = some c.value) (hne : value ≠ []) :
    ∃ k v, cookieCall (groups.map cookieHeader) name = some (k, v) ∧ v = c.value ∧ queryUnescape v = some value := by
  obtain ⟨c', h1, -, -, -, -, -, -, h7, h8, -⟩ := C42_cookie host sameSite name value maxAge path domain secure httpOnly
  rw [hset] at h1
  cases h1
  have hv : c.value ≠ [] := by
    intro e; rw [e] at h7
    simp only [queryUnescape, Option.some.injEq] at h7
    exact hne h7.symm
  have h61 : (61 : UInt8) ∉ c.value := fun hx => (h8 61 hx).2.2 (by decide)
  exact ⟨[], c.value, (C83_exact groups h name).2.2.1 c.value hsent hv h61, rfl, h7⟩

def exSent : List (List SentCookie) :=
  [[⟨b!"a", b!"1", false⟩, ⟨b!"sid", b!"x%20y", true⟩], [⟨b!"t", b!"k=v=w", false⟩, ⟨b!"e", [], false⟩]]

example : ∀ c ∈ exSent.flatten, c.Valid := by
  intro c hc
  simp only [exSent, List.flatten_cons, List.flatten_nil, List.append_nil, List.cons_append, List.nil_append, List.mem_cons,
    List.not_mem_nil, or_false] at hc
  rcases hc with rfl | rfl | rfl | rfl <;> exact ⟨by decide, by decide, by decide⟩
example : cookieHeader exSent.flatten = b!"a=1; sid=\"x%20y\"; t=k=v=w; e=" := by decide
example : cookieCall (exSent.map cookieHeader) b!"sid" = some ([], b!"x%20y") := by decide

/-- **C83** (where it fails).  The cookie returned never has the name asked for as its key (here: none), a value with '=' is
torn apart, and an empty value is reported as a missing cookie. -/
theorem C83_violated :
    (∀ (groups : List (List SentCookie)), (∀ c ∈ groups.flatten, c.Valid) → ∀ name v, firstValue name groups.flatten = some v →
      61 ∉ v → ∀ k w, cookieCall (groups.map cookieHeader) name = some (k, w) → k = []) ∧
    cookieCall (exSent.map cookieHeader) b!"t" = some (b!"k", b!"v=w") ∧
    cookieCall (exSent.map cookieHeader) b!"e" = none ∧ cookieCall (exSent.map cookieHeader) b!"zzz" = none := by
  refine ⟨?_, by decide, by decide, by decide⟩
  intro groups h name v hv h61 k w hk
  by_cases hne : v = []
  · subst hne
    rw [(C83_exact groups h name).2.1 hv] at hk; cases hk
  · rw [(C83_exact groups h name).2.2.1 v hv hne h61] at hk
    cases hk; rfl

end Verif
