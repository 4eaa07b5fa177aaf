import Verif.Lemmas.Auth
import Verif.Props.Request
/-
Properties C26–C31: basic authentication in front of every request.
-/
namespace Verif
set_option linter.unusedSectionVars false
open Spec

/-- `Check`, characterised: it succeeds iff the credentials are accepted (or authentication is off). -/
theorem check_eq (u : Str → Str) (h : BaseAuth) (auth : Str) (resp : Resp) (c : CheckOut)
    (hc : h.check u auth resp = .ret c) (huse : h.use = true) :
    (c.success = true ↔ Accepted u h.roles auth) ∧
    c.logged = (if h.useLogFunc then [((getUserPassword u auth).1, (getUserPassword u auth).2, c.success)] else []) ∧
    c.resp = (if c.success then resp else
      { resp with status := 401, headers := setHeader resp.headers b!"WWW-Authenticate" h.header }) := by
  unfold BaseAuth.check at hc
  rw [if_neg (by simp [huse])] at hc
  simp only at hc
  have hd := decision_iff u h.roles auth
  generalize hfind : (decide ((getUserPassword u auth).1 ≠ []) &&
      decide ((h.roles.get? (getUserPassword u auth).1).getD [] = (getUserPassword u auth).2)) = find at hd hc
  split at hc
  · simp at hc
  · cases find with
    | false =>
      simp only [Bool.false_eq_true, not_false_eq_true, if_true, Outcome.ret.injEq] at hc
      subst hc
      exact ⟨hd, rfl, rfl⟩
    | true =>
      simp only [not_true_eq_false, if_false, Outcome.ret.injEq] at hc
      subst hc
      exact ⟨hd, rfl, rfl⟩

section
variable {υ : Type} {σ ρ : Type} [DecidableEq ρ]
variable {env : Env υ} {rxMatch : ρ → Str → Bool} {visit : GoMap ρ (Option σ) → List (ρ × Option σ)}
  {srv : Srv υ σ ρ} {req : Req} {resp : Resp} {store : Args → υ} {buf : Args} {clock : Nat} {u : Str → Str}
  {ba : BaseAuth} {sv : Served υ}

/-- The shape of ServeHTTP. -/
theorem serve_shape (h : serveHTTP u env rxMatch visit srv ba req resp store buf clock = .ret sv) :
    (ba.use = true ∧ (∃ f, ba.checkAccess = some f ∧ f req = true) ∧
      ∃ c, ba.check u req.auth resp = .ret c ∧ sv.logged = c.logged ∧
        ((c.success = false ∧ sv.ran = none ∧ sv.resp = c.resp) ∨
         (c.success = true ∧ ∃ d, runHTTP env rxMatch visit srv req.method req.path c.resp store buf clock = .ret d ∧
            sv.ran = some d ∧ sv.resp = d.resp))) ∨
    ((ba.use = false ∨ ∃ f, ba.checkAccess = some f ∧ f req = false) ∧ sv.logged = [] ∧
      ∃ d, runHTTP env rxMatch visit srv req.method req.path resp store buf clock = .ret d ∧
        sv.ran = some d ∧ sv.resp = d.resp) := by
  have hrun : ∀ logged rsp, ((runHTTP env rxMatch visit srv req.method req.path rsp store buf clock).bind fun d =>
      Outcome.ret (⟨logged, some d, d.resp⟩ : Served υ)) = .ret sv →
      sv.logged = logged ∧ ∃ d, runHTTP env rxMatch visit srv req.method req.path rsp store buf clock = .ret d ∧
        sv.ran = some d ∧ sv.resp = d.resp := by
    intro logged rsp h
    cases hr : runHTTP env rxMatch visit srv req.method req.path rsp store buf clock with
    | ret d =>
      rw [hr] at h
      simp only [Outcome.bind_ret, Outcome.ret.injEq] at h
      subst h
      exact ⟨rfl, d, rfl, rfl, rfl⟩
    | panic => rw [hr] at h; simp at h
    | outOfFuel => rw [hr] at h; simp at h
  unfold serveHTTP at h
  simp only at h
  cases hu : ba.use with
  | false =>
    rw [hu] at h
    simp only [Bool.false_eq_true, if_false] at h
    obtain ⟨h1, h2⟩ := hrun _ _ h
    exact Or.inr ⟨Or.inl rfl, h1, h2⟩
  | true =>
    rw [hu] at h
    simp only [if_true] at h
    cases hf : ba.checkAccess with
    | none => rw [hf] at h; simp at h
    | some f =>
      rw [hf] at h
      simp only at h
      cases ha : f req with
      | false =>
        rw [ha] at h
        simp only [Bool.false_eq_true, if_false] at h
        obtain ⟨h1, h2⟩ := hrun _ _ h
        exact Or.inr ⟨Or.inr ⟨f, rfl, ha⟩, h1, h2⟩
      | true =>
        rw [ha] at h
        simp only [if_true] at h
        cases hc : ba.check u req.auth resp with
        | panic => rw [hc] at h; simp at h
        | outOfFuel => rw [hc] at h; simp at h
        | ret c =>
          rw [hc] at h
          simp only [Outcome.bind_ret] at h
          refine Or.inl ⟨rfl, ⟨f, rfl, ha⟩, c, rfl, ?_⟩
          cases hs : c.success with
          | false =>
            rw [hs] at h
            simp only [Bool.false_eq_true, not_false_eq_true, if_true, Outcome.ret.injEq] at h
            subst h
            exact ⟨rfl, Or.inl ⟨rfl, rfl, rfl⟩⟩
          | true =>
            rw [hs] at h
            simp only [not_true_eq_false, if_false] at h
            obtain ⟨h1, d, h2, h3, h4⟩ := hrun _ _ h
            exact ⟨h1, Or.inr ⟨rfl, d, h2, h3, h4⟩⟩

/-! ### C26 -/

/-- C26, the settings: authentication is on iff the last SetUse said so, the role table and the access function are those of the
last SetRoles and SetCheckAccessFunc, and the log function that of the last SetLogFunc, whatever the other calls. -/
theorem C26_settings (ops : List AuthOp) :
    (authOf ops).use = saidUse ops false ∧ (authOf ops).roles = saidRoles ops [] ∧
    (authOf ops).checkAccess = saidAccess ops (some fun _ => true) ∧
    (if (authOf ops).useLogFunc then some (authOf ops).logNil else none) = saidLog ops none := authOf_said ops

/-- C26.  For every sequence `ops` of configuration calls, request and server: the request is processed (routing,
initialiser, handlers) iff the last SetUse did not switch authentication on, or the last access function does not demand it, or
the credentials are accepted by the last role table; otherwise nothing of it runs, and the response is 401 with exactly the
configured challenge. -/
theorem C26_gate (ops : List AuthOp)
    (h : serveHTTP u env rxMatch visit srv (authOf ops) req resp store buf clock = .ret sv) :
    (sv.ran.isSome = true ↔ saidUse ops false = false ∨ (∃ f, saidAccess ops (some fun _ => true) = some f ∧ f req = false) ∨
      Accepted u (saidRoles ops []) req.auth) ∧
    (sv.ran = none → sv.resp.status = 401 ∧ sv.resp.body = resp.body ∧
      sv.resp.headers.filter (fun e => e.1 = b!"WWW-Authenticate") =
        [(b!"WWW-Authenticate", challenge ops b!"Basic realm=\"Access to the staging site\", charset=\"UTF-8\"")]) := by
  obtain ⟨e1, e2, e3, -⟩ := authOf_said ops
  rw [← e1, ← e2, ← e3]
  rcases serve_shape h with ⟨h1, ⟨f, h2, h2'⟩, c, h3, h4, h5⟩ | ⟨h1, h2, d, h3, h4, h5⟩
  · obtain ⟨g1, g2, g3⟩ := check_eq u _ _ _ _ h3 h1
    rcases h5 with ⟨k1, k2, k3⟩ | ⟨k1, d, k2, k3, k4⟩
    · refine ⟨?_, fun _ => ?_⟩
      · rw [k2]
        simp only [Option.isSome_none, Bool.false_eq_true, false_iff, not_or]
        refine ⟨by simp [h1], ?_, ?_⟩
        · rintro ⟨f', hf', hf''⟩
          rw [h2] at hf'; cases hf'; rw [h2'] at hf''; simp at hf''
        · intro ha; rw [g1.2 ha] at k1; simp at k1
      · rw [k3, g3, k1]
        simp only [Bool.false_eq_true, if_false]
        refine ⟨trivial, trivial, ?_⟩
        rw [setHeader, List.filter_append, List.filter_filter]
        have : (authOf ops).header = challenge ops b!"Basic realm=\"Access to the staging site\", charset=\"UTF-8\"" :=
          authOf_header ops newBaseAuth
        rw [this]
        simp
    · refine ⟨?_, fun hn => by rw [k3] at hn; simp at hn⟩
      rw [k3]
      simp only [Option.isSome_some, true_iff]
      exact Or.inr (Or.inr (g1.1 k1))
  · refine ⟨?_, fun hn => by rw [h4] at hn; simp at hn⟩
    rw [h4]
    simp only [Option.isSome_some, true_iff]
    rcases h1 with h1 | h1
    · exact Or.inl h1
    · exact Or.inr (Or.inl h1)

/-! ### C31 -/

/-- C31.  If the check is made and a log function is installed, it is called exactly once, with the
decoded user and password (both empty if the header carries none) and with the decision that is acted
upon; otherwise it is not called. -/
theorem C31_logged_once (h : serveHTTP u env rxMatch visit srv ba req resp store buf clock = .ret sv) :
    if ba.use = true ∧ (∃ f, ba.checkAccess = some f ∧ f req = true) ∧ ba.useLogFunc = true then
      ∃ user pass, sv.logged = [(user, pass, sv.ran.isSome)] ∧
        (Credentials u req.auth user pass ∨
          (user = [] ∧ pass = [] ∧ ¬ ∃ us pw, Credentials u req.auth us pw))
    else sv.logged = [] := by
  rcases serve_shape h with ⟨h1, ⟨f, h2, h2'⟩, c, h3, h4, h5⟩ | ⟨h1, h2, d, h3, h4, h5⟩
  · obtain ⟨g1, g2, g3⟩ := check_eq u _ _ _ _ h3 h1
    have hran : sv.ran.isSome = c.success := by
      rcases h5 with ⟨k1, k2, _⟩ | ⟨k1, d, _, k3, _⟩
      · rw [k1, k2]; rfl
      · rw [k1, k3]; rfl
    cases hl : ba.useLogFunc with
    | false =>
      rw [if_neg (by simp)]
      rw [h4, g2, hl]; simp
    | true =>
      rw [if_pos ⟨h1, ⟨f, h2, h2'⟩, rfl⟩]
      rw [h4, g2, hl, hran]
      rcases gup_cases u req.auth with ⟨user, pass, k1, k2⟩ | ⟨k1, k2⟩
      · exact ⟨user, pass, by rw [k2]; rfl, Or.inl k1⟩
      · exact ⟨[], [], by rw [k2]; rfl, Or.inr ⟨rfl, rfl, k1⟩⟩
  · rw [if_neg]
    · exact h2
    · rintro ⟨g1, ⟨f, g2, g3⟩, _⟩
      rcases h1 with h1 | ⟨f', h1, h1'⟩
      · rw [h1] at g1; simp at g1
      · rw [g2] at h1; cases h1; rw [g3] at h1'; simp at h1'

end

/-! ### C27 -/

/-- The password of a header is all of it if it has no ':'. -/
theorem takeWhile_no58 {p : Str} (h : (58 : UInt8) ∉ p) : p.takeWhile (· != 58) = p := by
  induction p with
  | nil => rfl
  | cons a p ih =>
    simp only [List.mem_cons, not_or] at h
    simp [Ne.symm h.1, ih h.2]

/-- For every user (non-empty, without ':' and unchanged by lower-casing) and password (without
':') in the role table, the standard header with the scheme in any letter case is accepted — whatever
else the role table contains. -/
theorem accepted_valid (u : Str → Str) (roles : GoMap Str Str) (scheme user pass : Str)
    (hs : scheme ∈ basicSpellings) (hu : user ≠ []) (hc : 58 ∉ user) (hlow : toLower u user = user) (hp : 58 ∉ pass)
    (hr : roles.get? user = some pass) :
    Accepted u roles (scheme ++ 32 :: b64Encode (user ++ 58 :: pass)) := by
  refine ⟨user, pass, ⟨user, pass, ⟨scheme, _, rfl, hs, b64Decode_encode _⟩, hc, hlow.symm, (takeWhile_no58 hp).symm⟩, hu, ?_⟩
  rw [hr]; rfl

theorem lowerByte_id : ∀ c : UInt8, ¬ (65 ≤ c ∧ c ≤ 90) → lowerByte c = c := u8_all (by decide +kernel)

/-- For an ASCII user name, being unchanged by lower-casing is having no upper-case letter. -/
theorem toLower_ascii (u : Str → Str) (user : Str) (ha : isAscii user = true)
    (hl : ∀ c ∈ user, ¬ (65 ≤ c ∧ c ≤ 90)) : toLower u user = user := by
  unfold toLower
  rw [if_pos ha]
  conv => rhs; rw [← List.map_id user]
  apply List.map_congr_left
  intro c hc
  exact lowerByte_id c (hl c hc)

-- a concrete case (also through the whole check, with another user in the table)
example : Accepted id [(b!"alice", b!"s3cret"), (b!"bob", b!"pw")] (b!"bAsIc" ++ 32 :: b64Encode (b!"bob" ++ 58 :: b!"pw")) :=
  accepted_valid id _ _ _ _ (by decide +kernel) (by decide) (by decide) (by decide) (by decide) (by decide)
example : b64Encode b!"bob:pw" = b!"Ym9iOnB3" ∧ b64Encode b!"a:b" = b!"YTpi" ∧ b64Encode b!"a:" = b!"YTo=" ∧
    b64Encode b!"user:" = b!"dXNlcjo=" ∧ b64Encode b!"u:pwd4" = b!"dTpwd2Q0" ∧ b64Encode b!"abcd" = b!"YWJjZA==" := by
  decide +kernel

/-! ### C28 -/

/-- If a request with a non-empty password is accepted, the user is in the role table with
that password. -/
theorem accepted_in_table (u : Str → Str) (roles : GoMap Str Str) (header user pass : Str)
    (ha : Accepted u roles header) (hc : Credentials u header user pass) (hp : pass ≠ []) :
    user ≠ [] ∧ roles.get? user = some pass := by
  obtain ⟨us, pw, h1, h2, h3⟩ := ha
  have e := (gup_of_credentials h1).symm.trans (gup_of_credentials hc)
  simp only [Prod.mk.injEq] at e
  obtain ⟨rfl, rfl⟩ := e
  refine ⟨h2, ?_⟩
  cases hg : roles.get? us with
  | none => rw [hg] at h3; exact absurd h3.symm hp
  | some v => rw [hg] at h3; simp at h3; rw [h3]

/-- What is accepted is the entries of the table and any unknown user with the empty
password. -/
theorem accepted_exact (u : Str → Str) (roles : GoMap Str Str) (header user pass : Str)
    (hc : Credentials u header user pass) :
    Accepted u roles header ↔ user ≠ [] ∧ (roles.get? user = some pass ∨ (roles.get? user = none ∧ pass = [])) := by
  constructor
  · rintro ⟨us, pw, h1, h2, h3⟩
    have e := (gup_of_credentials h1).symm.trans (gup_of_credentials hc)
    simp only [Prod.mk.injEq] at e
    obtain ⟨rfl, rfl⟩ := e
    refine ⟨h2, ?_⟩
    cases hg : roles.get? us with
    | none => rw [hg] at h3; exact Or.inr ⟨rfl, h3.symm⟩
    | some v => rw [hg] at h3; simp at h3; exact Or.inl (by rw [h3])
  · rintro ⟨h1, h2 | ⟨h2, rfl⟩⟩
    · exact ⟨user, pass, hc, h1, by rw [h2]; rfl⟩
    · exact ⟨user, [], hc, h1, by rw [h2]; rfl⟩

/-- A user that is not in the role table is accepted with the empty password — with
every role table and for every such (lower-case) name. -/
theorem accepted_unknown (u : Str → Str) (roles : GoMap Str Str) (user : Str) (hu : user ≠ []) (hc : 58 ∉ user)
    (hlow : toLower u user = user) (hr : roles.get? user = none) :
    Accepted u roles (basicHeader user []) := by
  refine ⟨user, [], ⟨user, [], ⟨b!"Basic", _, rfl, by decide +kernel, b64Decode_encode _⟩, hc, hlow.symm, rfl⟩, hu, ?_⟩
  rw [hr]; rfl

/-- A concrete intruder: "Basic bWFsbG9yeTo=" is accepted although only alice has access. -/
theorem C28_violated_witness :
    ((authOf [.setUse true, .setRoles [(b!"alice", b!"s3cret")]]).check id b!"Basic bWFsbG9yeTo=" ⟨200, [], []⟩) =
      .ret ⟨true, [], ⟨200, [], []⟩⟩ ∧
    GoMap.get? [(b!"alice", b!"s3cret")] b!"mallory" = none := by
  refine ⟨?_, by decide⟩
  unfold BaseAuth.check
  have : (authOf [.setUse true, .setRoles [(b!"alice", b!"s3cret")]]).use = true := rfl
  rw [if_neg (by simp [this])]
  have h2 : getUserPassword id b!"Basic bWFsbG9yeTo=" = (b!"mallory", []) := by decide +kernel
  simp only [h2]
  rfl

/-! ### C29 -/

/-- A header that is empty, has no space, a first word other than "basic", no well-formed base64
after the first space, or whose decoded text has no ':', is refused, whatever the role table holds. -/
theorem malformed_refused (u : Str → Str) (roles : GoMap Str Str) (header : Str)
    (h : header = [] ∨ 32 ∉ header ∨
      (∃ scheme text, header = scheme ++ 32 :: text ∧ 32 ∉ scheme ∧
        (scheme ∉ basicSpellings ∨ ¬ B64Text text ∨ ∃ dec, b64Decode text = some dec ∧ 58 ∉ dec))) :
    ¬ Accepted u roles header := by
  rintro ⟨user, pass, ⟨raw, rest, ⟨scheme, text, rfl, hs, hd⟩, hr, -, -⟩, -, -⟩
  rcases h with h | h | ⟨scheme', text', h1, h2, h3⟩
  · simp at h
  · simp at h
  · have hsp := spelling_no_space _ hs
    have e : scheme = scheme' ∧ text = text' := by
      have a := indexByte_append (b := text) hsp
      have b := indexByte_append (b := text') h2
      rw [h1, b, Option.some.injEq] at a
      have := List.append_inj h1 a.symm
      simp only [List.cons.injEq, true_and] at this
      exact this
    obtain ⟨rfl, rfl⟩ := e
    rcases h3 with h3 | h3 | ⟨dec, h3, h4⟩
    · exact h3 hs
    · apply h3
      rw [← b64Decode_isSome, hd]; rfl
    · rw [hd] at h3
      simp only [Option.some.injEq] at h3
      subst h3
      simp at h4

-- each kind of malformed header
example : (¬ Accepted id [(b!"a", b!"b")] b!"Digest YTpi") ∧ (¬ Accepted id [(b!"a", b!"b")] b!"YTpi") ∧
    (¬ Accepted id [(b!"a", b!"b")] b!"Basic YWI=") := by
  refine ⟨malformed_refused _ _ _ (Or.inr (Or.inr ⟨b!"Digest", b!"YTpi", rfl, by decide, Or.inl (by decide +kernel)⟩)),
    malformed_refused _ _ _ (Or.inr (Or.inl (by decide))),
    malformed_refused _ _ _ (Or.inr (Or.inr ⟨b!"Basic", b!"YWI=", rfl, by decide, Or.inr (Or.inr ⟨b!"ab", by decide +kernel, by decide⟩)⟩))⟩
-- text that is not base64: a missing padding character
example : b64Decode b!"YTpi" = some b!"a:b" ∧ b64Decode b!"YTo" = none := by decide +kernel

/-! ### C30 -/

/-- The owner of every entry whose user name is non-empty, unchanged by lower-casing and
without ':', and whose password has no ':', can authenticate with the standard header. -/
theorem accepted_login (u : Str → Str) (roles : GoMap Str Str) (user pass : Str)
    (hu : user ≠ []) (hc : 58 ∉ user) (hlow : toLower u user = user) (hp : 58 ∉ pass)
    (hr : roles.get? user = some pass) : Accepted u roles (basicHeader user pass) :=
  accepted_valid u roles b!"Basic" user pass (by decide +kernel) hu hc hlow hp hr

theorem mem_takeWhile_true (p : UInt8 → Bool) (l : List UInt8) (x : UInt8) (h : x ∈ l.takeWhile p) : p x = true := by
  induction l with
  | nil => simp at h
  | cons a t ih =>
    rw [List.takeWhile_cons] at h
    split at h
    · rcases List.mem_cons.1 h with rfl | h
      · assumption
      · exact ih h
    · simp at h

theorem lower_noUpper : ∀ c : UInt8, c < 128 → ¬ (65 ≤ lowerByte c ∧ lowerByte c ≤ 90) := u8_all (by decide +kernel)
theorem lower_colon : ∀ c : UInt8, lowerByte c = 58 → c = 58 := u8_all (by decide +kernel)
theorem lower_high : ∀ c : UInt8, lowerByte c < 128 → c < 128 := u8_all (by decide +kernel)

/-- No header carries an entry whose password contains ':'; the same for
an ASCII user name that contains ':' or an upper-case letter (assuming that lower-casing a name with
non-ASCII letters does not produce such a name), and for the empty user name. -/
theorem no_credentials (u : Str → Str) (user pass : Str)
    (h : 58 ∈ pass ∨ ((58 ∈ user ∨ ∃ c ∈ user, 65 ≤ c ∧ c ≤ 90) ∧ ∀ s, isAscii s = false → u s ≠ user)) :
    ∀ header, ¬ Credentials u header user pass := by
  rintro header ⟨raw, rest, -, hr, hu, hp⟩
  rcases h with h | ⟨h, hna⟩
  · rw [hp] at h
    have := mem_takeWhile_true _ _ _ h
    simp at this
  · unfold toLower at hu
    cases ha : isAscii raw with
    | false => rw [ha] at hu; exact hna raw ha (by simpa using hu.symm)
    | true =>
      rw [ha] at hu
      simp only [if_true] at hu
      rcases h with h | ⟨c, h, hc⟩
      · rw [hu] at h
        obtain ⟨x, hx, hx'⟩ := List.mem_map.1 h
        rw [lower_colon x hx'] at hx
        exact hr hx
      · rw [hu] at h
        obtain ⟨x, hx, rfl⟩ := List.mem_map.1 h
        have hx1 : x < 128 := by
          simp only [isAscii, List.all_eq_true, decide_eq_true_eq] at ha
          exact ha x hx
        exact lower_noUpper x hx1 hc

/-! ### The same, as what `Check` and `ServeHTTP` do -/

theorem check_ret (u : Str → Str) (ba : BaseAuth) (header : Str) (resp : Resp) (hlog : ba.useLogFunc = true → ba.logNil = false) :
    ∃ c, ba.check u header resp = .ret c := by
  unfold BaseAuth.check
  split
  · exact ⟨_, rfl⟩
  · simp only
    split
    · rename_i h; rw [hlog h.1] at h; exact absurd h.2 (by simp)
    · split <;> exact ⟨_, rfl⟩

theorem letsIn_iff (u : Str → Str) (ba : BaseAuth) (header : Str) (huse : ba.use = true)
    (hlog : ba.useLogFunc = true → ba.logNil = false) : LetsIn u ba header ↔ Accepted u ba.roles header := by
  constructor
  · intro h
    obtain ⟨log, h⟩ := h ⟨200, [], []⟩
    exact (check_eq u _ _ _ _ h huse).1.1 rfl
  · intro h resp
    obtain ⟨c, hc⟩ := check_ret u ba header resp hlog
    obtain ⟨g1, g2, g3⟩ := check_eq u _ _ _ _ hc huse
    have hs := g1.2 h
    rw [if_pos hs] at g3
    refine ⟨c.logged, ?_⟩
    rw [hc, ← hs, ← g3]

theorem refuses_iff (u : Str → Str) (ba : BaseAuth) (header : Str) (huse : ba.use = true)
    (hlog : ba.useLogFunc = true → ba.logNil = false) : Refuses u ba header ↔ ¬ Accepted u ba.roles header := by
  constructor
  · intro h ha
    obtain ⟨c, h, hs, -⟩ := h ⟨200, [], []⟩
    rw [(check_eq u _ _ _ _ h huse).1.2 ha] at hs
    cases hs
  · intro h resp
    obtain ⟨c, hc⟩ := check_ret u ba header resp hlog
    obtain ⟨g1, g2, g3⟩ := check_eq u _ _ _ _ hc huse
    have hs : c.success = false := by
      cases e : c.success with
      | false => rfl
      | true => exact absurd (g1.1 e) h
    rw [hs] at g3
    exact ⟨c, hc, hs, by rw [g3]; rfl⟩

section
variable (u : Str → Str) (ba : BaseAuth) (huse : ba.use = true) (hlog : ba.useLogFunc = true → ba.logNil = false)

include huse hlog in
/-- C27.  With authentication on: for every user (non-empty, without ':' and unchanged by lower-casing) and password
(without ':') in the role table, the standard header with the scheme in any letter case passes — whatever else the role
table contains. -/
theorem C27_valid (scheme user pass : Str)
    (hs : scheme ∈ basicSpellings) (hu : user ≠ []) (hc : 58 ∉ user) (hlow : toLower u user = user) (hp : 58 ∉ pass)
    (hr : ba.roles.get? user = some pass) :
    LetsIn u ba (scheme ++ 32 :: b64Encode (user ++ 58 :: pass)) :=
  (letsIn_iff u ba _ huse hlog).2 (accepted_valid u ba.roles scheme user pass hs hu hc hlow hp hr)

include huse hlog in
/-- C28 (partial).  If a request with a non-empty password passes, the user is in the role table with that password. -/
theorem C28_in_table_partial (header user pass : Str) (ha : LetsIn u ba header) (hc : Credentials u header user pass)
    (hp : pass ≠ []) : user ≠ [] ∧ ba.roles.get? user = some pass :=
  accepted_in_table u ba.roles header user pass ((letsIn_iff u ba _ huse hlog).1 ha) hc hp

include huse hlog in
/-- C28, exactly: what passes is the entries of the table and any unknown user with the empty password; everything else is
refused. -/
theorem C28_exact (header user pass : Str) (hc : Credentials u header user pass) :
    (LetsIn u ba header ↔ user ≠ [] ∧ (ba.roles.get? user = some pass ∨ (ba.roles.get? user = none ∧ pass = []))) ∧
    (Refuses u ba header ↔ ¬ (user ≠ [] ∧ (ba.roles.get? user = some pass ∨ (ba.roles.get? user = none ∧ pass = [])))) := by
  rw [letsIn_iff u ba _ huse hlog, refuses_iff u ba _ huse hlog, accepted_exact u ba.roles header user pass hc]
  exact ⟨Iff.rfl, Iff.rfl⟩

include huse hlog in
/-- C28 is violated: a user that is not in the role table passes with the empty password — with every role table and for
every such (lower-case) name. -/
theorem C28_violated (user : Str) (hu : user ≠ []) (hc : 58 ∉ user)
    (hlow : toLower u user = user) (hr : ba.roles.get? user = none) : LetsIn u ba (basicHeader user []) :=
  (letsIn_iff u ba _ huse hlog).2 (accepted_unknown u ba.roles user hu hc hlow hr)

include huse hlog in
/-- C29.  A header that is empty, has no space, a first word other than "basic", no well-formed base64 after the first
space, or whose decoded text has no ':', is refused with 401, whatever the role table holds. -/
theorem C29_malformed (header : Str)
    (h : header = [] ∨ 32 ∉ header ∨
      (∃ scheme text, header = scheme ++ 32 :: text ∧ 32 ∉ scheme ∧
        (scheme ∉ basicSpellings ∨ ¬ B64Text text ∨ ∃ dec, b64Decode text = some dec ∧ 58 ∉ dec))) :
    Refuses u ba header :=
  (refuses_iff u ba _ huse hlog).2 (malformed_refused u ba.roles header h)

include huse hlog in
/-- C30 (partial).  The owner of every entry whose user name is non-empty, unchanged by lower-casing and without ':', and
whose password has no ':', passes with the standard header. -/
theorem C30_login_partial (user pass : Str)
    (hu : user ≠ []) (hc : 58 ∉ user) (hlow : toLower u user = user) (hp : 58 ∉ pass)
    (hr : ba.roles.get? user = some pass) : LetsIn u ba (basicHeader user pass) :=
  (letsIn_iff u ba _ huse hlog).2 (accepted_login u ba.roles user pass hu hc hlow hp hr)

include huse hlog in
/-- C30, exactly: an entry can be used by some request if and only if its name is not empty and is what some name without
':' becomes in lower case, and its password has no ':'.  Then the standard header for each of these names lets in. -/
theorem C30_exact (user pass : Str) (hr : ba.roles.get? user = some pass) :
    ((∃ header, Credentials u header user pass ∧ LetsIn u ba header) ↔
      user ≠ [] ∧ 58 ∉ pass ∧ ∃ name, 58 ∉ name ∧ toLower u name = user) ∧
    (user ≠ [] → 58 ∉ pass → ∀ name, 58 ∉ name → toLower u name = user →
      Credentials u (basicHeader name pass) user pass ∧ LetsIn u ba (basicHeader name pass)) := by
  have back : user ≠ [] → 58 ∉ pass → ∀ name, 58 ∉ name → toLower u name = user →
      Credentials u (basicHeader name pass) user pass ∧ LetsIn u ba (basicHeader name pass) := by
    intro hu hp name hn hl
    have hc : Credentials u (basicHeader name pass) user pass :=
      ⟨name, pass, ⟨b!"Basic", _, rfl, by decide +kernel, b64Decode_encode _⟩, hn, hl.symm, (takeWhile_no58 hp).symm⟩
    exact ⟨hc, ((C28_exact u ba huse hlog _ _ _ hc).1).2 ⟨hu, Or.inl hr⟩⟩
  refine ⟨⟨?_, ?_⟩, back⟩
  · rintro ⟨header, hc, hl⟩
    have hu := (((C28_exact u ba huse hlog _ _ _ hc).1).1 hl).1
    obtain ⟨raw, rest, -, hraw, h1, h2⟩ := hc
    refine ⟨hu, fun hm => ?_, raw, hraw, h1.symm⟩
    rw [h2] at hm
    have := mem_takeWhile_true _ _ _ hm
    simp at this
  · rintro ⟨hu, hp, name, hn, hl⟩
    exact ⟨_, back hu hp name hn hl⟩

/-- C30 is violated: an entry whose password contains ':' can never be used: no request, whatever its header, is seen (by
the log function) as this user with this password.  The same for an ASCII user name that contains ':' or an upper-case
letter (assuming that lower-casing a name with non-ASCII letters does not produce such a name). -/
theorem C30_violated (user pass : Str)
    (h : 58 ∈ pass ∨ ((58 ∈ user ∨ ∃ c ∈ user, 65 ≤ c ∧ c ≤ 90) ∧ ∀ s, isAscii s = false → u s ≠ user))
    (header : Str) (resp : Resp) (out : CheckOut) (ho : ba.check u header resp = .ret out) :
    ∀ ok, (user, pass, ok) ∉ out.logged := by
  intro ok hm
  cases hu : ba.use with
  | false =>
    unfold BaseAuth.check at ho
    rw [if_pos (by simp [hu])] at ho
    cases ho
    simp at hm
  | true =>
    obtain ⟨-, g, -⟩ := check_eq u _ _ _ _ ho hu
    rw [g] at hm
    split at hm
    · simp only [List.mem_singleton, Prod.mk.injEq] at hm
      rcases gup_cases u header with ⟨us, pw, h3, h4⟩ | ⟨_, h4⟩
      · rw [h4] at hm
        obtain ⟨e1, e2, -⟩ := hm
        simp only at e1 e2
        rw [← e1, ← e2] at h3
        exact no_credentials u user pass h header h3
      · rw [h4] at hm
        obtain ⟨rfl, rfl, -⟩ := hm
        rcases h with h | ⟨h | ⟨c, h, -⟩, -⟩
        · simp at h
        · simp at h
        · simp at h
    · simp at hm
end

section
variable {υ : Type} {σ ρ : Type} [DecidableEq ρ]
variable {env : Env υ} {rxMatch : ρ → Str → Bool} {visit : GoMap ρ (Option σ) → List (ρ × Option σ)}
  {srv : Srv υ σ ρ} {req : Req} {resp : Resp} {store : Args → υ} {buf : Args} {clock : Nat} {u : Str → Str}
  {ba : BaseAuth} {sv : Served υ}

/-- C27, C30 on the whole server: a request whose header passes is processed. -/
theorem C27_request (h : serveHTTP u env rxMatch visit srv ba req resp store buf clock = .ret sv)
    (hp : LetsIn u ba req.auth) : sv.ran.isSome = true := by
  rcases serve_shape h with ⟨-, -, c, h3, -, h5⟩ | ⟨-, -, d, -, h4, -⟩
  · obtain ⟨log, hl⟩ := hp resp
    rw [hl] at h3
    cases h3
    rcases h5 with ⟨k1, -⟩ | ⟨-, d, -, k3, -⟩
    · cases k1
    · rw [k3]; rfl
  · rw [h4]; rfl

/-- C29 on the whole server: if authentication is on and the access function asks for it, a request whose header is refused
runs nothing and is answered 401. -/
theorem C29_request (h : serveHTTP u env rxMatch visit srv ba req resp store buf clock = .ret sv) (huse : ba.use = true)
    (f : Req → Bool) (hf : ba.checkAccess = some f) (hask : f req = true)
    (hp : Refuses u ba req.auth) : sv.ran = none ∧ sv.resp.status = 401 := by
  rcases serve_shape h with ⟨-, -, c, h3, -, h5⟩ | ⟨h1, -⟩
  · obtain ⟨c', hl, hs, h401⟩ := hp resp
    rw [hl] at h3
    cases h3
    rcases h5 with ⟨-, k2, k3⟩ | ⟨k1, -⟩
    · exact ⟨k2, by rw [k3, h401]⟩
    · rw [hs] at k1; cases k1
  · rcases h1 with h1 | ⟨f', h1, h2⟩
    · rw [huse] at h1; cases h1
    · rw [hf] at h1; cases h1; rw [hask] at h2; cases h2
end

-- concrete cases
example : LetsIn id (authOf [.setUse true, .setRoles [(b!"alice", b!"s3cret"), (b!"bob", b!"pw")]])
    (b!"bAsIc" ++ 32 :: b64Encode (b!"bob" ++ 58 :: b!"pw")) :=
  C27_valid id _ rfl (by intro h; cases h) b!"bAsIc" b!"bob" b!"pw" (by decide +kernel) (by decide) (by decide) (by decide) (by decide) (by decide)
example : Refuses id (authOf [.setUse true, .setRoles [(b!"a", b!"b")]]) b!"Digest YTpi" :=
  C29_malformed id _ rfl (by intro h; cases h) _
    (Or.inr (Or.inr ⟨b!"Digest", b!"YTpi", rfl, by decide, Or.inl (by decide +kernel)⟩))
example : LetsIn id (authOf [.setUse true, .setRoles [(b!"alice", b!"s3cret")]]) (basicHeader b!"mallory" []) :=
  C28_violated id _ rfl (by intro h; cases h) b!"mallory" (by decide) (by decide) (by decide) (by decide)

/-- A concrete user that cannot log in: the standard header for ("bob", "a:b") is refused. -/
theorem C30_violated_witness :
    GoMap.get? [(b!"bob", b!"a:b")] b!"bob" = some b!"a:b" ∧
    Refuses id (authOf [.setUse true, .setRoles [(b!"bob", b!"a:b")]]) (basicHeader b!"bob" b!"a:b") ∧
    Refuses id (authOf [.setUse true, .setRoles [(b!"Bob", b!"x")]]) (basicHeader b!"Bob" b!"x") := by
  refine ⟨by decide, ?_, ?_⟩
  · rw [refuses_iff _ _ _ rfl (by intro h; cases h), ← decision_iff]; decide +kernel
  · rw [refuses_iff _ _ _ rfl (by intro h; cases h), ← decision_iff]; decide +kernel

/-! ### The whole of ServeHTTP on a concrete request (C26, C31) -/

namespace AuthEx
open ChainEx ReqEx

def ops : List AuthOp := [.setUse true, .setRoles [(b!"alice", b!"pw")], .setLog false, .setMessage b!"staff" b!"latin1"]

def serve (auth : Str) : Option (List (Str × Str × Bool) × Bool × Resp) :=
  match serveHTTP id lazy (fun _ _ => false) id (server 5 none set1 empty) (authOf ops) ⟨mGet, b!"/a/7", auth⟩
    ⟨200, [], []⟩ (fun a => a.length) [] 0 with
  | .ret s => some (s.logged, s.ran.isSome, s.resp)
  | _ => none

example : serve b!"Basic YWxpY2U6cHc=" = some ([(b!"alice", b!"pw", true)], true, ⟨200, [], []⟩) := by decide +kernel
example : serve b!"Basic YWxpY2U6cHg=" = some ([(b!"alice", b!"px", false)], false,
    ⟨401, [], [(b!"WWW-Authenticate", b!"Basic realm=\"staff\", charset=\"latin1\"")]⟩) := by decide +kernel
example : serve [] = some ([([], [], false)], false,
    ⟨401, [], [(b!"WWW-Authenticate", b!"Basic realm=\"staff\", charset=\"latin1\"")]⟩) := by decide +kernel

end AuthEx

end Verif
