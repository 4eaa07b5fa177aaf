import Verif.Base.Base64
import Verif.Base.GoMap
import Verif.Model.Pipeline
/-
Model of /repo/baseauth.go and of ServeHTTP (/repo/server_run.go:109-121).
-/
namespace Verif

/-- The parts of a request the router looks at before the handlers run.  Read in server_run.go:127-128 and baseauth.go:92. -/
structure Req where
  method : Method
  path : Str
  /-- value of the Authorization header, empty if absent -/
  auth : Str
  deriving DecidableEq, Repr

/-- baseauth.go:24-33 `BaseAuth`.  `logFunc`: `none` is a nil function.  The role table is the map as it
is when a request is checked. -/
structure BaseAuth where
  use : Bool
  message : Str
  charset : Str
  header : Str
  roles : GoMap Str Str
  useLogFunc : Bool
  logNil : Bool
  checkAccess : Option (Req → Bool)

/-- baseauth.go:35-45 `NewBaseAuth`. -/
def newBaseAuth : BaseAuth :=
  { use := false, message := b!"Access to the staging site", charset := b!"UTF-8",
    header := b!"Basic realm=\"Access to the staging site\", charset=\"UTF-8\"", roles := [],
    useLogFunc := false, logNil := true, checkAccess := some fun _ => true }

/-- The configuration calls.  baseauth.go:47-81. -/
inductive AuthOp where
  | setMessage (message charset : Str)
  | setCheckAccess (f : Option (Req → Bool))
  | setLog (isNil : Bool)
  | setUse (u : Bool)
  | setRoles (r : GoMap Str Str)

/-- baseauth.go:47-52, 54-57, 59-63, 69-72, 78-81. -/
def BaseAuth.op (h : BaseAuth) : AuthOp → BaseAuth
  | .setMessage m c =>
    { h with message := m, charset := c, header := b!"Basic realm=\"" ++ m ++ b!"\", charset=\"" ++ c ++ b!"\"" }
  | .setCheckAccess f => { h with checkAccess := f }
  | .setLog n => { h with useLogFunc := true, logNil := n }
  | .setUse u => { h with use := u }
  | .setRoles r => { h with roles := r }

/-- A configured BaseAuth.  baseauth.go:35-81. -/
def authOf (ops : List AuthOp) : BaseAuth := ops.foldl BaseAuth.op newBaseAuth

/-- baseauth.go:109-134 `getUserPassword`; `u` is the non-ASCII part of strings.ToLower. -/
def getUserPassword (u : Str → Str) (auth : Str) : Str × Str :=
  if auth.length = 0 then ([], [])
  else
    match indexByte 32 auth with
    | none => ([], [])
    | some i =>
      if equalFold (auth.take i) b!"basic" then
        match b64Decode (auth.drop (i + 1)) with
        | none => ([], [])
        | some decoded =>
          match splitByte 58 decoded with
          | c0 :: c1 :: _ => (toLower u c0, c1)
          | _ => ([], [])
      else ([], [])

/-- What `Response.Header.Set` puts on the wire for a value (fasthttp `removeNewLines`): blanks for line breaks.  External: called in baseauth.go:101. -/
def headerValue (v : Str) : Str := v.map fun c => if c = 10 ∨ c = 13 then 32 else c

/-- `Response.Header.Set`: replaces.  The value is recorded as it is given; `headerValue` of it is sent.  External: called in baseauth.go:101. -/
def setHeader (hs : List (Str × Str)) (k v : Str) : List (Str × Str) := hs.filter (fun e => e.1 ≠ k) ++ [(k, v)]

/-- The observable effects of one check.  Of baseauth.go:87-107. -/
structure CheckOut where
  success : Bool
  /-- calls of the log function: user, password, decision -/
  logged : List (Str × Str × Bool)
  resp : Resp

/-- baseauth.go:87-107 `Check`. -/
def BaseAuth.check (u : Str → Str) (h : BaseAuth) (auth : Str) (resp : Resp) : Outcome CheckOut :=
  if ¬ h.use then .ret ⟨true, [], resp⟩
  else
    let up := getUserPassword u auth
    let find := decide (up.1 ≠ []) && decide ((h.roles.get? up.1).getD [] = up.2)
    if h.useLogFunc ∧ h.logNil then .panic
    else
      let logged := if h.useLogFunc then [(up.1, up.2, find)] else []
      if ¬ find then
        .ret ⟨false, logged, { resp with status := 401, headers := setHeader resp.headers b!"WWW-Authenticate" h.header }⟩
      else .ret ⟨true, logged, resp⟩

variable {υ : Type}

/-- The observable effects of ServeHTTP.  Of server_run.go:109-121. -/
structure Served (υ : Type) where
  logged : List (Str × Str × Bool)
  /-- what `runHTTP` did, if it was reached -/
  ran : Option (Done υ)
  resp : Resp

/-- server_run.go:109-121 `ServeHTTP`. -/
def serveHTTP {σ ρ : Type} [DecidableEq ρ] (u : Str → Str) (env : Env υ) (rxMatch : ρ → Str → Bool)
    (visit : GoMap ρ (Option σ) → List (ρ × Option σ)) (srv : Srv υ σ ρ) (ba : BaseAuth) (req : Req)
    (resp : Resp) (store : Args → υ) (buf : Args) (clock : Nat) : Outcome (Served υ) :=
  let run (logged : List (Str × Str × Bool)) (resp : Resp) : Outcome (Served υ) :=
    (runHTTP env rxMatch visit srv req.method req.path resp store buf clock).bind fun d =>
      .ret ⟨logged, some d, d.resp⟩
  if ba.use then
    match ba.checkAccess with
    | none => .panic
    | some f =>
      if f req then
        (ba.check u req.auth resp).bind fun c =>
          if ¬ c.success then .ret ⟨c.logged, none, c.resp⟩ else run c.logged c.resp
      else run [] resp
  else run [] resp

end Verif
