import Verif.Model.Examples
import Verif.Model.EndToEnd
import Verif.Model.Cookie
import Verif.Model.SetCookie
/-
What the handlers of the example programs of /repo/examples do.  Not modelled: what they print on the terminal and log
(`fmt.Printf`, `ctx.Logger()…Infof`), and the handlers of static files and of the video (any handlers below).
`json.Marshal` of a `*fasthttp.Args` and of a `*fasthttp.Cookie` is "{}": both are structs without exported fields and without
a marshaler (fasthttp v1.58.0); neither pointer is nil (ctx.go:168-176, server_run.go:124).
-/
namespace Verif

/-- What the handlers read and change besides the body: the Host header and the Cookie headers of the request, and the
cookies of the response.  As used in examples/example_2/main.go:29-49 and ctx.go:168-176, 349-375. -/
structure ExStore where
  host : Str
  cookies : List Str
  set : List (Str × Str)
  deriving DecidableEq, Repr

/-- ctx.go:118-127 `Write`, `WriteString`. -/
def writeText {υ : Type} (t : Str) : COp υ := .resp fun r => { r with body := r.body ++ t }

/-- examples/server.go:17-19 `Run`. -/
def runIdle {υ : Type} (_label : Str) : RCtx υ → Prog υ := fun _ => .ret .ok

/-- examples/example_1/main.go:17-26 `Run`. -/
def runEx1 {υ : Type} (label : Str) : RCtx υ → Prog υ := fun _ =>
  .call (writeText (b!"dddd-" ++ label ++ b!"- urlIds: " ++ b!"{}" ++ b!"- params: " ++ b!"{}" ++ b!" - cookie: " ++ b!"{}" ++ b!"//// \n\n"))
    fun _ => .ret .ok

/-- examples/example_2/main.go:40: the arguments of `ctx.SetCookie("test_cookie", "test", 3600, "", "", false, true)`. -/
def testCookie : CookieCall := { name := b!"test_cookie", value := b!"test", maxAge := 3600, httpOnly := true }

/-- examples/example_2/main.go:40: this call (never panics: C41). -/
def setTest (s : ExStore) : ExStore :=
  match setCookieCall s.host s.set testCookie with
  | .ret cs => { s with set := cs }
  | _ => s

/-- `cookie.Value()` after `cookie, _ := ctx.Cookie(CookieName)`: the cookie is empty if there is an error.  examples/example_2/main.go:32, 39. -/
def testValue (s : ExStore) : Str :=
  match cookieCall s.cookies b!"test_cookie" with
  | some c => c.2
  | none => []

/-- examples/example_2/main.go:43-44, example_3/main.go:43-44, static_video/main.go:29-30. -/
def writePage (label : Str) : Prog ExStore :=
  .call (writeText (b!"dddd-" ++ label ++ b!"- u: " ++ b!"{}" ++ b!"//// \n\n")) fun _ => .ret .ok

/-- examples/example_2/main.go:29-49 and example_3/main.go:29-49 `Run`. -/
def runEx2 (label : Str) : RCtx ExStore → Prog ExStore := fun c =>
  if testValue c.store = [] then .call (.upd setTest) fun _ => writePage label else writePage label

/-- examples/static_video/main.go:28-35 `Run`. -/
def runVideo (label : Str) : RCtx ExStore → Prog ExStore := fun _ => writePage label

/-- The handlers of a program: `newIH` with the program's `Run` and the embedded `RunHandler` (handler.go:26-30); the other
main handlers as given. -/
def exampleHandlers {υ : Type} (run : Str → RCtx υ → Prog υ) (other : ExH → Option (MainH υ)) : Handlers3 ExH υ where
  hdl := fun
    | .ih l => some ⟨b!"run-handler", run l⟩
    | _ => none
  main := fun
    | .ih l => some ⟨b!"run-handler", fun _ => .ret .ok, run l⟩
    | h => other h
  last := fun _ => none

end Verif
