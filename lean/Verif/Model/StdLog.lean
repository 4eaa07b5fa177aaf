import Verif.Model.Auth
/-
What ServeHTTP prints with the standard `log` package: /repo/server_run.go:93-97, 109-121.
-/
namespace Verif

/-- server_run.go:93-97 `printError`; `addr` is `fastCtx.RemoteAddr().String()`.  log.Printf (standard library) writes
the text after its own prefix (date and time, not modelled), and a newline if the text does not end with one: this one does. -/
def printError (addr : Str) (err : Option GoErr) : Str :=
  match err with
  | none => []
  | some e => b!"[" ++ addr ++ b!"] " ++ e.error ++ b!"\n"

/-- server_run.go:109-121: what ServeHTTP prints.  `Check` returns no error (baseauth.go:102-103: `Write` of nothing); a
panicking handler leaves without printing. -/
def stdLog {υ : Type} (addr : Str) (s : Served υ) : Str :=
  match s.ran with
  | none => printError addr none
  | some d =>
    match d.flow with
    | .returned e => printError addr e
    | _ => []

end Verif
