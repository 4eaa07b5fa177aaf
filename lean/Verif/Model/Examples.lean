import Verif.Model.StaticReg
/-
The example programs of /repo/examples as programs of API calls (Model/Heap).  A handler is known by the text given to `newIH`;
`static` are the handlers made by StaticFile and StaticFileFS, `fix` by FixStaticFileFS, `video` by `newStatic`.
What the handlers of the examples write is in Model/ExampleHandlers (they are any handlers here). Not modelled: SetServerName, SetLogLevel, the port,
and the timers that end the first program.
-/
namespace Verif

/-- The handlers of the examples.  `TestHandler` of examples/server.go:11, example_1/main.go:11, example_2/main.go:19, example_3/main.go:19, static_video/main.go:18, 37. -/
inductive ExH where
  | ih (label : Str)
  | static (filePath urlPath : Str)
  | fix (filePath : Str)
  | video
  deriving DecidableEq, Repr

instance : Inhabited ExH := ⟨.ih []⟩

/-- examples/server.go:26-43 (the chained calls are made one after the other on the same router, gorouter.go:52-87). -/
def exampleServer {ρ : Type} : List (Op ExH ρ) := [
  .newSet, .setBefore 0 (.lit [.ih b!"1", .ih b!"2"]), .setAfter 0 (.lit [.ih b!"9", .ih b!"10"]),
  .sAdd b!"GETPOST" b!"/private_group" (some (.ih b!"for MethodGetPost 'private_group'")) (some 0),
  .newRouter, .rBefore 0 (.lit [.ih b!"A1", .ih b!"A2", .ih b!"A3"]),
  .rUse 0 b!"POST" b!"/" (some (.ih b!"for MethodGetPost '/'")),
  .rUse 0 b!"POST" b!"/a" (some (.ih b!"for MethodPost '/a'")),
  .newRouter, .rBefore 1 (.lit [.ih b!"B1", .ih b!"B2", .ih b!"B3"]), .rAfter 1 (.lit [.ih b!"B9", .ih b!"B10"]),
  .rUse 1 b!"GET" b!"/" (some (.ih b!"for MethodGet '/'")),
  .rUse 1 b!"GET" b!"/a" (some (.ih b!"for MethodGet '/a'"))]

/-- examples/example_1/main.go:33-59. -/
def example1 {ρ : Type} : List (Op ExH ρ) := [
  .newSet, .setBefore 0 (.lit [.ih b!"1", .ih b!"2"]), .setAfter 0 (.lit [.ih b!"9", .ih b!"10"]),
  .sAdd b!"GETPOST" b!"/private_group" (some (.ih b!"for MethodGetPost 'private_group'")) (some 0),
  .newRouter, .rBefore 0 (.lit [.ih b!"A1", .ih b!"A2", .ih b!"A3"]),
  .rUse 0 b!"POST" b!"/" (some (.ih b!"for MethodGetPost '/'")),
  .rUse 0 b!"GETPOST" b!"/a" (some (.ih b!"for MethodPost '/a'")),
  .newRouter, .rBefore 1 (.lit [.ih b!"B1", .ih b!"B2", .ih b!"B3"]), .rAfter 1 (.lit [.ih b!"B9", .ih b!"B10"]),
  .rUse 1 b!"GET" b!"/" (some (.ih b!"for MethodGet '/'")),
  .rUse 1 b!"GET" b!"/b" (some (.ih b!"for MethodGet '/b'")),
  .newRouter, .rAfter 2 (.lit [.ih b!"B9", .ih b!"B10"]),
  .rUse 2 b!"GET" b!"/c" (some (.ih b!"for MethodGet '/c'")),
  .newRouter, .rAfter 3 (.lit [.ih b!"B9", .ih b!"B10"]),
  .rUse 3 b!"GET" b!"/user/:user_id" (some (.ih b!"for MethodGet '/c'")),
  .rUse 3 b!"GET" b!"/user/:user_id/:action" (some (.ih b!"for MethodGet '/c'"))]

/-- The two routes of examples/example_2/main.go:56-58 and example_3/main.go:56-58. -/
def cookieRoutes {ρ : Type} : List (Op ExH ρ) := [
  .newRouter, .rUse 0 b!"GETPOST" b!"/" (some (.ih b!"for MethodGetPost '/'")),
  .rUse 0 b!"GETPOST" b!"/cookie" (some (.ih b!"for MethodGetPost 'cookie'"))]

/-- examples/example_2/main.go:52-66: StaticFileFS makes the first set of the program, FixStaticFileFS the second; `addr` is
the address of the compiled expression.  `none`: StaticFileFS fails and the program panics. -/
def example2 (addr : Nat) : Option (List (Op ExH RxPtr)) :=
  (staticCalls (rxCompileAt addr) 0 b!"/html" (some (ExH.static b!"data" b!"/html")) []).map fun calls =>
    cookieRoutes ++ calls ++ fixStaticCalls 1 b!"/favicon.ico" (some (.fix b!"/data/favicons/favicon.ico")) []

/-- examples/example_3/main.go:52-62. -/
def example3 (addr : Nat) : Option (List (Op ExH RxPtr)) :=
  (staticCalls (rxCompileAt addr) 0 b!"/html" (some (ExH.static b!"data" b!"/html")) []).map fun calls => cookieRoutes ++ calls

/-- examples/static_video/main.go:62-71. -/
def exampleVideo (addr : Nat) : Option (List (Op ExH RxPtr)) :=
  (staticCalls (rxCompileAt addr) 0 b!"/html" (some (ExH.static b!"data" b!"/html")) []).map fun calls =>
    [.newRouter, .rUse 0 b!"GETPOST" b!"/" (some (.ih b!"for MethodGetPost '/'")),
     .newRouter, .rUse 1 b!"GETPOST" b!"/file" (some .video)] ++ calls

end Verif
