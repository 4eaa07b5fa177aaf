import Verif.Model.Static
import Verif.Model.EndToEnd
/-
The static handlers (Model/Static) as main handlers of the request pipeline (Model/Pipeline): /repo/static.go:11-39,
static_embed.go:13-40, static_embed_fix.go:10-34.
-/
namespace Verif
variable {υ : Type}

/-- The request behind a context (ctx.go:45 `fastCtx`): reading it, and `URI().SetPath`. -/
structure ReqView (υ : Type) where
  req : υ → HttpReq
  setPath : Str → υ → υ

/-- The response as Model/Content writes it.  The response of `ctx.fastCtx` (ctx.go:45), as server_run.go:109-167 and static/fs.go:233-365 write it. -/
def Resp.http (r : Resp) : HttpResp := ⟨r.status, r.headers, r.body⟩

/-- The response of `ctx.fastCtx` (ctx.go:45), as server_run.go:109-167 and static/fs.go:233-365 write it. -/
def HttpResp.plain (w : HttpResp) : Resp := ⟨w.status, w.body, w.headers⟩

/-- A static handler: `Init` returns nil (static.go:18-20, static_embed.go:21-23, static_embed_fix.go:18-20); `Run` makes the
response out of the request and the response so far, sets the path back (deferred) and returns the error of `ServeHTTP`.
`Name` is handler.go:24 for the embedded kinds, static.go:22-24 for the first.  `serve` is one of `staticFileRun`, `staticFSRun`, `fixStaticRun`; `msg` the texts of the errors.  Simplified: the path that
is set while the file is served is not visible to the request's goroutines, and a panic leaves the response as it was. -/
def staticMain (V : ReqView υ) (msg : ServeErr → Str) (name : Str) (serve : HttpReq → HttpResp → RunOut) : MainH υ where
  name := name
  init := fun _ => .ret .ok
  run := fun c =>
    let out := serve (V.req c.store) c.resp.http
    let back (o : HOut) : Prog υ := .call (.upd (V.setPath out.path)) fun _ => .ret o
    match out.result with
    | .ret s => .call (.resp fun _ => s.resp.plain) fun _ =>
        back (match s.err with
          | none => .ok
          | some e => .err (.leaf 0 (msg e)))
    | _ => back .panic

/-- static.go:43-47: the handler `StaticFile` registers; `fSys` is the file system of `filePath`. -/
def staticFileMain (V : ReqView υ) (msg : ServeErr → Str) (lib : Lib) (href : Str → Str) (fSys : RawFS) (urlPath : Str) : MainH υ :=
  staticMain V msg b!"StaticFileHandler" (staticFileRun lib href fSys urlPath)

/-- static_embed.go:49-54: the handler `StaticFileFS` registers. -/
def staticFSMain (V : ReqView υ) (msg : ServeErr → Str) (lib : Lib) (href : Str → Str) (fSys : RawFS) (filePath urlPath : Str) :
    MainH υ :=
  staticMain V msg b!"handler" (staticFSRun lib href fSys filePath urlPath)

/-- static_embed_fix.go:43-48: the handler `FixStaticFileFS` registers. -/
def fixStaticMain (V : ReqView υ) (msg : ServeErr → Str) (lib : Lib) (href : Str → Str) (fSys : RawFS) (filePath : Str) :
    MainH υ :=
  staticMain V msg b!"handler" (fixStaticRun lib href fSys filePath)

end Verif
