import Verif.Model.StaticMain
import Verif.Model.Examples
/-
The handler of examples/static_video that plays a video.
-/
namespace Verif
variable {υ : Type}

/-- examples/static_video/main.go:45 `fileName`. -/
def videoName : Str := b!"/Users/vladimirlashko/github/videoads/tmp/author/13-20221129103201-585269298002707063"

/-- examples/static_video/main.go:48-49: the headers set first (fasthttp writes their names in canonical form). -/
def videoHeaders (w : HttpResp) : HttpResp :=
  (w.set b!"Cache-Control" b!"private, max-age=21299").set b!"Content-Type" b!"video/mp4"

/-- examples/static_video/main.go:53-58: the file is opened and served, the modification time being `now`. -/
def serveVideo (V : ReqView υ) (msg : ServeErr → Str) (missing : Str) (lib : Lib) (file : Option Str) (now : Int) (c : RCtx υ) : Prog υ :=
  match file with
  | none => .ret (.err (.leaf 0 missing))
  | some data =>
    match ServeContent lib (V.req c.store) c.resp.http videoName now ⟨data, true⟩ with
    | .ret (w, e) => .call (.resp fun _ => w.plain) fun _ =>
        .ret (match e with
          | none => .ok
          | some e => .err (.leaf 0 (msg e)))
    | _ => .ret .panic

/-- examples/static_video/main.go:37-59 `TestStaticHandler`, with `Init` and `Name` of the embedded `RunHandler` (handler.go:26-30).
`file` is what `os.Open` finds under `videoName` (fileouter/fileouter.go:12-27: reading and seeking are those of the file), `none` if it
fails, with the text `missing`; `now` is `time.Now()`; `mark` is `ctx.Set("status_code", 404)`.  Simplified: the file does not change
while it is served; that nobody closes it is not visible here. -/
def videoMain (V : ReqView υ) (mark : υ → υ) (msg : ServeErr → Str) (missing : Str) (lib : Lib) (file : Option Str) (now : Int) : MainH υ where
  name := b!"run-handler"
  init := fun _ => .ret .ok
  run := fun _ =>
    .call (.resp fun w => (videoHeaders w.http).plain) fun _ =>
    .call (.upd mark) (serveVideo V msg missing lib file now)

end Verif
