import Verif.Model.Content
import Verif.Base.Path
import Verif.Base.FastPath
/-
Model of the file servers: /repo/static/fs.go:46-178, 616-784, 786-836, static/static.go, and the handlers
/repo/static.go, static_embed.go, static_embed_fix.go.

A file system is what `Open` and `Stat` return for each name; the names asked for are recorded. A file is what `Stat`
returns, its content (see Model/Content), the content that can still be read after `Close` (nothing for an os.File,
everything for an embedded file), and its directory entries. The operating system is Unix: the separator is '/'.
Debug log lines are left out. `URI.SetPath` is `normalizePath` (Base/FastPath).
-/
namespace Verif

/-- `fs.FileInfo`, as far as it is used.  Read in fs.go:65, 644, 654, 667, 692-705. -/
structure FileInfo where
  name : Str
  size : Int
  isDir : Bool
  modTime : Int
  deriving DecidableEq, Repr

/-- An open file.  fs.go:105-111. -/
structure FsFile where
  stat : Except FsErr FileInfo
  content : Content
  closed : Content
  entries : Except FsErr (List (Str × Bool))

/-- An `fs.FS` with `fs.Stat`, or the operating system's `os.Open` and `os.Stat`.  Used in fs.go:83, 85, 806, 809. -/
structure RawFS where
  opens : Str → Except FsErr FsFile
  stats : Str → Except FsErr FileInfo

/-- The names a file system was asked for.  fs.go:61, 83, 806, 809. -/
inductive Access where
  | open (name : Str)
  | stat (name : Str)
  deriving DecidableEq, Repr

/-- fs.go:56-68: the loop of `mapOpenError`; `done` are the parts already visited. -/
def mapLoop (stat : Str → Except FsErr FileInfo) (orig : FsErr) : List Str → List Str → FsErr × List Access
  | _, [] => (orig, [])
  | done, p :: t =>
    if p = [] then mapLoop stat orig (done ++ [p]) t
    else
      let n := joinByte 47 (done ++ [p])
      match stat n with
      | .error _ => (orig, [.stat n])
      | .ok fi =>
        if fi.isDir = false then (.notExist, [.stat n])
        else
          let r := mapLoop stat orig (done ++ [p]) t
          (r.1, .stat n :: r.2)

/-- fs.go:51-70 `mapOpenError`, the separator being '/'. -/
def mapOpenError (orig : FsErr) (name : Str) (stat : Str → Except FsErr FileInfo) : FsErr × List Access :=
  if orig = .notExist ∨ orig = .permission then (orig, [])
  else mapLoop stat orig [] (splitByte 47 name)

/-- `FileSystem` (fs.go:97-99): what `Open` returns and the names it asked for. -/
abbrev FileSys := Str → Except FsErr FsFile × List Access

/-- The common part of fs.go:83-87 and 806-812. -/
def openMapped (raw : RawFS) (name : Str) : Except FsErr FsFile × List Access :=
  match raw.opens name with
  | .ok f => (.ok f, [.open name])
  | .error e =>
    let r := mapOpenError e name raw.stats
    (.error r.1, .open name :: r.2)

/-- fs.go:74-88 `Dir.Open`; `os` is the operating system's file system. -/
def dirOpen (os : RawFS) (d : Str) : FileSys := fun name =>
  let dir := if d = [] then b!"." else d
  openMapped os (pathJoin dir (pathClean (47 :: name)))

/-- fs.go:800-813 `ioFS.Open`. -/
def ioOpen (fSys : RawFS) : FileSys := fun name =>
  openMapped fSys (if name = b!"/" then b!"." else trimPrefix name b!"/")

/-- fs.go:713-723 `toHTTPError`. -/
def toHTTPError : FsErr → Str × Nat
  | .notExist => (b!"404 page not found", 404)
  | .permission => (b!"403 Forbidden", 403)
  | .other _ => (b!"500 Internal Server Error", 500)

/-- fasthttp `Request.RequestURI()`: put together again from the parsed URI, that is from the current path and the
query string; the quoting of the path is a parameter.  External: called in fs.go:729. -/
def requestURI (lib : Lib) (r : HttpReq) : Str :=
  lib.quotePath r.path ++ (if r.query = [] then [] else 63 :: r.query)

/-- fs.go:727-735 `localRedirect`. -/
def localRedirect (lib : Lib) (r : HttpReq) (w : HttpResp) (newPath : Str) : HttpResp :=
  let q := requestURI lib r
  let newPath := if q.length > 0 then newPath ++ 63 :: q else newPath
  (w.set b!"Location" newPath).code 301

/-- fs_utils.go:20-28 `htmlReplacer`. -/
def htmlReplace : Str → Str
  | [] => []
  | c :: t =>
    (if c = 38 then b!"&amp;" else if c = 60 then b!"&lt;" else if c = 62 then b!"&gt;" else if c = 34 then b!"&#34;"
     else if c = 39 then b!"&#39;" else [c]) ++ htmlReplace t

/-- The order of Go strings.  For fs.go:152. -/
def strLe (a b : Str) : Bool := decide (a ≤ b)

/-- `sort.Slice` by name (fs.go:152); entries with equal names keep their order here. -/
def insertEntry (e : Str × Bool) : List (Str × Bool) → List (Str × Bool)
  | [] => [e]
  | f :: t => if strLe e.1 f.1 then e :: f :: t else f :: insertEntry e t

/-- fs.go:159-170: one line of a listing; `href` is `(&url.URL{Path: name}).String()`. -/
def dirLine (href : Str → Str) (e : Str × Bool) : Str :=
  let name := if e.2 then e.1 ++ b!"/" else e.1
  b!"<a href=\"" ++ href name ++ b!"\">" ++ htmlReplace name ++ b!"</a>\n"

/-- fs.go:131-178 `dirList`. No exported function reaches it (`showDir` is always false). -/
def dirList (href : Str → Str) (w : HttpResp) (f : FsFile) : HttpResp × Option ServeErr :=
  match f.entries with
  | .error e => (httpError w b!"Error reading directory" 500, some (.fs e))
  | .ok es =>
    let w := (w.set b!"Content-Type" b!"text/html; charset=utf-8").write b!"<pre>\n"
    let w := w.write ((es.foldr insertEntry []).map (dirLine href)).flatten
    (w.write b!"</pre>\n", none)

/-- What serving a file came to: the response, the returned error and the names asked of the file system.  Of fs.go:616-706. -/
structure StaticRun where
  resp : HttpResp
  err : Option ServeErr
  log : List Access
  deriving DecidableEq

/-- fs.go:650-674: the redirects to the canonical path; `none`: no redirect. -/
def canonicalRedirect (lib : Lib) (r : HttpReq) (w : HttpResp) (isDir : Bool) : Outcome (Option HttpResp) :=
  match r.path.getLast? with
  | none => .panic
  | some c =>
    if isDir then
      if c ≠ 47 then .ret (some (localRedirect lib r w (pathBase r.path ++ b!"/"))) else .ret none
    else if c = 47 then .ret (some (localRedirect lib r w (b!"../" ++ pathBase r.path)))
    else .ret none

/-- fs.go:702-706: the end of `serveFile`. -/
def serveOpen (lib : Lib) (r : HttpReq) (w : HttpResp) (fi : FileInfo) (c : Content) (log : List Access) : Outcome StaticRun :=
  (serveContent lib r w fi.name fi.modTime (some fi.size) c).bind fun p => .ret ⟨p.1, p.2, log⟩

/-- fs.go:692-698: still a directory. -/
def serveDir (lib : Lib) (href : Str → Str) (r : HttpReq) (w : HttpResp) (fi : FileInfo) (f : FsFile)
    (log : List Access) : Outcome StaticRun :=
  if checkIfModifiedSince lib.toTimeLib r fi.modTime = .false then .ret ⟨writeNotModified w, none, log⟩
  else
    let p := dirList href (setLastModified lib.toTimeLib w fi.modTime) f
    .ret ⟨p.1, p.2, log⟩

/-- fs.go:677-688: the index page of a directory, if it can be opened. It is closed before it is used. -/
def serveIndex (lib : Lib) (href : Str → Str) (fsm : FileSys) (name : Str) (r : HttpReq) (w : HttpResp) (fi : FileInfo)
    (f : FsFile) (log : List Access) : Outcome StaticRun :=
  let o := fsm (trimSuffix name b!"/" ++ b!"/index.html")
  let log := log ++ o.2
  match o.1 with
  | .error _ => serveDir lib href r w fi f log
  | .ok ff =>
    match ff.stat with
    | .error _ => serveDir lib href r w fi f log
    | .ok dd =>
      let ff := { ff with content := ff.closed }
      if dd.isDir then serveDir lib href r w dd ff log else serveOpen lib r w dd ff.closed log

/-- fs.go:667-706: after the redirects. -/
def serveStat (lib : Lib) (href : Str → Str) (fsm : FileSys) (name : Str) (r : HttpReq) (w : HttpResp) (fi : FileInfo)
    (f : FsFile) (log : List Access) : Outcome StaticRun :=
  if fi.isDir then
    if r.path.getLast? ≠ some 47 then .ret ⟨localRedirect lib r w (pathBase r.path ++ b!"/"), none, log⟩
    else serveIndex lib href fsm name r w fi f log
  else serveOpen lib r w fi f.content log

/-- fs.go:616-706 `serveFile`. -/
def serveFile (lib : Lib) (href : Str → Str) (fsm : FileSys) (name : Str) (showDir redirect : Bool) (r : HttpReq)
    (w : HttpResp) : Outcome StaticRun :=
  if hasSuffix r.path b!"/index.html" then .ret ⟨localRedirect lib r w b!"./", none, []⟩
  else
    let o := fsm name
    match o.1 with
    | .error e => .ret ⟨httpError w (toHTTPError e).1 (toHTTPError e).2, some (.fs e), o.2⟩
    | .ok f =>
      match f.stat with
      | .error e => .ret ⟨httpError w (toHTTPError e).1 (toHTTPError e).2, some (.fs e), o.2⟩
      | .ok fi =>
        if showDir = false ∧ fi.isDir then
          .ret ⟨httpError w (toHTTPError .permission).1 (toHTTPError .permission).2, none, o.2⟩
        else if redirect then
          (canonicalRedirect lib r w fi.isDir).bind fun x =>
            match x with
            | some w => .ret ⟨w, none, o.2⟩
            | none => serveStat lib href fsm name r w fi f o.2
        else serveStat lib href fsm name r w fi f o.2

/-- `strings.FieldsFunc(v, isSlashRune)` and fs.go:778: a field ".." (fs.go:774-786 `containsDotDot`,
`isSlashRune`). -/
def containsDotDot (v : Str) : Bool :=
  if (indexOf b!".." v).isNone then false
  else ((splitByte 47 v).flatMap (splitByte 92)).any (· == b!"..")

/-- fs.go:758-772 `ServeFile`. -/
def ServeFile (lib : Lib) (href : Str → Str) (os : RawFS) (name : Str) (r : HttpReq) (w : HttpResp) : Outcome StaticRun :=
  if containsDotDot r.path then .ret ⟨httpError w b!"invalid URL path" 400, some .badPath, []⟩
  else
    let p := pathSplit name
    serveFile lib href (dirOpen os p.1) p.2 false false r w

/-- static/static.go:40-49 `fileHandler.ServeHTTP`. -/
def fileServe (lib : Lib) (href : Str → Str) (root : FileSys) (r : HttpReq) (w : HttpResp) : Outcome StaticRun :=
  if hasPrefix r.path b!"/" then serveFile lib href root (pathClean r.path) false false r w
  else
    serveFile lib href root (pathClean (47 :: r.path)) false false { r with path := normalizePath (47 :: r.path) } w

/-- What a static handler leaves behind: the result and the path of the request.  static.go:26-39, static_embed.go:25-40, static_embed_fix.go:22-34. -/
structure RunOut where
  result : Outcome StaticRun
  path : Str

/-- The common part of the three `Run` methods: set the path, serve, set the path back (deferred, so also after a
panic).  static.go:26-39, static_embed.go:25-40, static_embed_fix.go:22-34. -/
def runWith (lib : Lib) (href : Str → Str) (root : FileSys) (newU : Str) (r : HttpReq) (w : HttpResp) : RunOut :=
  ⟨fileServe lib href root { r with path := normalizePath newU } w, normalizePath r.path⟩

/-- static.go:26-39 `StaticFileHandler.Run` with static.go:43-47: `filePath`'s file system is `fSys`. -/
def staticFileRun (lib : Lib) (href : Str → Str) (fSys : RawFS) (urlPath : Str) (r : HttpReq) (w : HttpResp) : RunOut :=
  let newU := trimPrefix r.path b!"/"
  let newU := trimPrefix newU (trimPrefix urlPath b!"/")
  runWith lib href (ioOpen fSys) newU r w

/-- static_embed.go:25-40 `StaticHandler.Run` with static_embed.go:49-54. -/
def staticFSRun (lib : Lib) (href : Str → Str) (fSys : RawFS) (filePath urlPath : Str) (r : HttpReq) (w : HttpResp) :
    RunOut :=
  let u := trimPrefix r.path b!"/"
  let u := trimPrefix u (trimPrefix urlPath b!"/")
  let newU := pathJoin (trimPrefix filePath b!"/") u
  runWith lib href (ioOpen fSys) newU r w

/-- static_embed_fix.go:22-34 `FixStaticHandler.Run`. -/
def fixStaticRun (lib : Lib) (href : Str → Str) (fSys : RawFS) (filePath : Str) (r : HttpReq) (w : HttpResp) : RunOut :=
  runWith lib href (ioOpen fSys) filePath r w

end Verif
