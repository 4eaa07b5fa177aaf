import Verif.Model.Static
/-
Model of what happens to the files that serving a request opens: /repo/static/fs.go:616-706, static/static.go:40-49,
fs.go:758-772. The control flow is that of Model/Static once more, with the calls of `Open` that succeed, the uses (`Stat`,
`Seek`, `Read`, `ReadDir`) and the calls of `Close` in their order; `Props/Handles` shows that the results are the same.

The deferred Close (fs.go:633-635) closes the file that the variable holds at the end, which is another one after fs.go:684.
It also runs after a panic. The uses of the content by serveContent are over when it returns (C120), and count as one.
-/
namespace Verif

/-- What happens to files, numbered in the order in which they are opened.  fs.go:627, 634, 678, 687. -/
inductive FileEv where
  | opened (n : Nat)
  | used (n : Nat)
  | closed (n : Nat)
  deriving DecidableEq, Repr

/-- fs.go:692-698, the file being number `n`. -/
def serveDirEv (lib : Lib) (href : Str → Str) (r : HttpReq) (w : HttpResp) (fi : FileInfo) (f : FsFile) (n : Nat)
    (log : List Access) : Outcome StaticRun × List FileEv :=
  if checkIfModifiedSince lib.toTimeLib r fi.modTime = .false then (.ret ⟨writeNotModified w, none, log⟩, [])
  else
    let p := dirList href (setLastModified lib.toTimeLib w fi.modTime) f
    (.ret ⟨p.1, p.2, log⟩, [.used n])

/-- fs.go:702-706. -/
def serveOpenEv (lib : Lib) (r : HttpReq) (w : HttpResp) (fi : FileInfo) (c : Content) (n : Nat) (log : List Access) :
    Outcome StaticRun × List FileEv :=
  ((serveContent lib r w fi.name fi.modTime (some fi.size) c).bind fun p => .ret ⟨p.1, p.2, log⟩, [.used n])

/-- fs.go:677-688; the number of the file in use at the end is the third component. -/
def serveIndexEv (lib : Lib) (href : Str → Str) (fsm : FileSys) (name : Str) (r : HttpReq) (w : HttpResp) (fi : FileInfo)
    (f : FsFile) (log : List Access) : Outcome StaticRun × List FileEv × Nat :=
  let o := fsm (trimSuffix name b!"/" ++ b!"/index.html")
  let log := log ++ o.2
  match o.1 with
  | .error _ => let x := serveDirEv lib href r w fi f 0 log; (x.1, x.2, 0)
  | .ok ff =>
    match ff.stat with
    | .error _ =>
      let x := serveDirEv lib href r w fi f 0 log
      (x.1, [.opened 1, .used 1, .closed 1] ++ x.2, 0)
    | .ok dd =>
      let ff := { ff with content := ff.closed }
      let x := if dd.isDir then serveDirEv lib href r w dd ff 1 log else serveOpenEv lib r w dd ff.closed 1 log
      (x.1, [.opened 1, .used 1, .closed 1] ++ x.2, 1)

/-- fs.go:667-706. -/
def serveStatEv (lib : Lib) (href : Str → Str) (fsm : FileSys) (name : Str) (r : HttpReq) (w : HttpResp) (fi : FileInfo)
    (f : FsFile) (log : List Access) : Outcome StaticRun × List FileEv × Nat :=
  if fi.isDir then
    if r.path.getLast? ≠ some 47 then (.ret ⟨localRedirect lib r w (pathBase r.path ++ b!"/"), none, log⟩, [], 0)
    else serveIndexEv lib href fsm name r w fi f log
  else let x := serveOpenEv lib r w fi f.content 0 log; (x.1, x.2, 0)

/-- fs.go:637-706: after the file was opened, number 0, up to the deferred Close. -/
def serveOpenedEv (lib : Lib) (href : Str → Str) (fsm : FileSys) (name : Str) (showDir redirect : Bool) (r : HttpReq)
    (w : HttpResp) (f : FsFile) (log : List Access) : Outcome StaticRun × List FileEv × Nat :=
  match f.stat with
  | .error e => (.ret ⟨httpError w (toHTTPError e).1 (toHTTPError e).2, some (.fs e), log⟩, [.used 0], 0)
  | .ok fi =>
    if showDir = false ∧ fi.isDir then
      (.ret ⟨httpError w (toHTTPError .permission).1 (toHTTPError .permission).2, none, log⟩, [.used 0], 0)
    else if redirect then
      match canonicalRedirect lib r w fi.isDir with
      | .ret (some w) => (.ret ⟨w, none, log⟩, [.used 0], 0)
      | .ret none =>
        let x := serveStatEv lib href fsm name r w fi f log
        (x.1, .used 0 :: x.2.1, x.2.2)
      | .panic => (.panic, [.used 0], 0)
      | .outOfFuel => (.outOfFuel, [.used 0], 0)
    else
      let x := serveStatEv lib href fsm name r w fi f log
      (x.1, .used 0 :: x.2.1, x.2.2)

/-- fs.go:616-706 `serveFile`. -/
def serveFileEv (lib : Lib) (href : Str → Str) (fsm : FileSys) (name : Str) (showDir redirect : Bool) (r : HttpReq)
    (w : HttpResp) : Outcome StaticRun × List FileEv :=
  if hasSuffix r.path b!"/index.html" then (.ret ⟨localRedirect lib r w b!"./", none, []⟩, [])
  else
    let o := fsm name
    match o.1 with
    | .error e => (.ret ⟨httpError w (toHTTPError e).1 (toHTTPError e).2, some (.fs e), o.2⟩, [])
    | .ok f =>
      let x := serveOpenedEv lib href fsm name showDir redirect r w f o.2
      (x.1, [.opened 0] ++ x.2.1 ++ [.closed x.2.2])

/-- fs.go:758-772 `ServeFile`. -/
def ServeFileEv (lib : Lib) (href : Str → Str) (os : RawFS) (name : Str) (r : HttpReq) (w : HttpResp) :
    Outcome StaticRun × List FileEv :=
  if containsDotDot r.path then (.ret ⟨httpError w b!"invalid URL path" 400, some .badPath, []⟩, [])
  else
    let p := pathSplit name
    serveFileEv lib href (dirOpen os p.1) p.2 false false r w

/-- static/static.go:40-49 `fileHandler.ServeHTTP`, which all static routes call. -/
def fileServeEv (lib : Lib) (href : Str → Str) (root : FileSys) (r : HttpReq) (w : HttpResp) : Outcome StaticRun × List FileEv :=
  if hasPrefix r.path b!"/" then serveFileEv lib href root (pathClean r.path) false false r w
  else
    serveFileEv lib href root (pathClean (47 :: r.path)) false false { r with path := normalizePath (47 :: r.path) } w

end Verif
