import Verif.Model.Cond
import Verif.Model.Range
import Verif.Model.Sniff
/-
Model of `serveContent` and what it calls: /repo/static/fs.go:205-365, 869-882, fs_utils.go:40-71.

The content is a byte string that is read from the current position; `Seek` either always works or always fails. The
multipart framing is that of Go's mime/multipart (`Writer.CreatePart`, `Writer.Close`) with the headers in
alphabetical order; the two boundaries (one for counting, one for writing) are parameters, in Go 60 random hex digits.
`mime.TypeByExtension(filepath.Ext(name))` is a parameter. Logging is left out.
-/
namespace Verif

/-- Library behaviour that is not modelled further.  Called in fs.go:246 (type by extension), 316-317 (boundary), 561, fs_utils.go:84 (dates). -/
structure Lib extends TimeLib where
  typeByName : Str → Str
  boundary : Str
  countBoundary : Str
  quotePath : Str → Str

/-- An `io.ReadSeeker` at its start.  The last argument of fs.go:205 and 233. -/
structure Content where
  data : Str
  seekable : Bool
  deriving DecidableEq, Repr

/-- The errors of a file system, by what `errors.Is` tells about them.  Told apart in fs.go:52, 715, 717. -/
inductive FsErr where
  | notExist
  | permission
  | other (code : Nat)
  deriving DecidableEq, Repr

/-- The errors the handlers return.  The results of fs.go:233-365 and 616-706. -/
inductive ServeErr where
  | range (e : RangeErr)
  | seek
  | fs (e : FsErr)
  | badPath
  deriving DecidableEq, Repr

/-- fs_utils.go:66-71 `Error`. -/
def httpError (w : HttpResp) (msg : Str) (code : Nat) : HttpResp :=
  (((w.set b!"Content-Type" b!"text/plain; charset=utf-8").set b!"X-Content-Type-Options" b!"nosniff").code code).write msg

/-- The messages of the errors of `parseRange`: fs.go:227, 886, 940. -/
def rangeMsg : RangeErr → Str
  | .noOverlap => b!"invalid range: failed to overlap"
  | .invalid => b!"invalid range"

/-- The message of a failed `Seek`: fs.go:819. -/
def seekMsg : Str := b!"io.File missing Seek method"

/-- `multipart.Writer.CreatePart(ra.mimeHeader(cType, size))`: fs.go:326, 877-882, fs_utils.go:44. -/
def partHeader (boundary : Str) (first : Bool) (cType : Str) (size : Int) (ra : HttpRange) : Str :=
  (if first then b!"--" else b!"\r\n--") ++ boundary ++ b!"\r\n" ++
    b!"Content-Range: " ++ contentRange ra size ++ b!"\r\n" ++ b!"Content-Type: " ++ cType ++ b!"\r\n" ++ b!"\r\n"

/-- `multipart.Writer.Close`.  External: called in fs.go:342 and fs_utils.go:50. -/
def partClose (boundary : Str) : Str := b!"\r\n--" ++ boundary ++ b!"--\r\n"

/-- fs_utils.go:43-49: the part headers written to the counting writer, and the sum of the lengths. -/
def mimeCount (boundary cType : Str) (size : Int) : Bool → List HttpRange → Int → Int → Int × Int
  | _, [], enc, w => (enc, w)
  | first, ra :: t, enc, w =>
    mimeCount boundary cType size false t (i64 (enc + ra.length))
      (i64 (w + (partHeader boundary first cType size ra).length))

/-- fs_utils.go:40-53 `rangesMIMESize`. -/
def rangesMIMESize (boundary : Str) (rs : List HttpRange) (cType : Str) (size : Int) : Int :=
  let p := mimeCount boundary cType size true rs 0 0
  i64 (p.1 + i64 (p.2 + (partClose boundary).length))

/-- What `io.CopyN(_, content, n)` reads after `Seek(start)`.  For fs.go:300, 355 and 332, 337. -/
def readAt (c : Content) (start n : Int) : Str := (c.data.drop start.toNat).take n.toNat

/-- fs.go:324-344: what the goroutine writes into the pipe. A failed seek or a short read ends it. -/
def pipeOut (c : Content) (boundary cType : Str) (size : Int) : Bool → List HttpRange → Str
  | _, [] => partClose boundary
  | first, ra :: t =>
    let h := partHeader boundary first cType size ra
    if c.seekable = false then h
    else
      let b := readAt c ra.start ra.length
      if (b.length : Int) < ra.length then h ++ b
      else h ++ b ++ pipeOut c boundary cType size false t

/-- fs.go:244-259: the content type and the response with it, or an error answer. -/
def contentType (lib : Lib) (r : HttpReq) (w : HttpResp) (name : Str) (c : Content) : Outcome (Except HttpResp (Str × HttpResp)) :=
  let ct := r.header b!"Content-Type"
  if ct = [] then
    let ct := lib.typeByName name
    if ct = [] then
      (detectContentType (c.data.take 512)).bind fun ct =>
        if c.seekable then .ret (.ok (ct, w.set b!"Content-Type" ct))
        else .ret (.error (httpError w b!"seeker can't seek" 500))
    else .ret (.ok (ct, w.set b!"Content-Type" ct))
  else .ret (.ok (ct, w))

/-- fs.go:347-350: the two headers set whenever the size is known. -/
def lengthHeaders (w : HttpResp) (sendSize : Int) : HttpResp :=
  let w := w.set b!"Accept-Ranges" b!"bytes"
  if w.peek b!"Content-Encoding" = [] then w.set b!"Content-Length" (formatInt sendSize) else w

/-- fs.go:353-362: the status and the body, `toSend` being what can be read from `sendContent`. -/
def sendBody (r : HttpReq) (w : HttpResp) (code : Nat) (toSend : Str) (sendSize : Int) : HttpResp :=
  let w := w.code code
  if r.method ≠ b!"HEAD" then w.write (toSend.take sendSize.toNat) else w

/-- fs.go:286-350: the headers, the status, the readable content and its size for the accepted ranges. -/
def sendRanges (lib : Lib) (r : HttpReq) (w : HttpResp) (cType : Str) (size : Int) (c : Content) (rs : List HttpRange) :
    HttpResp × Option ServeErr :=
  match rs with
  | [] => (sendBody r (lengthHeaders w size) 200 c.data size, none)
  | [ra] =>
    if c.seekable = false then (httpError w seekMsg 416, some .seek)
    else
      let w := w.set b!"Content-Range" (contentRange ra size)
      (sendBody r (lengthHeaders w ra.length) 206 (c.data.drop ra.start.toNat) ra.length, none)
  | ra :: rb :: t =>
    let sendSize := rangesMIMESize lib.countBoundary (ra :: rb :: t) cType size
    let w := w.set b!"Content-Type" (b!"multipart/byteranges; boundary=" ++ lib.boundary)
    (sendBody r (lengthHeaders w sendSize) 206 (pipeOut c lib.boundary cType size true (ra :: rb :: t)) sendSize, none)

/-- fs.go:268-364: the part of `serveContent` after the size is known. -/
def serveSized (lib : Lib) (r : HttpReq) (w : HttpResp) (cType rangeReq : Str) (size : Int) (c : Content) :
    HttpResp × Option ServeErr :=
  if size ≥ 0 then
    match parseRange rangeReq size with
    | .error e =>
      let w := if e = .noOverlap then w.set b!"Content-Range" (b!"bytes */" ++ formatInt size) else w
      (httpError w (rangeMsg e) 416, some (.range e))
    | .ok rs => sendRanges lib r w cType size c (if sumRangesSize rs > size then [] else rs)
  else (sendBody r w 200 c.data size, none)

/-- fs.go:233-365 `serveContent`; the size function gives `none` for an error, whose message is `sizeMsg`. -/
def serveContent (lib : Lib) (r : HttpReq) (w : HttpResp) (name : Str) (modTime : Int) (size : Option Int) (c : Content) :
    Outcome (HttpResp × Option ServeErr) :=
  let w := setLastModified lib.toTimeLib w modTime
  (checkPreconditions lib.toTimeLib r w modTime).bind fun p =>
    match p with
    | (none, w) => .ret (w, none)
    | (some rangeReq, w) =>
      (contentType lib r w name c).bind fun x =>
        match x with
        | .error w => .ret (w, some .seek)
        | .ok (cType, w) =>
          match size with
          | none => .ret (httpError w b!"seeker can't seek" 500, some .seek)
          | some size => .ret (serveSized lib r w cType rangeReq size c)

/-- fs.go:205-219 `ServeContent`: the size is found by seeking to the end. -/
def ServeContent (lib : Lib) (r : HttpReq) (w : HttpResp) (name : Str) (modTime : Int) (c : Content) :
    Outcome (HttpResp × Option ServeErr) :=
  serveContent lib r w name modTime (if c.seekable then some c.data.length else none) c

end Verif
