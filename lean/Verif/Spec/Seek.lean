import Verif.Spec.Static
import Verif.Spec.Content
import Verif.Spec.Cond
import Verif.Model.Static
/-
Static routes as the clients of a file server see them: which file a request names, ranges, revalidation and resumed
downloads.
-/
namespace Verif.Spec

/-- A static route: StaticFileFS(fileSystem, filePath, urlPath), StaticFile(directory, urlPath), and
FixStaticFileFS(fileSystem, filePath, …). -/
inductive StaticRoute where
  | fileFS (filePath urlPath : Str)
  | file (urlPath : Str)
  | fixFS (filePath : Str)

/-- What the handler of the route leaves behind for a request. -/
def StaticRoute.run (lib : Lib) (href : Str → Str) (fSys : RawFS) : StaticRoute → HttpReq → HttpResp → RunOut
  | .fileFS filePath urlPath => staticFSRun lib href fSys filePath urlPath
  | .file urlPath => staticFileRun lib href fSys urlPath
  | .fixFS filePath => fixStaticRun lib href fSys filePath

/-- Elements that can be written in a path as they are. -/
def CleanElems (l : List Str) : Prop := l ≠ [] ∧ ∀ s ∈ l, Elem s ∧ ¬ HasEscape s

/-- A request path names, for the route, the file with the given elements (which is not an index page). -/
def StaticRoute.Names : StaticRoute → Str → List Str → Prop
  | .fileFS filePath urlPath, path, name => ∃ dir rest U, CleanElems dir ∧ CleanElems rest ∧
      rest.getLast? ≠ some b!"index.html" ∧ (filePath = fileName dir ∨ filePath = b!"/" ++ fileName dir) ∧
      urlPath = b!"/" ++ U ∧ path = b!"/" ++ U ++ b!"/" ++ fileName rest ∧ name = dir ++ rest
  | .file urlPath, path, name => ∃ U, CleanElems name ∧ name.getLast? ≠ some b!"index.html" ∧ urlPath = b!"/" ++ U ∧
      path = b!"/" ++ U ++ b!"/" ++ fileName name
  | .fixFS filePath, _, name => CleanElems name ∧ name.getLast? ≠ some b!"index.html" ∧ filePath = b!"/" ++ fileName name

/-- The file system has, under the name, a regular file with this base name, these bytes and this modification time. -/
def HasFile (fSys : RawFS) (name : List Str) (base data : Str) (modTime : Int) : Prop :=
  data.length < 2 ^ 63 ∧ ∃ f, fSys.opens (fileName name) = .ok f ∧ f.stat = .ok ⟨base, data.length, false, modTime⟩ ∧
    f.content = ⟨data, true⟩

/-- The request is a GET or HEAD without conditions on the whole answer. -/
def Unconditional (r : HttpReq) : Prop :=
  (r.method = b!"GET" ∨ r.method = b!"HEAD") ∧ r.header b!"If-Match" = [] ∧ r.header b!"If-Unmodified-Since" = [] ∧
    r.header b!"If-None-Match" = [] ∧ r.header b!"If-Modified-Since" = []

/-- Neither the zero time nor the Unix epoch. -/
def KnownTime (t : Int) : Prop := t ≠ 0 ∧ t ≠ -62135596800 * 10 ^ 9

/-- The date written for `t` (in nanoseconds) is read back as its second, and does not look like an entity tag. -/
def DateLaw (lib : Lib) (t : Int) : Prop :=
  lib.format t ≠ [] ∧ lib.parse (lib.format t) = some (t / 10 ^ 9 * 10 ^ 9) ∧
    ∀ e, ¬ Question.StartsWithTag (lib.format t) e

/-- The header says that no handler before encoded the answer or gave it an entity tag. -/
def NoEncoding (w : HttpResp) : Prop := w.peek b!"Content-Encoding" = [] ∧ w.peek b!"Etag" = []

/-- The answer is the whole file. -/
def WholeAnswer (r : HttpReq) (w : HttpResp) (data : Str) (s : StaticRun) : Prop :=
  s.err = none ∧ s.resp.status = 200 ∧ Number data.length (s.resp.peek b!"Content-Length") ∧
    s.resp.body = w.body ++ (if r.method = b!"HEAD" then [] else data)

/-- The answer is the bytes from `a` to `a + n - 1` of the file, and says so. -/
def PartAnswer (r : HttpReq) (w : HttpResp) (data : Str) (a n : Nat) (s : StaticRun) : Prop :=
  s.err = none ∧ s.resp.status = 206 ∧ Number n (s.resp.peek b!"Content-Length") ∧
    ContentRange a (a + n) data.length (s.resp.peek b!"Content-Range") ∧
    s.resp.body = w.body ++ (if r.method = b!"HEAD" then [] else slice data a (a + n))

end Verif.Spec
