import Verif.Spec.Table
import Verif.Spec.Orderly
import Verif.Model.Examples
/-
What the example programs of /repo/examples are meant to serve, row by row: method, route, and the handlers (before, after,
last, main) that run for it.
-/
namespace Verif.Spec
variable {η ρ : Type}

/-- The row answers the request. -/
def answers (x : Method × Str × HView η) (req : Req) : Prop :=
  covers x.1 req.method = true ∧ (matchRoute ((segs x.2.1).map segPat) (segs req.path)).isSome = true

/-- Two methods of registrations can answer the same request. -/
def shareMethod (a b : Method) : Bool :=
  covers a b || covers b a || (decide (a = b!"GETPOST" ∨ a = b!"GETHEAD") && decide (b = b!"GETPOST" ∨ b = b!"GETHEAD"))

/-- No two rows answer the same request. -/
def noCollision [DecidableEq η] (rows : List (Method × Str × HView η)) : Bool :=
  rows.all fun x => rows.all fun y => decide (x = y) || !(shareMethod x.1 y.1 &&
    meets ((segs x.2.1).map segPat) ((segs y.2.1).map segPat) && meets ((segs y.2.1).map segPat) ((segs x.2.1).map segPat))

/-- No segment of the routes is empty or consists of colons only. -/
def cleanRows (rows : List (Method × Str × HView η)) : Bool :=
  rows.all fun x => (segs x.2.1).all fun s => decide (s.dropWhile (· == 58) ≠ [])

def ihs (l : List Str) : List ExH := l.map .ih

/-- examples/server.go. -/
def serverRows : List (Method × Str × HView ExH) := [
  (b!"GETPOST", b!"/private_group", ⟨ihs [b!"1", b!"2"], ihs [b!"9", b!"10"], none, some (.ih b!"for MethodGetPost 'private_group'")⟩),
  (b!"POST", b!"/", ⟨ihs [b!"A1", b!"A2", b!"A3"], [], none, some (.ih b!"for MethodGetPost '/'")⟩),
  (b!"POST", b!"/a", ⟨ihs [b!"A1", b!"A2", b!"A3"], [], none, some (.ih b!"for MethodPost '/a'")⟩),
  (b!"GET", b!"/", ⟨ihs [b!"B1", b!"B2", b!"B3"], ihs [b!"B9", b!"B10"], none, some (.ih b!"for MethodGet '/'")⟩),
  (b!"GET", b!"/a", ⟨ihs [b!"B1", b!"B2", b!"B3"], ihs [b!"B9", b!"B10"], none, some (.ih b!"for MethodGet '/a'")⟩)]

/-- examples/example_1/main.go. -/
def example1Rows : List (Method × Str × HView ExH) := [
  (b!"GETPOST", b!"/private_group", ⟨ihs [b!"1", b!"2"], ihs [b!"9", b!"10"], none, some (.ih b!"for MethodGetPost 'private_group'")⟩),
  (b!"POST", b!"/", ⟨ihs [b!"A1", b!"A2", b!"A3"], [], none, some (.ih b!"for MethodGetPost '/'")⟩),
  (b!"GETPOST", b!"/a", ⟨ihs [b!"A1", b!"A2", b!"A3"], [], none, some (.ih b!"for MethodPost '/a'")⟩),
  (b!"GET", b!"/", ⟨ihs [b!"B1", b!"B2", b!"B3"], ihs [b!"B9", b!"B10"], none, some (.ih b!"for MethodGet '/'")⟩),
  (b!"GET", b!"/b", ⟨ihs [b!"B1", b!"B2", b!"B3"], ihs [b!"B9", b!"B10"], none, some (.ih b!"for MethodGet '/b'")⟩),
  (b!"GET", b!"/c", ⟨[], ihs [b!"B9", b!"B10"], none, some (.ih b!"for MethodGet '/c'")⟩),
  (b!"GET", b!"/user/:user_id", ⟨[], ihs [b!"B9", b!"B10"], none, some (.ih b!"for MethodGet '/c'")⟩),
  (b!"GET", b!"/user/:user_id/:action", ⟨[], ihs [b!"B9", b!"B10"], none, some (.ih b!"for MethodGet '/c'")⟩)]

/-- examples/example_2/main.go and example_3/main.go. -/
def cookieRows : List (Method × Str × HView ExH) := [
  (b!"GETPOST", b!"/", ⟨[], [], none, some (.ih b!"for MethodGetPost '/'")⟩),
  (b!"GETPOST", b!"/cookie", ⟨[], [], none, some (.ih b!"for MethodGetPost 'cookie'")⟩)]

/-- examples/example_2/main.go, the icon. -/
def iconRow : Method × Str × HView ExH :=
  (b!"GETPOST", b!"/favicon.ico", ⟨[], [], none, some (.fix b!"/data/favicons/favicon.ico")⟩)

/-- examples/static_video/main.go. -/
def videoRows : List (Method × Str × HView ExH) := [
  (b!"GETPOST", b!"/", ⟨[], [], none, some (.ih b!"for MethodGetPost '/'")⟩),
  (b!"GETPOST", b!"/file", ⟨[], [], none, some .video⟩)]

end Verif.Spec
