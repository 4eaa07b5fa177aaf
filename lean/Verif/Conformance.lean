import Verif.Model.Tree
import Verif.Model.Text
import Verif.Model.Ctx
/-
The unit tests of /repo, run on the model by the kernel.  Nothing here is a property: these cases check that the model of
tree.go and internal/text computes what the project's own tests expect of the code.  Handler sets are known by their ids.
-/
namespace Verif.Conformance

/-- A tree built by `tr.Add` calls (method, route, id of the set). -/
def mk (l : List (Method × Str × Str)) : Node Str := treeOf (l.map fun x => ⟨x.1, x.2.1, x.2.2⟩)

/-- `res := tr.Find(method, path, args)`: the id of the set found (`none`: `res.Find` is false) and the buffer. -/
def look (t : Node Str) (m : Method) (path : Str) (args : Args) : Option (Option Str × Args) :=
  match treeFind t m path args with
  | .ret r => some (if r.found then r.set else none, r.args)
  | _ => none

/-! tree_test.go:42-57 `TestSplitPath` -/
example : splitPath b!"" = [b!"/"] := by decide +kernel
example : splitPath b!"/" = [b!"/"] := by decide +kernel
example : splitPath b!"/work" = [b!"/", b!"work"] := by decide +kernel
example : splitPath b!"." = [b!"/", b!"."] := by decide +kernel
example : splitPath b!"/a/b/c/" = [b!"/", b!"a", b!"b", b!"c"] := by decide +kernel

/-! tree_test.go:59-85 `TestTreeTop1` -/
def top1 := mk [(mPost, b!"/", b!"1"), (mPost, b!"/work", b!"2")]
example : look top1 mPost b!"/" [] = some (some b!"1", []) := by decide +kernel
example : look top1 mPost b!"" [] = some (some b!"1", []) := by decide +kernel

/-! tree_test.go:87-108 `TestTreeTop2` -/
def top2 := mk [(mPost, b!"", b!"1"), (mPost, b!"/work", b!"2")]
example : look top2 mPost b!"/" [] = some (some b!"1", []) := by decide +kernel

/-! tree_test.go:110-147 `TestTreeLevel1_0` -/
def level1_0 := mk [(mPost, b!"/", b!"1"), (mPost, b!"/work", b!"2"), (mGet, b!"/work", b!"2"), (mPost, b!"/work/bork", b!"3"),
  (mPost, b!"/work/cork", b!"4"), (mPost, b!"/walk/", b!"5"), (mGet, b!"/walk/", b!"5")]
example : look level1_0 mPost b!"/work" [] = some (some b!"2", []) := by decide +kernel
example : look level1_0 mGet b!"/work" [] = some (some b!"2", []) := by decide +kernel

/-! tree_test.go:149-184 `TestTreeLevel1_1` -/
def level1_1 := mk [(mPost, b!"/", b!"1"), (mPost, b!"/work/bork/pork", b!"2"), (mPost, b!"/work/bork", b!"3"),
  (mPost, b!"/work/cork", b!"4"), (mPost, b!"/walk/", b!"5"), (mGet, b!"/walk/", b!"5")]
example : look level1_1 mPost b!"/work" [] = some (none, []) := by decide +kernel
example : look level1_1 mPost b!"/work/cork" [] = some (some b!"4", []) := by decide +kernel

/-! tree_test.go:186-210 `TestTreeUrlIDs_0` -/
def urlIDs_0 := mk [(mPost, b!"/", b!"1"), (mPost, b!"/:id", b!"2")]
example : look urlIDs_0 mPost b!"/vasya" [] = some (some b!"2", [(b!"id", b!"vasya")]) := by decide +kernel

/-! tree_test.go:212-238 `TestTreeUrlIDs_1` -/
def urlIDs_1 := mk [(mPost, b!"/", b!"1"), (mPost, b!"/:login", b!"2"), (mPost, b!"/:login/user", b!"3")]
example : look urlIDs_1 mPost b!"/vasya/user" [] = some (some b!"3", [(b!"login", b!"vasya")]) := by decide +kernel

/-! tree_test.go:240-288 `TestTreeUrlIDs_2` -/
def urlIDs_2 := mk [(mPost, b!"/", b!"1"), (mPost, b!"/a/:id/borrow", b!"2"), (mPost, b!"/a/:id", b!"3"),
  (mPost, b!"/b/:login", b!"4"), (mPost, b!"/b/:login/admin", b!"5"), (mPost, b!"/b/:login/user", b!"6"),
  (mPost, b!"/b/:login/:login/user", b!"7")]
example : look urlIDs_2 mPost b!"/b/vasya/user" [] = some (some b!"6", [(b!"login", b!"vasya")]) := by decide +kernel
example : ((look urlIDs_2 mPost b!"/b/vasya/petrov/user" []).map fun r => (r.1, argsPeekMulti r.2 b!"login")) =
    some (some b!"7", [b!"vasya", b!"petrov"]) := by decide +kernel

/-! tree_test.go:290-337 `TestTreeUrlIDs_3` -/
def urlIDs_3 := mk [(mPost, b!"/", b!"1"), (mPost, b!"/a/:id/borrow", b!"2"), (mPost, b!"/a/:id", b!"3"),
  (mPost, b!"/b/:login", b!"4"), (mPost, b!"/b/:login/admin", b!"5"), (mPost, b!"/b/:login/user", b!"6"),
  (mPost, b!"/b/:login/:id/user", b!"7")]
example : ((look urlIDs_3 mPost b!"/b/vasya/123/user" []).map fun r => (r.1, argsPeek r.2 b!"id", argsPeek r.2 b!"login")) =
    some (some b!"7", some b!"123", some b!"vasya") := by decide +kernel
example : look urlIDs_3 mGet b!"/" [(b!"login", b!"vasya"), (b!"id", b!"123")] = some (none, []) := by decide +kernel

/-! tree_test.go:339-433 `TestTreeUrlID_4`; one buffer for all calls -/
def urlID_4 := mk [(mPost, b!"/", b!"1"), (mPost, b!"/a/:id/borrow", b!"2"), (mPost, b!"/a/:id", b!"3"),
  (mPost, b!"/b/:login", b!"4"), (mPost, b!"/b/:login/admin", b!"5"), (mPost, b!"/b/:login/user", b!"6"),
  (mPost, b!"/b/:login/:id/user", b!"7"), (mPost, b!"/a/:id/:login/admin", b!"8"), (mPost, b!"/a/:id/:login/user", b!"9"),
  (mPost, b!"/a/:id/:login/user/account", b!"10"), (mGetPost, b!"/a/:id/user/account", b!"11")]
example : look urlID_4 mPost b!"/b/vasya/123/user" [] =
    some (some b!"7", [(b!"login", b!"vasya"), (b!"id", b!"123")]) := by decide +kernel
example : look urlID_4 mPost b!"/a/tennis player/Jean-Julien Rojer/user" [(b!"login", b!"vasya"), (b!"id", b!"123")] =
    some (some b!"9", [(b!"id", b!"tennis player"), (b!"login", b!"Jean-Julien Rojer")]) := by decide +kernel
example : look urlID_4 mPost b!"/a/tennis player/Jean-Julien Rojer/user/account" [] =
    some (some b!"10", [(b!"id", b!"tennis player"), (b!"login", b!"Jean-Julien Rojer")]) := by decide +kernel
example : look urlID_4 mPost b!"/a/tennis player/user/account" [] = some (some b!"11", [(b!"id", b!"tennis player")]) := by
  decide +kernel
example : look urlID_4 mGet b!"/a/tennis player/user/account" [] = some (some b!"11", [(b!"id", b!"tennis player")]) := by
  decide +kernel
example : look urlID_4 mDelete b!"/a/tennis player/user/account" [] = some (none, []) := by decide +kernel
example : look urlID_4 mPost b!"/a" [] = some (none, []) := by decide +kernel
example : look urlID_4 mGet b!"/a" [] = some (none, []) := by decide +kernel
example : look urlID_4 mGet b!"/" [] = some (none, []) := by decide +kernel

/-! tree_2_test.go:33-74 `TestTreeOneMore` -/
def oneMore := mk [(mGetPost, b!"/my-ads", b!"0"), (mGetPost, b!"/my-ads/upload", b!"1"), (mGetPost, b!"/my-ads/list", b!"2"),
  (mGetPost, b!"/my-ads/take/:id", b!"3"), (mGetPost, b!"/my-ads/take/:id/json", b!"4"),
  (mGetPost, b!"/my-ads/take/:id/thumbnails", b!"5"), (mGetPost, b!"/my-ads/:id/property/update", b!"6"),
  (mGetPost, b!"/my-ads/:id/condition/:condition/add", b!"7"), (mGetPost, b!"/my-ads/:id/condition/:condition/del", b!"8"),
  (mGetPost, b!"/my-ads/:id/video_search/count", b!"9"), (mGetPost, b!"/my-ads/attached_video/:id", b!"10"),
  (mGetPost, b!"/advertiser/profile", b!"11"), (mGetPost, b!"/advertiser/profile/data", b!"12"),
  (mGetPost, b!"/advertiser/profile/budget/add", b!"13")]
example : ((look oneMore mPost b!"/my-ads/attached_video/51" []).map fun r => (r.1, argsPeek r.2 b!"id")) =
    some (some b!"10", some b!"51") := by decide +kernel

/-! internal/text/text_test.go:9-30 `TestTrimString`, `TestTrimBytes` -/
def spaceData : List (Str × Str) := [(b!"asd", b!"asd"), (b!"   ", b!""), (b!"\n", b!""), (b!"   q\n\r", b!"q"), (b!"  ", b!""),
  (b!"  Super header \n ", b!"Super header"), (b!"\r\t  Super\nheader \n ", b!"Super\nheader"),
  (b!"\r \t   Super\nheader", b!"Super\nheader")]
example : ∀ x ∈ spaceData, goTrimString x.1 = .ret x.2 := by decide +kernel

end Verif.Conformance
