import Verif.Base.Path
import Verif.Base.FastPath
import Verif.Base.Base64
import Verif.Model.Range
import Verif.Model.Sniff
import Verif.Model.Cond
import Verif.Model.UniqId
import Verif.Model.Ctx
/-
Published test vectors of the external code that the model contains, checked by the kernel: Go's packages path,
encoding/base64, hash/crc64, net/url and net/http (static/fs.go and static/sniff.go are adapted copies of net/http's fs.go
and sniff.go), and fasthttp's path normalisation.  Nothing here is a property; the vectors check the reading of that code.
-/
namespace Verif.Conformance

/-! Go: path/path_test.go `cleantests` -/
example : ∀ x ∈ ([(b!"", b!"."), (b!"abc", b!"abc"), (b!"abc/def", b!"abc/def"), (b!"a/b/c", b!"a/b/c"), (b!".", b!"."),
    (b!"..", b!".."), (b!"../..", b!"../.."), (b!"../../abc", b!"../../abc"), (b!"/abc", b!"/abc"), (b!"/", b!"/"),
    (b!"abc/", b!"abc"), (b!"abc/def/", b!"abc/def"), (b!"a/b/c/", b!"a/b/c"), (b!"./", b!"."), (b!"../", b!".."),
    (b!"../../", b!"../.."), (b!"/abc/", b!"/abc"), (b!"abc//def//ghi", b!"abc/def/ghi"), (b!"//abc", b!"/abc"),
    (b!"///abc", b!"/abc"), (b!"//abc//", b!"/abc"), (b!"abc//", b!"abc"), (b!"abc/./def", b!"abc/def"), (b!"/./abc/def", b!"/abc/def"),
    (b!"abc/.", b!"abc"), (b!"abc/def/ghi/../jkl", b!"abc/def/jkl"), (b!"abc/def/../ghi/../jkl", b!"abc/jkl"),
    (b!"abc/def/..", b!"abc"), (b!"abc/def/../..", b!"."), (b!"/abc/def/../..", b!"/"), (b!"abc/def/../../..", b!".."),
    (b!"/abc/def/../../..", b!"/"), (b!"abc/def/../../../ghi/jkl/../../../mno", b!"../../mno"), (b!"abc/./../def", b!"def"),
    (b!"abc//./../def", b!"def"), (b!"abc/../../././../def", b!"../../def")] : List (Str × Str)), pathClean x.1 = x.2 := by
  decide +kernel

/-! Go: path/path_test.go `splittests`, `jointests`, `basetests` -/
example : pathSplit b!"a/b" = (b!"a/", b!"b") ∧ pathSplit b!"a/b/" = (b!"a/b/", b!"") ∧ pathSplit b!"a/" = (b!"a/", b!"") ∧
    pathSplit b!"a" = (b!"", b!"a") ∧ pathSplit b!"/" = (b!"/", b!"") := by decide +kernel
example : pathJoin b!"a" b!"b" = b!"a/b" ∧ pathJoin b!"a" b!"" = b!"a" ∧ pathJoin b!"" b!"b" = b!"b" ∧ pathJoin b!"/" b!"a" = b!"/a" ∧
    pathJoin b!"/" b!"" = b!"/" ∧ pathJoin b!"a/" b!"b" = b!"a/b" ∧ pathJoin b!"a/" b!"" = b!"a" ∧ pathJoin b!"" b!"" = b!"" := by
  decide +kernel
example : ∀ x ∈ ([(b!"", b!"."), (b!".", b!"."), (b!"/.", b!"."), (b!"/", b!"/"), (b!"////", b!"/"), (b!"x/", b!"x"), (b!"abc", b!"abc"),
    (b!"abc/def", b!"def"), (b!"a/b/.x", b!".x"), (b!"a/b/c.", b!"c."), (b!"a/b/c.x", b!"c.x")] : List (Str × Str)), pathBase x.1 = x.2 := by
  decide +kernel

/-! fasthttp: uri_test.go `TestURINormalizePath` -/
example : ∀ x ∈ ([(b!"/aa//bb", b!"/aa/bb"), (b!"/x///y/", b!"/x/y/"), (b!"/abc//de///fg////", b!"/abc/de/fg/"),
    (b!"/xxxx%2fyyy%2f%2F%2F", b!"/xxxx/yyy/"), (b!"/aaa/..", b!"/"), (b!"/xxx/yyy/../", b!"/xxx/"),
    (b!"/aaa/bbb/ccc/../../ddd", b!"/aaa/ddd"), (b!"/a/b/../c/d/../e/..", b!"/a/c/"), (b!"/aaa/../../../../xxx", b!"/xxx"),
    (b!"/../../../../../..", b!"/"), (b!"/../../../../../../", b!"/"), (b!"/aaa%2Fbbb%2F%2E.%2Fxxx", b!"/aaa/xxx"),
    (b!"/aaa////..//b", b!"/b"), (b!"/aaa/..bbb/ccc/..", b!"/aaa/..bbb/"), (b!"/a/./b/././c/./d.html", b!"/a/b/c/d.html"),
    (b!"./foo/", b!"/foo/"), (b!"./../.././../../aaa/bbb/../../../././../", b!"/"),
    (b!"./a/./.././../b/./foo.html", b!"/b/foo.html")] : List (Str × Str)), normalizePath x.1 = x.2 := by decide +kernel

/-! Go: encoding/base64/base64_test.go `pairs`, RFC 4648 section 10 -/
example : ∀ x ∈ ([(b!"", b!""), (b!"Zg==", b!"f"), (b!"Zm8=", b!"fo"), (b!"Zm9v", b!"foo"), (b!"Zm9vYg==", b!"foob"),
    (b!"Zm9vYmE=", b!"fooba"), (b!"Zm9vYmFy", b!"foobar"), (b!"c3VyZS4=", b!"sure."), (b!"c3VyZQ==", b!"sure"), (b!"c3Vy", b!"sur"),
    (b!"c3U=", b!"su"), (b!"bGVhc3VyZS4=", b!"leasure."), (b!"ZWFzdXJlLg==", b!"easure."), (b!"FPucA9l+", [0x14, 0xfb, 0x9c, 0x03, 0xd9, 0x7e]),
    (b!"FPucA9k=", [0x14, 0xfb, 0x9c, 0x03, 0xd9]), (b!"FPucAw==", [0x14, 0xfb, 0x9c, 0x03])] : List (Str × Str)),
    b64Decode x.1 = some x.2 := by decide +kernel
/-! Go: encoding/base64/base64_test.go `TestDecodeCorrupt`, `TestNewLineCharacters` -/
example : ∀ x ∈ [b!"!!!!", b!"====", b!"x===", b!"=AAA", b!"A=AA", b!"AA=A", b!"AA==A", b!"AAA=AAAA", b!"AAAAA", b!"AAAAAA", b!"A=",
    b!"A==", b!"AA=", b!"AAAAAA=", b!"A!", b!"A\n"], b64Decode x = none := by decide +kernel
example : ∀ x ∈ [b!"AA==\n", b!"AA=\n=", b!"AA\r\n=="], b64Decode x = some [0] := by decide +kernel
example : ∀ x ∈ [b!"c3VyZQ==", b!"c3VyZQ==\r", b!"c3VyZQ==\n", b!"c3VyZQ==\r\n", b!"c3VyZ\r\nQ==", b!"c3V\ryZ\nQ==", b!"c3V\nyZ\rQ==",
    b!"c3VyZ\nQ==", b!"c3VyZQ\n==", b!"c3VyZQ=\n=", b!"c3VyZQ=\r\n\r\n="], b64Decode x = some b!"sure" := by decide +kernel

/-! Go: hash/crc64/crc64_test.go `golden`, table ISO -/
example : ∀ x ∈ ([(b!"", 0x0#64), (b!"a", 0x3420000000000000#64), (b!"ab", 0x36c4200000000000#64), (b!"abc", 0x3776c42000000000#64),
    (b!"abcd", 0x336776c420000000#64), (b!"abcde", 0x32d36776c4200000#64), (b!"abcdef", 0x3002d36776c42000#64),
    (b!"abcdefg", 0x31b002d36776c420#64), (b!"abcdefgh", 0x0e21b002d36776c4#64), (b!"abcdefghi", 0x8b6e21b002d36776#64),
    (b!"abcdefghij", 0x7f5b6e21b002d367#64)] : List (Str × BitVec 64)), crcChecksum x.1 = x.2 := by decide +kernel

/-! Go: net/url/url_test.go `escapeTests` -/
example : queryEscape b!"" = b!"" ∧ queryEscape b!"abc" = b!"abc" ∧ queryEscape b!"one two" = b!"one+two" ∧ queryEscape b!"10%" = b!"10%25" ∧
    queryEscape b!" ?&=#+%!<>#\"{}|\\^[]`☺\t:/@$'()*,;" =
      b!"+%3F%26%3D%23%2B%25%21%3C%3E%23%22%7B%7D%7C%5C%5E%5B%5D%60%E2%98%BA%09%3A%2F%40%24%27%28%29%2A%2C%3B" := by decide +kernel

/-- What the vectors of range_test.go show: the ranges, `none` for an error. -/
def ranges (s : Str) (size : Int) : Option (List (Int × Int)) :=
  match parseRange s size with
  | .ok rs => some (rs.map fun r => (r.start, r.length))
  | .error _ => none

/-! Go: net/http/range_test.go `ParseRangeTests` -/
example : ranges b!"" 0 = some [] ∧ ranges b!"" 1000 = some [] := by decide +kernel
example : ranges b!"foo" 0 = none := by decide +kernel
example : ∀ x ∈ ([b!"bytes=", b!"bytes=1-"] : List Str), ranges x 0 = some [] ∨ ranges x 0 = none := by decide +kernel
example : ∀ x ∈ [b!"bytes=7", b!"bytes= 7 ", b!"bytes=5-4", b!"bytes=0-2,5-4", b!"bytes=2-5,4-3", b!"bytes=--5,4--3", b!"bytes=A-",
    b!"bytes=A- ", b!"bytes=A-Z", b!"bytes= -Z", b!"bytes=5-Z", b!"bytes=Ran-dom, garbage", b!"bytes=0x01-0x02"],
    ranges x 10 = none := by decide +kernel
example : ∀ x ∈ [b!"bytes=         ", b!"bytes= , , ,   "], ranges x 10 = some [] := by decide +kernel
example : ∀ x ∈ ([(b!"bytes=0-9", 10, [(0, 10)]), (b!"bytes=0-", 10, [(0, 10)]), (b!"bytes=5-", 10, [(5, 5)]), (b!"bytes=0-20", 10, [(0, 10)]),
    (b!"bytes=15-,0-5", 10, [(0, 6)]), (b!"bytes=1-2,5-", 10, [(1, 2), (5, 5)]), (b!"bytes=-2 , 7-", 11, [(9, 2), (7, 4)]),
    (b!"bytes=0-0 ,2-2, 7-", 11, [(0, 1), (2, 1), (7, 4)]), (b!"bytes=-5", 10, [(5, 5)]), (b!"bytes=-15", 10, [(0, 10)]),
    (b!"bytes=0-499", 10000, [(0, 500)]), (b!"bytes=500-999", 10000, [(500, 500)]), (b!"bytes=-500", 10000, [(9500, 500)]),
    (b!"bytes=9500-", 10000, [(9500, 500)]), (b!"bytes=0-0,-1", 10000, [(0, 1), (9999, 1)]),
    (b!"bytes=500-600,601-999", 10000, [(500, 101), (601, 399)]), (b!"bytes=500-700,601-999", 10000, [(500, 201), (601, 399)]),
    (b!"bytes=   1 -2   ,  4- 5, 7 - 8 , ,,", 11, [(1, 2), (4, 2), (7, 2)])] : List (Str × Int × List (Int × Int))),
    ranges x.1 x.2.1 = some x.2.2 := by decide +kernel

/-! Go: net/http/fs_test.go `scanETagTests` (TestScanETag) -/
example : ∀ x ∈ ([(b!"W/\"etag-1\"", b!"W/\"etag-1\"", b!""), (b!"\"etag-2\"", b!"\"etag-2\"", b!""),
    (b!"\"etag-1\", \"etag-2\"", b!"\"etag-1\"", b!", \"etag-2\""), (b!"", b!"", b!""), (b!"W/", b!"", b!""), (b!"W/\"truc", b!"", b!""),
    (b!"w/\"case-sensitive\"", b!"", b!""), (b!"\"spaced etag\"", b!"", b!"")] : List (Str × Str × Str)),
    scanETag x.1 = .ret (x.2.1, x.2.2) := by decide +kernel

/-! Go: net/http/sniff_test.go `sniffTests` (without the form audio/basic, which Go and this copy no longer have), and one vector per
further signature -/
example : ∀ x ∈ ([([], b!"text/plain; charset=utf-8"), ([1, 2, 3], b!"application/octet-stream"),
    (b!"<HtMl><bOdY>blah blah blah</body></html>", b!"text/html; charset=utf-8"), (b!"<HTML></HTML>", b!"text/html; charset=utf-8"),
    (b!"   <!DOCTYPE HTML>...", b!"text/html; charset=utf-8"), (b!"\r\n<html>...", b!"text/html; charset=utf-8"),
    (b!"This is not HTML. It has ☃ though.", b!"text/plain; charset=utf-8"), (b!"\n<?xml!", b!"text/xml; charset=utf-8"),
    ([0, 0, 1, 0], b!"image/x-icon"), ([0, 0, 2, 0], b!"image/x-icon"), (b!"BM...", b!"image/bmp"), (b!"GIF87a", b!"image/gif"),
    (b!"GIF89a...", b!"image/gif"), (b!"RIFF" ++ [0, 0, 0, 0] ++ b!"WEBPVP", b!"image/webp"),
    ([0x89] ++ b!"PNG" ++ [0x0D, 0x0A, 0x1A, 0x0A], b!"image/png"), ([0xFF, 0xD8, 0xFF], b!"image/jpeg"),
    (b!"MThd" ++ [0, 0, 0, 6, 0, 1], b!"audio/midi"), (b!"ID3" ++ [3, 0, 0, 0, 0, 0x0f], b!"audio/mpeg"),
    (b!"RIFFb" ++ [0xb8, 0, 0] ++ b!"WAVEfmt " ++ [0x12, 0, 0, 0, 6], b!"audio/wave"),
    (b!"FORM" ++ [0, 0, 0, 0] ++ b!"AIFFCOMM" ++ [0, 0, 0, 0x12], b!"audio/aiff"),
    (b!"OggS" ++ [0, 2, 0, 0, 0, 0, 0, 0, 0x7e, 0x46, 0, 0], b!"application/ogg"),
    ([0, 0, 0, 0x18] ++ b!"ftypmp42" ++ [0, 0, 0, 0] ++ b!"mp42isom<" ++ [0x06] ++ b!"t" ++ [0xbf] ++ b!"mdat", b!"video/mp4"),
    (b!"RIFF,O\n" ++ [0] ++ b!"AVI LIST" ++ [0xc0], b!"video/avi"), ([0x1A, 0x45, 0xDF, 0xA3], b!"video/webm"),
    ([0, 1, 0, 0, 0, 0x17, 1, 0], b!"font/ttf"), (b!"wOFF" ++ [0, 1], b!"font/woff"), (b!"wOF2" ++ [0, 1], b!"font/woff2"),
    (b!"OTTO" ++ [0], b!"font/otf"), (b!"ttcf" ++ [0], b!"font/collection"), (b!"Rar!" ++ [0x1A, 7, 0], b!"application/x-rar-compressed"),
    (b!"PK" ++ [3, 4], b!"application/zip"), ([0x1F, 0x8B, 0x08], b!"application/x-gzip"), (b!"%PDF-", b!"application/pdf"),
    (b!"%!PS-Adobe-", b!"application/postscript"), ([0xFE, 0xFF, 0, 0], b!"text/plain; charset=utf-16be"),
    ([0xFF, 0xFE, 0, 0], b!"text/plain; charset=utf-16le"), ([0xEF, 0xBB, 0xBF, 0], b!"text/plain; charset=utf-8"),
    ([0x7C, 0xFD, 0xFE, 0xFF], b!"text/plain; charset=utf-8"), ([0, 0x61, 0x73, 0x6D], b!"application/wasm")] : List (Str × Str)), detectContentType x.1 = .ret x.2 := by decide +kernel

end Verif.Conformance
