import Verif.Base.Str
/-
The MIME sniffing table (https://mimesniff.spec.whatwg.org, sections 6 and 7), written declaratively.
-/
namespace Verif.Spec

/-- White space (0xWS). -/
def sniffSpace : List UInt8 := b!"\t\n\x0c\r "

/-- One rule of the table. -/
inductive Rule where
  /-- white space, the tag in any letter case, a tag terminator: HTML -/
  | tag (t : Str)
  /-- (white space,) a pattern of bytes with wildcards at the beginning -/
  | magic (ws : Bool) (pattern : List (Option UInt8)) (ct : Str)
  /-- an ISO base media file with this brand -/
  | brand (b ct : Str)
  /-- no binary control byte -/
  | plain

/-- The bytes are those of the pattern, `none` being any byte. -/
inductive Fits : List (Option UInt8) → Str → Prop
  | done (s : Str) : Fits [] s
  | byte {p : List (Option UInt8)} {s : Str} (c : UInt8) : Fits p s → Fits (some c :: p) (c :: s)
  | any {p : List (Option UInt8)} {s : Str} (c : UInt8) : Fits p s → Fits (none :: p) (c :: s)

/-- The upper-case text `t` in any letter case. -/
inductive TagText : Str → Str → Prop
  | nil : TagText [] []
  | same {t s : Str} (c : UInt8) : TagText t s → TagText (c :: t) (c :: s)
  | lower {t s : Str} (c : UInt8) : 65 ≤ c → c ≤ 90 → TagText t s → TagText (c :: t) ((c + 32) :: s)

/-- Control bytes that do not occur in text. -/
def BinaryByte (b : UInt8) : Prop := b.toNat ≤ 8 ∨ b.toNat = 11 ∨ (14 ≤ b.toNat ∧ b.toNat ≤ 26) ∨ (28 ≤ b.toNat ∧ b.toNat ≤ 31)

/-- The data matches the rule. -/
def Rule.Matches (d : Str) : Rule → Prop
  | .tag t => ∃ ws x e rest, d = ws ++ x ++ e :: rest ∧ (∀ c ∈ ws, c ∈ sniffSpace) ∧ TagText t x ∧ e ∈ b!" >"
  | .magic ws p _ => ∃ w rest, d = w ++ rest ∧ (∀ c ∈ w, c ∈ sniffSpace) ∧ (ws = false → w = []) ∧ Fits p rest
  | .brand b _ => ∃ (x0 x1 x2 x3 : UInt8) (rest : Str) (k : Nat), d = [x0, x1, x2, x3] ++ b!"ftyp" ++ rest ∧ 12 ≤ d.length ∧
      -- the box size is a multiple of four, the box is complete, and one of its brands is `b`
      let size := ((x0.toNat * 256 + x1.toNat) * 256 + x2.toNat) * 256 + x3.toNat
      size ≤ d.length ∧ 4 ∣ size ∧ 8 + 4 * k < size ∧ k ≠ 1 ∧ b <+: d.drop (8 + 4 * k)
  | .plain => ∀ c ∈ d, ¬ BinaryByte c

/-- The type a rule gives. -/
def Rule.type : Rule → Str
  | .tag _ => b!"text/html; charset=utf-8"
  | .magic _ _ ct => ct
  | .brand _ ct => ct
  | .plain => b!"text/plain; charset=utf-8"

/-- Exactly these bytes. -/
def bytes (s : Str) : List (Option UInt8) := s.map some

/-- `n` arbitrary bytes. -/
def anyBytes (n : Nat) : List (Option UInt8) := List.replicate n none

/-- The rules in order. -/
def rules : List Rule :=
  [b!"<!DOCTYPE HTML", b!"<HTML", b!"<HEAD", b!"<SCRIPT", b!"<IFRAME", b!"<H1", b!"<DIV", b!"<FONT", b!"<TABLE", b!"<A",
    b!"<STYLE", b!"<TITLE", b!"<B", b!"<BODY", b!"<BR", b!"<P", b!"<!--"].map Rule.tag ++
  [ .magic true (bytes b!"<?xml") b!"text/xml; charset=utf-8",
    .magic false (bytes b!"%PDF-") b!"application/pdf",
    .magic false (bytes b!"%!PS-Adobe-") b!"application/postscript",
    -- byte order marks, with at least one (UTF-8) or two (UTF-16) more bytes
    .magic false (bytes [254, 255] ++ anyBytes 2) b!"text/plain; charset=utf-16be",
    .magic false (bytes [255, 254] ++ anyBytes 2) b!"text/plain; charset=utf-16le",
    .magic false (bytes [239, 187, 191] ++ anyBytes 1) b!"text/plain; charset=utf-8",
    .magic false (bytes [0, 0, 1, 0]) b!"image/x-icon",
    .magic false (bytes [0, 0, 2, 0]) b!"image/x-icon",
    .magic false (bytes b!"BM") b!"image/bmp",
    .magic false (bytes b!"GIF87a") b!"image/gif",
    .magic false (bytes b!"GIF89a") b!"image/gif",
    .magic false (bytes b!"RIFF" ++ anyBytes 4 ++ bytes b!"WEBPVP") b!"image/webp",
    .magic false (bytes [137, 80, 78, 71, 13, 10, 26, 10]) b!"image/png",
    .magic false (bytes [255, 216, 255]) b!"image/jpeg",
    .magic false (bytes b!"FORM" ++ anyBytes 4 ++ bytes b!"AIFF") b!"audio/aiff",
    .magic false (bytes b!"ID3") b!"audio/mpeg",
    .magic false (bytes [79, 103, 103, 83, 0]) b!"application/ogg",
    .magic false (bytes [77, 84, 104, 100, 0, 0, 0, 6]) b!"audio/midi",
    .magic false (bytes b!"RIFF" ++ anyBytes 4 ++ bytes b!"AVI ") b!"video/avi",
    .magic false (bytes b!"RIFF" ++ anyBytes 4 ++ bytes b!"WAVE") b!"audio/wave",
    .brand b!"mp4" b!"video/mp4",
    .brand b!"qt" b!"video/quicktime",
    .magic false (bytes [26, 69, 223, 163]) b!"video/webm",
    .magic false (anyBytes 34 ++ bytes b!"LP") b!"application/vnd.ms-fontobject",
    .magic false (bytes [0, 1, 0, 0]) b!"font/ttf",
    .magic false (bytes b!"OTTO") b!"font/otf",
    .magic false (bytes b!"ttcf") b!"font/collection",
    .magic false (bytes b!"wOFF") b!"font/woff",
    .magic false (bytes b!"wOF2") b!"font/woff2",
    .magic false (bytes [31, 139, 8]) b!"application/x-gzip",
    .magic false (bytes [80, 75, 3, 4]) b!"application/zip",
    .magic false (bytes [82, 97, 114, 33, 26, 7, 0]) b!"application/x-rar-compressed",
    .magic false (bytes [82, 97, 114, 33, 26, 7, 1, 0]) b!"application/x-rar-compressed",
    .magic false (bytes [0, 97, 115, 109]) b!"application/wasm",
    .plain ]

/-- `ct` is the type of the data: that of the first rule that matches, or the fallback. -/
def FirstMatch (rs : List Rule) (d ct : Str) : Prop :=
  (∃ before r after, rs = before ++ r :: after ∧ r.Matches d ∧ r.type = ct ∧ ∀ q ∈ before, ¬ q.Matches d) ∨
  ((∀ r ∈ rs, ¬ r.Matches d) ∧ ct = b!"application/octet-stream")

end Verif.Spec
