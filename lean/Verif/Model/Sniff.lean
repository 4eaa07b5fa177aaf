import Verif.Base.Str
/-
Model of /repo/static/sniff.go.  Indexing or slicing out of range is a panic.
-/
namespace Verif

/-- sniff.go:38-44 `isWS`. -/
def isWS (b : UInt8) : Bool := b == 9 || b == 10 || b == 12 || b == 13 || b == 32

/-- sniff.go:48-54 `isTT`. -/
def isTT (b : UInt8) : Bool := b == 32 || b == 62

/-- sniff.go:56-59 `sniffSig`: the types that implement it (lines 195-198, 207-211, 235, 262, 289, 319). -/
inductive Sig where
  | html (h : Str)
  | masked (mask pat : Str) (skipWS : Bool) (ct : Str)
  | exact (sig ct : Str)
  | mp4
  | quicktime
  | text

/-- `data[n:]`.  sniff.go:218, 238, 323. -/
def sliceFrom (data : Str) (n : Nat) : Outcome Str := if n ≤ data.length then .ret (data.drop n) else .panic

/-- `data[a:b]`.  sniff.go:270, 274, 282, 296, 301, 311. -/
def sliceRange (data : Str) (a b : Nat) : Outcome Str :=
  if a ≤ b ∧ b ≤ data.length then .ret ((data.take b).drop a) else .panic

/-- `data[i]`.  sniff.go:24, 227, 243, 252. -/
def indexAt (data : Str) (i : Nat) : Outcome UInt8 :=
  match data[i]? with
  | none => .panic
  | some b => .ret b

/-- sniff.go:226-231: the loop of `maskedSig.match` from index `i`; `true` means no mismatch. -/
def maskedLoop (data mask : Str) : Nat → Str → Outcome Bool
  | _, [] => .ret true
  | i, pb :: pat =>
    (indexAt data i).bind fun d => (indexAt mask i).bind fun m =>
      if d &&& m ≠ pb then .ret false else maskedLoop data mask (i + 1) pat

/-- sniff.go:213-233 `maskedSig.match`. -/
def maskedMatch (mask pat : Str) (skipWS : Bool) (ct : Str) (data : Str) (firstNonWS : Nat) : Outcome Str :=
  (if skipWS then sliceFrom data firstNonWS else .ret data).bind fun data =>
    if pat.length ≠ mask.length then .ret []
    else if data.length < pat.length then .ret []
    else (maskedLoop data mask 0 pat).bind fun ok => .ret (if ok then ct else [])

/-- sniff.go:242-250: the loop of `htmlSig.match`. -/
def htmlLoop (data : Str) : Nat → Str → Outcome Bool
  | _, [] => .ret true
  | i, b :: h =>
    (indexAt data i).bind fun d =>
      let db := if 65 ≤ b ∧ b ≤ 90 then d &&& 0xDF else d
      if b ≠ db then .ret false else htmlLoop data (i + 1) h

/-- sniff.go:237-256 `htmlSig.match`. -/
def htmlMatch (h : Str) (data : Str) (firstNonWS : Nat) : Outcome Str :=
  (sliceFrom data firstNonWS).bind fun data =>
    if data.length < h.length + 1 then .ret []
    else (htmlLoop data 0 h).bind fun ok =>
      if ok then (indexAt data h.length).bind fun t => .ret (if isTT t then b!"text/html; charset=utf-8" else [])
      else .ret []

/-- `binary.BigEndian.Uint32`.  External: called in sniff.go:270, 296. -/
def bigEndian32 : Str → Outcome Nat
  | a :: b :: c :: d :: _ => .ret (((a.toNat * 256 + b.toNat) * 256 + c.toNat) * 256 + d.toNat)
  | _ => .panic

/-- sniff.go:277-285 and 305-314: the loop over the brands from `st`; `n` bounds the rounds. -/
def brandLoop (data brand : Str) (boxSize : Nat) : Nat → Nat → Outcome Bool
  | 0, _ => .outOfFuel
  | n + 1, st =>
    if st < boxSize then
      if st = 12 then brandLoop data brand boxSize n (st + 4)
      else (sliceRange data st (st + brand.length)).bind fun x =>
        if x = brand then .ret true else brandLoop data brand boxSize n (st + 4)
    else .ret false

/-- sniff.go:271-286 and 297-316: what follows once the box size is known. -/
def ftypRest (brand ct : Str) (data : Str) (boxSize : Nat) : Outcome Str :=
  if data.length < boxSize ∨ boxSize % 4 ≠ 0 then .ret []
  else (sliceRange data 4 8).bind fun t =>
    if t ≠ b!"ftyp" then .ret []
    else (brandLoop data brand boxSize (boxSize + 1) 8).bind fun ok => .ret (if ok then ct else [])

/-- sniff.go:264-287 `mp4Sig.match` and 291-317 `quicktimeSig.match`: the same code for another brand and type. -/
def ftypMatch (brand ct : Str) (data : Str) : Outcome Str :=
  if data.length < 12 then .ret []
  else (sliceRange data 0 4).bind fun h => (bigEndian32 h).bind fun boxSize => ftypRest brand ct data boxSize

/-- sniff.go:325-328: the bytes `textSig` rejects. -/
def notText (b : UInt8) : Bool := b ≤ 0x08 || b == 0x0B || (0x0E ≤ b && b ≤ 0x1A) || (0x1C ≤ b && b ≤ 0x1F)

/-- sniff.go:321-333 `textSig.match`. -/
def textMatch (data : Str) (firstNonWS : Nat) : Outcome Str :=
  (sliceFrom data firstNonWS).bind fun data => .ret (if data.any notText then [] else b!"text/plain; charset=utf-8")

/-- The `match` method.  sniff.go:56-59, 200-333. -/
def Sig.sniff (data : Str) (firstNonWS : Nat) : Sig → Outcome Str
  | .html h => htmlMatch h data firstNonWS
  | .masked m p s ct => maskedMatch m p s ct data firstNonWS
  | .exact sig ct => .ret (if hasPrefix data sig then ct else [])      -- sniff.go:200-205
  | .mp4 => ftypMatch b!"mp4" b!"video/mp4" data
  | .quicktime => ftypMatch b!"qt" b!"video/quicktime" data
  | .text => textMatch data firstNonWS

/-- sniff.go:62-193 `sniffSignatures`. -/
def sniffSignatures : List Sig :=
  [.html b!"<!DOCTYPE HTML", .html b!"<HTML", .html b!"<HEAD", .html b!"<SCRIPT", .html b!"<IFRAME", .html b!"<H1",
   .html b!"<DIV", .html b!"<FONT", .html b!"<TABLE", .html b!"<A", .html b!"<STYLE", .html b!"<TITLE", .html b!"<B",
   .html b!"<BODY", .html b!"<BR", .html b!"<P", .html b!"<!--",
   .masked [0xFF, 0xFF, 0xFF, 0xFF, 0xFF] b!"<?xml" true b!"text/xml; charset=utf-8",
   .exact b!"%PDF-" b!"application/pdf",
   .exact b!"%!PS-Adobe-" b!"application/postscript",
   .masked [0xFF, 0xFF, 0, 0] [0xFE, 0xFF, 0, 0] false b!"text/plain; charset=utf-16be",
   .masked [0xFF, 0xFF, 0, 0] [0xFF, 0xFE, 0, 0] false b!"text/plain; charset=utf-16le",
   .masked [0xFF, 0xFF, 0xFF, 0] [0xEF, 0xBB, 0xBF, 0] false b!"text/plain; charset=utf-8",
   .exact [0, 0, 1, 0] b!"image/x-icon",
   .exact [0, 0, 2, 0] b!"image/x-icon",
   .exact b!"BM" b!"image/bmp",
   .exact b!"GIF87a" b!"image/gif",
   .exact b!"GIF89a" b!"image/gif",
   .masked ([0xFF, 0xFF, 0xFF, 0xFF, 0, 0, 0, 0, 0xFF, 0xFF, 0xFF, 0xFF, 0xFF, 0xFF])
     (b!"RIFF" ++ [0, 0, 0, 0] ++ b!"WEBPVP") false b!"image/webp",
   .exact ([0x89] ++ b!"PNG" ++ [0x0D, 0x0A, 0x1A, 0x0A]) b!"image/png",
   .exact [0xFF, 0xD8, 0xFF] b!"image/jpeg",
   .masked [0xFF, 0xFF, 0xFF, 0xFF, 0, 0, 0, 0, 0xFF, 0xFF, 0xFF, 0xFF]
     (b!"FORM" ++ [0, 0, 0, 0] ++ b!"AIFF") false b!"audio/aiff",
   .masked [0xFF, 0xFF, 0xFF] b!"ID3" false b!"audio/mpeg",
   .masked [0xFF, 0xFF, 0xFF, 0xFF, 0xFF] (b!"OggS" ++ [0]) false b!"application/ogg",
   .masked [0xFF, 0xFF, 0xFF, 0xFF, 0xFF, 0xFF, 0xFF, 0xFF] (b!"MThd" ++ [0, 0, 0, 6]) false b!"audio/midi",
   .masked [0xFF, 0xFF, 0xFF, 0xFF, 0, 0, 0, 0, 0xFF, 0xFF, 0xFF, 0xFF]
     (b!"RIFF" ++ [0, 0, 0, 0] ++ b!"AVI ") false b!"video/avi",
   .masked [0xFF, 0xFF, 0xFF, 0xFF, 0, 0, 0, 0, 0xFF, 0xFF, 0xFF, 0xFF]
     (b!"RIFF" ++ [0, 0, 0, 0] ++ b!"WAVE") false b!"audio/wave",
   .mp4,
   .quicktime,
   .exact [0x1A, 0x45, 0xDF, 0xA3] b!"video/webm",
   .masked (List.replicate 34 0 ++ [0xFF, 0xFF]) (List.replicate 34 0 ++ b!"LP") false b!"application/vnd.ms-fontobject",
   .exact [0, 1, 0, 0] b!"font/ttf",
   .exact b!"OTTO" b!"font/otf",
   .exact b!"ttcf" b!"font/collection",
   .exact b!"wOFF" b!"font/woff",
   .exact b!"wOF2" b!"font/woff2",
   .exact [0x1F, 0x8B, 0x08] b!"application/x-gzip",
   .exact (b!"PK" ++ [3, 4]) b!"application/zip",
   .exact (b!"Rar!" ++ [0x1A, 7, 0]) b!"application/x-rar-compressed",
   .exact (b!"Rar!" ++ [0x1A, 7, 1, 0]) b!"application/x-rar-compressed",
   .exact ([0] ++ b!"asm") b!"application/wasm",
   .text]

/-- sniff.go:22-25: the index of the first byte that is not white space. -/
def firstNonWS (data : Str) : Nat → Nat → Outcome Nat
  | 0, _ => .outOfFuel
  | n + 1, i =>
    if i < data.length then (indexAt data i).bind fun b => if isWS b then firstNonWS data n (i + 1) else .ret i
    else .ret i

/-- sniff.go:27-33: the first signature with an answer. -/
def sniffLoop (data : Str) (ws : Nat) : List Sig → Outcome Str
  | [] => .ret b!"application/octet-stream"
  | sig :: t => (sig.sniff data ws).bind fun ct => if ct ≠ [] then .ret ct else sniffLoop data ws t

/-- sniff.go:17-34 `DetectContentType`. -/
def detectContentType (data : Str) : Outcome Str :=
  let data := if data.length > 512 then data.take 512 else data
  (firstNonWS data (data.length + 1) 0).bind fun ws => sniffLoop data ws sniffSignatures

example : detectContentType b!" \n<html>" = .ret b!"text/html; charset=utf-8" := by decide +kernel

end Verif
