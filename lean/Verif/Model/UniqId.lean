import Verif.Model.Range
/-
The request id: ctx.go:21-27 (table), 79 (`uniqId`), 248-250 (`UniqId`), with Go's hash/crc64 (external code, trusted
reading).  crc64 processes texts of 64 bytes and more eight bytes at a time with eight tables; that computes the same function
as the loop modelled here.
-/
namespace Verif

/-- hash/crc64 `ISO`.  Used in ctx.go:26. -/
def crcPoly : BitVec 64 := 0xD800000000000000#64

/-- hash/crc64 `makeTable`, the inner loop.  External: called in ctx.go:26. -/
def crcShift (crc : BitVec 64) : BitVec 64 := if crc &&& 1 = 1 then (crc >>> 1) ^^^ crcPoly else crc >>> 1

/-- External: called in ctx.go:26. -/
def crcShifts : Nat → BitVec 64 → BitVec 64
  | 0, c => c
  | n + 1, c => crcShifts n (crcShift c)

/-- hash/crc64 `makeTable`: entry `i` of the table.  External: called in ctx.go:26. -/
def crcTable (i : UInt8) : BitVec 64 := crcShifts 8 (BitVec.ofNat 64 i.toNat)

/-- hash/crc64 `update`, one byte: `tab[byte(crc)^v] ^ (crc >> 8)`.  External: called in ctx.go:79. -/
def crcByte (crc : BitVec 64) (v : UInt8) : BitVec 64 := crcTable (UInt8.ofNat crc.toNat ^^^ v) ^^^ (crc >>> 8)

/-- hash/crc64 `Checksum` = `update(0, ...)`: complemented before and after.  External: called in ctx.go:79. -/
def crcChecksum (data : Str) : BitVec 64 := ~~~ data.foldl crcByte (~~~ 0#64)

/-- ctx.go:79: the id of a request for `path` whose context is created at `unixNano`. -/
def uniqId (unixNano : Int) (path : Str) : BitVec 64 := crcChecksum (formatInt unixNano ++ path)

/- Test vectors of hash/crc64 (crc64_test.go, ISO column). -/
example : crcChecksum b!"" = 0 := by decide +kernel
example : crcChecksum b!"a" = 0x3420000000000000 := by decide +kernel
example : crcChecksum b!"This is a test of the emergency broadcast system." = 0xe7fcf1006b503b61 := by decide +kernel

end Verif
