import Verif.Model.Outcome
import Mathlib.Data.Nat.Notation

/-!
# Binary numbers in files

Models src/nrlib/iotools/fileio.hpp lines 549-1160 and 1166-1500: single numbers and arrays of
numbers written to and read from binary streams.

A stream to be written is the list of bytes written so far; a stream to be read is the list of bytes
that are left. Numbers are bit patterns: `short` is `BitVec 16`, `int` and `float` are `BitVec 32`,
`double` is `BitVec 64`. Failures of the medium are not modelled, end of file is. The template
parameter `value_type` of the arrays is the type with the same bit patterns (the array functions copy
memory, so that they are correct for no other type; only `ReadBinaryFloatArray` converts).
-/

namespace Verif.FileIO

/-- A byte. -/
abbrev Byte := BitVec 8

/-- `Endianess`, fileio.hpp lines 39-40. Other values of the enumeration type are not modelled. -/
inductive Endian where
  | little
  | big

/-! ## Parsing and formatting of single numbers -/

/-- `WriteUInt16BE`, fileio.hpp lines 1209-1214. -/
def writeUInt16BE (us : BitVec 16) : List Byte :=
  [((us &&& 0xff00#16) >>> 8).setWidth 8, (us &&& 0x00ff#16).setWidth 8]

/-- `WriteUInt16LE`, fileio.hpp lines 1217-1222. -/
def writeUInt16LE (us : BitVec 16) : List Byte :=
  [(us &&& 0x00ff#16).setWidth 8, ((us &&& 0xff00#16) >>> 8).setWidth 8]

/-- `WriteUInt32BE`, `WriteIEEEFloatBE`, fileio.hpp lines 1275-1282, 1324-1332. -/
def writeUInt32BE (ui : BitVec 32) : List Byte :=
  [((ui &&& 0xff000000#32) >>> 24).setWidth 8, ((ui &&& 0x00ff0000#32) >>> 16).setWidth 8,
    ((ui &&& 0x0000ff00#32) >>> 8).setWidth 8, (ui &&& 0x000000ff#32).setWidth 8]

/-- `WriteUInt32LE`, `WriteIEEEFloatLE`, fileio.hpp lines 1285-1292, 1335-1343. -/
def writeUInt32LE (ui : BitVec 32) : List Byte :=
  [(ui &&& 0x000000ff#32).setWidth 8, ((ui &&& 0x0000ff00#32) >>> 8).setWidth 8,
    ((ui &&& 0x00ff0000#32) >>> 16).setWidth 8, ((ui &&& 0xff000000#32) >>> 24).setWidth 8]

/-- `WriteIEEEDoubleBE`, fileio.hpp lines 1375-1387. -/
def writeDoubleBE (d : BitVec 64) : List Byte :=
  [((d &&& 0xff00000000000000#64) >>> 56).setWidth 8,
    ((d &&& 0x00ff000000000000#64) >>> 48).setWidth 8,
    ((d &&& 0x0000ff0000000000#64) >>> 40).setWidth 8,
    ((d &&& 0x000000ff00000000#64) >>> 32).setWidth 8,
    ((d &&& 0x00000000ff000000#64) >>> 24).setWidth 8,
    ((d &&& 0x0000000000ff0000#64) >>> 16).setWidth 8,
    ((d &&& 0x000000000000ff00#64) >>> 8).setWidth 8,
    (d &&& 0x00000000000000ff#64).setWidth 8]

/-- `WriteIEEEDoubleLE`, fileio.hpp lines 1390-1402. -/
def writeDoubleLE (d : BitVec 64) : List Byte :=
  [(d &&& 0x00000000000000ff#64).setWidth 8,
    ((d &&& 0x000000000000ff00#64) >>> 8).setWidth 8,
    ((d &&& 0x0000000000ff0000#64) >>> 16).setWidth 8,
    ((d &&& 0x00000000ff000000#64) >>> 24).setWidth 8,
    ((d &&& 0x000000ff00000000#64) >>> 32).setWidth 8,
    ((d &&& 0x0000ff0000000000#64) >>> 40).setWidth 8,
    ((d &&& 0x00ff000000000000#64) >>> 48).setWidth 8,
    ((d &&& 0xff00000000000000#64) >>> 56).setWidth 8]

/-- `ParseUInt16BE` and `ParseInt16BE`, fileio.hpp lines 1180-1197. The shift is done in `int`, where
it cannot overflow; the result is cut to 16 bits. -/
def parseUInt16BE (buffer : List Byte) : Res (BitVec 16) := do
  let b0 ← rd buffer 0
  let us := b0.setWidth 16
  let us := us <<< 8
  let b1 ← rd buffer 1
  .ok (us ||| b1.setWidth 16)

/-- `ParseUInt16LE`, fileio.hpp lines 1200-1206. -/
def parseUInt16LE (buffer : List Byte) : Res (BitVec 16) := do
  let b1 ← rd buffer 1
  let us := b1.setWidth 16
  let us := us <<< 8
  let b0 ← rd buffer 0
  .ok (us ||| b0.setWidth 16)

/-- `ParseUInt32BE`, `ParseInt32BE`, `ParseIEEEFloatBE`, fileio.hpp lines 1228-1249, 1299-1308. In the
signed version the value is below 2^24 before each shift, so that the shifted value fits in
`unsigned int` and the shift is defined. -/
def parseUInt32BE (buffer : List Byte) : Res (BitVec 32) := do
  let b ← rd buffer 0
  forRange 1 4 (fun i ui => do
    let b ← rd buffer i
    .ok ((ui <<< 8) ||| b.setWidth 32)) (b.setWidth 32)

/-- `ParseUInt32LE`, `ParseIEEEFloatLE`, fileio.hpp lines 1252-1260, 1311-1320. -/
def parseUInt32LE (buffer : List Byte) : Res (BitVec 32) := do
  let b ← rd buffer 3
  forRange 1 4 (fun i ui => do
    let b ← rd buffer (3 - i)
    .ok ((ui <<< 8) ||| b.setWidth 32)) (b.setWidth 32)

/-- `ParseIEEEDoubleBE`, fileio.hpp lines 1350-1359. -/
def parseDoubleBE (buffer : List Byte) : Res (BitVec 64) := do
  let b ← rd buffer 0
  forRange 1 8 (fun i d => do
    let b ← rd buffer i
    .ok ((d <<< 8) ||| b.setWidth 64)) (b.setWidth 64)

/-- `ParseIEEEDoubleLE`, fileio.hpp lines 1362-1371. -/
def parseDoubleLE (buffer : List Byte) : Res (BitVec 64) := do
  let b ← rd buffer 7
  forRange 1 8 (fun i d => do
    let b ← rd buffer (7 - i)
    .ok ((d <<< 8) ||| b.setWidth 64)) (b.setWidth 64)

/-! ## IBM floating point -/

/-- `Ibm2Ieee`, fileio.hpp lines 1413-1429, with the constants of lines 1407-1409. -/
def ibm2Ieee (x : BitVec 32) : Res (BitVec 32) := do
  let it : List (BitVec 32) := [0x21800000#32, 0x21400000#32, 0x21000000#32, 0x21000000#32,
    0x20c00000#32, 0x20c00000#32, 0x20c00000#32, 0x20c00000#32]
  let mt : List (BitVec 32) := [8#32, 4#32, 2#32, 2#32, 1#32, 1#32, 1#32, 1#32]
  let manthi := x &&& 0x00ffffff#32
  let ix := (manthi >>> 21).toNat
  let t ← rd it ix
  let m ← rd mt ix
  let iexp := ((x &&& 0x7f000000#32) - t) <<< 1
  let manthi := manthi * m + iexp
  let inabs := x &&& 0x7fffffff#32
  let manthi := if inabs > 0x611FFFFF#32 then 0x7FFFFFFF#32 else manthi
  let manthi := manthi ||| (x &&& 0x80000000#32)
  .ok (if inabs < 0x21200000#32 then 0#32 else manthi)

/-- `Ieee2Ibm`, fileio.hpp lines 1433-1444. -/
def ieee2Ibm (x : BitVec 32) : Res (BitVec 32) := do
  let it : List (BitVec 32) := [0x21200000#32, 0x21400000#32, 0x21800000#32, 0x22100000#32]
  let mt : List (BitVec 32) := [2#32, 4#32, 8#32, 1#32]
  let ix := ((x &&& 0x01800000#32) >>> 23).toNat
  let t ← rd it ix
  let m ← rd mt ix
  let iexp := ((x &&& 0x7e000000#32) >>> 1) + t
  let manthi := (m * (x &&& 0x007fffff#32)) >>> 3
  let manthi := (manthi + iexp) ||| (x &&& 0x80000000#32)
  .ok (if x &&& 0x7fffffff#32 ≠ 0#32 then manthi else 0#32)

/-! ## Single numbers in streams -/

/-- `stream.read(buffer, n)` with the error handling of the single-number functions: the first `n`
bytes and what is left. -/
def readBytes (n : ℕ) (stream : List Byte) : Res (List Byte × List Byte) :=
  if n ≤ stream.length then .ok (stream.take n, stream.drop n) else .throws "EndOfFile"

/-- `WriteBinaryShort`, fileio.hpp lines 549-572. -/
def writeBinaryShort (stream : List Byte) (s : BitVec 16) : Endian → List Byte
  | .big => stream ++ writeUInt16BE s
  | .little => stream ++ writeUInt16LE s

/-- `ReadBinaryShort`, fileio.hpp lines 575-603. -/
def readBinaryShort (stream : List Byte) (e : Endian) : Res (BitVec 16 × List Byte) := do
  let (buffer, stream) ← readBytes 2 stream
  let x ← match e with
    | .big => parseUInt16BE buffer
    | .little => parseUInt16LE buffer
  .ok (x, stream)

/-- `WriteBinaryInt`, `WriteBinaryFloat`, fileio.hpp lines 669-692, 789-812. -/
def writeBinaryInt (stream : List Byte) (i : BitVec 32) : Endian → List Byte
  | .big => stream ++ writeUInt32BE i
  | .little => stream ++ writeUInt32LE i

/-- `ReadBinaryInt`, `ReadBinaryFloat`, fileio.hpp lines 695-723, 815-843. -/
def readBinaryInt (stream : List Byte) (e : Endian) : Res (BitVec 32 × List Byte) := do
  let (buffer, stream) ← readBytes 4 stream
  let x ← match e with
    | .big => parseUInt32BE buffer
    | .little => parseUInt32LE buffer
  .ok (x, stream)

/-- `WriteBinaryDouble`, fileio.hpp lines 914-937. -/
def writeBinaryDouble (stream : List Byte) (d : BitVec 64) : Endian → List Byte
  | .big => stream ++ writeDoubleBE d
  | .little => stream ++ writeDoubleLE d

/-- `ReadBinaryDouble`, fileio.hpp lines 940-968. -/
def readBinaryDouble (stream : List Byte) (e : Endian) : Res (BitVec 64 × List Byte) := do
  let (buffer, stream) ← readBytes 8 stream
  let x ← match e with
    | .big => parseDoubleBE buffer
    | .little => parseDoubleLE buffer
  .ok (x, stream)

/-- `WriteBinaryIbmFloat`, fileio.hpp lines 1111-1132, with `WriteIBMFloatBE`, `WriteIBMFloatLE`,
lines 1478-1500. -/
def writeBinaryIbmFloat (stream : List Byte) (f : BitVec 32) (e : Endian) : Res (List Byte) := do
  let x ← ieee2Ibm f
  .ok (writeBinaryInt stream x e)

/-- `ReadBinaryIbmFloat`, fileio.hpp lines 1135-1161, with `ParseIBMFloatBE`, `ParseIBMFloatLE`, lines
1448-1474. -/
def readBinaryIbmFloat (stream : List Byte) (e : Endian) : Res (BitVec 32 × List Byte) := do
  let (x, stream) ← readBinaryInt stream e
  let f ← ibm2Ieee x
  .ok (f, stream)

/-! ## Arrays in streams

The machine has a byte order of its own. A number in memory is a list of bytes. -/

/-- The bytes of a number of `k` bytes, lowest byte first. -/
def bytesOf {w : ℕ} : ℕ → BitVec w → List Byte
  | 0, _ => []
  | k + 1, x => x.setWidth 8 :: bytesOf k (x >>> 8)

/-- The number with the given bytes, lowest byte first. -/
def ofBytes (w : ℕ) : List Byte → BitVec w
  | [] => 0
  | b :: l => (ofBytes w l <<< 8) ||| b.setWidth w

/-- The memory that holds a number of `k` bytes. -/
def toMem {w : ℕ} (native : Endian) (k : ℕ) (x : BitVec w) : List Byte :=
  match native with
  | .little => bytesOf k x
  | .big => (bytesOf k x).reverse

/-- The number held by the memory. -/
def ofMem (native : Endian) (w : ℕ) (l : List Byte) : BitVec w :=
  match native with
  | .little => ofBytes w l
  | .big => ofBytes w l.reverse

/-- `boost::endian::native_to_big_inplace` and the other three: the bytes are reversed if the orders
differ. -/
def toOrder {w : ℕ} (native e : Endian) (k : ℕ) (x : BitVec w) : BitVec w :=
  match native, e with
  | .little, .little => x
  | .big, .big => x
  | _, _ => ofBytes w (bytesOf k x).reverse

/-- `for (int i = 0; i < n_in; ++i) buffer[i] = f(buffer[i])`. If `n_in` does not fit in an `int`
then `i` overflows. -/
def inPlace {w : ℕ} (f : BitVec w → BitVec w) (buffer : List (BitVec w)) : Res (List (BitVec w)) :=
  if 2 ^ 31 ≤ buffer.length then .ub "int overflow"
  else forRange 0 buffer.length (fun i buffer => do
    let x ← rd buffer i
    wr buffer i (f x)) buffer

/-- `WriteBinaryShortArray`, `WriteBinaryIntArray`, `WriteBinaryFloatArray`, `WriteBinaryDoubleArray`,
fileio.hpp lines 606-634, 726-754, 846-875, 971-999: they differ in the number `k` of bytes per
element. `&buffer[0]` is not defined for an empty array. -/
def writeArray {w : ℕ} (native : Endian) (k : ℕ) (stream : List Byte) (values : List (BitVec w))
    (e : Endian) : Res (List Byte) := do
  if values.length = 0 then .ub "&buffer[0] of an empty vector"
  else
    let buffer ← inPlace (toOrder native e k) values
    .ok (stream ++ buffer.flatMap (toMem native k))

/-- `n` numbers of `k` bytes in memory. -/
def memArray (native : Endian) (w k : ℕ) : ℕ → List Byte → List (BitVec w)
  | 0, _ => []
  | n + 1, l => ofMem native w (l.take k) :: memArray native w k n (l.drop k)

/-- `for (size_t i = 0; i < n; ++i) buffer[i] = f(buffer[i])`. -/
def inPlaceSize {w : ℕ} (f : BitVec w → BitVec w) (buffer : List (BitVec w)) :
    Res (List (BitVec w)) :=
  forRange 0 buffer.length (fun i buffer => do
    let x ← rd buffer i
    wr buffer i (f x)) buffer

/-- `ReadBinaryShortArray`, `ReadBinaryIntArray`, `ReadBinaryFloatArray`, `ReadBinaryDoubleArray`,
fileio.hpp lines 637-665, 757-785, 878-912, 1002-1030. `ReadBinaryFloatArray` looks at an integer
through a pointer to `float`, which the standard does not allow; the model takes it to give the same
bits. -/
def readArray {w : ℕ} (native : Endian) (k : ℕ) (stream : List Byte) (n : ℕ) (e : Endian) :
    Res (List (BitVec w) × List Byte) := do
  if n = 0 then .ub "&buffer[0] of an empty vector"
  else if k * n ≤ stream.length then
    let buffer ← inPlaceSize (toOrder native e k) (memArray native w k n (stream.take (k * n)))
    .ok (buffer, stream.drop (k * n))
  else .throws "Error reading from stream"

/-- `buffer[i] = f(buffer[i])` for a function that may fail, in a loop over an `int`. -/
def inPlaceM (f : BitVec 32 → Res (BitVec 32)) (buffer : List (BitVec 32)) :
    Res (List (BitVec 32)) :=
  forRange 0 buffer.length (fun i buffer => do
    let x ← rd buffer i
    let y ← f x
    wr buffer i y) buffer

/-- `WriteBinaryIbmFloatArray`, fileio.hpp lines 1034-1065. -/
def writeIbmArray (native : Endian) (stream : List Byte) (values : List (BitVec 32)) (e : Endian) :
    Res (List Byte) := do
  if values.length = 0 then .ub "&buffer[0] of an empty vector"
  else if 2 ^ 31 ≤ values.length then .ub "int overflow"
  else
    let buffer ← inPlaceM ieee2Ibm values
    let buffer ← inPlace (toOrder native e 4) buffer
    .ok (stream ++ buffer.flatMap (toMem native 4))

/-- `ReadBinaryIbmFloatArray`, fileio.hpp lines 1068-1108. When the stream is too short the function
still fills the array, with what is in the buffer, and then throws. -/
def readIbmArray (native : Endian) (stream : List Byte) (n : ℕ) (e : Endian) :
    Res (List (BitVec 32) × List Byte) := do
  if n = 0 then .ub "&buffer[0] of an empty vector"
  else if 4 * n ≤ stream.length then
    let buffer ← inPlaceSize (toOrder native e 4) (memArray native 32 4 n (stream.take (4 * n)))
    let buffer ← inPlaceM ibm2Ieee buffer
    .ok (buffer, stream.drop (4 * n))
  else .throws "Error reading binary IBM float array."

end Verif.FileIO
