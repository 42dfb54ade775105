import Verif.Model.TraceHeader

/-!
# The headers of SegY files

Models src/nrlib/segy/commonheaders.cpp. The double `dz` is a real number. The text of the empty header is, byte for byte, that of the source
as it is in the repository, in which the codes of other characters than spaces are the three bytes EF BF BD. The file itself and its position
are left out.
-/

namespace Verif

namespace CommonHeaders

open FileIO TraceHeader

/-- `transtab`, commonheaders.cpp lines 32-50. -/
def transtab : List Byte :=
  [0x00, 0x01, 0x02, 0x03, 0x37, 0x2d, 0x2e, 0x2f,
   0x16, 0x05, 0x25, 0x0b, 0x0c, 0x0d, 0x00, 0x00,
   0x10, 0x11, 0x12, 0x13, 0x3c, 0x3d, 0x32, 0x26,
   0x18, 0x00, 0x3f, 0x27, 0x1c, 0x1d, 0x1e, 0x1f,
   0x40, 0x5a, 0x7f, 0x7b, 0x5b, 0x6c, 0x50, 0x7d,
   0x4d, 0x5d, 0x5c, 0x4e, 0x6b, 0x60, 0x4b, 0x61,
   0xf0, 0xf1, 0xf2, 0xf3, 0xf4, 0xf5, 0xf6, 0xf7,
   0xf8, 0xf9, 0x7a, 0x5e, 0x4c, 0x7e, 0x6e, 0x6f,
   0x7c, 0xc1, 0xc2, 0xc3, 0xc4, 0xc5, 0xc6, 0xc7,
   0xc8, 0xc9, 0xd1, 0xd2, 0xd3, 0xd4, 0xd5, 0xd6,
   0xd7, 0xd8, 0xd9, 0xe2, 0xe3, 0xe4, 0xe5, 0xe6,
   0xe7, 0xe8, 0xe9, 0x00, 0xe0, 0x00, 0x00, 0x6d,
   0x79, 0x81, 0x82, 0x83, 0x84, 0x85, 0x86, 0x87,
   0x88, 0x89, 0x91, 0x92, 0x93, 0x94, 0x95, 0x96,
   0x97, 0x98, 0x99, 0xa2, 0xa3, 0xa4, 0xa5, 0xa6,
   0xa7, 0xa8, 0xa9, 0xc0, 0x4f, 0xd0, 0xa1, 0x07]

/-- `ascii2ebcdic`, commonheaders.cpp lines 53-58. -/
def ascii2ebcdic (c : Byte) : Res Byte := if c.toNat > 128 then .ok 0 else rd transtab c.toNat

/-- The three bytes that stand for a character in the texts of the source. -/
def mark : List Byte := [0xEF, 0xBF, 0xBD]

/-- The text of `emptyHeader`, commonheaders.cpp lines 60-104: nine lines, thirty lines, the last line and a space. -/
def emptyHeader : List Byte :=
  (List.replicate 9 (mark ++ [0x40] ++ mark ++ List.replicate 77 0x40)).flatten ++
    (List.replicate 30 (mark ++ mark ++ mark ++ List.replicate 77 0x40)).flatten ++
    (mark ++ mark ++ mark ++ [0x40] ++ mark ++ mark ++ mark ++ [0x40] ++ (List.replicate 6 mark).flatten ++ List.replicate 65 0x40) ++ [0x40]

/-- The body of the loop over the text in `SetLine`, commonheaders.cpp line 182. -/
def setChar (text : List Byte) (pos i : ℕ) (b : List Byte) : Res (List Byte) := do
  let c ← rd text i
  let e ← ascii2ebcdic c
  wr b (pos + i) e

/-- The body of the loop over the rest of the line in `SetLine`, commonheaders.cpp line 185. -/
def setSpace (pos i : ℕ) (b : List Byte) : Res (List Byte) := do
  let e ← ascii2ebcdic 0x20
  wr b (pos + i) e

/-- `SetLine`, commonheaders.cpp lines 165-189: the code that is returned and the text. -/
def setLine (buf : List Byte) (lineNo : ℤ) (text : List Byte) : Res (ℤ × List Byte) :=
  if lineNo < 0 ∨ lineNo > 39 then .ok (-1, buf)
  else do
    let length := if text.length > 75 then 75 else text.length
    let b ← forRange 0 length (setChar text (lineNo * 80 + 5).toNat) buf
    let b ← forRange length 75 (setSpace (lineNo * 80 + 5).toNat) b
    .ok (if text.length > 75 then 1 else 0, b)

/-- `TextualHeader::Write`, commonheaders.cpp lines 192-195. -/
def textWrite (buf : List Byte) : Res (List Byte) := if 3200 ≤ buf.length then .ok (buf.take 3200) else .ub "read out of range"

/-- `static_cast<short>` of a double, undefined if the result does not fit. -/
noncomputable def toInt16 (x : ℝ) : Res (BitVec 16) :=
  if -32768 ≤ trunc x ∧ trunc x ≤ 32767 then .ok (BitVec.ofInt 16 (trunc x)) else .ub "conversion to short"

/-- `BinaryHeader::Write`, commonheaders.cpp lines 223-242: places are counted from one here. -/
noncomputable def binaryWrite (dz : ℝ) (nz : ℕ) (nSam : BitVec 16) : Res (List Byte) := do
  let dt ← toInt16 (1000 * dz)
  putAll [(1, writeUInt32BE 9999#32), (5, writeUInt32BE 1#32), (9, writeUInt32BE 1#32), (13, writeUInt16BE nSam), (15, writeUInt16BE nSam),
    (17, writeUInt16BE dt), (21, writeUInt16BE (BitVec.ofNat 16 nz)), (25, writeUInt16BE 5#16), (27, writeUInt16BE nSam),
    (29, writeUInt16BE 4#16), (55, writeUInt16BE 1#16), (303, writeUInt16BE 1#16)] (List.replicate 400 0#8)

/-- The fields of `BinaryHeader`, commonheaders.hpp lines 77-80. -/
structure Binary where
  format : BitVec 16
  lino : BitVec 32
  hns : BitVec 16
  hdt : BitVec 16

/-- `BinaryHeader::Update`, commonheaders.cpp lines 208-221, of the bytes of the file from its position on. -/
def binaryUpdate (file : List Byte) : Res Binary := do
  let buf := file.take 26
  let lino ← parseUInt32BE (buf.drop 4)
  let hdt ← parseUInt16BE (buf.drop 16)
  let hns ← parseUInt16BE (buf.drop 20)
  let format ← parseUInt16BE (buf.drop 24)
  .ok ⟨format, lino, hns, hdt⟩

end CommonHeaders

end Verif
