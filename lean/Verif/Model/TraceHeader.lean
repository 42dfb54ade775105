import Verif.Model.FileIO
import Verif.Model.Distr

/-!
# Headers of traces in SegY files

Models src/nrlib/segy/traceheader.cpp and traceheader.hpp. Doubles are real numbers; `0.01` and the like are the decimal numbers. Locations
are integers, 1 for the first byte. The test for a header of text at the start of `Read` and failures of the file are left out. A field
that is never set has no value, and using it is undefined behaviour; the model has this for the offset only.
-/

namespace Verif

namespace TraceHeader

open FileIO

/-- The locations of a format, traceheader.hpp lines 147-166. -/
structure Format where
  scalCo : ℤ
  utmx : ℤ
  utmy : ℤ
  inl : ℤ
  xl : ℤ
  startTime : ℤ
  offset : ℤ

/-- `Init`, traceheader.cpp lines 148-228, for the formats SEISWORKS, IESX, SIP, CHARISMA, SIPX and HESS. -/
def Format.init : ℕ → Res Format
  | 0 => .ok ⟨71, 73, 77, 9, 21, 109, -99999⟩
  | 1 => .ok ⟨71, 73, 77, 221, 21, 109, -99999⟩
  | 2 => .ok ⟨71, 181, 185, 189, 193, 109, 37⟩
  | 3 => .ok ⟨71, 73, 77, 5, 21, 109, -99999⟩
  | 4 => .ok ⟨71, 73, 77, 181, 185, 109, -99999⟩
  | 5 => .ok ⟨71, 73, 77, 185, 189, 109, -99999⟩
  | _ => .throws "Undefined trace header format"

/-- `CheckFormat`, traceheader.cpp lines 291-340: whether it does not throw. -/
def Format.check (f : Format) : Bool :=
  !((f.scalCo > 0 && (f.scalCo == f.utmx || f.scalCo == f.utmy || f.scalCo == f.inl || f.scalCo == f.xl)) ||
    (f.utmx > 0 && (f.utmx == f.utmy || f.utmx == f.inl || f.utmx == f.xl)) ||
    (f.utmy > 0 && (f.utmy == f.inl || f.utmy == f.xl)) ||
    (f.inl > 0 && f.inl == f.xl))

/-- The fields of a header, traceheader.hpp lines 263-287. -/
structure Header where
  buffer : List Byte
  fmt : Format
  scale : ℝ
  scalco : BitVec 16
  utmx : ℝ
  utmy : ℝ
  inl : BitVec 32
  xl : BitVec 32
  start : BitVec 16
  ns : BitVec 16
  dt : BitVec 16
  offset : Option ℝ

/-- The scale for a coefficient, traceheader.cpp lines 476-494 and 702-719: other coefficients leave it as it is. -/
noncomputable def scaleOf (s : BitVec 16) (old : ℝ) : ℝ :=
  if s.toInt = -10000 then 1 / 10000
  else if s.toInt = -1000 then 1 / 1000
  else if s.toInt = -100 then 1 / 100
  else if s.toInt = -10 then 1 / 10
  else if s.toInt = 10 ∨ s.toInt = 100 ∨ s.toInt = 1000 ∨ s.toInt = 10000 then (s.toInt : ℝ)
  else old

/-- Truncation of a double to an integer. -/
noncomputable def trunc (x : ℝ) : ℤ := if 0 ≤ x then ⌊x⌋ else ⌈x⌉

/-- `static_cast<int>`, undefined if the result does not fit. -/
noncomputable def toInt32 (x : ℝ) : Res (BitVec 32) :=
  if -2147483648 ≤ trunc x ∧ trunc x ≤ 2147483647 then .ok (BitVec.ofInt 32 (trunc x)) else .ub "conversion to int"

/-- Writing of bytes in a buffer from place `p` on. -/
def overwrite (buf : List Byte) (p : ℕ) (l : List Byte) : Res (List Byte) :=
  if p + l.length ≤ buf.length then .ok (buf.take p ++ l ++ buf.drop (p + l.length)) else .ub "write out of range"

/-- Writing of a field at a location, if it is positive. -/
def put (buf : List Byte) (f : ℤ × List Byte) : Res (List Byte) :=
  if f.1 > 0 then overwrite buf (f.1 - 1).toNat f.2 else .ok buf

/-- Writing of fields one after the other. -/
def putAll : List (ℤ × List Byte) → List Byte → Res (List Byte)
  | [], buf => .ok buf
  | f :: l, buf => do
    let b ← put buf f
    putAll l b

/-- The bytes of a double converted to an int, of which the conversion is done only if the location is positive. -/
noncomputable def coordBytes (loc : ℤ) (x : ℝ) : Res (List Byte) :=
  if loc > 0 then do
    let v ← toInt32 x
    .ok (writeUInt32BE v)
  else .ok []

/-- The bytes of the offset. -/
noncomputable def offsetBytes (loc : ℤ) (x : Option ℝ) : Res (List Byte) :=
  if loc > 0 then
    match x with
    | none => .ub "uninitialised value"
    | some v => coordBytes loc v
  else .ok []

/-- `Write`, traceheader.cpp lines 498-535: the bytes written to the file. -/
noncomputable def Header.write (h : Header) : Res (List Byte) := do
  let x ← coordBytes h.fmt.utmx h.utmx
  let y ← coordBytes h.fmt.utmy h.utmy
  let o ← offsetBytes h.fmt.offset h.offset
  putAll [(115, writeUInt16BE h.ns), (117, writeUInt16BE h.dt), (h.fmt.scalCo, writeUInt16BE h.scalco), (h.fmt.utmx, x),
    (h.fmt.utmy, y), (h.fmt.inl, writeUInt32BE h.inl), (h.fmt.xl, writeUInt32BE h.xl), (h.fmt.startTime, writeUInt16BE h.start),
    (h.fmt.offset, o)] h.buffer

/-- `ParseInt16BE` at a location, if it is positive. -/
def get16 (buf : List Byte) (loc : ℤ) (old : BitVec 16) : Res (BitVec 16) :=
  if loc > 0 then parseUInt16BE (buf.drop (loc - 1).toNat) else .ok old

/-- `ParseInt32BE` at a location, if it is positive. -/
def get32 (buf : List Byte) (loc : ℤ) (old : BitVec 32) : Res (BitVec 32) :=
  if loc > 0 then parseUInt32BE (buf.drop (loc - 1).toNat) else .ok old

/-- `ParseInt32BE` at a location converted to a double, if the location is positive. -/
noncomputable def getCoord (buf : List Byte) (loc : ℤ) (old : ℝ) : Res ℝ :=
  if loc > 0 then do
    let v ← parseUInt32BE (buf.drop (loc - 1).toNat)
    .ok (v.toInt : ℝ)
  else .ok old

/-- `Read`, traceheader.cpp lines 428-496, of 240 bytes. -/
noncomputable def Header.read (h : Header) (buf : List Byte) : Res Header := do
  let ns ← get16 buf 115 h.ns
  let dt ← get16 buf 117 h.dt
  let x ← getCoord buf h.fmt.utmx h.utmx
  let y ← getCoord buf h.fmt.utmy h.utmy
  let il ← get32 buf h.fmt.inl h.inl
  let st ← get16 buf h.fmt.startTime h.start
  let xl ← get32 buf h.fmt.xl h.xl
  let sc ← get16 buf h.fmt.scalCo h.scalco
  let scale := if h.fmt.scalCo > 0 then scaleOf sc h.scale else h.scale
  .ok { h with buffer := buf, scale := scale, scalco := sc, utmx := x, utmy := y, inl := il, xl := xl, start := st, ns := ns, dt := dt }

/-- `SetScalCo`, traceheader.cpp lines 699-720. -/
noncomputable def Header.setScalCo (h : Header) (s : BitVec 16) : Header := { h with scalco := s, scale := scaleOf s h.scale }

/-- `SetUtmx`, traceheader.cpp lines 579-585. The scale is never zero. -/
noncomputable def Header.setUtmx (h : Header) (x : ℝ) : Header := if h.fmt.utmx > 0 then { h with utmx := x / h.scale } else h

/-- `GetUtmx`, traceheader.cpp lines 570-577. -/
noncomputable def Header.getUtmx (h : Header) : ℝ := if h.fmt.utmx < 0 then -99999 else h.scale * h.utmx

/-- `SetUtmy`, traceheader.cpp lines 596-602. The scale is never zero. -/
noncomputable def Header.setUtmy (h : Header) (y : ℝ) : Header := if h.fmt.utmy > 0 then { h with utmy := y / h.scale } else h

/-- `GetUtmy`, traceheader.cpp lines 587-594. -/
noncomputable def Header.getUtmy (h : Header) : ℝ := if h.fmt.utmy < 0 then -99999 else h.scale * h.utmy

end TraceHeader

end Verif
