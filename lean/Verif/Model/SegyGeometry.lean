import Verif.Model.Distr
import Verif.Model.Surface
import Mathlib.Analysis.SpecialFunctions.Trigonometric.Basic

/-!
# The geometry of seismic cubes

Models src/nrlib/segy/segygeometry.{hpp,cpp} without the constructor from traces, the messages and
`Regularize`. Doubles are real numbers. The sums, products and negations of `int` stay in its range. An
`assert` is no instruction.
-/

namespace Verif

open Classical

/-- `SegyGeometry`, segygeometry.hpp lines 134-146. -/
structure SegyGeometry where
  x0 : ℝ
  y0 : ℝ
  dx : ℝ
  dy : ℝ
  nx : ℕ
  ny : ℕ
  inLine0 : ℝ
  crossLine0 : ℝ
  ilStepX : ℝ
  ilStepY : ℝ
  xlStepX : ℝ
  xlStepY : ℝ
  sinRot : ℝ
  cosRot : ℝ
  rot : ℝ
  IL0 : ℤ
  XL0 : ℤ
  minIL : ℤ
  maxIL : ℤ
  ILStep : ℤ
  minXL : ℤ
  maxXL : ℤ
  XLStep : ℤ
  firstAxisIL : Bool

namespace SegyGeometry

/-- `FindContILXL`, segygeometry.cpp lines 1033-1038. -/
noncomputable def findContILXL (g : SegyGeometry) (x y : ℝ) : ℝ × ℝ :=
  (g.inLine0 + (x - g.x0) * g.ilStepX + (y - g.y0) * g.ilStepY,
    g.crossLine0 + (x - g.x0) * g.xlStepX + (y - g.y0) * g.xlStepY)

/-- `FindILXL` of a point, segygeometry.cpp lines 1002-1007. -/
noncomputable def findILXL (g : SegyGeometry) (x y : ℝ) : Res (ℤ × ℤ) := do
  let IL ← toInt32 (truncZ (0.5 + g.inLine0 + (x - g.x0) * g.ilStepX + (y - g.y0) * g.ilStepY))
  let XL ← toInt32 (truncZ (0.5 + g.crossLine0 + (x - g.x0) * g.xlStepX + (y - g.y0) * g.xlStepY))
  .ok (IL, XL)

/-- `FindILXL` of a cell, segygeometry.cpp lines 1010-1031. -/
def findILXLOfCell (g : SegyGeometry) (i j : ℕ) : ℤ × ℤ :=
  let ii : ℤ := if g.firstAxisIL then i else j
  let jj : ℤ := if g.firstAxisIL then j else i
  (if g.IL0 = g.minIL then g.IL0 + ii * g.ILStep else g.IL0 - ii * g.ILStep,
    if g.XL0 = g.minXL then g.XL0 + jj * g.XLStep else g.XL0 - jj * g.XLStep)

/-- The strides along in-lines, segygeometry.cpp lines 973-976 and 987-990. -/
noncomputable def ilStrides (g : SegyGeometry) (il : ℝ) : ℝ :=
  if g.IL0 = g.minIL then il - g.minIL else g.maxIL - il

/-- The strides along cross-lines, segygeometry.cpp lines 978-981 and 992-995. -/
noncomputable def xlStrides (g : SegyGeometry) (xl : ℝ) : ℝ :=
  if g.XL0 = g.minXL then xl - g.minXL else g.maxXL - xl

/-- `FindContIndexFromContILXL`, segygeometry.cpp lines 963-999. -/
noncomputable def findContIndexFromContILXL (g : SegyGeometry) (il xl : ℝ) : Res (ℝ × ℝ) :=
  if g.firstAxisIL then do
    let p ← divD (g.ilStrides il) g.ILStep
    let q ← divD (g.xlStrides xl) g.XLStep
    .ok (0.5 + p, 0.5 + q)
  else do
    let p ← divD (g.xlStrides xl) g.XLStep
    let q ← divD (g.ilStrides il) g.ILStep
    .ok (0.5 + p, 0.5 + q)

/-- `FindContIndex`, segygeometry.cpp lines 949-960: whether the point is inside, and the indices. -/
noncomputable def findContIndex (g : SegyGeometry) (x y : ℝ) : Res (Bool × ℝ × ℝ) := do
  let l := g.findContILXL x y
  let r ← g.findContIndexFromContILXL l.1 l.2
  .ok (decide (r.1 ≥ 0.0 ∧ r.1 < g.nx ∧ r.2 ≥ 0.0 ∧ r.2 < g.ny), r.1, r.2)

/-- `IsInside`, segygeometry.cpp lines 890-895. -/
noncomputable def isInside (g : SegyGeometry) (x y : ℝ) : Res Bool := do
  let r ← g.findContIndex x y
  .ok r.1

/-- `FindIndex` of a point, segygeometry.cpp lines 905-916. The `int`s become `size_t`, but are used only
if the point is inside. -/
noncomputable def findIndex (g : SegyGeometry) (x y : ℝ) : Res (ℤ × ℤ) := do
  let r ← g.findContIndex x y
  let i ← toInt32 (truncZ r.2.1)
  let j ← toInt32 (truncZ r.2.2)
  (if r.1 then .ok (i, j) else .throws "outside the SEGY cube" : Res (ℤ × ℤ))

/-- `FindIndex` of a point giving the number of the cell, segygeometry.cpp lines 897-903. -/
noncomputable def findIndexNumber (g : SegyGeometry) (x y : ℝ) : Res ℤ := do
  let r ← g.findIndex x y
  .ok (r.2 * g.nx + r.1)

/-- Division of `int`s. -/
def divInt (a b : ℤ) : Res ℤ := if b = 0 then .ub "division by zero" else .ok (a.tdiv b)

/-- The remainder of `int`s. -/
def modInt (a b : ℤ) : Res ℤ := if b = 0 then .ub "division by zero" else .ok (a.tmod b)

/-- `FindIndex` of an in-line and a cross-line, segygeometry.cpp lines 918-947. -/
def findIndexOfLines (g : SegyGeometry) (IL XL : ℤ) : Res (ℕ × ℕ) := do
  let ii ← divInt (if g.IL0 = g.minIL then IL - g.IL0 else g.IL0 - IL) g.ILStep
  let jj ← divInt (if g.XL0 = g.minXL then XL - g.XL0 else g.XL0 - XL) g.XLStep
  let p := if g.firstAxisIL then (ii, jj) else (jj, ii)
  (if p.1 < 0 ∨ p.2 < 0 ∨ p.1 > g.nx ∨ p.2 > g.ny then .throws "outside grid"
  else .ok (p.1.toNat, p.2.toNat) : Res (ℕ × ℕ))

/-- `std::abs(a / b) < 1e-14`: false if the quotient is infinite or not a number. -/
def tiny (a b : ℝ) : Prop := b ≠ 0 ∧ |a / b| < 1e-14

/-- `FindXYFromContILXL`, segygeometry.cpp lines 1054-1088. -/
noncomputable def findXYFromContILXL (g : SegyGeometry) (IL XL : ℝ) : Res (ℝ × ℝ) :=
  if g.xlStepX = 0.0 ∧ g.xlStepY = 0.0 then
    if g.sinRot > 0.0 then do
      let a ← divD (IL - g.inLine0) g.ilStepX
      let xd := g.x0 + a
      let b ← divD ((xd - g.x0) * g.sinRot) g.cosRot
      .ok (xd, g.y0 + b)
    else do
      let a ← divD (IL - g.inLine0) g.ilStepY
      let yd := g.y0 + a
      let b ← divD ((yd - g.y0) * g.sinRot) g.cosRot
      .ok (g.x0 - b, yd)
  else if g.ilStepX = 0.0 ∧ g.ilStepY = 0.0 then
    if g.sinRot > 0.0 then do
      let a ← divD (XL - g.crossLine0) g.xlStepX
      let xd := g.x0 + a
      let b ← divD ((xd - g.x0) * g.sinRot) g.cosRot
      .ok (xd, g.y0 + b)
    else do
      let a ← divD (XL - g.crossLine0) g.xlStepY
      let yd := g.y0 + a
      let b ← divD ((yd - g.y0) * g.sinRot) g.cosRot
      .ok (g.x0 - b, yd)
  else if tiny g.ilStepX g.xlStepX ∨ tiny g.xlStepY g.ilStepY then do
    let a ← divD (XL - g.crossLine0) g.xlStepX
    let b ← divD (IL - g.inLine0) g.ilStepY
    .ok (g.x0 + a, g.y0 + b)
  else do
    let p ← divD ((IL - g.inLine0) * g.xlStepX) g.ilStepX
    let q ← divD (g.ilStepY * g.xlStepX) g.ilStepX
    let a ← divD (XL - g.crossLine0 - p) (g.xlStepY - q)
    let yd := g.y0 + a
    let b ← divD (IL - g.inLine0 - g.ilStepY * (yd - g.y0)) g.ilStepX
    .ok (g.x0 + b, yd)

/-- `FindXYFromIJ` and `FindXYFromILXL`, segygeometry.cpp lines 1040-1052. -/
noncomputable def findXYFromIJ (g : SegyGeometry) (i j : ℕ) : Res (ℝ × ℝ) :=
  let l := g.findILXLOfCell i j
  g.findXYFromContILXL l.1 l.2

/-- The constructor from a grid, segygeometry.cpp lines 750-777; those from surfaces, lines 802-856,
are the case of the grid of a surface. -/
noncomputable def ofGrid (x0 y0 dx dy : ℝ) (nx ny : ℕ) (rot : ℝ) : Res SegyGeometry := do
  let xlX ← divD (Real.cos rot) dx
  let xlY ← divD (Real.sin rot) dx
  let ilX ← divD (-Real.sin rot) dy
  let ilY ← divD (Real.cos rot) dy
  .ok { x0 := x0, y0 := y0, dx := dx, dy := dy, nx := nx, ny := ny
        cosRot := Real.cos rot, sinRot := Real.sin rot, rot := rot
        inLine0 := -0.5, crossLine0 := -0.5
        xlStepX := xlX, xlStepY := xlY, ilStepX := ilX, ilStepY := ilY
        IL0 := 0, XL0 := 0, minIL := 0, maxIL := (nx : ℤ) - 1, ILStep := 1
        minXL := 0, maxXL := (ny : ℤ) - 1, XLStep := 1, firstAxisIL := true }

/-- The point `s` cells along the first and `t` cells along the second axis, as in segygeometry.cpp lines
1176-1177, 1181-1182 and 1186-1187. -/
noncomputable def cellPoint (g : SegyGeometry) (s t : ℝ) : ℝ × ℝ :=
  (g.x0 + s * g.dx * g.cosRot - t * g.dy * g.sinRot, g.y0 + s * g.dx * g.sinRot + t * g.dy * g.cosRot)

/-- `static_cast<int>` of a `size_t`, segygeometry.cpp lines 1173-1174: modulo 2 to the 32nd. -/
def wrapInt (n : ℕ) : ℤ := Int.bmod n (2 ^ 32)

/-- The first and the last line of `n` lines from `L0` in the direction of `L1`, segygeometry.cpp lines
1199-1214 and 1224-1241. -/
def lineEnds (L0 L1 n step : ℤ) : ℤ × ℤ :=
  if L1 > L0 then (L0, L0 + (n - 1) * step) else (L0 - (n - 1) * step, L0)

/-- `FindILXLGeometry()`, segygeometry.cpp lines 1170-1243. -/
noncomputable def findILXLGeometry (g : SegyGeometry) : Res SegyGeometry := do
  let p0 := g.cellPoint 0.5 0.5
  let l0 ← g.findILXL p0.1 p0.2
  let p1 := g.cellPoint 1.5 0.5
  let l1 ← g.findILXL p1.1 p1.2
  let p2 := g.cellPoint 0.5 1.5
  let l2 ← g.findILXL p2.1 p2.2
  (if l1.1 ≠ l0.1 then
    let sI := |l1.1 - l0.1|
    let sX := |l2.2 - l0.2|
    let eI := lineEnds l0.1 l1.1 (wrapInt g.nx) sI
    let eX := lineEnds l0.2 l2.2 (wrapInt g.ny) sX
    .ok { g with IL0 := l0.1, XL0 := l0.2, firstAxisIL := true, ILStep := sI, XLStep := sX
                 minIL := eI.1, maxIL := eI.2, minXL := eX.1, maxXL := eX.2 }
  else
    let sI := |l2.1 - l0.1|
    let sX := |l1.2 - l0.2|
    let eI := lineEnds l0.1 l2.1 (wrapInt g.ny) sI
    let eX := lineEnds l0.2 l1.2 (wrapInt g.nx) sX
    .ok { g with IL0 := l0.1, XL0 := l0.2, firstAxisIL := false, ILStep := sI, XLStep := sX
                 minIL := eI.1, maxIL := eI.2, minXL := eX.1, maxXL := eX.2 } :
    Res SegyGeometry)

/-- The constructor with lines, segygeometry.cpp lines 779-800. The members that `FindILXLGeometry` sets
are 0 before. -/
noncomputable def ofLines (x0 y0 dx dy : ℝ) (nx ny : ℕ)
    (ILStart XLStart ilStepX ilStepY xlStepX xlStepY rot : ℝ) : Res SegyGeometry :=
  findILXLGeometry
    { x0 := x0, y0 := y0, dx := dx, dy := dy, nx := nx, ny := ny
      inLine0 := ILStart, crossLine0 := XLStart
      ilStepX := ilStepX, ilStepY := ilStepY, xlStepX := xlStepX, xlStepY := xlStepY
      cosRot := Real.cos rot, sinRot := Real.sin rot, rot := rot
      IL0 := 0, XL0 := 0, minIL := 0, maxIL := 0, ILStep := 0
      minXL := 0, maxXL := 0, XLStep := 0, firstAxisIL := false }

/-- The step of a part, segygeometry.cpp lines 1288-1302 and 1303-1318, with whether values have to be
interpolated. -/
def subStep (asked step : ℤ) : Res (ℤ × Bool) :=
  if asked < 0 then .ok (step, false)
  else if asked < step then .ok (asked, true)
  else do
    let r ← modInt asked step
    .ok (asked, decide (r > 0))

/-- The first line of a part moved to a line that is there, segygeometry.cpp lines 1324-1335 and
1337-1347. -/
def subFirst (minSub minL step sub : ℤ) : Res ℤ := do
  let residual ← modInt (minSub - minL) step
  (if residual ≠ 0 then
    if step - residual - sub.tdiv 2 ≤ 0 then .ok (minSub + (step - residual))
    else .ok (minSub - residual)
  else .ok minSub : Res ℤ)

/-- The last line of a part, segygeometry.cpp lines 1351-1361 and 1362-1372. -/
def subLast (maxSub minSub maxL sub : ℤ) : Res ℤ := do
  let residual ← modInt (maxSub - minSub) sub
  (if residual ≠ 0 then
    let m := maxSub + (sub - residual)
    if m > maxL then .ok (m - sub) else .ok m
  else .ok maxSub : Res ℤ)

/-- The checks of a range of lines, segygeometry.cpp lines 1264-1282. -/
def subCheck (lo hi minL maxL : ℤ) : Res Unit :=
  if lo < minL then .throws "smaller than minimum"
  else if lo > maxL then .throws "larger than maximum"
  else if hi < minL then .throws "smaller than minimum"
  else if hi > maxL then .throws "larger than maximum"
  else .ok ()

/-- The number of lines of a part, segygeometry.cpp lines 1377-1387. The `int` becomes a `size_t`, modulo 2 to
the 64th. -/
def subCount (lo hi sub : ℤ) : Res ℕ := do
  let n ← divInt (hi - lo) sub
  .ok ((n + 1) % 2 ^ 64).toNat

/-- `GetILXLSubGeometry`, segygeometry.cpp lines 1245-1411: the part with the lines from `il.1` to `il.2` in
steps of `sIL` and so on, and whether values have to be interpolated. -/
noncomputable def subGeometry (g : SegyGeometry) (il xl : ℤ × ℤ) (sIL sXL : ℤ) :
    Res (SegyGeometry × Bool) := do
  subCheck il.1 il.2 g.minIL g.maxIL
  subCheck xl.1 xl.2 g.minXL g.maxXL
  let a ← subStep sIL g.ILStep
  let b ← subStep sXL g.XLStep
  let interpolation := a.2 || b.2
  let minI ← (if interpolation then .ok il.1 else subFirst il.1 g.minIL g.ILStep a.1 : Res ℤ)
  let minX ← (if interpolation then .ok xl.1 else subFirst xl.1 g.minXL g.XLStep b.1 : Res ℤ)
  let maxI ← subLast il.2 minI g.maxIL a.1
  let maxX ← subLast xl.2 minX g.maxXL b.1
  let nI ← subCount minI maxI a.1
  let nX ← subCount minX maxX b.1
  let qI ← divD a.1 g.ILStep
  let qX ← divD b.1 g.XLStep
  let subIL0 : ℝ := if g.IL0 = g.minIL then minI - 0.5 * a.1 else maxI + 0.5 * a.1
  let subXL0 : ℝ := if g.XL0 = g.minXL then minX - 0.5 * b.1 else maxX + 0.5 * b.1
  let p ← g.findXYFromContILXL subIL0 subXL0
  let r ← (if g.firstAxisIL then
      ofLines p.1 p.2 (g.dx * qI) (g.dy * qX) nI nX subIL0 subXL0 g.ilStepX g.ilStepY g.xlStepX g.xlStepY
        g.rot
    else
      ofLines p.1 p.2 (g.dx * qX) (g.dy * qI) nX nI subIL0 subXL0 g.ilStepX g.ilStepY g.xlStepX g.xlStepY
        g.rot : Res SegyGeometry)
  .ok (r, interpolation)

/-- The lines around a range of numbers, segygeometry.cpp lines 1466-1485. -/
noncomputable def areaLines (lo hi : ℝ) (minL maxL step : ℤ) : Res (ℤ × ℤ) := do
  let a ← toInt32 ⌊lo⌋
  let b ← toInt32 ⌈hi⌉
  let r ← modInt (a - minL) step
  let q ← modInt (maxL - b) step
  .ok (max (a - r) minL, min (b + q) maxL)

/-- `findAreaILXL`, segygeometry.cpp lines 1413-1497: the in-lines and the cross-lines. The steps are those of
the cube. -/
noncomputable def findAreaILXL (g t : SegyGeometry) : Res ((ℤ × ℤ) × (ℤ × ℤ)) := do
  let lx := t.nx * t.dx
  let ly := t.ny * t.dy
  let ax := lx * Real.cos t.rot
  let ay := lx * Real.sin t.rot
  let bx := -ly * Real.sin t.rot
  let By := ly * Real.cos t.rot
  let l0 := g.findContILXL t.x0 t.y0
  let l1 := g.findContILXL (t.x0 + ax) (t.y0 + ay)
  let l2 := g.findContILXL (t.x0 + bx) (t.y0 + By)
  let l3 := g.findContILXL (t.x0 + ax + bx) (t.y0 + ay + By)
  let I ← areaLines (min (min (min l0.1 l1.1) l2.1) l3.1) (max (max (max l0.1 l1.1) l2.1) l3.1)
    g.minIL g.maxIL g.ILStep
  let X ← areaLines (min (min (min l0.2 l1.2) l2.2) l3.2) (max (max (max l0.2 l1.2) l2.2) l3.2)
    g.minXL g.maxXL g.XLStep
  .ok (I, X)

end SegyGeometry
end Verif
