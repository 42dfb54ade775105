import Verif.Model.SegyGeometry
import Verif.Model.StormGrid
import Mathlib.Analysis.SpecialFunctions.Trigonometric.Arctan

/-!
# The geometry of a seismic cube from a trace and the directions of the lines

Models `SetupGeometry`, the second `FindILXLGeometry` and `SetupGeometrySingleTrace` of
src/nrlib/segy/segygeometry.cpp. Doubles are real numbers. The sums and differences of `int` stay in its range.
Messages are left out, and an `assert` is no instruction.
-/

namespace Verif

open Classical

namespace SegyGeometry

/-- The in-line of corner `k`, segygeometry.cpp lines 541-548. -/
noncomputable def cornerIL (minIL maxIL dIL : ℤ) (k : ℕ) : ℝ :=
  if k = 0 ∨ k = 2 then minIL - 0.5 * dIL else maxIL + 0.5 * dIL

/-- The cross-line of corner `k`, segygeometry.cpp lines 540-547. -/
noncomputable def cornerXL (minXL maxXL dXL : ℤ) (k : ℕ) : ℝ :=
  if k = 0 ∨ k = 1 then minXL - 0.5 * dXL else maxXL + 0.5 * dXL

/-- A coordinate of corner `k`, segygeometry.cpp lines 531-538. -/
noncomputable def cornerAt (l0 dvXL dvIL : ℝ) (xl il : ℕ → ℝ) (k : ℕ) : ℝ := l0 + xl k * dvXL + il k * dvIL

/-- The index of the least of four numbers, segygeometry.cpp lines 550-581. -/
noncomputable def argMin (c : ℕ → ℝ) : ℕ := [1, 2, 3].foldl (fun b i => if c i < c b then i else b) 0

/-- The index of the greatest of four numbers, segygeometry.cpp lines 550-581. -/
noncomputable def argMax (c : ℕ → ℝ) : ℕ := [1, 2, 3].foldl (fun b i => if c i > c b then i else b) 0

/-- The corners with the least y, the greatest x, the least x and the greatest y, or, if the cube is parallel to the axes, the
lower left, lower right, upper left and upper right one, segygeometry.cpp lines 554-636. `dl` is the length in line 598. -/
noncomputable def pickCorners (x y : ℕ → ℝ) (dl : ℝ) : ℕ × ℕ × ℕ × ℕ :=
  let iy := argMin y
  let jx := argMax x
  let ix := argMin x
  let jy := argMax y
  if jx = iy ∨ ix = iy ∨ jx = jy ∨ ix = jy then
    let pq : ℕ × ℕ :=
      if |x 0 - x 1| < 0.2 * dl then
        if x 2 < x 0 then
          let p := if y 2 < y 3 then 2 else 3
          (p, p - 2)
        else
          let p := if y 0 < y 1 then 0 else 1
          (p, p + 2)
      else
        if y 2 < y 0 then
          let p := if x 2 < x 3 then 2 else 3
          (p, 5 - p)
        else
          let p := if x 0 < x 1 then 0 else 1
          (p, 1 - p)
    (pq.1, pq.2, 3 - pq.2, 3 - pq.1)
  else (iy, jx, ix, jy)

/-- The smaller of the distances of lines, segygeometry.cpp lines 597-600. -/
noncomputable def lineDist (vI vX : ℝ × ℝ) : ℝ :=
  let dXL := √(vX.1 * vX.1 + vX.2 * vX.2)
  let dl := √(vI.1 * vI.1 + vI.2 * vI.2)
  if dl = 0 ∨ (dXL > 0 ∧ dXL < dl) then dXL else dl

/-- The number of cells between two corners, e.g. segygeometry.cpp lines 658-660. -/
noncomputable def cellsBetween (xl il : ℕ → ℝ) (dXL dIL : ℤ) (p q : ℕ) : Res ℕ := do
  let a ← divD |xl p - xl q| dXL
  let n ← toSize a
  (if n = 0 then do
    let b ← divD |il p - il q| dIL
    toSize b
  else .ok n : Res ℕ)

/-- The first corner, the rotation, the lengths and the numbers of cells, segygeometry.cpp lines 643-695. -/
noncomputable def frameOf (x y xl il : ℕ → ℝ) (dXL dIL : ℤ) (c : ℕ × ℕ × ℕ × ℕ) : Res (ℕ × ℝ × (ℝ × ℝ) × (ℕ × ℕ)) :=
  let iy := c.1
  let jx := c.2.1
  let ix := c.2.2.1
  let jy := c.2.2.2
  let deltax := x iy - x jx
  let deltay := y iy - y jx
  let rot := if deltax = 0.0 then 0.0 else Real.arctan (deltay / deltax)
  if |rot| ≤ 0.25 * Real.pi then do
    let nx ← cellsBetween xl il dXL dIL iy jx
    let ny ← cellsBetween xl il dXL dIL iy ix
    .ok (iy, rot, (√(deltay * deltay + deltax * deltax),
      √((y iy - y ix) * (y iy - y ix) + (x iy - x ix) * (x iy - x ix))), (nx, ny))
  else
    let ex := x iy - x ix
    let ey := y iy - y ix
    let rot' := if ex > 0 then Real.arctan (ey / ex) else rot - 0.5 * Real.pi
    do
    let nx ← cellsBetween xl il dXL dIL iy ix
    let ny ← cellsBetween xl il dXL dIL jy ix
    .ok (ix, rot', (√(ey * ey + ex * ex),
      √((y jy - y ix) * (y jy - y ix) + (x jy - x ix) * (x jy - x ix))), (nx, ny))

/-- The steps of the cross-line and the in-line along a coordinate, segygeometry.cpp lines 698-713: `aI` and `aX` are the changes of
the coordinate and `bI` and `bX` those of the other one. -/
noncomputable def stepsOf (aI aX bI bX : ℝ) : Res (ℝ × ℝ) :=
  if bI ≠ 0 then do
    let q ← divD (aI * bX) bI
    let xl ← divD 1 (aX - q)
    let il ← divD (-xl * bX) bI
    .ok (xl, il)
  else do
    let il ← divD 1 aI
    .ok (0, il)

/-- `SetupGeometry` after the case of a single line, segygeometry.cpp lines 523-715. `vI` and `vX` are the steps in space from an
in-line and from a cross-line to the next. The members that are not set are 0. -/
noncomputable def setupCube (xRef yRef : ℝ) (ilRef xlRef minIL maxIL minXL maxXL : ℤ) (vI vX : ℝ × ℝ) (dIL dXL : ℤ) :
    Res SegyGeometry := do
  let lx0 := xRef - xlRef * vX.1 - ilRef * vI.1
  let ly0 := yRef - xlRef * vX.2 - ilRef * vI.2
  let il := cornerIL minIL maxIL dIL
  let xl := cornerXL minXL maxXL dXL
  let x := cornerAt lx0 vX.1 vI.1 xl il
  let y := cornerAt ly0 vX.2 vI.2 xl il
  let f ← frameOf x y xl il dXL dIL (pickCorners x y (lineDist vI vX))
  let dx ← divD f.2.2.1.1 f.2.2.2.1
  let dy ← divD f.2.2.1.2 f.2.2.2.2
  let sx ← stepsOf vI.1 vX.1 vI.2 vX.2
  let sy ← stepsOf vI.2 vX.2 vI.1 vX.1
  .ok { x0 := x f.1, y0 := y f.1, dx := dx, dy := dy, nx := f.2.2.2.1, ny := f.2.2.2.2
        rot := f.2.1, sinRot := Real.sin f.2.1, cosRot := Real.cos f.2.1
        xlStepX := sx.1, ilStepX := sx.2, xlStepY := sy.1, ilStepY := sy.2
        inLine0 := ilRef - sx.2 * (xRef - x f.1) - sy.2 * (yRef - y f.1)
        crossLine0 := xlRef - sx.1 * (xRef - x f.1) - sy.1 * (yRef - y f.1)
        IL0 := 0, XL0 := 0, minIL := 0, maxIL := 0, ILStep := 0, minXL := 0, maxXL := 0, XLStep := 0
        firstAxisIL := false }

/-- `SetupGeometry`, segygeometry.cpp lines 503-716: a single line gets a direction across it. -/
noncomputable def setup (xRef yRef : ℝ) (ilRef xlRef minIL maxIL minXL maxXL : ℤ) (vI vX : ℝ × ℝ) (dIL dXL : ℤ) :
    Res SegyGeometry :=
  if minXL = maxXL then setupCube xRef yRef ilRef xlRef minIL maxIL minXL maxXL vI (vI.2, -vI.1) dIL dIL
  else if minIL = maxIL then setupCube xRef yRef ilRef xlRef minIL maxIL minXL maxXL (-vX.2, vX.1) vX dXL dXL
  else setupCube xRef yRef ilRef xlRef minIL maxIL minXL maxXL vI vX dIL dXL

/-- `FindILXLGeometry` with given lines, segygeometry.cpp lines 1122-1167. -/
noncomputable def findILXLGeometryGiven (g : SegyGeometry) (minIL maxIL ILStep minXL maxXL XLStep : ℤ) : Res SegyGeometry := do
  let p0 := g.cellPoint 0.5 0.5
  let l0 ← g.findILXL p0.1 p0.2
  let p1 := if g.nx > 1 then g.cellPoint 1.5 0.5 else g.cellPoint 0.5 1.5
  let l1 ← g.findILXL p1.1 p1.2
  let secondAxis := decide (¬ g.nx > 1)
  .ok { g with IL0 := l0.1, XL0 := l0.2
               minIL := minIL, maxIL := maxIL, ILStep := if ILStep = 0 then 1 else ILStep
               minXL := minXL, maxXL := maxXL, XLStep := if XLStep = 0 then 1 else XLStep
               firstAxisIL := if l1.2 - l0.2 ≠ 0 then secondAxis else !secondAxis }

/-- `SetupGeometrySingleTrace`, segygeometry.cpp lines 718-744. -/
noncomputable def singleTrace (x y : ℝ) (il xl : ℤ) : SegyGeometry :=
  { dx := 0.1, dy := 0.1, x0 := x - 0.5 * 0.1, y0 := y - 0.5 * 0.1, nx := 1, ny := 1
    ilStepX := 1.0 / 0.1, xlStepX := 0.0, ilStepY := 0.0, xlStepY := 1.0 / 0.1
    inLine0 := il - 0.5 * 0.1 * (1.0 / 0.1), crossLine0 := xl - 0.5 * 0.1 * (1.0 / 0.1)
    sinRot := 0.0, cosRot := 1.0, rot := 0.0
    IL0 := il, XL0 := xl, minIL := il, maxIL := il, ILStep := 1, minXL := xl, maxXL := xl, XLStep := 1
    firstAxisIL := false }

end SegyGeometry
end Verif
