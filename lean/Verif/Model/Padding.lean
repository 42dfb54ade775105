import Verif.Model.Variogram

/-!
# Default padding and `simulation_size`

Models `FindGaussianFieldPadding` and `FindNDimPadding`
(src/nrlib/variogram/gaussianfield.cpp lines 43-88) and `FindGridSizeAfterPadding`
(src/gaussfft.cpp lines 27-52).
-/

namespace Verif

/-- `static_cast<int>(x)` of a finite double: truncation towards zero; undefined if the truncated
value does not fit in a 32-bit `int`. -/
noncomputable def toInt (x : ℝ) : Res ℤ :=
  let t : ℤ := if 0 ≤ x then ⌊x⌋ else ⌈x⌉
  if -2 ^ 31 ≤ t ∧ t < 2 ^ 31 then .ok t else .ub "double to int conversion out of range"

/-- Arithmetic of the 64-bit unsigned type `size_t`. -/
def wrap64 (z : ℤ) : ℕ := (z % 2 ^ 64).toNat

/-- gaussianfield.cpp lines 43-51, with the rounding of every operation. A zero step gives an infinite or NaN quotient, whose
conversion to `int` is undefined; the `+ 1` is an `int` addition; the conversion of a negative
`int` to `size_t` wraps. -/
noncomputable def findGaussianFieldPadding (v : Variogram) (gridSize : ℕ) (range step : ℝ) :
    Res ℕ := do
  if step = 0 then .ub "int conversion of inf or NaN"
  else
    let a ← toInt (rnd64 (rnd64 (rnd64 (v.rangeToGridRatio * range) / step) - rnd64 gridSize))
    let b ← toInt (rnd64 (range / step))
    let m := max a b
    if m + 1 < 2 ^ 31 then .ok (wrap64 (m + 1)) else .ub "int overflow"

/-- gaussianfield.cpp lines 53-88. -/
noncomputable def findNDimPadding (v : Variogram) (nx : ℕ) (dx : ℝ) (ny : ℕ) (dy : ℝ)
    (nz : ℕ) (dz : ℝ) : Res (List ℕ) := do
  if ny ≤ 1 then
    let range := v.rangeX
    let px ← findGaussianFieldPadding v nx range dx
    .ok [px]
  else if nz ≤ 1 then
    let range_x := max v.rangeX v.rangeY
    let range_y := if v.azimuth = 0.0 then v.rangeY else range_x
    let px ← findGaussianFieldPadding v nx range_x dx
    let py ← findGaussianFieldPadding v ny range_y dy
    .ok [px, py]
  else
    let range_x := max v.rangeX v.rangeY
    let range_y := if v.azimuth = 0.0 then v.rangeY else range_x
    let range_z := v.rangeZ
    let px ← findGaussianFieldPadding v nx range_x dx
    let py ← findGaussianFieldPadding v ny range_y dy
    let pz ← findGaussianFieldPadding v nz range_z dz
    .ok [px, py, pz]

/-- gaussfft.cpp lines 27-52, the Python function `simulation_size`; `+=` on `size_t` wraps. -/
noncomputable def simulationSize (v : Variogram) (nx : ℕ) (dx : ℝ) (ny : ℕ) (dy : ℝ)
    (nz : ℕ) (dz : ℝ) : Res (List ℕ) := do
  let out ← findNDimPadding v nx dx ny dy nz dz
  let o0 ← rd out 0
  let out ← wr out 0 (wrap64 (o0 + nx))
  if out.length > 1 then
    let o1 ← rd out 1
    let out ← wr out 1 (wrap64 (o1 + ny))
    if out.length > 2 then
      let o2 ← rd out 2
      wr out 2 (wrap64 (o2 + nz))
    else .ok out
  else .ok out

end Verif
