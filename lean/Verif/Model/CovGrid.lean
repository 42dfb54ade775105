import Verif.Model.Variogram
import Verif.Model.Grid

/-!
# Periodic covariance grids

Models src/nrlib/variogram/fftcovgrid.{hpp,cpp}.
-/

namespace Verif

open Variogram

/-- `FindVariogramRanges`, fftcovgrid.cpp lines 31-72. The returned vector always has three
elements and is written as a triple. The source uses 3.14 for pi. -/
noncomputable def findVariogramRanges (v : Variogram) : ℝ × ℝ × ℝ :=
  let azi := v.azimuth
  let dip := v.dip
  let main0 := |v.rangeX * Real.cos dip * Real.cos azi|
  let main1 := |v.rangeX * Real.cos dip * Real.sin azi|
  let main2 := |v.rangeX * Real.sin dip|
  let perp0 := |v.rangeY * Real.cos (azi + 3.14 / 2.0)|
  let perp1 := |v.rangeY * Real.sin (azi + 3.14 / 2.0)|
  let perp2 : ℝ := 0.0
  let down0 := |v.rangeZ * Real.cos (dip + 3.14 / 2.0) * Real.cos azi|
  let down1 := |v.rangeZ * Real.cos (dip + 3.14 / 2.0) * Real.sin azi|
  let down2 := |v.rangeZ * Real.sin (dip + 3.14 / 2.0)|
  let xmax := max main0 perp0
  let ymax := max main1 perp1
  let zmax := max main2 perp2
  let xmax := max xmax down0
  let ymax := max ymax down1
  let zmax := max zmax down2
  (xmax, ymax, zmax)

/-- `FindSmoothingFactors`, fftcovgrid.cpp lines 74-95. A failing assertion is `ub` (see
`Model/Grid`). -/
noncomputable def findSmoothingFactors (v : Variogram) (scaling_x scaling_y scaling_z : ℝ) :
    Res (ℝ × ℝ × ℝ) :=
  if 1e-12 < scaling_x ∧ 1e-12 < scaling_y ∧ 1e-12 < scaling_z then
    let r := findVariogramRanges v
    if r.1 = 0 ∨ r.2.1 = 0 ∨ r.2.2 = 0 then .nonfinite "1/0 in FindSmoothingFactors"
    else
      .ok (scaling_x ^ (1.0 / (r.1 * r.1)), scaling_y ^ (1.0 / (r.2.1 * r.2.1)),
        scaling_z ^ (1.0 / (r.2.2 * r.2.2)))
  else .ub "assert scaling > 1e-12"

/-- `FindSmoothingFactorX` (and Y, Z), fftcovgrid.hpp lines 52, 77, 79, 109, 111, 113. -/
noncomputable def smoothingFactor (s dd : ℝ) : ℝ := s ^ (dd * dd)

/-- The `static_cast<int>` of a grid size (gaussianfield.cpp lines 136-140, 256-258, 319) followed
by the `int` sum `n + 1` (fftcovgrid.cpp lines 112, 153-154, 229-231). Sizes that do not fit are
`ub` here. The conversion itself is implementation-defined, not undefined, but leads to a negative
or wrong size. -/
def intSize (n : ℕ) : Res Unit :=
  if n + 1 < 2 ^ 31 then .ok () else .ub "grid size does not fit in an int"

/-- Constructor of `FFTCovGrid1D`, fftcovgrid.cpp lines 103-122, with
`InitializeSmoothingFactors`, lines 124-133. The result is `cov_`. -/
noncomputable def fftCovGrid1D (v : Variogram) (nx : ℕ) (dx scaling_x : ℝ) : Res (List ℝ) := do
  intSize nx
  let cov := List.replicate nx (0 : ℝ)
  let (sx, _, _) ← findSmoothingFactors v scaling_x 1.0 1.0
  let nxm := (nx + 1) / 2
  let cov ← forRange 0 nxm (fun i cov => do
    let cov ← wr cov i (v.cov1 (i * dx))
    if scaling_x < 0.99999 then
      let c ← rd cov i
      wr cov i (c * smoothingFactor sx (i * dx))
    else .ok cov) cov
  forRange nxm nx (fun i cov => do
    let ddx := dx * ((nx : ℝ) - i)
    let cov ← wr cov i (v.cov1 ddx)
    if scaling_x < 0.99999 then
      let c ← rd cov i
      wr cov i (c * smoothingFactor sx ddx)
    else .ok cov) cov

/-- `if (apply) cov_(i,j) *= factor;`, fftcovgrid.cpp, for example line 162. -/
def scaleIf2 (apply : Prop) [Decidable apply] (i j : ℕ) (factor : ℝ) (cov : Grid2D ℝ) :
    Res (Grid2D ℝ) :=
  if apply then do
    let c ← cov.get i j
    cov.set i j (c * factor)
  else .ok cov

/-- The body shared by the four innermost loops of `FFTCovGrid2D`, fftcovgrid.cpp lines 161-163,
168-170, 179-181, 186-188 (textually identical). -/
noncomputable def covCell2 (v : Variogram) (scaling_x scaling_y sx sy : ℝ) (i j : ℕ)
    (ddx ddy : ℝ) (cov : Grid2D ℝ) : Res (Grid2D ℝ) := do
  let cov ← cov.set i j (v.cov2 ddx ddy)
  let cov ← scaleIf2 (scaling_x < 0.99999) i j (smoothingFactor sx ddx) cov
  scaleIf2 (scaling_y < 0.99999) i j (smoothingFactor sy ddy) cov

/-- The loops of the constructor of `FFTCovGrid2D`, fftcovgrid.cpp lines 155-190, for any body of the
innermost loops. The body is given the cell and its lags. -/
noncomputable def covLoops2 (nx : ℕ) (dx : ℝ) (ny : ℕ) (dy : ℝ)
    (cell : ℕ → ℕ → ℝ → ℝ → Grid2D ℝ → Res (Grid2D ℝ)) (cov : Grid2D ℝ) : Res (Grid2D ℝ) := do
  let nxm := (nx + 1) / 2
  let nym := (ny + 1) / 2
  let cov ← forRange 0 nym (fun j cov => do
    let ddy := j * dy
    let cov ← forRange 0 nxm (fun i cov => do
      let ddx := i * dx
      cell i j ddx ddy cov) cov
    forRange nxm nx (fun i cov => do
      let ddx := ((i : ℝ) - nx) * dx
      cell i j ddx ddy cov) cov) cov
  forRange nym ny (fun j cov => do
    let ddy := ((j : ℝ) - ny) * dy
    let cov ← forRange nxm nx (fun i cov => do
      let ddx := ((i : ℝ) - nx) * dx
      cell i j ddx ddy cov) cov
    forRange 0 nxm (fun i cov => do
      let ddx := i * dx
      cell i j ddx ddy cov) cov) cov

/-- Constructor of `FFTCovGrid2D`, fftcovgrid.cpp lines 139-191, with
`InitializeSmoothingFactors`, lines 193-204. -/
noncomputable def fftCovGrid2D (v : Variogram) (nx : ℕ) (dx : ℝ) (ny : ℕ) (dy : ℝ)
    (scaling_x scaling_y : ℝ) : Res (Grid2D ℝ) := do
  intSize nx
  intSize ny
  let cov := Grid2D.mk' nx ny (0 : ℝ)
  let (sx, sy, _) ← findSmoothingFactors v scaling_x scaling_y 1.0
  covLoops2 nx dx ny dy (covCell2 v scaling_x scaling_y sx sy) cov

/-- `if (apply) cov_(i,j,k) *= factor;`, fftcovgrid.cpp, for example line 241. -/
def scaleIf3 (apply : Prop) [Decidable apply] (i j k : ℕ) (factor : ℝ) (cov : Grid3D ℝ) :
    Res (Grid3D ℝ) :=
  if apply then do
    let c ← cov.get i j k
    cov.set i j k (c * factor)
  else .ok cov

/-- The body shared by the eight innermost loops of `FFTCovGrid3D`, fftcovgrid.cpp lines 240-243,
248-251, 262-265, 270-273, 284-287, 292-295, 307-310, 315-318 (textually identical). -/
noncomputable def covCell3 (v : Variogram) (scaling_x scaling_y scaling_z sx sy sz : ℝ)
    (i j k : ℕ) (ddx ddy ddz : ℝ) (cov : Grid3D ℝ) : Res (Grid3D ℝ) := do
  let cov ← cov.set i j k (v.cov3 ddx ddy ddz)
  let cov ← scaleIf3 (scaling_x < 0.99999) i j k (smoothingFactor sx ddx) cov
  let cov ← scaleIf3 (scaling_y < 0.99999) i j k (smoothingFactor sy ddy) cov
  scaleIf3 (scaling_z < 0.99999) i j k (smoothingFactor sz ddz) cov

/-- The loops of the constructor of `FFTCovGrid3D`, fftcovgrid.cpp lines 232-321, for any body of the
innermost loops. The body is given the cell and its lags. -/
noncomputable def covLoops3 (nx : ℕ) (dx : ℝ) (ny : ℕ) (dy : ℝ) (nz : ℕ) (dz : ℝ)
    (cell : ℕ → ℕ → ℕ → ℝ → ℝ → ℝ → Grid3D ℝ → Res (Grid3D ℝ)) (cov : Grid3D ℝ) :
    Res (Grid3D ℝ) := do
  let nxm := (nx + 1) / 2
  let nym := (ny + 1) / 2
  let nzm := (nz + 1) / 2
  let cov ← forRange 0 nzm (fun k cov => do
    let ddz := k * dz
    forRange 0 nym (fun j cov => do
      let ddy := j * dy
      let cov ← forRange 0 nxm (fun i cov => do
        let ddx := i * dx
        cell i j k ddx ddy ddz cov) cov
      forRange nxm nx (fun i cov => do
        let ddx := ((i : ℝ) - nx) * dx
        cell i j k ddx ddy ddz cov) cov) cov) cov
  let cov ← forRange 0 nzm (fun k cov => do
    let ddz := k * dz
    forRange nym ny (fun j cov => do
      let ddy := ((j : ℝ) - ny) * dy
      let cov ← forRange nxm nx (fun i cov => do
        let ddx := ((i : ℝ) - nx) * dx
        cell i j k ddx ddy ddz cov) cov
      forRange 0 nxm (fun i cov => do
        let ddx := i * dx
        cell i j k ddx ddy ddz cov) cov) cov) cov
  let cov ← forRange nzm nz (fun k cov => do
    let ddz := ((k : ℝ) - nz) * dz
    forRange 0 nym (fun j cov => do
      let ddy := j * dy
      let cov ← forRange 0 nxm (fun i cov => do
        let ddx := i * dx
        cell i j k ddx ddy ddz cov) cov
      forRange nxm nx (fun i cov => do
        let ddx := ((i : ℝ) - nx) * dx
        cell i j k ddx ddy ddz cov) cov) cov) cov
  forRange nzm nz (fun k cov => do
    let ddz := ((k : ℝ) - nz) * dz
    forRange nym ny (fun j cov => do
      let ddy := ((j : ℝ) - ny) * dy
      let cov ← forRange 0 nxm (fun i cov => do
        let ddx := i * dx
        cell i j k ddx ddy ddz cov) cov
      forRange nxm nx (fun i cov => do
        let ddx := ((i : ℝ) - nx) * dx
        cell i j k ddx ddy ddz cov) cov) cov) cov

/-- Constructor of `FFTCovGrid3D`, fftcovgrid.cpp lines 211-322, with
`InitializeSmoothingFactors`, lines 325-338. -/
noncomputable def fftCovGrid3D (v : Variogram) (nx : ℕ) (dx : ℝ) (ny : ℕ) (dy : ℝ)
    (nz : ℕ) (dz : ℝ) (scaling_x scaling_y scaling_z : ℝ) : Res (Grid3D ℝ) := do
  intSize nx
  intSize ny
  intSize nz
  let cov := Grid3D.mk' nx ny nz (0 : ℝ)
  let (sx, sy, sz) ← findSmoothingFactors v scaling_x scaling_y scaling_z
  covLoops3 nx dx ny dy nz dz (covCell3 v scaling_x scaling_y scaling_z sx sy sz) cov

end Verif
