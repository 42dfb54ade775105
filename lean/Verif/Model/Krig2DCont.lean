import Verif.Model.Krig2D

/-!
# Kriging from data between nodes

Models `Krig2D` of src/nrlib/statistics/kriging.cpp for a surface and data points, and continuouskrigingdata2d.{hpp,cpp}.
The conversion of a double to `float` is any function `fl`. Otherwise as in `Model/Krig2D`.
-/

namespace Verif

/-- `AddData`, continuouskrigingdata2d.cpp lines 59-70. -/
noncomputable def contAdd (d : List Pt) (p : Pt) : List Pt := if p.z ≠ 99999.0 then d ++ [p] else d

/-- The constructor from data points, continuouskrigingdata2d.cpp lines 33-51. -/
noncomputable def contData (fl : ℝ → ℝ) (points : List Pt) : List Pt :=
  points.foldl (fun d p => contAdd d { p with z := fl p.z }) []

/-- `CountDataInBlock`, continuouskrigingdata2d.cpp lines 90-110. -/
noncomputable def contCount (s : RegSurf) (d : List Pt) (imin imax jmin jmax : ℕ) : ℕ :=
  d.countP fun p => p.x ≤ s.x_min + imax * s.dx ∧ p.x ≥ s.x_min + imin * s.dx ∧ p.y ≤ s.y_min + jmax * s.dy ∧
    p.y ≥ s.y_min + jmin * s.dy

/-- `AddDataToBlock` for an empty block, continuouskrigingdata2d.cpp lines 114-136. -/
noncomputable def contSelect (s : RegSurf) (d : List Pt) (imin imax jmin jmax : ℕ) : List Pt :=
  d.foldl (fun b p => if p.x < s.x_min + imax * s.dx ∧ p.x ≥ s.x_min + imin * s.dx ∧ p.y < s.y_min + jmax * s.dy ∧
    p.y ≥ s.y_min + jmin * s.dy then contAdd b p else b) []

/-- `FillKrigingMatrix`, kriging.cpp lines 1081-1102. -/
noncomputable def contMatrix (v : Variogram) (d : List Pt) : Res SymMat :=
  fillSymm d.length fun a b => do
    let e ← rd d a
    let f ← rd d b
    .ok (v.cov2 (e.x - f.x) (e.y - f.y))

/-- `FillKrigingVector`, kriging.cpp lines 1105-1117. -/
noncomputable def contVector (v : Variogram) (d : List Pt) (x y : ℝ) : Res (List ℝ) :=
  fillVec d.length fun a => do
    let e ← rd d a
    .ok (v.cov2 (e.x - x) (e.y - y))

/-- The residuals, kriging.cpp lines 1060-1061. -/
noncomputable def contResidual (fl : ℝ → ℝ) (trend_orig : RegSurf) (d : List Pt) : Res (List ℝ) :=
  fillVec d.length fun a => do
    let e ← rd d a
    let t ← trend_orig.getZ e.x e.y
    .ok (e.z - fl t)

/-- kriging.cpp lines 1067-1073, one node. -/
noncomputable def contStep (trend_orig : RegSurf) (v : Variogram) (d : List Pt) (x : List ℝ) (get_residuals : Bool)
    (i j : ℕ) (trend : Grid2D ℝ) : Res (Grid2D ℝ) := do
  let k ← contVector v d (trend_orig.x_min + i * trend_orig.dx) (trend_orig.y_min + j * trend_orig.dy)
  putNode get_residuals trend i j (dotList k x)

/-- `Krig2DBlock` for continuous data, kriging.cpp lines 1003-1077: the new nodes. The surface has the geometry of the
original one. -/
noncomputable def krigBlockCont (fl : ℝ → ℝ) (trend_orig : RegSurf) (d : List Pt) (v : Variogram)
    (block_x block_y nxb nyb n_blocks_x n_blocks_y : ℕ) (get_residuals : Bool) (trend : Grid2D ℝ) : Res (Grid2D ℝ) := do
  let nx := trend.ni
  let ny := trend.nj
  let imin := block_x * nxb
  let imax := blockEnd block_x n_blocks_x nxb nx
  let jmin := block_y * nyb
  let jmax := blockEnd block_y n_blocks_y nyb ny
  if d.length > 0 ∧ d.length ≤ nx * ny then
    let residual ← contResidual fl trend_orig d
    let K ← contMatrix v d
    let x ← choleskySolve d.length K residual
    forRange imin imax (fun i trend =>
      forRange jmin jmax (fun j trend => contStep trend_orig v d x get_residuals i j trend) trend) trend
  else .ok trend

/-- `Krig2D` for a surface without an index grid, kriging.cpp lines 140-186 and 189-327. The objects that are made to
call the common function and not used are left out. -/
noncomputable def krig2DCont (fl : ℝ → ℝ) (sort : BlockSort (List Pt)) (trend : RegSurf) (points : List Pt) (v : Variogram)
    (get_residuals krig_all : Bool) (P : ℝ) : Res RegSurf := do
  let d := contData fl points
  let b ← krigBlocks (contCount trend d) (contSelect trend d) d d.length trend.grid.ni trend.grid.nj v.rangeX v.rangeY
    trend.dx trend.dy P krig_all
  let nxb := cellsPerBlock trend.grid.ni b.1
  let nyb := cellsPerBlock trend.grid.nj b.2.1
  let grid ← overBlocks (fun bx by_ db => krigBlockCont fl trend db v bx by_ nxb nyb b.1 b.2.1 get_residuals) (sort b.2.2)
    trend.grid
  .ok { trend with grid := grid }

/-- `Krig2D` for a surface with an index grid, kriging.cpp lines 140-165. -/
noncomputable def krig2DIndex (sort : BlockSort (List Datum)) (trend : RegSurf) (points : List Pt) (v : Variogram)
    (get_residuals krig_all : Bool) (P : ℝ) : Res RegSurf := do
  let d ← nodalData points trend
  let ni ← toInt32 trend.grid.ni
  let nj ← toInt32 trend.grid.nj
  let cov ← CovTable.create v ni nj trend.dx trend.dy
  let grid ← krig2DNodal sort trend.grid d cov get_residuals krig_all P
  .ok { trend with grid := grid }

end Verif
