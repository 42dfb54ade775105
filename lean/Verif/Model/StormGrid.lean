import Verif.Model.Volume
import Verif.Model.Grid

/-!
# Grids of cells in volumes

Models src/nrlib/stormgrid/stormcontgrid.{hpp,cpp} without files. Floats and doubles are real
numbers. A failing `assert` of the grid is `ub`.
-/

namespace Verif

open Classical

/-- `static_cast<size_t>` of a double: truncation; a number that does not fit has no value. -/
noncomputable def toSize (q : ℝ) : Res ℕ :=
  if 0 ≤ truncZ q ∧ truncZ q < 2 ^ 64 then .ok (truncZ q).toNat
  else .ub "conversion to size_t out of range"

/-- `StormContGrid`, stormcontgrid.hpp lines 32 and 145: a volume, a grid and the code for missing
values. -/
structure StormGrid where
  vol : Volume
  grid : Grid3D ℝ
  missing : ℝ

namespace StormGrid

/-- `GetDX`, stormcontgrid.hpp line 93. -/
noncomputable def getDX (g : StormGrid) : Res ℝ := divD g.vol.lx g.grid.ni

/-- `GetDY`, stormcontgrid.hpp line 94. -/
noncomputable def getDY (g : StormGrid) : Res ℝ := divD g.vol.ly g.grid.nj

/-- `FindXYIndex`, stormcontgrid.cpp lines 291-320. -/
noncomputable def findXYIndex (g : StormGrid) (x y : ℝ) : Res (ℕ × ℕ) := do
  let l := g.vol.globalToLocal x y
  let dx ← g.getDX
  let qx ← divD l.1 dx
  let i ← toSize qx
  let dy ← g.getDY
  let qy ← divD l.2 dy
  let j ← toSize qy
  if i ≥ g.grid.ni then .throws "Index in x direction is too large."
  else if j ≥ g.grid.nj then .throws "Index in y direction is too large."
  else if l.1 < 0.0 then .throws "Local x-coordinate is too small"
  else if l.2 < 0.0 then .throws "Local y-coordinate is too small"
  else .ok (i, j)

/-- The heights of both surfaces and of a cell above a point, stormcontgrid.cpp lines 327-329. -/
noncomputable def heights (g : StormGrid) (x y : ℝ) : Res (ℝ × ℝ × ℝ) := do
  let z_top ← g.vol.top.getZ x y
  let z_bot ← g.vol.bot.getZ x y
  let dz ← divD (z_bot - z_top) g.grid.nk
  .ok (z_top, z_bot, dz)

/-- `FindIndex` for a point, stormcontgrid.cpp lines 322-342. -/
noncomputable def findIJK (g : StormGrid) (x y z : ℝ) : Res (ℕ × ℕ × ℕ) := do
  let ij ← g.findXYIndex x y
  let h ← g.heights x y
  if z < h.1 then .throws "Z value is above top."
  else if z > h.2.1 then .throws "Z value is below bottom."
  else if h.2.2 = 0 then .ok (ij.1, ij.2, 0)
  else
    let k ← toSize ((z - h.1) / h.2.2)
    .ok (ij.1, ij.2, k)

/-- `FindIndex` giving the number of the cell, stormcontgrid.cpp lines 284-289. -/
noncomputable def findIndex (g : StormGrid) (x y z : ℝ) : Res ℕ := do
  let c ← g.findIJK x y z
  g.grid.getIndex c.1 c.2.1 c.2.2

/-- `FindZInterpolatedIndex`, stormcontgrid.cpp lines 345-381: `ind1`, `ind2` and `t`. -/
noncomputable def findZInterpolatedIndex (g : StormGrid) (x y z : ℝ) : Res (ℕ × ℕ × ℝ) := do
  let ij ← g.findXYIndex x y
  let h ← g.heights x y
  if z ≤ h.1 + 0.5 * h.2.2 then
    let n ← g.grid.getIndex ij.1 ij.2 0
    .ok (n, 0, g.missing)
  else if z ≥ h.2.1 - 0.5 * h.2.2 then
    let n ← g.grid.getIndex ij.1 ij.2 (g.grid.nk - 1)
    .ok (n, 0, g.missing)
  else
    let q ← divD (z - h.1) h.2.2
    let k ← toSize ⌊q - 0.5⌋
    let n ← g.grid.getIndex ij.1 ij.2 k
    let m ← g.grid.getIndex ij.1 ij.2 (k + 1)
    .ok (n, m, q - 0.5 - k)

/-- `GetValueZInterpolatedFromIndex`, stormcontgrid.cpp lines 383-407. -/
noncomputable def valueFromIndex (g : StormGrid) (ind1 ind2 : ℕ) (t : ℝ) : Res ℝ :=
  if t = g.missing then rd g.grid.data ind1
  else do
    let v1 ← rd g.grid.data ind1
    let v2 ← rd g.grid.data ind2
    (if v1 ≠ g.missing then
      if v2 ≠ g.missing then .ok (v1 * (1 - t) + v2 * t) else .ok v1
    else .ok v2 : Res ℝ)

/-- `GetValueZInterpolated`, stormcontgrid.cpp lines 453-465. -/
noncomputable def valueZInterpolated (g : StormGrid) (x y z : ℝ) : Res ℝ := do
  let r ← g.findZInterpolatedIndex x y z
  g.valueFromIndex r.1 r.2.1 r.2.2

/-- `GetValueInterpolated`, stormcontgrid.cpp lines 429-451. Negative arguments become indices that
are too large, which the `assert`s of the grid refuse. -/
noncomputable def valueInterpolated (g : StormGrid) (i j : ℕ) (k_value : ℝ) : Res ℝ := do
  let k1 ← toInt32 ⌊k_value⌋
  if k1 < 0 then .ub "assert in Grid::GetIndex"
  else
    let val1 ← g.grid.get i j k1.toNat
    if val1 = g.missing then .ok g.missing
    else
      let k2 := if k1.toNat = g.grid.nk - 1 then k1.toNat else k1.toNat + 1
      let val2 ← g.grid.get i j k2
      (if val2 = g.missing then .ok val1
      else .ok ((1.0 - (k_value - k1)) * val1 + (k_value - k1) * val2) : Res ℝ)

/-- The two layers and the weight of `GetValueClosestInZ`, stormcontgrid.cpp lines 481-488: note
where the parenthesis after `floor` ends. -/
noncomputable def closestLayers (z z_top z_bot dz : ℝ) : Res (ℤ × ℝ) := do
  let z' := if z < z_top + 0.5 * dz then z_top + 0.5 * dz
    else if z > z_bot + 0.5 * dz then z_bot + 0.5 * dz else z
  let q ← divD (z' - z_top) dz
  let zInd1 ← toInt32 (truncZ (⌊q⌋ - 0.5))
  .ok (zInd1, q - 0.5 - zInd1)

/-- `GetValueClosestInZ`, stormcontgrid.cpp lines 468-491. -/
noncomputable def valueClosestInZ (g : StormGrid) (x y z : ℝ) : Res ℝ := do
  let l := g.vol.globalToLocal x y
  let dx ← g.getDX
  let qx ← divD l.1 dx
  let i ← toSize qx
  let dy ← g.getDY
  let qy ← divD l.2 dy
  let j ← toSize qy
  let h ← g.heights x y
  if l.1 < 0.0 ∨ i ≥ g.grid.ni ∨ l.2 < 0.0 ∨ j ≥ g.grid.nj then .ok g.missing
  else
    let r ← closestLayers z h.1 h.2.1 h.2.2
    if r.1 < 0 then .ub "assert in Grid::GetIndex"
    else
      let v1 ← g.grid.get i j r.1.toNat
      let v2 ← g.grid.get i j (r.1.toNat + 1)
      .ok ((1 - r.2) * v1 + r.2 * v2)

/-- `FindCenterOfCell`, stormcontgrid.cpp lines 494-504. -/
noncomputable def findCenterOfCell (g : StormGrid) (i j k : ℕ) : Res (ℝ × ℝ × ℝ) := do
  let dx ← g.getDX
  let dy ← g.getDY
  let p := g.vol.localToGlobal ((i + 0.5) * dx) ((j + 0.5) * dy)
  let h ← g.heights p.1 p.2
  .ok (p.1, p.2, h.1 + (k + 0.5) * h.2.2)

/-- `GetRelThick(x, y)`, stormcontgrid.cpp lines 775-784. -/
noncomputable def relThickAt (g : StormGrid) (x y : ℝ) : Res ℝ := do
  let zt ← g.vol.top.getZ x y
  let zb ← g.vol.bot.getZ x y
  (if ¬ g.vol.top.isMissing zt ∧ ¬ g.vol.bot.isMissing zb then divD (zb - zt) g.vol.lz
  else .ok 1 : Res ℝ)

/-- `GetRelThick(i, j)`, stormcontgrid.cpp lines 766-773. -/
noncomputable def relThick (g : StormGrid) (i j : ℕ) : Res ℝ := do
  let dx ← g.getDX
  let dy ← g.getDY
  let rx := (i + 0.5) * dx
  let ry := (j + 0.5) * dy
  g.relThickAt (rx * Real.cos g.vol.angle - ry * Real.sin g.vol.angle + g.vol.x_min)
    (rx * Real.sin g.vol.angle + ry * Real.cos g.vol.angle + g.vol.y_min)

/-- `GetAvgRelThick`, stormcontgrid.cpp lines 754-764. -/
noncomputable def avgRelThick (g : StormGrid) : Res ℝ := do
  let s ← forRange 0 g.grid.ni (fun i s => forRange 0 g.grid.nj (fun j s => do
    let r ← g.relThick i j
    .ok (s + r)) s) 0.0
  divD s ((g.grid.ni * g.grid.nj : ℕ) : ℝ)

end StormGrid

end Verif
