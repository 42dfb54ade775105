import Mathlib.Analysis.SpecialFunctions.Trigonometric.Basic

/-!
Specification of anisotropy: lags are resolved in an orthonormal frame given by azimuth and
dip, each component is divided by the range of that direction.
-/

namespace Verif.Spec

/-- A lag vector. -/
structure Vec3 where
  x : ℝ
  y : ℝ
  z : ℝ

def Vec3.dot (a b : Vec3) : ℝ := a.x * b.x + a.y * b.y + a.z * b.z

/-- Main direction: `azi` from the x axis in the plane, tilted by `dip` towards z. -/
noncomputable def mainAxis (azi dip : ℝ) : Vec3 :=
  ⟨Real.cos dip * Real.cos azi, Real.cos dip * Real.sin azi, Real.sin dip⟩

/-- Horizontal direction perpendicular to the main direction. -/
noncomputable def perpAxis (azi : ℝ) : Vec3 := ⟨-Real.sin azi, Real.cos azi, 0⟩

/-- Third direction, perpendicular to both. -/
noncomputable def downAxis (azi dip : ℝ) : Vec3 :=
  ⟨-(Real.sin dip * Real.cos azi), -(Real.sin dip * Real.sin azi), Real.cos dip⟩

/-- Length of the lag in units of the ranges. -/
noncomputable def normDist (rx ry rz azi dip : ℝ) (h : Vec3) : ℝ :=
  √(((mainAxis azi dip).dot h / rx) ^ 2 + ((perpAxis azi).dot h / ry) ^ 2
    + ((downAxis azi dip).dot h / rz) ^ 2)

end Verif.Spec
