import Verif.Model.Volume

/-!
# What volumes are about
-/

namespace Verif

/-- The point at `s` along and `t` across a rectangle that is turned by an angle. -/
noncomputable def areaPoint (x0 y0 angle s t : ℝ) : ℝ × ℝ :=
  (x0 + s * Real.cos angle - t * Real.sin angle, y0 + s * Real.sin angle + t * Real.cos angle)

/-- The point lies in the turned rectangle with the given corner and sides. -/
def InArea (x0 y0 angle lx ly : ℝ) (p : ℝ × ℝ) : Prop :=
  ∃ s t, 0 ≤ s ∧ s ≤ lx ∧ 0 ≤ t ∧ t ≤ ly ∧ p = areaPoint x0 y0 angle s t

/-- The heights of a surface: `z` wherever it is looked at. -/
def VSurf.HasHeights (S : VSurf) (z : ℝ → ℝ → ℝ) : Prop := ∀ x y, S.getZ x y = .ok (z x y)

end Verif
