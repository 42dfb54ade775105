import Verif.Spec.Variogram
import Mathlib.Analysis.SpecialFunctions.Pow.Real

/-!
# Specification of the periodic covariance grid
-/

namespace Verif.Spec

/-- The representative closest to zero of index `i` on a cycle of `n` cells (`-n/2` for the
half-way index of an even cycle). -/
def lag (n i : ℕ) : ℤ := if 2 * i < n then (i : ℤ) else (i : ℤ) - n

/-- The mirror image of index `i` on a cycle of `n` cells. -/
def mirror (n i : ℕ) : ℕ := (n - i) % n

/-- Gaussian smoothing kernel that is 1 at lag 0 and `s` at lag `r`; values of `s` at or above
0.99999 mean no smoothing. -/
noncomputable def kernel (s r h : ℝ) : ℝ := if s < 0.99999 then s ^ ((h / r) ^ 2) else 1

/-- Largest projection on a coordinate axis of the three semi-axes of the range ellipsoid, where
`m`, `p`, `d` are the components of the unit vectors of the main, perpendicular and down
directions along that coordinate axis. -/
noncomputable def extent (rx ry rz m p d : ℝ) : ℝ := max (max |rx * m| |ry * p|) |rz * d|

end Verif.Spec
