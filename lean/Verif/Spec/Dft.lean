import Mathlib.Analysis.SpecialFunctions.Trigonometric.Basic
import Mathlib.Algebra.BigOperators.Group.Finset.Basic

/-!
# Specification of the discrete Fourier transform
-/

namespace Verif.Spec

open Finset

/-- The point of the unit circle after `t` turns. -/
noncomputable def turn (t : ℝ) : ℂ := Complex.exp (2 * Real.pi * Complex.I * t)

/-- One-dimensional transform, forward sign. -/
noncomputable def dft1 (n : ℕ) (a : ℕ → ℂ) (k : ℕ) : ℂ :=
  ∑ x ∈ range n, a x * turn (-((k : ℝ) * x / n))

/-- One-dimensional transform, backward sign, not normalised. -/
noncomputable def idft1 (n : ℕ) (Z : ℕ → ℂ) (x : ℕ) : ℂ :=
  ∑ k ∈ range n, Z k * turn ((k : ℝ) * x / n)

/-- Two-dimensional transform, forward sign. -/
noncomputable def dft2 (n0 n1 : ℕ) (a : ℕ → ℕ → ℂ) (k0 k1 : ℕ) : ℂ :=
  ∑ x0 ∈ range n0, ∑ x1 ∈ range n1,
    a x0 x1 * turn (-((k0 : ℝ) * x0 / n0 + (k1 : ℝ) * x1 / n1))

/-- Two-dimensional transform, backward sign, not normalised. -/
noncomputable def idft2 (n0 n1 : ℕ) (Z : ℕ → ℕ → ℂ) (x0 x1 : ℕ) : ℂ :=
  ∑ k0 ∈ range n0, ∑ k1 ∈ range n1,
    Z k0 k1 * turn ((k0 : ℝ) * x0 / n0 + (k1 : ℝ) * x1 / n1)

/-- Three-dimensional transform, forward sign. -/
noncomputable def dft3 (n0 n1 n2 : ℕ) (a : ℕ → ℕ → ℕ → ℂ) (k0 k1 k2 : ℕ) : ℂ :=
  ∑ x0 ∈ range n0, ∑ x1 ∈ range n1, ∑ x2 ∈ range n2,
    a x0 x1 x2 * turn (-((k0 : ℝ) * x0 / n0 + (k1 : ℝ) * x1 / n1 + (k2 : ℝ) * x2 / n2))

/-- Three-dimensional transform, backward sign, not normalised. -/
noncomputable def idft3 (n0 n1 n2 : ℕ) (Z : ℕ → ℕ → ℕ → ℂ) (x0 x1 x2 : ℕ) : ℂ :=
  ∑ k0 ∈ range n0, ∑ k1 ∈ range n1, ∑ k2 ∈ range n2,
    Z k0 k1 k2 * turn ((k0 : ℝ) * x0 / n0 + (k1 : ℝ) * x1 / n1 + (k2 : ℝ) * x2 / n2)

/-- The index of minus the frequency `k` on a cycle of `n`. -/
def opp (n k : ℕ) : ℕ := (n - k) % n

end Verif.Spec
