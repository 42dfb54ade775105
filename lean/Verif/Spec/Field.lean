import Verif.Spec.Smooth
import Verif.Spec.Lag
import Verif.Model.Outcome
import Mathlib.Analysis.SpecialFunctions.Trigonometric.Basic
import Mathlib.Analysis.SpecialFunctions.Sqrt
import Mathlib.Algebra.BigOperators.Group.Finset.Basic
import Mathlib.Order.Bounds.Basic

/-!
# Specification of the simulated field

A covariance function `c` on a periodic box has a real spectrum. Negative parts of the spectrum are
replaced by zero. The field is the convolution of independent draws with the inverse transform of
the square root of that spectrum.
-/

namespace Verif.Spec

open Finset

/-- The FFT size chosen for a minimum size `n`: the least admissible one. An even size is not
obtained for the request `n = 1`. -/
def FftSize (n : ℕ) (even : Bool) (r : ℕ) : Prop :=
  if even = true ∧ n = 1 then r = 1 else IsLeast {m | Admissible n even m} r

/-- `n` successive draws from a generator, and the state afterwards. -/
def draws {σ : Type} (draw : σ → Res (ℝ × σ)) : ℕ → σ → Res (List ℝ × σ)
  | 0, s => .ok ([], s)
  | n + 1, s => (draw s).bind fun r => (draws draw n r.2).bind fun l => .ok (r.1 :: l.1, l.2)

/-! ### One dimension -/

noncomputable def phase1 (n : ℕ) (k : ℕ) (x : ℤ) : ℝ := 2 * Real.pi * ((k : ℝ) * x / n)

/-- Spectrum of `c`. -/
noncomputable def spectrum1 (n : ℕ) (c : ℕ → ℝ) (k : ℕ) : ℝ :=
  ∑ x ∈ range n, c x * Real.cos (phase1 n k x)

/-- Convolution weights: inverse transform of the square root of the clipped spectrum. -/
noncomputable def weight1 (n : ℕ) (c : ℕ → ℝ) (d : ℤ) : ℝ :=
  (∑ k ∈ range n, √(max (spectrum1 n c k) 0) * Real.cos (phase1 n k d)) / n

/-- Inverse transform of the clipped spectrum. -/
noncomputable def clippedCov1 (n : ℕ) (c : ℕ → ℝ) (d : ℤ) : ℝ :=
  (∑ k ∈ range n, max (spectrum1 n c k) 0 * Real.cos (phase1 n k d)) / n

/-- The field made from the draws `w`. -/
noncomputable def field1 (n : ℕ) (c w : ℕ → ℝ) (i : ℕ) : ℝ :=
  ∑ a ∈ range n, weight1 n c ((i : ℤ) - a) * w a

/-! ### Two dimensions -/

noncomputable def phase2 (n m : ℕ) (k l : ℕ) (x y : ℤ) : ℝ :=
  2 * Real.pi * ((k : ℝ) * x / n + (l : ℝ) * y / m)

noncomputable def spectrum2 (n m : ℕ) (c : ℕ → ℕ → ℝ) (k l : ℕ) : ℝ :=
  ∑ x ∈ range n, ∑ y ∈ range m, c x y * Real.cos (phase2 n m k l x y)

noncomputable def weight2 (n m : ℕ) (c : ℕ → ℕ → ℝ) (d e : ℤ) : ℝ :=
  (∑ k ∈ range n, ∑ l ∈ range m,
    √(max (spectrum2 n m c k l) 0) * Real.cos (phase2 n m k l d e)) / (n * m)

noncomputable def clippedCov2 (n m : ℕ) (c : ℕ → ℕ → ℝ) (d e : ℤ) : ℝ :=
  (∑ k ∈ range n, ∑ l ∈ range m,
    max (spectrum2 n m c k l) 0 * Real.cos (phase2 n m k l d e)) / (n * m)

noncomputable def field2 (n m : ℕ) (c w : ℕ → ℕ → ℝ) (i j : ℕ) : ℝ :=
  ∑ a ∈ range n, ∑ b ∈ range m, weight2 n m c ((i : ℤ) - a) ((j : ℤ) - b) * w a b

/-! ### Three dimensions -/

noncomputable def phase3 (n m q : ℕ) (k l h : ℕ) (x y z : ℤ) : ℝ :=
  2 * Real.pi * ((k : ℝ) * x / n + (l : ℝ) * y / m + (h : ℝ) * z / q)

noncomputable def spectrum3 (n m q : ℕ) (c : ℕ → ℕ → ℕ → ℝ) (k l h : ℕ) : ℝ :=
  ∑ x ∈ range n, ∑ y ∈ range m, ∑ z ∈ range q, c x y z * Real.cos (phase3 n m q k l h x y z)

noncomputable def weight3 (n m q : ℕ) (c : ℕ → ℕ → ℕ → ℝ) (d e f : ℤ) : ℝ :=
  (∑ k ∈ range n, ∑ l ∈ range m, ∑ h ∈ range q,
    √(max (spectrum3 n m q c k l h) 0) * Real.cos (phase3 n m q k l h d e f)) / (n * m * q)

noncomputable def clippedCov3 (n m q : ℕ) (c : ℕ → ℕ → ℕ → ℝ) (d e f : ℤ) : ℝ :=
  (∑ k ∈ range n, ∑ l ∈ range m, ∑ h ∈ range q,
    max (spectrum3 n m q c k l h) 0 * Real.cos (phase3 n m q k l h d e f)) / (n * m * q)

noncomputable def field3 (n m q : ℕ) (c w : ℕ → ℕ → ℕ → ℝ) (i j k : ℕ) : ℝ :=
  ∑ a ∈ range n, ∑ b ∈ range m, ∑ d ∈ range q,
    weight3 n m q c ((i : ℤ) - a) ((j : ℤ) - b) ((k : ℤ) - d) * w a b d

end Verif.Spec
