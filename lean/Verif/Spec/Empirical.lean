import Mathlib.Analysis.Real.Sqrt
import Mathlib.Data.Finset.Prod
import Mathlib.Order.Bounds.Basic
import Mathlib.Algebra.BigOperators.Group.Finset.Basic
import Mathlib.Algebra.Order.Floor.Semiring

/-!
# Specification of the empirical variogram
-/

namespace Verif.Spec

open Finset

/-- The cells of a grid. -/
def cells (nx ny nz : ℕ) : Finset (ℕ × ℕ × ℕ) := range nx ×ˢ range ny ×ˢ range nz

/-- Distance of the centres of two cells. -/
noncomputable def cellDist (dx dy dz : ℝ) (c r : ℕ × ℕ × ℕ) : ℝ :=
  Real.sqrt ((dx * ((c.1 : ℝ) - r.1)) ^ 2 + (dy * ((c.2.1 : ℝ) - r.2.1)) ^ 2
    + (dz * ((c.2.2 : ℝ) - r.2.2)) ^ 2)

/-- `M` is the largest distance of a cell from `r`. -/
def IsFarthest (nx ny nz : ℕ) (dx dy dz : ℝ) (r : ℕ × ℕ × ℕ) (M : ℝ) : Prop :=
  IsGreatest ((fun c => cellDist dx dy dz c r) '' (cells nx ny nz : Set (ℕ × ℕ × ℕ))) M

/-- The distance `d` is in bin number `b` of `K` bins of equal width from 0 to `M`: the lower end
belongs to the bin, the upper end only to the last one. -/
def InBin (K : ℕ) (M : ℝ) (b : ℕ) (d : ℝ) : Prop :=
  b * (M / K) ≤ d ∧ (d < (b + 1) * (M / K) ∨ b + 1 = K ∧ d = M)

open Classical in
/-- The cells whose distance from `r` is in a bin. -/
noncomputable def binCells (nx ny nz : ℕ) (dx dy dz : ℝ) (r : ℕ × ℕ × ℕ) (K : ℕ) (M : ℝ) (b : ℕ) :
    Finset (ℕ × ℕ × ℕ) :=
  (cells nx ny nz).filter fun c => InBin K M b (cellDist dx dy dz c r)

/-- The average of `f` over a set of cells. -/
noncomputable def avg (s : Finset (ℕ × ℕ × ℕ)) (f : ℕ × ℕ × ℕ → ℝ) : ℝ := (∑ c ∈ s, f c) / s.card

/-- Distance of a cell from the first cell, in cells. -/
noncomputable def cornerDist (c : ℕ × ℕ × ℕ) : ℝ :=
  Real.sqrt ((c.1 : ℝ) ^ 2 + (c.2.1 : ℝ) ^ 2 + (c.2.2 : ℝ) ^ 2)

open Classical in
/-- The cells of a selection at distance `x` from the first cell. -/
noncomputable def distClass (sel : Finset (ℕ × ℕ × ℕ)) (x : ℝ) : Finset (ℕ × ℕ × ℕ) :=
  sel.filter fun c => cornerDist c = x

/-- The mean over the cells of a selection at distance `x` of the squared difference of the field
`X` from its value in the first cell. -/
noncomputable def meanSq (sel : Finset (ℕ × ℕ × ℕ)) (X : ℕ × ℕ × ℕ → ℝ) (x : ℝ) : ℝ :=
  avg (distClass sel x) fun c => (X c - X (0, 0, 0)) ^ 2

/-- `r` lists the distances that occur in the selection, each one once, and with every distance the
mean and the standard deviation, over the `n` fields `X 0`, ..., of the mean squared difference. -/
def IsSummary (sel : Finset (ℕ × ℕ × ℕ)) (n : ℕ) (X : ℕ → ℕ × ℕ × ℕ → ℝ)
    (r : List ℝ × List (Option ℝ) × List (Option ℝ)) : Prop :=
  r.1.Nodup ∧ (∀ x, x ∈ r.1 ↔ ∃ c ∈ sel, cornerDist c = x) ∧
  r.2.1.length = r.1.length ∧ r.2.2.length = r.1.length ∧
  ∀ (j : ℕ) (x : ℝ), r.1[j]? = some x →
    r.2.1[j]? = some (some ((∑ k ∈ range n, meanSq sel (X k) x) / n)) ∧
    r.2.2[j]? = some (some (Real.sqrt
      ((∑ k ∈ range n, (meanSq sel (X k) x - (∑ l ∈ range n, meanSq sel (X l) x) / n) ^ 2) / n)))

open Classical in
/-- The cells nearer to the first cell than `d`. -/
noncomputable def nearCells (nx ny nz : ℕ) (d : ℝ) : Finset (ℕ × ℕ × ℕ) :=
  (cells nx ny nz).filter fun c => cornerDist c < d

/-- The cells whose three indices are multiples of `step`. -/
def stepCells (nx ny nz step : ℕ) : Finset (ℕ × ℕ × ℕ) :=
  (cells nx ny nz).filter fun c => step ∣ c.1 ∧ step ∣ c.2.1 ∧ step ∣ c.2.2

end Verif.Spec
