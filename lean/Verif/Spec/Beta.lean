import Verif.Spec.Distr
import Mathlib.Probability.Distributions.Beta

/-!
# Specification: the beta law and the beta law in cells
-/

namespace Verif.BetaD

open MeasureTheory ProbabilityTheory Finset

/-- The density of the beta distribution up to a factor. -/
noncomputable def dens (a b t : ℝ) : ℝ := t ^ (a - 1) * (1 - t) ^ (b - 1)

/-- The density at the centre of cell `i`. -/
noncomputable def wt (a b : ℝ) (n i : ℕ) : ℝ := dens a b ((i + 1 / 2) / n)

/-- The probability of cell `i`. -/
noncomputable def prob (a b : ℝ) (n i : ℕ) : ℝ := wt a b n i / ∑ j ∈ range n, wt a b n j

/-- The beta law in cells: [minVal, maxVal] has `n` cells of the same width, the probabilities of the cells are
proportional to the density of the beta law at their centres, and the law is uniform in every cell. -/
noncomputable def cellLaw (a b : ℝ) (n : ℕ) (minVal maxVal : ℝ) : Measure ℝ :=
  ∑ i ∈ range n, ENNReal.ofReal (prob a b n i) •
    Spec.uniformLaw (minVal + i * ((maxVal - minVal) / n)) (minVal + (i + 1) * ((maxVal - minVal) / n))

/-- The beta law with parameters `a` and `b` on [minVal, maxVal]. -/
noncomputable def betaLaw (a b minVal maxVal : ℝ) : Measure ℝ :=
  (betaMeasure a b).map fun t => minVal + t * (maxVal - minVal)

end Verif.BetaD
