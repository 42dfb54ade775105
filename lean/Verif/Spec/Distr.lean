import Verif.Spec.NormalLaw
import Mathlib.Probability.ConditionalProbability
import Mathlib.Analysis.SpecialFunctions.Pow.Real

/-!
# Specification of distribution classes

A class describes a law `ν`: `Cdf` is its distribution function, `Pdf` its density, `Quantile` the inverse
of the distribution function, and `Draw` gives independent values with this law.
-/

namespace Verif.Spec

open MeasureTheory ProbabilityTheory

/-- Starting in state `s`, successive draws give the values `x 0`, `x 1`, ... -/
def Yields {σ α : Type} (draw : σ → Res (α × σ)) (s : σ) (x : ℕ → α) : Prop :=
  ∃ S : ℕ → σ, S 0 = s ∧ ∀ n, draw (S n) = .ok (x n, S (n + 1))

/-- "The draws are independent with law `ν`": for every generator whose uniform numbers are independent
and uniform on [0, 1), whatever its state is like, successive draws return, with probability one, and give
independent values of this law. -/
def DrawsHaveLaw {α : Type} [MeasurableSpace α]
    (draw : ∀ {σ : Type}, (σ → Res (ℝ × σ)) → σ → Res (α × σ)) (ν : Measure α) : Prop :=
  ∀ (Ω : Type) [MeasurableSpace Ω] (μ : Measure Ω) [IsProbabilityMeasure μ] (σ : Type)
    (unif : σ → Res (ℝ × σ)) (s : Ω → σ) (U : ℕ → Ω → ℝ),
    UniformNoise μ U → (∀ᵐ ω ∂μ, Yields unif (s ω) fun a => U a ω) →
    ∃ Z : ℕ → Ω → α, (∀ a, HasLaw (Z a) ν μ) ∧ iIndepFun Z μ ∧
      ∀ᵐ ω ∂μ, Yields (draw unif) (s ω) fun a => Z a ω

/-- `Cdf` is the distribution function of `ν`. -/
def CdfOf (ν : Measure ℝ) (cdf : ℝ → Res ℝ) : Prop := ∀ x, cdf x = .ok (ν.real (Set.Iic x))

/-- `Pdf` is a density of `ν`. -/
def DensityOf (ν : Measure ℝ) (pdf : ℝ → Res ℝ) : Prop :=
  ∃ f : ℝ → ℝ, Measurable f ∧ (∀ x, 0 ≤ f x) ∧ (∀ x, pdf x = .ok (f x)) ∧
    ν = volume.withDensity fun x => ENNReal.ofReal (f x)

/-- `Quantile` is the inverse of the distribution function: the `p`-quantile is the least value that is
not exceeded with probability `p` or more. -/
def QuantileOf (ν : Measure ℝ) (quantile : ℝ → Res ℝ) : Prop :=
  ∀ p, 0 < p → p ≤ 1 → ∃ x, quantile p = .ok x ∧ IsLeast {x | p ≤ ν.real (Set.Iic x)} x

/-- The four functions of a class describe the same law `ν`. -/
structure Describes (ν : Measure ℝ) (draw : ∀ {σ : Type}, (σ → Res (ℝ × σ)) → σ → Res (ℝ × σ))
    (pdf cdf quantile : ℝ → Res ℝ) : Prop where
  prob : IsProbabilityMeasure ν
  draw : DrawsHaveLaw draw ν
  pdf : DensityOf ν pdf
  cdf : CdfOf ν cdf
  quantile : QuantileOf ν quantile

/-- `Quantile` of a class of integers: the least number that is not exceeded with probability `p` or
more. -/
def QuantileOfInt (ν : Measure ℤ) (quantile : ℝ → Res ℤ) : Prop :=
  ∀ p, 0 < p → p ≤ 1 → ∃ x, quantile p = .ok x ∧ IsLeast {x | p ≤ ν.real (Set.Iic x)} x

/-- The four functions of a class of integers describe the same law `ν`; `Pdf` and `Cdf` may be called
for the numbers in `A`. -/
structure DescribesInt (ν : Measure ℤ) (A : Set ℤ)
    (draw : ∀ {σ : Type}, (σ → Res (ℝ × σ)) → σ → Res (ℤ × σ))
    (pdf cdf : ℤ → Res ℝ) (quantile : ℝ → Res ℤ) : Prop where
  prob : IsProbabilityMeasure ν
  draw : DrawsHaveLaw draw ν
  pdf : ∀ k ∈ A, pdf k = .ok (ν.real {k})
  cdf : ∀ k ∈ A, cdf k = .ok (ν.real (Set.Iic k))
  quantile : QuantileOfInt ν quantile

/-- The uniform law on [a, b]. -/
noncomputable def uniformLaw (a b : ℝ) : Measure ℝ := volume[|Set.Icc a b]

/-- The triangular law on [a, b] with mode m: the density rises linearly from 0 in a, and falls linearly
to 0 in b. -/
noncomputable def triangularLaw (a m b : ℝ) : Measure ℝ :=
  volume.withDensity fun x => ENNReal.ofReal
    (if x < a ∨ b < x then 0
     else if x < m then 2 / (b - a) * ((x - a) / (m - a))
     else 2 / (b - a) * ((b - x) / (b - m)))

/-- The law with half of the mass uniform on [a, m] and half on [m, b]. -/
noncomputable def splitUniformLaw (a m b : ℝ) : Measure ℝ :=
  (1 / 2 : ENNReal) • uniformLaw a m + (1 / 2 : ENNReal) • uniformLaw m b

/-- The truncated power law on [a, b]: the density is proportional to x^(-e-1). -/
noncomputable def fractalLaw (a b e : ℝ) : Measure ℝ :=
  volume.withDensity fun x => ENNReal.ofReal
    (if a < x ∧ x < b then e / (a ^ (-e) - b ^ (-e)) * x ^ (-e - 1) else 0)

end Verif.Spec
