import Verif.Spec.Noise
import Verif.Spec.Normal
import Mathlib.Probability.Distributions.Gaussian.Basic

/-!
# Specification of the law of the normal numbers
-/

namespace Verif.Spec

open MeasureTheory ProbabilityTheory

variable {Ω : Type} [MeasurableSpace Ω]

/-- Independent random variables, uniform on [0, 1). -/
structure UniformNoise (μ : Measure Ω) (U : ℕ → Ω → ℝ) : Prop where
  law : ∀ a, HasLaw (U a) (volume.restrict (Set.Ico 0 1)) μ
  indep : iIndepFun U μ

/-- A law on the line that gives every event the probability it has under the standard normal law, up
to a factor between 1 - 2·10⁻⁸ and 1 + 2·10⁻⁸, and is symmetric about 0. -/
structure NearNormal (ν : Measure ℝ) : Prop where
  prob : IsProbabilityMeasure ν
  upper : ∀ A, ν A ≤ ENNReal.ofReal (1 + 2e-8) * gaussianReal 0 1 A
  lower : ∀ A, ENNReal.ofReal (1 - 2e-8) * gaussianReal 0 1 A ≤ ν A
  symm : ν.map (fun x => -x) = ν

/-- Independent random variables with the law `ν`. -/
structure IidNoise (ν : Measure ℝ) (μ : Measure Ω) (w : ℕ → Ω → ℝ) : Prop where
  law : ∀ a, HasLaw (w a) ν μ
  indep : iIndepFun w μ

/-- "The vector `X` is nearly Gaussian with mean 0 and covariance `C`": the probability that `X` lies in
a set is, up to the factor (1 ± 2·10⁻⁸)^N, the one a Gaussian vector with mean 0 and covariance `C`
gives; the mean of `X` is 0, and its covariance is `C` up to a common factor 1 ± 2·10⁻⁸. -/
structure NearGaussian {κ : Type} [Fintype κ] (μ : Measure Ω) (X : κ → Ω → ℝ) (N : ℕ) (C : κ → κ → ℝ) :
    Prop where
  measurable : ∀ c, AEMeasurable (X c) μ
  law : ∃ G : Measure (κ → ℝ), IsGaussian G ∧ (∀ c, ∫ x, x c ∂G = 0) ∧
    (∀ c c', cov[fun x => x c, fun x => x c'; G] = C c c') ∧
    ∀ B, MeasurableSet B →
      ENNReal.ofReal ((1 - 2e-8) ^ N) * G B ≤ μ {ω | (fun c => X c ω) ∈ B} ∧
      μ {ω | (fun c => X c ω) ∈ B} ≤ ENNReal.ofReal ((1 + 2e-8) ^ N) * G B
  moments : ∃ δ : ℝ, |δ| ≤ 2e-8 ∧ (∀ c, MemLp (X c) 2 μ ∧ ∫ ω, X c ω ∂μ = 0) ∧
    ∀ c c', cov[X c, X c'; μ] = (1 + δ) * C c c'

end Verif.Spec
