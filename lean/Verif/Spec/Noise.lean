import Verif.Spec.Field
import Mathlib.Probability.Moments.Covariance
import Mathlib.Probability.Distributions.Gaussian.Real

/-!
# Specification of random draws

A random generator is deterministic; the state it starts in is the random quantity.
-/

namespace Verif.Spec

open MeasureTheory ProbabilityTheory

/-- Starting in state `s` the generator yields the values `x 0`, `x 1`, `x 2`, ... -/
def Streams {σ : Type} (draw : σ → Res (ℝ × σ)) (s : σ) (x : ℕ → ℝ) : Prop :=
  ∀ n, ∃ s', draws draw n s = .ok ((List.range n).map x, s')

variable {Ω : Type} [MeasurableSpace Ω]

/-- Uncorrelated random variables with mean 0 and variance 1. -/
structure WhiteNoise (μ : Measure Ω) (w : ℕ → Ω → ℝ) : Prop where
  memLp : ∀ a, MemLp (w a) 2 μ
  mean : ∀ a, ∫ ω, w a ω ∂μ = 0
  cov : ∀ a b, cov[w a, w b; μ] = if a = b then 1 else 0

/-- Independent standard normal random variables. -/
structure GaussianNoise (μ : Measure Ω) (w : ℕ → Ω → ℝ) : Prop where
  law : ∀ a, HasLaw (w a) (gaussianReal 0 1) μ
  indep : iIndepFun w μ

end Verif.Spec
