import Mathlib.MeasureTheory.Function.JacobianOneDim
import Verif.Props.NormalDistr

/-!
# C105: the lognormal distribution

`LogNormal(mu, sigma)`: `mu` and `sigma` are the parameters of the logarithm.
-/

namespace Verif

open Spec MeasureTheory ProbabilityTheory Set Filter Real NormalD Phi

/-! ## Specification -/

/-- The law of a number whose logarithm is normal with mean `m` and standard deviation `s`. -/
noncomputable def logNormalLaw (m s : ℝ) : Measure ℝ := (normalLaw m s).map Real.exp

/-- `pdf` is the density of a law of positive numbers. -/
def PositiveDensityOf (ν : Measure ℝ) (pdf : ℝ → Res ℝ) : Prop :=
  ∃ f : ℝ → ℝ, Measurable f ∧ (∀ x, 0 < x → 0 ≤ f x) ∧ (∀ x, 0 < x → pdf x = .ok (f x)) ∧
    ν = (volume.restrict (Ioi 0)).withDensity fun x => ENNReal.ofReal (f x)

/-- `cdf` is the distribution function, for positive arguments. -/
def PositiveCdfOf (ν : Measure ℝ) (cdf : ℝ → Res ℝ) : Prop := ∀ x, 0 < x → cdf x = .ok (ν.real (Iic x))

/-! ## Helpers -/

namespace LogNormalD

theorem cdf_eq {d : LogNormalD} (hs : 0 < d.sigma) {x : ℝ} (hx : 0 < x) :
    d.cdf x = .ok (Phi ((Real.log x - d.mu) / d.sigma)) := by
  have := NormalD.cdf_ok (d := ⟨d.mu, d.sigma⟩) hs (Real.log x)
  unfold NormalD.cdf at this
  unfold cdf
  rw [flog, if_neg (not_le.2 hx)]
  exact this

theorem pdf_eq {d : LogNormalD} (hs : 0 < d.sigma) {x : ℝ} (hx : 0 < x) :
    d.pdf x = .ok (phi ((Real.log x - d.mu) / d.sigma) / d.sigma / x) := by
  have h1 : 2.0 * (d.sigma * d.sigma) ≠ 0 := by positivity
  have h2 : √(2.0 * π) * d.sigma * x ≠ 0 := by positivity
  unfold pdf
  simp only [Res.monad_bind_eq, flog, if_neg (not_le.2 hx), fdiv, if_neg h1, if_neg h2, Res.bind_ok]
  congr 1
  unfold phi
  rw [div_pow, show -(Real.log x - d.mu) * (Real.log x - d.mu) / (2.0 * (d.sigma * d.sigma)) =
    -((Real.log x - d.mu) ^ 2 / d.sigma ^ 2) / 2 by norm_num; field_simp; ring, show (2.0 : ℝ) = 2 by norm_num]
  field_simp

theorem real_Iic_exp {m s : ℝ} {x : ℝ} (hx : 0 < x) :
    (logNormalLaw m s).real (Iic x) = (normalLaw m s).real (Iic (Real.log x)) := by
  have : Real.exp ⁻¹' Iic x = Iic (Real.log x) := by
    ext y
    simp only [mem_preimage, mem_Iic]
    rw [Real.le_log_iff_exp_le hx]
  rw [logNormalLaw, map_measureReal_apply Real.measurable_exp measurableSet_Iic, this]

theorem density {m s : ℝ} (hs : 0 < s) :
    logNormalLaw m s = (volume.restrict (Ioi 0)).withDensity fun x =>
      ENNReal.ofReal (phi ((Real.log x - m) / s) / s / x) := by
  ext A hA
  have hB : MeasurableSet (Real.exp ⁻¹' A) := Real.measurable_exp hA
  rw [logNormalLaw, Measure.map_apply Real.measurable_exp hA, normalLaw_density hs, withDensity_apply _ hB,
    withDensity_apply _ hA, Measure.restrict_restrict hA]
  have e : A ∩ Ioi 0 = Real.exp '' (Real.exp ⁻¹' A) := by
    rw [image_preimage_eq_inter_range, Real.range_exp]
  rw [e, lintegral_image_eq_lintegral_abs_deriv_mul hB
    (fun x _ => (Real.hasDerivAt_exp x).hasDerivWithinAt) Real.exp_injective.injOn]
  refine lintegral_congr fun x => ?_
  rw [Real.log_exp, ← ENNReal.ofReal_mul (abs_nonneg _), abs_of_pos (exp_pos x)]
  congr 1
  have := exp_pos x
  field_simp

end LogNormalD

/-! ## Theorems -/

open LogNormalD in
/-- `LogNormal(mu, sigma)` with a positive `sigma`: `Pdf` and `Cdf`, for positive arguments, and `Quantile` are those of
the law of a number whose logarithm is normal, and the draws are independent and of a law near it. -/
theorem logNormal_describes_partial {m s : ℝ} (hs : 0 < s) :
    IsProbabilityMeasure (logNormalLaw m s) ∧ PositiveDensityOf (logNormalLaw m s) (LogNormalD.create m s).pdf ∧
    PositiveCdfOf (logNormalLaw m s) (LogNormalD.create m s).cdf ∧
    QuantileInside (logNormalLaw m s) (LogNormalD.create m s).quantile ∧
    DrawsNear (LogNormalD.create m s).draw (logNormalLaw m s) := by
  have hp := (normal_describes (m := m) hs).1
  refine ⟨Measure.isProbabilityMeasure_map Real.measurable_exp.aemeasurable, ?_, ?_, ?_, ?_⟩
  · refine ⟨fun x => phi ((Real.log x - m) / s) / s / x, ?_, ?_, ?_, density hs⟩
    · have := phi_cont.measurable
      fun_prop
    · intro x hx
      have := phi_pos ((Real.log x - m) / s)
      positivity
    · intro x hx
      exact pdf_eq (d := create m s) hs hx
  · intro x hx
    rw [cdf_eq (d := create m s) hs hx, real_Iic_exp hx, normalLaw, real_Iic hs]
    rfl
  · intro p h0 h1
    obtain ⟨x, hx, hl, he⟩ := (normal_describes (m := m) hs).2.2.2.1 p h0 h1
    refine ⟨Real.exp x, ?_, ⟨?_, ?_⟩, ?_⟩
    · unfold NormalD.quantile at hx
      rw [Res.monad_bind_eq] at hx
      obtain ⟨e, he, hx⟩ := Res.bind_eq_ok.1 hx
      unfold LogNormalD.quantile
      rw [Res.monad_bind_eq, he, Res.bind_ok, ← Res.ok.inj hx]
      rfl
    · show p ≤ (logNormalLaw m s).real (Iic (Real.exp x))
      rw [real_Iic_exp (exp_pos x), Real.log_exp, he]
    · intro y hy
      have hy' : p ≤ (logNormalLaw m s).real (Iic y) := hy
      rcases le_or_gt y 0 with h | h
      · exfalso
        have : (logNormalLaw m s).real (Iic y) = 0 := by
          rw [logNormalLaw, map_measureReal_apply Real.measurable_exp measurableSet_Iic]
          have : Real.exp ⁻¹' Iic y = ∅ := by
            ext z
            simp only [mem_preimage, mem_Iic, mem_empty_iff_false, iff_false, not_le]
            exact h.trans_lt (exp_pos z)
          rw [this, measureReal_empty]
        linarith
      · rw [real_Iic_exp h] at hy'
        rw [← Real.le_log_iff_exp_le h]
        exact hl.2 hy'
    · rw [real_Iic_exp (exp_pos x), Real.log_exp, he]
  · refine drawsNear_of (g := fun z => Real.exp (m + s * z)) (by fun_prop) ?_ fun norm01 st st' z e => ?_
    · rw [logNormalLaw, normalLaw, ← map_std, Measure.map_map Real.measurable_exp (by fun_prop)]
      rfl
    · unfold LogNormalD.draw NormalD.draw
      simp only [Res.monad_bind_eq, e, Res.bind_ok]
      rfl

example : PositiveCdfOf (logNormalLaw 1 2) (LogNormalD.create 1 2).cdf :=
  (logNormal_describes_partial (m := 1) (s := 2) (by norm_num)).2.2.1

/-- `Quantile` fails for 0 and 1. -/
theorem logNormal_quantile_ends (d : LogNormalD) {p : ℝ} (h : p = 0 ∨ p = 1) : ∃ e, d.quantile p = .throws e := by
  obtain ⟨e, he⟩ := Phi.erfcInv_throws (p := p) (by rcases h with h | h <;> [left; right] <;> linarith)
  unfold LogNormalD.quantile
  rw [Res.monad_bind_eq, he]
  exact ⟨e, rfl⟩

/-- After `SetParameters` the draws are those of the parameters before the call, whatever the new ones are, while `Cdf`,
`Pdf` and `Quantile` are those of the new ones. -/
theorem logNormal_setParameters_violation (m s m' s' : ℝ) :
    (∀ {σ : Type} (norm01 : σ → Res (ℝ × σ)) (st : σ),
      ((LogNormalD.create m s).setParameters m' s').draw norm01 st = (LogNormalD.create m s).draw norm01 st) ∧
    ((LogNormalD.create m s).setParameters m' s').cdf = (LogNormalD.create m' s').cdf ∧
    ((LogNormalD.create m s).setParameters m' s').pdf = (LogNormalD.create m' s').pdf ∧
    ((LogNormalD.create m s).setParameters m' s').quantile = (LogNormalD.create m' s').quantile :=
  ⟨fun _ _ => rfl, rfl, rfl, rfl⟩

/-- An object of the default constructor: it draws from the law with parameters 0 and 1, but its quantiles are all 1. After one call of `SetParameters` the draws are all 1. -/
theorem logNormal_default_violation :
    DrawsNear LogNormalD.default.draw (logNormalLaw 0 1) ∧
    (∀ p, 0 < p → p < 1 → LogNormalD.default.quantile p = .ok 1) ∧
    ∀ m s, ∀ {σ : Type} (norm01 : σ → Res (ℝ × σ)) (st st' : σ) (z : ℝ), norm01 st = .ok (z, st') →
      (LogNormalD.default.setParameters m s).draw norm01 st = .ok (1, st') := by
  refine ⟨?_, fun p h0 h1 => ?_, fun m s σ norm01 st st' z e => ?_⟩
  · refine drawsNear_of (g := fun z => Real.exp (0 + 1 * z)) (by fun_prop) ?_ fun norm01 st st' z e => ?_
    · rw [logNormalLaw, normalLaw, ← map_std, Measure.map_map Real.measurable_exp (by fun_prop)]
      rfl
    · unfold LogNormalD.draw NormalD.draw
      simp only [Res.monad_bind_eq, e, Res.bind_ok]
      unfold LogNormalD.default NormalD.default
      norm_num
  · obtain ⟨z, hz⟩ := Phi_surj h0 h1
    unfold LogNormalD.quantile
    rw [Res.monad_bind_eq, erfcInv_eq hz, Res.bind_ok]
    unfold LogNormalD.default
    norm_num
  · unfold LogNormalD.draw NormalD.draw
    simp only [Res.monad_bind_eq, e, Res.bind_ok]
    unfold LogNormalD.setParameters LogNormalD.default NormalD.setParameters
    norm_num

end Verif
