import Mathlib.MeasureTheory.Measure.Lebesgue.Basic
import Mathlib.MeasureTheory.Measure.Prod
import Mathlib.MeasureTheory.Group.LIntegral
import Mathlib.MeasureTheory.Integral.IntervalIntegral.FundThmCalculus
import Mathlib.Analysis.Calculus.FDeriv.Extend
import Mathlib.Analysis.Calculus.Deriv.Pow
import Mathlib.MeasureTheory.Measure.Lebesgue.EqHaar

/-! Helper lemmas: densities of sums of two and three uniform numbers. -/

namespace Verif.UnifSum

open MeasureTheory Set
open scoped ENNReal

/-- Uniform numbers in [0, 1). -/
noncomputable def unif : Measure ℝ := volume.restrict (Ico 0 1)

instance : IsProbabilityMeasure unif := ⟨by simp [unif]⟩

/-- Sum of a uniform number and a number with density `q`. -/
theorem lintegral_add {F q : ℝ → ℝ≥0∞} (hF : Measurable F) (hq : Measurable q) :
    ∫⁻ a, (∫⁻ b, F (a + b) * q b) ∂unif = ∫⁻ y, F y * ∫⁻ a, q (y - a) ∂unif := by
  have h1 : ∀ a, ∫⁻ b, F (a + b) * q b = ∫⁻ y, F y * q (y - a) := by
    intro a
    rw [← lintegral_add_left_eq_self (fun y => F y * q (y - a)) a]
    simp
  have hm : Measurable (Function.uncurry fun a y : ℝ => F y * q (y - a)) :=
    (hF.comp measurable_snd).mul (hq.comp (measurable_snd.sub measurable_fst))
  simp only [h1]
  rw [lintegral_lintegral_swap hm.aemeasurable]
  refine lintegral_congr fun y => ?_
  exact lintegral_const_mul _ (hq.comp (measurable_const.sub measurable_id))

/-- The positive part. -/
noncomputable def pp (y : ℝ) : ℝ := max 0 y

theorem continuous_pp : Continuous pp := continuous_const.max continuous_id

theorem pp_of_nonneg {y : ℝ} (h : 0 ≤ y) : pp y = y := max_eq_right h

theorem pp_of_nonpos {y : ℝ} (h : y ≤ 0) : pp y = 0 := max_eq_left h

theorem hasDerivAt_pp_sq (y : ℝ) : HasDerivAt (fun y => pp y ^ 2 / 2) (pp y) y := by
  refine hasDerivAt_of_hasDerivAt_of_ne' (x := 0) (fun y hy => ?_) ?_ ?_ y
  · rcases lt_or_gt_of_ne hy with h | h
    · rw [pp_of_nonpos h.le]
      refine (hasDerivAt_const y (0 : ℝ)).congr_of_eventuallyEq ?_
      filter_upwards [Iio_mem_nhds h] with z hz
      rw [pp_of_nonpos (le_of_lt hz)]; norm_num
    · rw [pp_of_nonneg h.le]
      have : HasDerivAt (fun y : ℝ => y ^ 2 / 2) y y := by
        have := ((hasDerivAt_id y).pow 2).div_const 2
        simpa using this
      refine this.congr_of_eventuallyEq ?_
      filter_upwards [Ioi_mem_nhds h] with z hz
      rw [pp_of_nonneg (le_of_lt hz)]
  · exact ((continuous_pp.pow 2).div_const 2).continuousAt
  · exact continuous_pp.continuousAt

/-- Density of the sum of two uniform numbers. -/
noncomputable def tri (y : ℝ) : ℝ := pp y - 2 * pp (y - 1) + pp (y - 2)

/-- Density of the sum of three uniform numbers. -/
noncomputable def quad (y : ℝ) : ℝ :=
  (pp y ^ 2 - 3 * pp (y - 1) ^ 2 + 3 * pp (y - 2) ^ 2 - pp (y - 3) ^ 2) / 2

theorem continuous_tri : Continuous tri :=
  (continuous_pp.sub (continuous_const.mul (continuous_pp.comp (continuous_id.sub continuous_const)))).add
    (continuous_pp.comp (continuous_id.sub continuous_const))

theorem tri_eq (y : ℝ) : tri y = max 0 (min 1 y - max 0 (y - 1)) := by
  unfold tri pp
  rcases le_total y 0 with h0 | h0
  · rw [max_eq_left h0, max_eq_left (by linarith), max_eq_left (by linarith),
      min_eq_right (by linarith), max_eq_left (by linarith)]
    norm_num
  rcases le_total y 1 with h1 | h1
  · rw [max_eq_right h0, max_eq_left (by linarith), max_eq_left (by linarith),
      min_eq_right (by linarith), max_eq_right (by linarith)]
    norm_num
  rcases le_total y 2 with h2 | h2
  · rw [max_eq_right h0, max_eq_right (by linarith), max_eq_left (by linarith),
      min_eq_left (by linarith), max_eq_right (by linarith)]
    ring
  · rw [max_eq_right h0, max_eq_right (by linarith), max_eq_right (by linarith),
      min_eq_left (by linarith), max_eq_left (by linarith)]
    ring

theorem tri_nonneg (y : ℝ) : 0 ≤ tri y := by rw [tri_eq]; exact le_max_left _ _

theorem tri_lintegral (y : ℝ) :
    ∫⁻ a, (Ico 0 1).indicator 1 (y - a) ∂unif = ENNReal.ofReal (tri y) := by
  have e : (fun a : ℝ => (Ico (0 : ℝ) 1).indicator (1 : ℝ → ℝ≥0∞) (y - a))
      = (Ioc (y - 1) y).indicator 1 := by
    funext a
    simp only [indicator, mem_Ico, mem_Ioc, Pi.one_apply]
    congr 1
    exact propext ⟨fun h => ⟨by linarith [h.2], by linarith [h.1]⟩,
      fun h => ⟨by linarith [h.2], by linarith [h.1]⟩⟩
  rw [e, lintegral_indicator_one measurableSet_Ioc, unif, Measure.restrict_apply measurableSet_Ioc,
    tri_eq]
  have hr : ENNReal.ofReal (max 0 (min 1 y - max 0 (y - 1)))
      = ENNReal.ofReal (min 1 y - max 0 (y - 1)) := by
    rcases le_total 0 (min 1 y - max 0 (y - 1)) with h | h
    · rw [max_eq_right h]
    · rw [max_eq_left h, ENNReal.ofReal_of_nonpos h, ENNReal.ofReal_zero]
  rw [hr]
  refine le_antisymm ?_ ?_
  · rw [← Real.volume_Icc]
    refine measure_mono fun a ha => ⟨max_le ha.2.1 ha.1.1.le, le_min ha.2.2.le ha.1.2⟩
  · rw [← Real.volume_Ioo]
    refine measure_mono fun a ha => ?_
    obtain ⟨h1, h2⟩ := ha
    rw [max_lt_iff] at h1
    rw [lt_min_iff] at h2
    exact ⟨⟨h1.2, h2.2.le⟩, h1.1.le, h2.1⟩

theorem quad_lintegral (y : ℝ) :
    ∫⁻ a, ENNReal.ofReal (tri (y - a)) ∂unif = ENNReal.ofReal (quad y) := by
  have hc : Continuous fun a => tri (y - a) := continuous_tri.comp (continuous_const.sub continuous_id)
  have h1 : ∫ a in (0 : ℝ)..1, tri (y - a) = quad y := by
    have hd : ∀ c a : ℝ, HasDerivAt (fun a => -(pp (y - a - c) ^ 2 / 2)) (pp (y - a - c)) a := by
      intro c a
      have := ((hasDerivAt_pp_sq (y - a - c)).comp a
        ((((hasDerivAt_id a).const_sub y)).sub_const c)).neg
      refine HasDerivAt.congr_deriv this ?_
      simp
    have hd' : ∀ a : ℝ, HasDerivAt (fun a => -(pp (y - a) ^ 2 / 2)) (pp (y - a)) a := by
      intro a
      have := hd 0 a
      simpa using this
    have hD : ∀ a ∈ uIcc (0 : ℝ) 1, HasDerivAt (fun a => -(pp (y - a) ^ 2 / 2)
        - 2 * -(pp (y - a - 1) ^ 2 / 2) + -(pp (y - a - 2) ^ 2 / 2)) (tri (y - a)) a :=
      fun a _ => ((hd' a).sub ((hd 1 a).const_mul 2)).add (hd 2 a)
    rw [intervalIntegral.integral_eq_sub_of_hasDerivAt hD (hc.intervalIntegrable 0 1)]
    unfold quad
    rw [show y - 1 - 1 = y - 2 by ring, show y - 1 - 2 = y - 3 by ring, sub_zero]
    ring
  rw [← h1, intervalIntegral.integral_of_le zero_le_one, unif, restrict_Ico_eq_restrict_Ioc]
  refine (ofReal_integral_eq_lintegral_ofReal ?_ ?_).symm
  · exact (hc.integrableOn_Icc (a := 0) (b := 1)).mono_set Ioc_subset_Icc_self
  · exact Filter.Eventually.of_forall fun a => tri_nonneg _

/-- Two uniform numbers. -/
theorem lintegral_sum2 {F : ℝ → ℝ≥0∞} (hF : Measurable F) :
    ∫⁻ a, ∫⁻ b, F (a + b) ∂unif ∂unif = ∫⁻ y, F y * ENNReal.ofReal (tri y) := by
  have h := lintegral_add hF (measurable_one.indicator (measurableSet_Ico (a := (0 : ℝ)) (b := 1)))
  simp only [tri_lintegral] at h
  rw [← h]
  refine lintegral_congr fun a => ?_
  rw [unif, ← lintegral_indicator measurableSet_Ico]
  refine lintegral_congr fun b => ?_
  by_cases hb : b ∈ Ico (0 : ℝ) 1
  · simp [indicator_of_mem hb]
  · simp [indicator_of_notMem hb]

/-- Three uniform numbers. -/
theorem lintegral_sum3 {F : ℝ → ℝ≥0∞} (hF : Measurable F) :
    ∫⁻ a, ∫⁻ b, ∫⁻ c, F (a + b + c) ∂unif ∂unif ∂unif = ∫⁻ y, F y * ENNReal.ofReal (quad y) := by
  have h := lintegral_add hF (ENNReal.measurable_ofReal.comp continuous_tri.measurable)
  simp only [Function.comp, quad_lintegral] at h
  rw [← h]
  refine lintegral_congr fun a => ?_
  rw [← lintegral_sum2 (F := fun y => F (a + y)) (hF.comp (measurable_const.add measurable_id))]
  simp only [add_assoc]

end Verif.UnifSum
