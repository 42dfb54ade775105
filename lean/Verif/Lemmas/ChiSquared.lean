import Verif.Lemmas.GammaInv
import Mathlib.Analysis.SpecialFunctions.Log.Deriv
import Mathlib.MeasureTheory.Integral.IntervalIntegral.Basic

/-!
# The logarithm of two, and the distribution function as an incomplete gamma function
-/

namespace Verif
namespace Gam

/-- The constant of the constructor is the logarithm of two. -/
theorem log_two_const : |(0.693147180559945309 : ℝ) - Real.log 2| ≤ 2e-15 := by
  have t : |(1 / 2 : ℝ)| = 1 / 2 := by rw [abs_of_pos]; norm_num
  have z := Real.abs_log_sub_add_sum_range_le (show |(1 / 2 : ℝ)| < 1 by rw [t]; norm_num) 52
  rw [t] at z
  norm_num1 at z
  rw [one_div (2:ℝ), Real.log_inv] at z
  rw [← sub_eq_add_neg] at z
  have hs : (2e-15 : ℝ) = (2e-15 - 1 / 4503599627370496) + 1 / 4503599627370496 := by ring
  rw [hs]
  refine le_trans (abs_sub_le _ _ _) (add_le_add ?_ z)
  rw [abs_le]
  norm_num

theorem lowG_half {k x : ℝ} (hk : 0 < k) (hx : 0 ≤ x) :
    (∫ t in (0:ℝ)..x, t ^ (k / 2 - 1) * Real.exp (-t / 2) / (2 ^ (k / 2) * Real.Gamma (k / 2))) =
      lowG (0.5 * k) (0.5 * x) / Real.Gamma (0.5 * k) := by
  have e5 : (0.5:ℝ) * k = k / 2 := by norm_num; ring
  have e6 : (0.5:ℝ) * x = x / 2 := by norm_num; ring
  rw [e5, e6]
  have h := intervalIntegral.integral_comp_div (a := 0) (b := x)
    (fun s : ℝ => s ^ (k / 2 - 1) * Real.exp (-s)) (two_ne_zero' ℝ)
  have h2 : lowG (k / 2) (x / 2) = 2⁻¹ * ∫ t in (0:ℝ)..x, (t / 2) ^ (k / 2 - 1) * Real.exp (-(t / 2)) := by
    rw [h, smul_eq_mul, zero_div]
    unfold lowG
    ring
  rw [h2, ← intervalIntegral.integral_const_mul, ← intervalIntegral.integral_div]
  apply intervalIntegral.integral_congr
  intro t ht
  rw [Set.uIcc_of_le hx] at ht
  have hg := Real.Gamma_pos_of_pos (by positivity : 0 < k / 2)
  have h3 : (2:ℝ) ^ (k / 2) = 2 ^ (k / 2 - 1) * 2 := by
    rw [← Real.rpow_add_one (by norm_num)]; ring_nf
  have h4 : (0:ℝ) < 2 ^ (k / 2 - 1) := Real.rpow_pos_of_pos (by norm_num) _
  simp only
  rw [Real.div_rpow ht.1 (by norm_num), h3, neg_div]
  field_simp

end Gam
end Verif
