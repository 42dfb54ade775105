import Verif.Model.NormalDistr
import Verif.Lemmas.Outcome
import Mathlib.Probability.Distributions.Gaussian.Real
import Mathlib.Probability.CDF
import Mathlib.MeasureTheory.Integral.IntegralEqImproper
import Mathlib.MeasureTheory.Integral.IntervalIntegral.FundThmCalculus

/-! Helper lemmas: the normal distribution function, its derivative and its tails. -/

namespace Verif.Phi

open MeasureTheory ProbabilityTheory Set Filter Real

/-- The standard normal distribution function. -/
noncomputable def Phi (z : ℝ) : ℝ := (gaussianReal 0 1).real (Iic z)

/-- The standard normal density. -/
noncomputable def phi (z : ℝ) : ℝ := (√(2 * π))⁻¹ * exp (-z ^ 2 / 2)

theorem phi_eq (z : ℝ) : gaussianPDFReal 0 1 z = phi z := by
  simp [gaussianPDFReal, phi]

theorem phi_pos (z : ℝ) : 0 < phi z := by
  unfold phi
  positivity

theorem phi_cont : Continuous phi := by
  unfold phi
  fun_prop

theorem phi_int : Integrable phi := by
  have := integrable_gaussianPDFReal 0 1
  exact this.congr (Eventually.of_forall phi_eq)

theorem phi_neg (z : ℝ) : phi (-z) = phi z := by simp [phi]

theorem real_eq {A : Set ℝ} (hA : MeasurableSet A) : (gaussianReal 0 1).real A = ∫ x in A, phi x := by
  rw [measureReal_def, gaussianReal_apply_eq_integral _ one_ne_zero, ENNReal.toReal_ofReal]
  · exact setIntegral_congr_fun hA fun x _ => phi_eq x
  · exact setIntegral_nonneg hA fun x _ => gaussianPDFReal_nonneg 0 1 x

theorem Phi_eq (z : ℝ) : Phi z = ∫ x in Iic z, phi x := real_eq measurableSet_Iic

theorem Phi_sub {a b : ℝ} (h : a ≤ b) : Phi b - Phi a = ∫ x in a..b, phi x := by
  rw [Phi_eq, Phi_eq, intervalIntegral.integral_Iic_sub_Iic phi_int.integrableOn phi_int.integrableOn]

theorem Phi_deriv (z : ℝ) : HasDerivAt Phi (phi z) z := by
  have e : Phi = fun b => Phi (z - 1) + ∫ x in (z - 1)..b, phi x := by
    funext b
    rw [Phi_eq b, Phi_eq (z - 1), ← intervalIntegral.integral_Iic_sub_Iic phi_int.integrableOn phi_int.integrableOn]
    ring
  rw [e]
  exact (intervalIntegral.integral_hasDerivAt_right (phi_int.intervalIntegrable)
    (phi_cont.stronglyMeasurableAtFilter _ _) phi_cont.continuousAt).const_add _

theorem Phi_strictMono : StrictMono Phi :=
  strictMono_of_deriv_pos fun x => by rw [(Phi_deriv x).deriv]; exact phi_pos x

theorem Phi_cont : Continuous Phi := continuous_iff_continuousAt.2 fun x => (Phi_deriv x).continuousAt

theorem Phi_cdf : (fun z => cdf (gaussianReal 0 1) z) = Phi := by
  funext z
  rw [cdf_eq_real]
  rfl

theorem Phi_top : Tendsto Phi atTop (nhds 1) := by
  rw [← Phi_cdf]
  exact tendsto_cdf_atTop _

theorem Phi_bot : Tendsto Phi atBot (nhds 0) := by
  rw [← Phi_cdf]
  exact tendsto_cdf_atBot _

theorem Phi_pos (z : ℝ) : 0 < Phi z := by
  have h : Phi (z - 1) < Phi z := Phi_strictMono (by linarith)
  exact lt_of_le_of_lt measureReal_nonneg h

theorem Phi_lt_one (z : ℝ) : Phi z < 1 := by
  have h : Phi z < Phi (z + 1) := Phi_strictMono (by linarith)
  exact lt_of_lt_of_le h measureReal_le_one

theorem Phi_compl (z : ℝ) : 1 - Phi z = ∫ x in Ioi z, phi x := by
  rw [← real_eq measurableSet_Ioi, ← compl_Iic, probReal_compl_eq_one_sub measurableSet_Iic]
  rfl

theorem Phi_neg (z : ℝ) : Phi (-z) = 1 - Phi z := by
  have h := integral_comp_neg_Iic (-z) phi
  rw [neg_neg] at h
  rw [Phi_compl, Phi_eq, ← h]
  simp only [phi_neg]

theorem Phi_zero : Phi 0 = 1 / 2 := by
  have := Phi_neg 0
  rw [neg_zero] at this
  linarith

theorem Phi_surj {p : ℝ} (h0 : 0 < p) (h1 : p < 1) : ∃ z, Phi z = p := by
  obtain ⟨a, ha⟩ := (Phi_bot.eventually_lt_const h0).exists
  obtain ⟨b, hb⟩ := (Phi_top.eventually_const_lt h1).exists
  have hab : a ≤ b := by
    by_contra hc
    have := Phi_strictMono (not_le.1 hc)
    linarith
  obtain ⟨z, _, hz⟩ := intermediate_value_Icc hab Phi_cont.continuousOn ⟨ha.le, hb.le⟩
  exact ⟨z, hz⟩

theorem erfc_Phi (z : ℝ) : erfc (-z * √(1 / 2)) / 2 = Phi z := by
  have hc : (0 : ℝ) < √(1 / 2) := by positivity
  have h1 : ∫ x in Ioi (-z), exp (-(√(1 / 2) * x) ^ 2) = (√(1 / 2))⁻¹ • ∫ x in Ioi (√(1 / 2) * -z), exp (-x ^ 2) :=
    integral_comp_mul_left_Ioi (fun t => exp (-t ^ 2)) (-z) hc
  have h2 : Phi z = ∫ x in Ioi (-z), phi x := by
    rw [← Phi_compl, Phi_neg]
    ring
  have h3 : ∀ x : ℝ, exp (-(√(1 / 2) * x) ^ 2) = exp (-x ^ 2 / 2) := by
    intro x
    rw [mul_pow, Real.sq_sqrt (by norm_num)]
    congr 1
    ring
  simp only [h3, smul_eq_mul] at h1
  have h4 : ∫ x in Ioi (-z), phi x = (√(2 * π))⁻¹ * ∫ x in Ioi (-z), exp (-x ^ 2 / 2) := by
    unfold phi
    rw [integral_const_mul]
  rw [h2, h4, h1, erfc, mul_comm (√(1 / 2)) (-z)]
  rw [show √(2 * π) = √2 * √π from Real.sqrt_mul (by norm_num) π, Real.sqrt_div (by norm_num), Real.sqrt_one]
  have : √π ≠ 0 := by positivity
  have : √2 ≠ 0 := by positivity
  field_simp

theorem erfc_eq (t : ℝ) : erfc t = 2 * Phi (-t * √2) := by
  have h := erfc_Phi (-t * √2)
  have e : -(-t * √2) * √(1 / 2) = t := by
    have h2 : √2 * √(1 / 2) = 1 := by
      rw [← Real.sqrt_mul (by norm_num)]
      norm_num
    linear_combination t * h2
  rw [e] at h
  linarith

theorem erfc_inj : Function.Injective erfc := by
  intro a b h
  rw [erfc_eq, erfc_eq] at h
  have h1 := Phi_strictMono.injective (by linarith : Phi (-a * √2) = Phi (-b * √2))
  have h2 : √2 ≠ 0 := by positivity
  have := mul_right_cancel₀ h2 h1
  linarith

theorem erfcInv_eq {p z : ℝ} (h : Phi z = p) : erfcInv (2 * p) = .ok (-z * √(1 / 2)) := by
  have h0 := Phi_pos z
  have h1 := Phi_lt_one z
  unfold erfcInv
  rw [if_neg (by push Not; constructor <;> linarith)]
  congr 1
  have e : erfc (-z * √(1 / 2)) = 2 * p := by
    have := erfc_Phi z
    linarith
  rw [← e]
  exact Function.leftInverse_invFun erfc_inj _

theorem erfcInv_throws {p : ℝ} (h : p ≤ 0 ∨ 1 ≤ p) : ∃ m, erfcInv (2 * p) = .throws m := by
  have : 2 * p ≤ 0 ∨ 2 * p ≥ 2 := by
    rcases h with h | h
    · left; linarith
    · right; linarith
  unfold erfcInv
  rw [if_pos this]
  exact ⟨_, rfl⟩

/-! ## Tails -/

theorem phi_tail_deriv (z : ℝ) : HasDerivAt (fun x => -phi x) (z * phi z) z := by
  unfold phi
  have h : HasDerivAt (fun x : ℝ => -x ^ 2 / 2) (-z) z := by
    have := ((hasDerivAt_pow 2 z).neg).div_const 2
    refine this.congr_deriv ?_
    norm_num
    ring
  have := ((h.exp).const_mul ((√(2 * π))⁻¹)).neg
  refine this.congr_deriv ?_
  ring

theorem phi_zero_top : Tendsto phi atTop (nhds 0) := by
  unfold phi
  rw [show (0 : ℝ) = (√(2 * π))⁻¹ * 0 by ring]
  refine Tendsto.const_mul _ ?_
  refine Real.tendsto_exp_atBot.comp ?_
  have : Tendsto (fun x : ℝ => x ^ 2 / 2) atTop atTop :=
    (tendsto_pow_atTop two_ne_zero).atTop_div_const two_pos
  refine (tendsto_neg_atTop_atBot.comp this).congr fun x => ?_
  simp [neg_div]

/-- `∫_z^∞ x φ(x) dx = φ(z)`. -/
theorem mean_tail {z : ℝ} (hz : 0 ≤ z) :
    IntegrableOn (fun x => x * phi x) (Ioi z) ∧ ∫ x in Ioi z, x * phi x = phi z := by
  have hl : Tendsto (fun x => -phi x) atTop (nhds (-0)) := phi_zero_top.neg
  have h := integrableOn_Ioi_deriv_of_nonneg' (g := fun x => -phi x) (g' := fun x => x * phi x) (a := z)
    (fun x _ => phi_tail_deriv x) (fun x hx => mul_nonneg (hz.trans (le_of_lt hx)) (phi_pos x).le) hl
  refine ⟨h, ?_⟩
  rw [integral_Ioi_of_hasDerivAt_of_tendsto' (fun x _ => phi_tail_deriv x) h hl]
  ring

/-- The tail of the normal law is less than its density over the point. -/
theorem mills {z : ℝ} (hz : 0 < z) : z * (1 - Phi z) ≤ phi z := by
  obtain ⟨hi, he⟩ := mean_tail hz.le
  rw [Phi_compl, ← he, ← integral_const_mul]
  refine setIntegral_mono_on (phi_int.integrableOn.const_mul z) hi measurableSet_Ioi fun x hx => ?_
  exact mul_le_mul_of_nonneg_right (le_of_lt hx) (phi_pos x).le

theorem mills' (z : ℝ) : z * (1 - Phi z) ≤ phi z := by
  rcases le_or_gt z 0 with h | h
  · have := phi_pos z
    have := Phi_lt_one z
    nlinarith
  · exact mills h

/-! ## The law with mean `m` and standard deviation `s` -/

theorem map_std {m s : ℝ} : (gaussianReal 0 1).map (fun z => m + s * z) = gaussianReal m (s ^ 2).toNNReal := by
  have h1 : (gaussianReal 0 1).map (s * ·) = gaussianReal 0 (s ^ 2).toNNReal := by
    rw [gaussianReal_map_const_mul]
    congr 1
    · ring
    · rw [mul_one]
      ext
      simp [Real.coe_toNNReal _ (sq_nonneg s)]
  have h2 : (gaussianReal 0 (s ^ 2).toNNReal).map (m + ·) = gaussianReal m (s ^ 2).toNNReal := by
    rw [gaussianReal_map_const_add]
    simp
  rw [← h2, ← h1, Measure.map_map (by fun_prop) (by fun_prop)]
  rfl

theorem real_Iic {m s : ℝ} (hs : 0 < s) (x : ℝ) :
    (gaussianReal m (s ^ 2).toNNReal).real (Iic x) = Phi ((x - m) / s) := by
  rw [← map_std, map_measureReal_apply (by fun_prop) measurableSet_Iic]
  unfold Phi
  congr 1
  ext z
  simp only [mem_preimage, mem_Iic, le_div_iff₀ hs]
  constructor <;> intro h <;> linarith

end Verif.Phi
