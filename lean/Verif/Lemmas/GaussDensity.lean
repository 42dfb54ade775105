import Mathlib.Probability.Distributions.Gaussian.HasGaussianLaw.Independence
import Mathlib.Probability.Independence.Integration
import Mathlib.MeasureTheory.Measure.Lebesgue.EqHaar

/-! The density of a normal vector in terms of the eigenvectors of its covariance matrix. -/

namespace Verif

open MeasureTheory ProbabilityTheory Matrix

theorem gaussianPDF_std (x : ℝ) : gaussianPDF 0 1 x = ENNReal.ofReal (Real.exp (-(1 / 2 * (Real.log (2 * Real.pi) + x ^ 2)))) := by
  rw [gaussianPDF_def]
  dsimp only
  congr 1
  rw [gaussianPDFReal]
  have h : (0 : ℝ) < 2 * Real.pi := by positivity
  have : (√(2 * Real.pi * (1 : NNReal)))⁻¹ = Real.exp (-(1 / 2 * Real.log (2 * Real.pi))) := by
    rw [Real.exp_neg, NNReal.coe_one, mul_one, Real.sqrt_eq_rpow, Real.rpow_def_of_pos h]
    congr 2
    ring
  rw [this, ← Real.exp_add]
  congr 1
  simp
  ring

/-- The density of independent standard normal numbers. -/
theorem pi_gauss_density (n : ℕ) : Measure.pi (fun _ : Fin n => gaussianReal 0 1) =
    (volume : Measure (Fin n → ℝ)).withDensity fun y => ENNReal.ofReal (Real.exp (-(1 / 2 * (n * Real.log (2 * Real.pi) + ∑ i, y i ^ 2)))) := by
  set f : ℝ → ENNReal := gaussianPDF 0 1 with hf
  have fm : Measurable f := measurable_gaussianPDF 0 1
  have f0 : ∀ x, f x ≠ 0 := fun x => (gaussianPDF_pos 0 one_ne_zero x).ne'
  have ft : ∀ x, f x ≠ ⊤ := fun x => by simp [hf, gaussianPDF_def]
  have hv : (volume : Measure ℝ) = (gaussianReal 0 1).withDensity fun x => (f x)⁻¹ := by
    have e : (f * fun x => (f x)⁻¹) = 1 := by
      funext x
      exact ENNReal.mul_inv_cancel (f0 x) (ft x)
    have h := withDensity_mul (volume : Measure ℝ) fm (g := fun x => (f x)⁻¹) fm.inv
    rw [e, withDensity_one] at h
    rw [gaussianReal_of_var_ne_zero 0 one_ne_zero]
    exact h
  have h1 : (volume : Measure (Fin n → ℝ)) = (Measure.pi (fun _ : Fin n => gaussianReal 0 1)).withDensity fun y => ∏ i, (f (y i))⁻¹ := by
    rw [volume_pi]
    refine Measure.pi_eq fun s hs => ?_
    rw [withDensity_apply _ (MeasurableSet.univ_pi hs), ← lintegral_indicator (MeasurableSet.univ_pi hs)]
    have e : ∀ y : Fin n → ℝ, (Set.univ.pi s).indicator (fun y => ∏ i, (f (y i))⁻¹) y = ∏ i, (s i).indicator (fun x => (f x)⁻¹) (y i) := by
      intro y
      by_cases hy : y ∈ Set.univ.pi s
      · rw [Set.indicator_of_mem hy]
        exact Finset.prod_congr rfl fun i _ => by
          rw [Set.indicator_of_mem (hy i trivial)]
      · rw [Set.indicator_of_notMem hy]
        obtain ⟨i, hi⟩ : ∃ i, y i ∉ s i := by
          by_contra hc
          push Not at hc
          exact hy fun i _ => hc i
        exact (Finset.prod_eq_zero (Finset.mem_univ i) (Set.indicator_of_notMem hi _)).symm
    simp only [e]
    have gm : ∀ i, Measurable ((s i).indicator fun x => (f x)⁻¹) := fun i => fm.inv.indicator (hs i)
    rw [lintegral_prod_eq_prod_lintegral_of_indepFun Finset.univ (fun i (y : Fin n → ℝ) => (s i).indicator (fun x => (f x)⁻¹) (y i))
      (iIndepFun_pi fun i => (gm i).aemeasurable) fun i => (gm i).comp (measurable_pi_apply i)]
    refine Finset.prod_congr rfl fun i _ => ?_
    rw [(measurePreserving_eval (fun _ : Fin n => gaussianReal 0 1) i).lintegral_comp (gm i), lintegral_indicator (hs i)]
    conv_rhs => rw [hv]
    rw [withDensity_apply _ (hs i)]
  have pm : Measurable fun y : Fin n → ℝ => ∏ i, f (y i) := Finset.measurable_prod _ fun i _ => fm.comp (measurable_pi_apply i)
  have pm' : Measurable fun y : Fin n → ℝ => ∏ i, (f (y i))⁻¹ := Finset.measurable_prod _ fun i _ => fm.inv.comp (measurable_pi_apply i)
  have h2 : (volume : Measure (Fin n → ℝ)).withDensity (fun y => ∏ i, f (y i)) = Measure.pi (fun _ : Fin n => gaussianReal 0 1) := by
    rw [h1, ← withDensity_mul _ pm' pm]
    have : ((fun y : Fin n → ℝ => ∏ i, (f (y i))⁻¹) * fun y => ∏ i, f (y i)) = 1 := by
      funext y
      rw [Pi.mul_apply, ← Finset.prod_mul_distrib]
      exact Finset.prod_eq_one fun i _ => ENNReal.inv_mul_cancel (f0 _) (ft _)
    rw [this, withDensity_one]
  rw [← h2]
  congr 1
  funext y
  simp only [hf, gaussianPDF_std]
  rw [← ENNReal.ofReal_prod_of_nonneg fun i _ => (Real.exp_pos _).le, ← Real.exp_sum]
  congr 2
  simp only [mul_add, neg_add, Finset.sum_add_distrib, Finset.sum_neg_distrib, ← Finset.mul_sum, Finset.sum_const, Finset.card_univ, Fintype.card_fin,
    nsmul_eq_mul]

theorem map_withDensity_comp {α β : Type} [MeasurableSpace α] [MeasurableSpace β] {μ : Measure α} {T : α → β} (hT : Measurable T) {g : β → ENNReal}
    (hg : Measurable g) : (μ.map T).withDensity g = (μ.withDensity (g ∘ T)).map T := by
  ext B hB
  rw [withDensity_apply _ hB, Measure.map_apply hT hB, withDensity_apply _ (hT hB), setLIntegral_map hB hg hT]
  rfl

/-- The density of the image of independent standard normal numbers under an affine map. -/
theorem affine_gauss_density {n : ℕ} (m : Fin n → ℝ) {A : Matrix (Fin n) (Fin n) ℝ} (hA : A.det ≠ 0) {d : ℝ} (hd : Real.exp d = |A.det|)
    {y : (Fin n → ℝ) → Fin n → ℝ} (hym : Measurable y) (hy : ∀ z, y (m + A.mulVec z) = z) :
    (Measure.pi fun _ : Fin n => gaussianReal 0 1).map (fun z => m + A.mulVec z) = (volume : Measure (Fin n → ℝ)).withDensity fun x =>
      ENNReal.ofReal (Real.exp (-(1 / 2 * (n * Real.log (2 * Real.pi) + 2 * d + ∑ j, y x j ^ 2)))) := by
  have hl : Measurable fun z : Fin n → ℝ => A.mulVec z := (Continuous.matrix_mulVec continuous_const continuous_id).measurable
  have hT : Measurable fun z : Fin n → ℝ => m + A.mulVec z := hl.const_add m
  have hvol : (volume : Measure (Fin n → ℝ)).map (fun z => m + A.mulVec z) = ENNReal.ofReal |A.det⁻¹| • volume := by
    have h := Real.map_matrix_volume_pi_eq_smul_volume_pi hA
    have e : (fun z : Fin n → ℝ => m + A.mulVec z) = (fun x => m + x) ∘ fun z => A.mulVec z := rfl
    rw [e, ← Measure.map_map (measurable_const_add m) hl]
    have : (fun z : Fin n → ℝ => A.mulVec z) = toLin' A := by
      funext z
      simp
    rw [this, h, Measure.map_smul, map_add_left_eq_self]
  have hvol' : (volume : Measure (Fin n → ℝ)) = ENNReal.ofReal |A.det| • (volume : Measure (Fin n → ℝ)).map (fun z => m + A.mulVec z) := by
    rw [hvol, smul_smul, ← ENNReal.ofReal_mul (abs_nonneg _), ← abs_mul, mul_inv_cancel₀ hA, abs_one, ENNReal.ofReal_one, one_smul]
  have gm : Measurable fun x : Fin n → ℝ => ENNReal.ofReal (Real.exp (-(1 / 2 * (n * Real.log (2 * Real.pi) + 2 * d + ∑ j, y x j ^ 2)))) := by
    fun_prop
  rw [hvol', withDensity_smul_measure, map_withDensity_comp hT gm, ← Measure.map_smul, ← withDensity_smul _ (gm.comp hT), pi_gauss_density]
  congr 2
  funext z
  rw [Pi.smul_apply, Function.comp, hy, smul_eq_mul, ← hd, ← ENNReal.ofReal_mul (Real.exp_pos _).le, ← Real.exp_add]
  congr 2
  ring

/-- The density of a normal vector whose covariance matrix has the orthonormal eigenvectors `Q` with the eigenvalues `ev`. -/
theorem eigen_gauss_density {n : ℕ} {Ω : Type} [MeasurableSpace Ω] {P : Measure Ω} {X : Fin n → Ω → ℝ} {m ev : Fin n → ℝ}
    {Q : Matrix (Fin n) (Fin n) ℝ} (hpos : ∀ j, 0 < ev j) (hQ : Q.transpose * Q = 1) (hG : HasGaussianLaw (fun ω i => X i ω) P)
    (hm : ∀ i, ∫ ω, X i ω ∂P = m i) (hc : ∀ a b, cov[X a, X b; P] = ∑ j, Q a j * ev j * Q b j) :
    P.map (fun ω i => X i ω) = (volume : Measure (Fin n → ℝ)).withDensity fun x => ENNReal.ofReal (Real.exp (-(1 / 2 *
      (n * Real.log (2 * Real.pi) + Real.log (∏ j, ev j) + ∑ j, (∑ i, Q i j * (x i - m i)) ^ 2 / ev j)))) := by
  have := hG.isProbabilityMeasure
  have hs : ∀ j, 0 < √(ev j) := fun j => Real.sqrt_pos.2 (hpos j)
  have ss : ∀ j, √(ev j) * √(ev j) = ev j := fun j => Real.mul_self_sqrt (hpos j).le
  have orth : ∀ j k, ∑ i, Q i j * Q i k = if j = k then 1 else 0 := by
    intro j k
    have := congrFun (congrFun hQ j) k
    rwa [mul_apply, one_apply] at this
  have hQ' : Q * Q.transpose = 1 := mul_eq_one_comm.1 hQ
  -- the scaled coordinates
  let y : (Fin n → ℝ) → Fin n → ℝ := fun x j => (∑ i, Q i j * (x i - m i)) / √(ev j)
  have hym : Measurable y := by
    refine measurable_pi_lambda _ fun j => ?_
    fun_prop
  let A : Matrix (Fin n) (Fin n) ℝ := of fun i j => Q i j * √(ev j)
  have hAQ : A = Q * diagonal fun j => √(ev j) := by
    ext i j
    rw [mul_diagonal]
    rfl
  have hdetQ : |Q.det| = 1 := by
    have : Q.det * Q.det = 1 := by
      have := congrArg det hQ
      rwa [det_mul, det_transpose, det_one] at this
    have h2 : |Q.det| * |Q.det| = 1 := by rw [← abs_mul, this, abs_one]
    nlinarith [abs_nonneg Q.det]
  have hdetA : |A.det| = √(∏ j, ev j) := by
    rw [hAQ, det_mul, det_diagonal, abs_mul, hdetQ, one_mul, abs_of_pos (Finset.prod_pos fun j _ => hs j),
      Real.sqrt_prod _ fun j _ => (hpos j).le]
  have hp : 0 < ∏ j, ev j := Finset.prod_pos fun j _ => hpos j
  have hA : A.det ≠ 0 := by
    intro h
    rw [h, abs_zero] at hdetA
    exact (Real.sqrt_pos.2 hp).ne hdetA
  have hy : ∀ z, y (m + A.mulVec z) = z := by
    intro z
    funext j
    have : ∑ i, Q i j * ((m + A.mulVec z) i - m i) = √(ev j) * z j := by
      calc _ = ∑ i, Q i j * ∑ k, Q i k * √(ev k) * z k := by
            refine Finset.sum_congr rfl fun i _ => ?_
            rw [Pi.add_apply, add_sub_cancel_left]
            rfl
        _ = ∑ k, (∑ i, Q i j * Q i k) * (√(ev k) * z k) := by
            simp only [Finset.mul_sum, Finset.sum_mul]
            rw [Finset.sum_comm]
            exact Finset.sum_congr rfl fun k _ => Finset.sum_congr rfl fun i _ => by ring
        _ = _ := by simp [orth]
    show _ / _ = _
    rw [this, mul_comm, mul_div_cancel_right₀ _ (hs j).ne']
  have hy' : ∀ x, m + A.mulVec (y x) = x := by
    intro x
    funext i
    have h1 : A.mulVec (y x) i = ∑ j, Q i j * ∑ k, Q k j * (x k - m k) := by
      rw [mulVec, dotProduct]
      refine Finset.sum_congr rfl fun j _ => ?_
      show Q i j * √(ev j) * (_ / √(ev j)) = _
      have := (hs j).ne'
      field_simp
    have h2 : A.mulVec (y x) i = ∑ k, (Q * Q.transpose) i k * (x k - m k) := by
      rw [h1]
      simp only [mul_apply, transpose_apply, Finset.mul_sum, Finset.sum_mul]
      rw [Finset.sum_comm]
      exact Finset.sum_congr rfl fun k _ => Finset.sum_congr rfl fun j _ => by ring
    rw [Pi.add_apply, h2, hQ']
    simp [one_apply]
  -- the law of the scaled coordinates
  have hX2 : ∀ i, MemLp (X i) 2 P := fun i => (hG.eval i).memLp_two
  have hXi : ∀ i, Integrable (X i) P := fun i => (hX2 i).integrable (by norm_num)
  have ey : ∀ j, (fun ω => y (fun i => X i ω) j) = fun ω => (∑ i, (Q i j / √(ev j)) * X i ω) + -(∑ i, Q i j / √(ev j) * m i) := by
    intro j
    funext ω
    show (∑ i, Q i j * (X i ω - m i)) / √(ev j) = _
    simp only [mul_sub, Finset.sum_sub_distrib, sub_div, Finset.sum_div]
    rw [sub_eq_add_neg]
    congr 1
    · exact Finset.sum_congr rfl fun i _ => by ring
    · congr 1
      exact Finset.sum_congr rfl fun i _ => by ring
  have hYG : HasGaussianLaw (fun ω j => y (fun i => X i ω) j) P := by
    let L : (Fin n → ℝ) →L[ℝ] (Fin n → ℝ) := ContinuousLinearMap.pi fun j => ∑ i, (Q i j / √(ev j)) • ContinuousLinearMap.proj i
    have h1 := hG.map L
    have := h1.isGaussian_map
    have e : (fun ω j => y (fun i => X i ω) j) = (fun p : Fin n → ℝ => p + fun j => -(∑ i, Q i j / √(ev j) * m i)) ∘ (L ∘ fun ω i => X i ω) := by
      funext ω j
      rw [show y (fun i => X i ω) j = _ from congrFun (ey j) ω]
      simp [L]
    rw [e]
    refine ⟨?_⟩
    rw [← AEMeasurable.map_map_of_aemeasurable (by fun_prop) h1.aemeasurable]
    infer_instance
  have hsum : ∀ j, MemLp (fun ω => ∑ i, (Q i j / √(ev j)) * X i ω) 2 P := fun j => memLp_finsetSum _ fun i _ => (hX2 i).const_mul _
  have hsi : ∀ j, Integrable (fun ω => ∑ i, (Q i j / √(ev j)) * X i ω) P := fun j => (hsum j).integrable (by norm_num)
  have hY0 : ∀ j, ∫ ω, y (fun i => X i ω) j ∂P = 0 := by
    intro j
    rw [show (∫ ω, y (fun i => X i ω) j ∂P) = _ from congrArg (fun f : Ω → ℝ => ∫ ω, f ω ∂P) (ey j), integral_add (hsi j) (integrable_const _),
      integral_finsetSum _ fun i _ => (hXi i).const_mul _]
    simp only [integral_const_mul, hm, integral_const, probReal_univ, one_smul]
    ring
  have hYc : ∀ j k, cov[fun ω => y (fun i => X i ω) j, fun ω => y (fun i => X i ω) k; P] = if j = k then 1 else 0 := by
    intro j k
    rw [ey, ey, covariance_add_const_right (hsi k), covariance_add_const_left (hsi j),
      covariance_fun_sum_left (fun i => (hX2 i).const_mul _) (hsum k)]
    have h1 : ∀ a, cov[fun ω => Q a j / √(ev j) * X a ω, fun ω => ∑ i, Q i k / √(ev k) * X i ω; P] =
        Q a j / √(ev j) * ∑ b, Q b k / √(ev k) * ∑ l, Q a l * ev l * Q b l := by
      intro a
      rw [covariance_const_mul_left, covariance_fun_sum_right (fun i => (hX2 i).const_mul _) (hX2 a)]
      simp only [covariance_const_mul_right, hc]
    simp only [h1]
    have h2 : ∀ a, ∑ b, Q b k / √(ev k) * ∑ l, Q a l * ev l * Q b l = Q a k * √(ev k) := by
      intro a
      calc _ = ∑ l, Q a l * ev l / √(ev k) * ∑ b, Q b k * Q b l := by
            simp only [Finset.mul_sum]
            rw [Finset.sum_comm]
            exact Finset.sum_congr rfl fun l _ => Finset.sum_congr rfl fun b _ => by ring
        _ = Q a k * ev k / √(ev k) := by simp [orth]
        _ = _ := by
            rw [div_eq_iff (hs k).ne', mul_assoc, ss]
    simp only [h2]
    calc _ = √(ev k) / √(ev j) * ∑ a, Q a j * Q a k := by
          rw [Finset.mul_sum]
          exact Finset.sum_congr rfl fun a _ => by ring
      _ = _ := by
          rw [orth]
          by_cases hjk : j = k
          · subst hjk
            simp [(hs j).ne']
          · simp [hjk]
  have hind : iIndepFun (fun j ω => y (fun i => X i ω) j) P :=
    hYG.iIndepFun_of_covariance_eq_zero fun j k hjk => by
      rw [hYc, if_neg hjk]
  have hlaw : P.map (fun ω => y fun i => X i ω) = Measure.pi fun _ : Fin n => gaussianReal 0 1 := by
    have h1 := (iIndepFun_iff_map_fun_eq_pi_map fun j => (hYG.eval j).aemeasurable).1 hind
    refine h1.trans ?_
    congr 1
    funext j
    rw [(hYG.eval j).map_eq_gaussianReal]
    congr 1
    · exact hY0 j
    · have h2 := hYc j j
      rw [if_pos rfl, covariance_self (hYG.eval j).aemeasurable] at h2
      rw [h2, Real.toNNReal_one]
  have hXm : AEMeasurable (fun ω i => X i ω) P := hG.aemeasurable
  have hT : Measurable fun z : Fin n → ℝ => m + A.mulVec z :=
    ((Continuous.matrix_mulVec continuous_const continuous_id).measurable).const_add m
  have key : P.map (fun ω i => X i ω) = (Measure.pi fun _ : Fin n => gaussianReal 0 1).map fun z => m + A.mulVec z := by
    rw [← hlaw]
    refine Eq.trans ?_ (AEMeasurable.map_map_of_aemeasurable hT.aemeasurable (hym.comp_aemeasurable hXm)).symm
    congr 1
    funext ω
    exact (hy' _).symm
  rw [key, affine_gauss_density m hA (d := 1 / 2 * Real.log (∏ j, ev j)) (by
    rw [hdetA, Real.sqrt_eq_rpow, Real.rpow_def_of_pos hp, mul_comm]) hym hy]
  congr 1
  funext x
  have e : ∑ j, y x j ^ 2 = ∑ j, (∑ i, Q i j * (x i - m i)) ^ 2 / ev j := by
    refine Finset.sum_congr rfl fun j _ => ?_
    show (_ / √(ev j)) ^ 2 = _
    rw [div_pow, Real.sq_sqrt (hpos j).le]
  rw [e]
  congr 2
  ring

end Verif
