import Mathlib.Probability.Distributions.Gaussian.HasGaussianLaw.Independence
import Mathlib.LinearAlgebra.Matrix.NonsingularInverse

/-! Conditioning of normal vectors by a linear predictor. -/

namespace Verif

open MeasureTheory ProbabilityTheory

/-- The residual of the linear predictor. -/
def residual {Ω : Type} {ι κ : Type} [Fintype ι] (X : ι → Ω → ℝ) (Y : κ → Ω → ℝ) (m : ι → ℝ) (n : κ → ℝ) (w : κ → ι → ℝ) (a : κ) (ω : Ω) : ℝ :=
  Y a ω - (n a + ∑ i, w a i * (X i ω - m i))

theorem residual_moments {Ω ι κ : Type} [MeasurableSpace Ω] {P : Measure Ω} [IsProbabilityMeasure P] [Fintype ι] {X : ι → Ω → ℝ} {Y : κ → Ω → ℝ}
    {m : ι → ℝ} {n : κ → ℝ} {w : κ → ι → ℝ} {K : ι → ι → ℝ} {k : κ → ι → ℝ} {S : κ → κ → ℝ}
    (hX : ∀ i, MemLp (X i) 2 P) (hY : ∀ a, MemLp (Y a) 2 P) (hm : ∀ i, ∫ ω, X i ω ∂P = m i) (hn : ∀ a, ∫ ω, Y a ω ∂P = n a)
    (hK : ∀ i j, cov[X i, X j; P] = K i j) (hk : ∀ a i, cov[Y a, X i; P] = k a i) (hS : ∀ a b, cov[Y a, Y b; P] = S a b)
    (hw : ∀ a i, ∑ j, w a j * K j i = k a i) :
    (∀ a, ∫ ω, residual X Y m n w a ω ∂P = 0) ∧ (∀ i a, cov[X i, residual X Y m n w a; P] = 0) ∧
    ∀ a b, cov[residual X Y m n w a, residual X Y m n w b; P] = S a b - ∑ i, w a i * k b i := by
  have hXi : ∀ i, Integrable (X i) P := fun i => (hX i).integrable (by norm_num)
  have hYi : ∀ a, Integrable (Y a) P := fun a => (hY a).integrable (by norm_num)
  have e : ∀ a, residual X Y m n w a = fun ω => (Y a ω - ∑ i, w a i * X i ω) + (∑ i, w a i * m i - n a) := by
    intro a
    funext ω
    unfold residual
    simp only [mul_sub, Finset.sum_sub_distrib]
    ring
  have hL : ∀ a, MemLp (fun ω => ∑ i, w a i * X i ω) 2 P := fun a => memLp_finset_sum _ fun i _ => (hX i).const_mul (w a i)
  have hD : ∀ a, MemLp (fun ω => Y a ω - ∑ i, w a i * X i ω) 2 P := fun a => (hY a).sub (hL a)
  have hDi : ∀ a, Integrable (fun ω => Y a ω - ∑ i, w a i * X i ω) P := fun a => (hD a).integrable (by norm_num)
  have cX : ∀ i a, cov[X i, fun ω => Y a ω - ∑ j, w a j * X j ω; P] = 0 := by
    intro i a
    rw [covariance_fun_sub_right (hX i) (hY a) (hL a), covariance_fun_sum_right (fun j => (hX j).const_mul (w a j)) (hX i), covariance_comm, hk, ← hw]
    simp only [covariance_const_mul_right]
    rw [sub_eq_zero]
    refine Finset.sum_congr rfl fun j _ => ?_
    rw [← hK, covariance_comm]
  refine ⟨fun a => ?_, fun i a => ?_, fun a b => ?_⟩
  · rw [e, integral_add (hDi a) (integrable_const _), integral_sub (hYi a) ((hL a).integrable (by norm_num)),
      integral_finset_sum _ fun i _ => (hXi i).const_mul _, hn]
    simp only [integral_const_mul, hm, integral_const, probReal_univ, one_smul]
    ring
  · rw [e, covariance_add_const_right (hDi a)]
    exact cX i a
  · rw [e, e, covariance_add_const_right (hDi b), covariance_add_const_left (hDi a),
      covariance_fun_sub_left (hY a) (hL a) (hD b), covariance_fun_sum_left (fun j => (hX j).const_mul (w a j)) (hD b)]
    simp only [covariance_const_mul_left, cX, mul_zero, Finset.sum_const_zero, sub_zero]
    rw [covariance_fun_sub_right (hY a) (hY b) (hL b), hS, covariance_fun_sum_right (fun j => (hX j).const_mul (w b j)) (hY a)]
    simp only [covariance_const_mul_right, hk]
    congr 1
    -- ∑ w b i k a i = ∑ w a i k b i
    have hs : ∀ i j, K i j = K j i := fun i j => by rw [← hK, covariance_comm, hK]
    calc ∑ i, w b i * k a i = ∑ i, ∑ j, w b i * (w a j * K j i) := by
          refine Finset.sum_congr rfl fun i _ => ?_
          rw [← hw, Finset.mul_sum]
      _ = ∑ j, ∑ i, w b i * (w a j * K j i) := Finset.sum_comm
      _ = ∑ j, w a j * k b j := by
          refine Finset.sum_congr rfl fun j _ => ?_
          rw [← hw, Finset.mul_sum]
          refine Finset.sum_congr rfl fun i _ => ?_
          rw [hs j i]
          ring

theorem residual_gauss {Ω ι κ : Type} [MeasurableSpace Ω] {P : Measure Ω} [Fintype ι] [Fintype κ] {X : ι → Ω → ℝ} {Y : κ → Ω → ℝ}
    (hG : HasGaussianLaw (fun ω => (fun i => X i ω, fun a => Y a ω)) P) (m : ι → ℝ) (n : κ → ℝ) (w : κ → ι → ℝ) :
    HasGaussianLaw (fun ω => (fun i => X i ω, fun a => residual X Y m n w a ω)) P := by
  have := hG.isProbabilityMeasure
  let L : (ι → ℝ) × (κ → ℝ) →L[ℝ] (ι → ℝ) × (κ → ℝ) :=
    (ContinuousLinearMap.fst ℝ _ _).prod (ContinuousLinearMap.pi fun a =>
      (ContinuousLinearMap.proj a).comp (ContinuousLinearMap.snd ℝ (ι → ℝ) (κ → ℝ)) -
        ∑ i, w a i • (ContinuousLinearMap.proj i).comp (ContinuousLinearMap.fst ℝ (ι → ℝ) (κ → ℝ)))
  have h1 := hG.map L
  have := h1.isGaussian_map
  have e : (fun ω => (fun i => X i ω, fun a => residual X Y m n w a ω)) =
      (fun p : (ι → ℝ) × (κ → ℝ) => p + (0, fun a => ∑ i, w a i * m i - n a)) ∘ (L ∘ fun ω => (fun i => X i ω, fun a => Y a ω)) := by
    funext ω
    apply Prod.ext
    · funext i
      simp [L]
    · funext a
      simp only [L, Function.comp, residual, mul_sub, Finset.sum_sub_distrib]
      simp
      ring
  rw [e]
  refine ⟨?_⟩
  rw [← AEMeasurable.map_map_of_aemeasurable (by fun_prop) h1.aemeasurable]
  infer_instance

end Verif
