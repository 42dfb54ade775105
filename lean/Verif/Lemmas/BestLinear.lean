import Mathlib.MeasureTheory.Function.L2Space
import Mathlib.MeasureTheory.Integral.Bochner.Basic
import Mathlib.LinearAlgebra.Matrix.PosDef
import Mathlib.LinearAlgebra.Matrix.NonsingularInverse
import Mathlib.LinearAlgebra.Vandermonde
import Mathlib.Analysis.SpecialFunctions.Exponential
import Mathlib.Tactic.Ring
import Mathlib.Tactic.Linarith
import Mathlib.Tactic.NormNum

/-! The best linear predictor, and matrices that are positive definite. -/

namespace Verif

open MeasureTheory

/-- The predictor whose weights solve the kriging system has the smallest mean squared error among all affine
functions of the data. -/
theorem best_linear {Ω : Type} [MeasurableSpace Ω] {μ : Measure Ω} [IsProbabilityMeasure μ] {n : ℕ}
    {X : Fin n → Ω → ℝ} {Z : Ω → ℝ} {m : Fin n → ℝ} {mz s : ℝ} {K : Matrix (Fin n) (Fin n) ℝ}
    {k w : Fin n → ℝ} (hX : ∀ a, MemLp (X a) 2 μ) (hZ : MemLp Z 2 μ) (hm : ∀ a, ∫ ω, X a ω ∂μ = m a)
    (hmz : ∫ ω, Z ω ∂μ = mz) (hK : ∀ a b, ∫ ω, (X a ω - m a) * (X b ω - m b) ∂μ = s * K a b)
    (hk : ∀ a, ∫ ω, (X a ω - m a) * (Z ω - mz) ∂μ = s * k a) (hw : K.mulVec w = k) (c : ℝ)
    (u : Fin n → ℝ) :
    ∫ ω, (Z ω - (mz + ∑ a, w a * (X a ω - m a))) ^ 2 ∂μ ≤ ∫ ω, (Z ω - (c + ∑ a, u a * X a ω)) ^ 2 ∂μ := by
  have hXc : ∀ a, MemLp (fun ω => X a ω - m a) 2 μ := fun a => (hX a).sub (memLp_const _)
  have hZc : MemLp (fun ω => Z ω - mz) 2 μ := hZ.sub (memLp_const _)
  have hsum : ∀ v : Fin n → ℝ, MemLp (fun ω => ∑ a, v a * (X a ω - m a)) 2 μ := fun v =>
    memLp_finset_sum _ fun a _ => (hXc a).const_mul (v a)
  -- the error of the predictor, and the difference of the two predictors
  let e : Ω → ℝ := fun ω => (Z ω - mz) - ∑ a, w a * (X a ω - m a)
  let g : ℝ := mz - (c + ∑ a, u a * m a)
  let d : Ω → ℝ := fun ω => g + ∑ a, (w a - u a) * (X a ω - m a)
  have he : MemLp e 2 μ := hZc.sub (hsum w)
  have hd : MemLp d 2 μ := (memLp_const g).add (hsum _)
  have e1 : ∀ ω, Z ω - (mz + ∑ a, w a * (X a ω - m a)) = e ω := fun ω => by
    show _ = (Z ω - mz) - _
    ring
  have e2 : ∀ ω, Z ω - (c + ∑ a, u a * X a ω) = e ω + d ω := fun ω => by
    have h1 : ∑ a, (w a - u a) * (X a ω - m a) = ∑ a, w a * (X a ω - m a) - ∑ a, u a * (X a ω - m a) := by
      rw [← Finset.sum_sub_distrib]
      exact Finset.sum_congr rfl fun a _ => by ring
    have h2 : ∑ a, u a * (X a ω - m a) = ∑ a, u a * X a ω - ∑ a, u a * m a := by
      rw [← Finset.sum_sub_distrib]
      exact Finset.sum_congr rfl fun a _ => by ring
    show _ = (Z ω - mz) - _ + (mz - (c + ∑ a, u a * m a) + _)
    rw [h1, h2]
    ring
  have hXi : ∀ a, Integrable (fun ω => X a ω - m a) μ := fun a => (hXc a).integrable one_le_two
  have hX0 : ∀ a, ∫ ω, (X a ω - m a) ∂μ = 0 := fun a => by
    rw [integral_sub ((hX a).integrable one_le_two) (integrable_const _), hm, integral_const]
    simp
  have hZ0 : ∫ ω, (Z ω - mz) ∂μ = 0 := by
    rw [integral_sub (hZ.integrable one_le_two) (integrable_const _), hmz, integral_const]
    simp
  have he0 : ∫ ω, e ω ∂μ = 0 := by
    show ∫ ω, ((Z ω - mz) - ∑ a, w a * (X a ω - m a)) ∂μ = 0
    rw [integral_sub (hZc.integrable one_le_two) ((hsum w).integrable one_le_two), hZ0,
      integral_finsetSum _ fun a _ => (hXi a).const_mul _]
    simp only [integral_const_mul, hX0, mul_zero, Finset.sum_const_zero, sub_zero]
  have heX : ∀ a, ∫ ω, e ω * (X a ω - m a) ∂μ = 0 := fun a => by
    have h1 : ∀ ω, e ω * (X a ω - m a)
        = (X a ω - m a) * (Z ω - mz) - ∑ b, w b * ((X a ω - m a) * (X b ω - m b)) := fun ω => by
      show ((Z ω - mz) - ∑ a, w a * (X a ω - m a)) * (X a ω - m a) = _
      rw [sub_mul, Finset.sum_mul, mul_comm]
      congr 1
      exact Finset.sum_congr rfl fun b _ => by ring
    have h2 : ∀ b, Integrable (fun ω => w b * ((X a ω - m a) * (X b ω - m b))) μ := fun b =>
      ((hXc a).integrable_mul (hXc b)).const_mul _
    have h4 : Integrable (fun ω => (X a ω - m a) * (Z ω - mz)) μ := (hXc a).integrable_mul hZc
    simp only [h1]
    rw [integral_sub h4 (integrable_finsetSum _ fun b _ => h2 b), hk,
      integral_finsetSum _ fun b _ => h2 b]
    simp only [integral_const_mul, hK]
    have h3 := congrFun hw a
    rw [Matrix.mulVec, dotProduct] at h3
    rw [← h3, Finset.mul_sum, ← Finset.sum_sub_distrib]
    exact Finset.sum_eq_zero fun b _ => by ring
  have hed : ∫ ω, e ω * d ω ∂μ = 0 := by
    have h1 : ∀ ω, e ω * d ω = g * e ω + ∑ a, (w a - u a) * (e ω * (X a ω - m a)) := fun ω => by
      show e ω * (g + ∑ a, (w a - u a) * (X a ω - m a)) = _
      rw [mul_add, Finset.mul_sum, mul_comm]
      congr 1
      exact Finset.sum_congr rfl fun b _ => by ring
    have h2 : ∀ a, Integrable (fun ω => (w a - u a) * (e ω * (X a ω - m a))) μ := fun a =>
      (he.integrable_mul (hXc a)).const_mul _
    simp only [h1]
    rw [integral_add ((he.integrable one_le_two).const_mul _) (integrable_finsetSum _ fun a _ => h2 a),
      integral_finsetSum _ fun a _ => h2 a, integral_const_mul, he0]
    simp only [integral_const_mul, heX, mul_zero, Finset.sum_const_zero, add_zero]
  simp only [e1, e2]
  have h1 : ∀ ω, (e ω + d ω) ^ 2 = e ω ^ 2 + 2 * (e ω * d ω) + d ω ^ 2 := fun ω => by ring
  simp only [h1]
  have hi1 : Integrable (fun ω => e ω ^ 2) μ := he.integrable_sq
  have hi2 : Integrable (fun ω => 2 * (e ω * d ω)) μ := (he.integrable_mul hd).const_mul 2
  have hi3 : Integrable (fun ω => e ω ^ 2 + 2 * (e ω * d ω)) μ := hi1.add hi2
  have hi4 : Integrable (fun ω => d ω ^ 2) μ := hd.integrable_sq
  rw [integral_add hi3 hi4, integral_add hi1 hi2, integral_const_mul, hed]
  have : 0 ≤ ∫ ω, d ω ^ 2 ∂μ := integral_nonneg fun ω => sq_nonneg _
  linarith

/-- The weights found from the residual: the matrix may be moved from one vector to the other. -/
theorem dot_inv_mulVec {n : ℕ} {K : Matrix (Fin n) (Fin n) ℝ} (hK : K.PosDef) {k w : Fin n → ℝ}
    (hw : K.mulVec w = k) (r : Fin n → ℝ) :
    ∑ a, k a * (K⁻¹.mulVec r) a = ∑ a, w a * r a := by
  have hu : IsUnit K.det := hK.isUnit.map Matrix.detMonoidHom
  have hs : K.transpose = K := by
    have := hK.1
    rwa [Matrix.IsHermitian, Matrix.conjTranspose_eq_transpose_of_trivial] at this
  have h1 : K.mulVec (K⁻¹.mulVec r) = r := by
    rw [Matrix.mulVec_mulVec, Matrix.mul_nonsing_inv _ hu, Matrix.one_mulVec]
  show k ⬝ᵥ (K⁻¹.mulVec r) = w ⬝ᵥ r
  have h2 : w ⬝ᵥ r = w ⬝ᵥ K.mulVec (K⁻¹.mulVec r) := by rw [h1]
  rw [h2, Matrix.dotProduct_mulVec w K, ← Matrix.mulVec_transpose, hs, hw]

/-- There are such weights, and only one choice of them. -/
theorem weights_exist {n : ℕ} {K : Matrix (Fin n) (Fin n) ℝ} (hK : K.PosDef) (k : Fin n → ℝ) :
    K.mulVec (K⁻¹.mulVec k) = k := by
  have hu : IsUnit K.det := hK.isUnit.map Matrix.detMonoidHom
  rw [Matrix.mulVec_mulVec, Matrix.mul_nonsing_inv _ hu, Matrix.one_mulVec]

/-! ### Positive definite matrices -/

/-- The exponential of the negative distance of points in increasing order. -/
theorem exp_form_pos (t : ℝ) (ht : 0 < t) (x c : ℕ → ℝ) (n : ℕ) (hx : ∀ i < n, x i < x (i + 1)) :
    (∑ i ∈ Finset.range (n + 1), c i * Real.exp (-t * (x n - x i))) ^ 2
        ≤ ∑ i ∈ Finset.range (n + 1), ∑ j ∈ Finset.range (n + 1), c i * (Real.exp (-t * |x i - x j|) * c j) ∧
      ((∑ i ∈ Finset.range (n + 1), ∑ j ∈ Finset.range (n + 1), c i * (Real.exp (-t * |x i - x j|) * c j)) ≤ 0 →
        ∀ i ≤ n, c i = 0) := by
  induction n with
  | zero =>
    simp only [zero_add, Finset.range_one, Finset.sum_singleton, sub_self, abs_zero, mul_zero, Real.exp_zero,
      mul_one, one_mul]
    refine ⟨by rw [pow_two], fun h i hi => ?_⟩
    obtain rfl : i = 0 := by omega
    have := mul_self_nonneg (c 0)
    exact mul_self_eq_zero.1 (le_antisymm h this)
  | succ n ih =>
    obtain ⟨ih1, ih2⟩ := ih fun i hi => hx i (by omega)
    have hmono : ∀ i, i ≤ n → x i < x (n + 1) := by
      intro i hi
      have : ∀ d, i + d ≤ n → x i < x (i + d + 1) := by
        intro d
        induction d with
        | zero => intro h; exact hx i (by omega)
        | succ d ihd => intro h; exact (ihd (by omega)).trans (hx (i + d + 1) (by omega))
      have := this (n - i) (by omega)
      rwa [show i + (n - i) + 1 = n + 1 by omega] at this
    generalize hQ : (∑ i ∈ Finset.range (n + 1), ∑ j ∈ Finset.range (n + 1),
      c i * (Real.exp (-t * |x i - x j|) * c j)) = Q at ih1 ih2
    generalize hS : (∑ i ∈ Finset.range (n + 1), c i * Real.exp (-t * (x n - x i))) = S at ih1
    generalize hρ : Real.exp (-t * (x (n + 1) - x n)) = ρ
    have hρ0 : 0 < ρ := by rw [← hρ]; exact Real.exp_pos _
    have hρ1 : ρ < 1 := by
      rw [← hρ, Real.exp_lt_one_iff]
      have := hx n (by omega)
      nlinarith
    have hS2 : ∑ i ∈ Finset.range (n + 1), c i * Real.exp (-t * (x (n + 1) - x i)) = ρ * S := by
      rw [← hS, ← hρ, Finset.mul_sum]
      refine Finset.sum_congr rfl fun i _ => ?_
      rw [mul_left_comm, ← Real.exp_add]
      congr 2
      ring
    have hrow : ∑ j ∈ Finset.range (n + 1), c (n + 1) * (Real.exp (-t * |x (n + 1) - x j|) * c j)
        = c (n + 1) * (ρ * S) := by
      rw [← hS2, Finset.mul_sum]
      refine Finset.sum_congr rfl fun i hi => ?_
      have := hmono i (by have := Finset.mem_range.1 hi; omega)
      rw [abs_of_pos (by linarith), mul_comm (Real.exp _)]
    have hcol : ∑ i ∈ Finset.range (n + 1), c i * (Real.exp (-t * |x i - x (n + 1)|) * c (n + 1))
        = c (n + 1) * (ρ * S) := by
      rw [← hrow]
      refine Finset.sum_congr rfl fun i _ => ?_
      rw [abs_sub_comm]
      ring
    have hQ2 : ∑ i ∈ Finset.range (n + 1 + 1), ∑ j ∈ Finset.range (n + 1 + 1),
        c i * (Real.exp (-t * |x i - x j|) * c j) = Q + 2 * (c (n + 1) * (ρ * S)) + c (n + 1) ^ 2 := by
      rw [Finset.sum_range_succ, Finset.sum_congr rfl fun i _ => Finset.sum_range_succ _ (n + 1),
        Finset.sum_add_distrib, hQ, hcol, Finset.sum_range_succ, hrow, sub_self, abs_zero, mul_zero, Real.exp_zero]
      ring
    have hS3 : ∑ i ∈ Finset.range (n + 1 + 1), c i * Real.exp (-t * (x (n + 1) - x i)) = ρ * S + c (n + 1) := by
      rw [Finset.sum_range_succ, hS2, sub_self, mul_zero, Real.exp_zero, mul_one]
    rw [hQ2, hS3]
    have hρ2 : ρ ^ 2 ≤ 1 := by nlinarith
    have hS0 := sq_nonneg S
    refine ⟨by nlinarith, fun h => ?_⟩
    have h1 : (1 - ρ ^ 2) * Q ≤ 0 := by nlinarith [sq_nonneg (ρ * S + c (n + 1)), sq_nonneg ρ]
    have h2 : Q ≤ 0 := by
      by_contra hc
      have : 0 < (1 - ρ ^ 2) * Q := mul_pos (by nlinarith) (not_le.1 hc)
      linarith
    have h3 := ih2 h2
    have hS4 : S = 0 := by nlinarith [sq_nonneg S]
    have h4 : c (n + 1) = 0 := by
      rw [hS4] at h
      have h5 : 0 ≤ Q := (sq_nonneg S).trans ih1
      nlinarith [sq_nonneg (c (n + 1))]
    intro i hi
    by_cases hin : i = n + 1
    · rw [hin]; exact h4
    · exact h3 i (by omega)

/-- The exponential correlation matrix of points in increasing order is positive definite. -/
theorem exp_posDef {n : ℕ} {t : ℝ} (ht : 0 < t) {x : Fin n → ℝ} (hx : StrictMono x) :
    (Matrix.of fun a b : Fin n => Real.exp (-t * |x a - x b|)).PosDef := by
  refine Matrix.PosDef.of_dotProduct_mulVec_pos ?_ ?_
  · ext a b
    simp only [Matrix.conjTranspose_apply, Matrix.of_apply, star_trivial]
    rw [abs_sub_comm]
  · intro c hc
    rcases n with _ | n
    · exact absurd (Subsingleton.elim c 0) hc
    let x' : ℕ → ℝ := fun i => if h : i < n + 1 then x ⟨i, h⟩ else 0
    let c' : ℕ → ℝ := fun i => if h : i < n + 1 then c ⟨i, h⟩ else 0
    have key := exp_form_pos t ht x' c' n fun i hi => by
      show (if h : i < n + 1 then x ⟨i, h⟩ else 0) < (if h : i + 1 < n + 1 then x ⟨i + 1, h⟩ else 0)
      rw [dif_pos (by omega), dif_pos (by omega)]
      exact hx (by simp)
    have hform : star c ⬝ᵥ (Matrix.of fun a b : Fin (n + 1) => Real.exp (-t * |x a - x b|)).mulVec c
        = ∑ i ∈ Finset.range (n + 1), ∑ j ∈ Finset.range (n + 1),
          c' i * (Real.exp (-t * |x' i - x' j|) * c' j) := by
      rw [dotProduct, ← Fin.sum_univ_eq_sum_range (fun i => ∑ j ∈ Finset.range (n + 1),
          c' i * (Real.exp (-t * |x' i - x' j|) * c' j))]
      refine Finset.sum_congr rfl fun a _ => ?_
      rw [Matrix.mulVec, dotProduct, Finset.mul_sum, ← Fin.sum_univ_eq_sum_range (fun j =>
          c' a * (Real.exp (-t * |x' a - x' j|) * c' j))]
      refine Finset.sum_congr rfl fun b _ => ?_
      have hx' : ∀ a : Fin (n + 1), x' a = x a := fun a => dif_pos a.2
      have hc' : ∀ a : Fin (n + 1), c' a = c a := fun a => dif_pos a.2
      rw [hx', hx', hc', hc']
      rfl
    rw [hform]
    by_contra hneg
    apply hc
    ext a
    have := key.2 (not_lt.1 hneg) a (by omega)
    rwa [show c' a = c a from dif_pos a.2] at this

/-- The Gaussian correlation matrix of different points is positive definite. -/
theorem gauss_posDef {n : ℕ} {t : ℝ} (ht : 0 < t) {x : Fin n → ℝ} (hx : Function.Injective x) :
    (Matrix.of fun a b : Fin n => Real.exp (-t * (x a - x b) ^ 2)).PosDef := by
  refine Matrix.PosDef.of_dotProduct_mulVec_pos ?_ ?_
  · ext a b
    simp only [Matrix.conjTranspose_apply, Matrix.of_apply, star_trivial]
    congr 1
    ring
  · intro c hc
    let d : Fin n → ℝ := fun a => c a * Real.exp (-t * x a ^ 2)
    have hs : ∀ y : ℝ, HasSum (fun k : ℕ => ((k.factorial : ℝ)⁻¹) * y ^ k) (Real.exp y) := by
      intro y
      have := NormedSpace.exp_series_hasSum_exp' (𝕂 := ℝ) y
      rw [← Real.exp_eq_exp_ℝ] at this
      simpa [smul_eq_mul] using this
    have hsum : HasSum (fun k : ℕ => ((k.factorial : ℝ)⁻¹) * (2 * t) ^ k * (∑ a, d a * x a ^ k) ^ 2)
        (star c ⬝ᵥ (Matrix.of fun a b : Fin n => Real.exp (-t * (x a - x b) ^ 2)).mulVec c) := by
      have h1 : HasSum (fun k : ℕ => ∑ a, ∑ b, d a * d b * (((k.factorial : ℝ)⁻¹) * (2 * t * x a * x b) ^ k))
          (∑ a, ∑ b, d a * d b * Real.exp (2 * t * x a * x b)) :=
        hasSum_sum fun a _ => hasSum_sum fun b _ => (hs _).mul_left _
      convert h1 using 1
      · funext k
        rw [pow_two (∑ a, d a * x a ^ k), Finset.sum_mul_sum, Finset.mul_sum]
        refine Finset.sum_congr rfl fun a _ => ?_
        rw [Finset.mul_sum]
        refine Finset.sum_congr rfl fun b _ => ?_
        simp only [mul_pow]
        ring
      · rw [dotProduct]
        refine Finset.sum_congr rfl fun a _ => ?_
        rw [Matrix.mulVec, dotProduct, Finset.mul_sum]
        refine Finset.sum_congr rfl fun b _ => ?_
        simp only [Pi.star_apply, star_trivial, Matrix.of_apply, d]
        have : Real.exp (-t * (x a - x b) ^ 2)
            = Real.exp (-t * x a ^ 2) * Real.exp (-t * x b ^ 2) * Real.exp (2 * t * x a * x b) := by
          rw [← Real.exp_add, ← Real.exp_add]
          congr 1
          ring
        rw [this]
        ring
    have hnn : ∀ k : ℕ, 0 ≤ ((k.factorial : ℝ)⁻¹) * (2 * t) ^ k * (∑ a, d a * x a ^ k) ^ 2 := fun k => by positivity
    by_contra hneg
    have h0 : star c ⬝ᵥ (Matrix.of fun a b : Fin n => Real.exp (-t * (x a - x b) ^ 2)).mulVec c = 0 :=
      le_antisymm (not_lt.1 hneg) (hsum.nonneg hnn)
    rw [h0] at hsum
    have hz := (hasSum_zero_iff_of_nonneg hnn).1 hsum
    have hd : d = 0 := by
      refine Matrix.eq_zero_of_forall_pow_sum_mul_pow_eq_zero hx fun i => ?_
      have := congrFun hz i
      simp only [Pi.zero_apply] at this
      rcases mul_eq_zero.1 this with h | h
      · exact absurd h (by positivity)
      · exact pow_eq_zero_iff (two_ne_zero) |>.1 h
    apply hc
    ext a
    have := congrFun hd a
    simp only [d, Pi.zero_apply] at this
    rcases mul_eq_zero.1 this with h | h
    · exact h
    · exact absurd h (Real.exp_pos _).ne'

end Verif
