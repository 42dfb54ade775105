import Mathlib.Analysis.SpecialFunctions.ExpDeriv
import Mathlib.Analysis.SpecialFunctions.Integrals.Basic
import Mathlib.Analysis.Calculus.MeanValue
import Mathlib.Analysis.Calculus.Deriv.MeanValue

/-! Helper lemmas: rational bounds for `exp (-y)` and for the integral of `exp (-x²/2)` over [0, 3]. -/

namespace Verif.ExpBound

open Finset

/-- Partial sums of the exponential series at `-y`. -/
noncomputable def alt (n : ℕ) (y : ℝ) : ℝ := ∑ k ∈ range n, (-y) ^ k / (k.factorial : ℝ)

theorem hasDerivAt_alt (n : ℕ) (y : ℝ) : HasDerivAt (alt (n + 1)) (-alt n y) y := by
  induction n with
  | zero =>
    have : alt (0 + 1) = fun _ => (1 : ℝ) := by funext y; simp [alt]
    rw [this]
    simpa [alt] using hasDerivAt_const y (1 : ℝ)
  | succ n ih =>
    have e : alt (n + 1 + 1) = fun y => alt (n + 1) y + (-y) ^ (n + 1) / ((n + 1).factorial : ℝ) := by
      funext y; unfold alt; rw [sum_range_succ]
    rw [e]
    have h2 : HasDerivAt (fun y : ℝ => (-y) ^ (n + 1) / ((n + 1).factorial : ℝ))
        (-((-y) ^ n / (n.factorial : ℝ))) y := by
      have h3 := (((hasDerivAt_id y).neg).pow (n + 1)).div_const ((n + 1).factorial : ℝ)
      refine h3.congr_deriv ?_
      have : ((n + 1).factorial : ℝ) = (n + 1) * n.factorial := by
        rw [Nat.factorial_succ]; push_cast; ring
      have hf : (n.factorial : ℝ) ≠ 0 := by exact_mod_cast n.factorial_ne_zero
      have hn : (n + 1 : ℝ) ≠ 0 := by positivity
      rw [this]
      simp only [Pi.neg_apply, id, Nat.add_sub_cancel]
      push_cast
      field_simp
    refine (ih.add h2).congr_deriv ?_
    have : alt (n + 1) y = alt n y + (-y) ^ n / (n.factorial : ℝ) := by
      unfold alt; rw [sum_range_succ]
    rw [this]; ring

theorem alt_sign (n : ℕ) {y : ℝ} (hy : 0 ≤ y) : 0 ≤ (-1) ^ n * (Real.exp (-y) - alt n y) := by
  induction n generalizing y with
  | zero => simp [alt, Real.exp_nonneg]
  | succ n ih =>
    set D : ℝ → ℝ := fun y => (-1) ^ (n + 1) * (Real.exp (-y) - alt (n + 1) y) with hD
    have hd : ∀ y, HasDerivAt D ((-1) ^ n * (Real.exp (-y) - alt n y)) y := by
      intro y
      have h1 : HasDerivAt (fun y => Real.exp (-y)) (-Real.exp (-y)) y := by
        simpa using (hasDerivAt_id y).neg.exp
      refine ((h1.sub (hasDerivAt_alt n y)).const_mul _).congr_deriv ?_
      rw [pow_succ]; ring
    have hm : MonotoneOn D (Set.Ici 0) := by
      refine monotoneOn_of_deriv_nonneg (convex_Ici 0)
        (fun y _ => (hd y).continuousAt.continuousWithinAt)
        (fun y _ => (hd y).differentiableAt.differentiableWithinAt) fun y hy => ?_
      rw [(hd y).deriv]
      rw [interior_Ici] at hy
      exact ih (le_of_lt hy)
    have h0 : D 0 = 0 := by
      simp only [hD, neg_zero, Real.exp_zero]
      have : alt (n + 1) 0 = 1 := by
        unfold alt
        rw [sum_range_succ']
        simp
      rw [this]; ring
    rw [← h0]
    exact hm (Set.mem_Ici.2 le_rfl) hy hy

theorem alt_even_le (n : ℕ) {y : ℝ} (hy : 0 ≤ y) : alt (2 * n) y ≤ Real.exp (-y) := by
  have := alt_sign (2 * n) hy
  rw [pow_mul] at this
  norm_num at this
  exact this

theorem le_alt_odd (n : ℕ) {y : ℝ} (hy : 0 ≤ y) : Real.exp (-y) ≤ alt (2 * n + 1) y := by
  have := alt_sign (2 * n + 1) hy
  rw [pow_succ, pow_mul] at this
  norm_num at this
  exact this

/-! ### The integral -/

theorem integral_alt (n : ℕ) : ∫ x in (0 : ℝ)..3, alt n (x ^ 2 / 2)
    = ∑ k ∈ range n, (-1) ^ k * 3 ^ (2 * k + 1) / (2 ^ k * (k.factorial : ℝ) * (2 * k + 1)) := by
  unfold alt
  rw [intervalIntegral.integral_finsetSum]
  · refine sum_congr rfl fun k _ => ?_
    have e : (fun x : ℝ => (-(x ^ 2 / 2)) ^ k / (k.factorial : ℝ))
        = fun x => ((-1) ^ k / (2 ^ k * (k.factorial : ℝ))) * x ^ (2 * k) := by
      funext x
      rw [show -(x ^ 2 / 2) = (-1) * (1 / 2) * x ^ 2 by ring, mul_pow, mul_pow, ← pow_mul]
      rw [one_div, inv_pow]
      ring
    rw [e, intervalIntegral.integral_const_mul, integral_pow]
    have : (2 : ℝ) ^ k ≠ 0 := by positivity
    have hf : (k.factorial : ℝ) ≠ 0 := by exact_mod_cast k.factorial_ne_zero
    have h1 : (2 * k + 1 : ℝ) ≠ 0 := by positivity
    push_cast
    field_simp
    ring
  · intro k _
    apply Continuous.intervalIntegrable
    fun_prop

theorem continuous_alt (n : ℕ) : Continuous (alt n) := by
  unfold alt
  fun_prop

theorem integral_bounds :
    (1.2499304447415 : ℝ) ≤ ∫ x in (0 : ℝ)..3, Real.exp (-(x ^ 2 / 2)) ∧
      ∫ x in (0 : ℝ)..3, Real.exp (-(x ^ 2 / 2)) ≤ (1.2499304447416 : ℝ) := by
  have hc : Continuous fun x : ℝ => Real.exp (-(x ^ 2 / 2)) := by fun_prop
  have ha : ∀ n, Continuous fun x : ℝ => alt n (x ^ 2 / 2) := fun n =>
    (continuous_alt n).comp (by fun_prop)
  constructor
  · refine le_trans ?_ (intervalIntegral.integral_mono_on (by norm_num)
      ((ha (2 * 16)).intervalIntegrable 0 3) (hc.intervalIntegrable 0 3)
      fun x _ => alt_even_le 16 (by positivity))
    rw [integral_alt]
    norm_num [sum_range_succ, Nat.factorial]
  · refine le_trans (intervalIntegral.integral_mono_on (by norm_num) (hc.intervalIntegrable 0 3)
      ((ha (2 * 16 + 1)).intervalIntegrable 0 3) fun x _ => le_alt_odd 16 (by positivity)) ?_
    rw [integral_alt]
    norm_num [sum_range_succ, Nat.factorial]

end Verif.ExpBound
