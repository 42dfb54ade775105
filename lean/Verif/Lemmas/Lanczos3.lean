import Verif.Lemmas.Lanczos2
import Mathlib.Analysis.SpecialFunctions.Gamma.BohrMollerup
import Mathlib.Analysis.SpecialFunctions.Stirling
import Mathlib.Analysis.Real.Pi.Bounds

/-!
# `gammln` is close to the logarithm of the gamma function
-/

namespace Verif
namespace Gam

open Filter Topology Set

theorem lnG_shift {a : ℝ} (n : ℕ) : lnG a = lnG (a + n) - ∑ m ∈ Finset.range n, Real.log (a + m) -
    ∑ m ∈ Finset.range n, dfc (a + m) := by
  induction n with
  | zero => simp
  | succ n ih =>
    rw [Finset.sum_range_succ, Finset.sum_range_succ, ih]
    have e : dfc (a + n) = lnG (a + n + 1) - lnG (a + n) - Real.log (a + n) := rfl
    rw [e]
    push_cast
    rw [← add_assoc]
    ring

theorem sum_sq_le (n : ℕ) : ∑ m ∈ Finset.range (n + 1), 1 / ((m:ℝ) + 1) ^ 2 ≤ 2 - 1 / ((n:ℝ) + 1) := by
  induction n with
  | zero => norm_num
  | succ n ih =>
    rw [Finset.sum_range_succ]
    push_cast
    have h : 1 / ((n:ℝ) + 1 + 1) ^ 2 ≤ 1 / (n + 1) - 1 / (n + 1 + 1) := by
      rw [div_sub_div _ _ (by positivity) (by positivity), div_le_div_iff₀ (by positivity) (by positivity)]
      ring_nf
      nlinarith [(Nat.cast_nonneg n : (0:ℝ) ≤ n)]
    linarith

theorem dfc_sum {a : ℝ} (ha : 0 < a) (n : ℕ) : |∑ m ∈ Finset.range (n + 1), dfc (a + m)| ≤ 2e-12 := by
  calc |∑ m ∈ Finset.range (n + 1), dfc (a + m)| ≤ ∑ m ∈ Finset.range (n + 1), |dfc (a + m)| :=
        Finset.abs_sum_le_sum_abs _ _
    _ ≤ ∑ m ∈ Finset.range (n + 1), 1e-12 * (1 / ((m:ℝ) + 1) ^ 2) := by
      apply Finset.sum_le_sum
      intro m _
      have h := dfc_bound (show 0 < a + m by positivity)
      refine h.trans ?_
      rw [mul_one_div]
      apply div_le_div_of_nonneg_left (by norm_num) (by positivity)
      apply pow_le_pow_left₀ (by positivity)
      linarith
    _ = 1e-12 * ∑ m ∈ Finset.range (n + 1), 1 / ((m:ℝ) + 1) ^ 2 := by rw [Finset.mul_sum]
    _ ≤ 1e-12 * 2 := by
      apply mul_le_mul_of_nonneg_left _ (by norm_num)
      have h := sum_sq_le n
      have : (0:ℝ) < 1 / (n + 1) := by positivity
      linarith
    _ = 2e-12 := by norm_num

/-- The constant of the formula of Lanczos against the one of Stirling. -/
noncomputable def rho : ℝ := Real.log 2.5066282746310005 + Real.log 0.999999999999997092 -
  Real.log √Real.pi - 1 / 2 * Real.log 2

theorem rho_bound : |rho| ≤ 1e-13 := by
  have hpi := Real.pi_pos
  have p1 := Real.pi_gt_d20
  have p2 := Real.pi_lt_d20
  have e : rho = 1 / 2 * Real.log ((2.5066282746310005 * 0.999999999999997092) ^ 2 / (2 * Real.pi)) := by
    unfold rho
    rw [Real.log_div (by norm_num) (by positivity), Real.log_pow, Real.log_mul (by norm_num) (by norm_num),
      Real.log_mul (by norm_num) hpi.ne', Real.log_sqrt hpi.le]
    push_cast
    ring
  have hk : (0:ℝ) < (2.5066282746310005 * 0.999999999999997092) ^ 2 := by norm_num
  have hy : 0 < (2.5066282746310005 * 0.999999999999997092) ^ 2 / (2 * Real.pi) := by positivity
  have h1 := Real.log_le_sub_one_of_pos hy
  have h2 := Real.one_sub_inv_le_log_of_pos hy
  have b1 : (2.5066282746310005 * 0.999999999999997092) ^ 2 / (2 * Real.pi) ≤ 1 + 1e-14 := by
    rw [div_le_iff₀ (by positivity)]
    norm_num at p1 ⊢
    linarith
  have b2 : ((2.5066282746310005 * 0.999999999999997092) ^ 2 / (2 * Real.pi))⁻¹ ≤ 1 + 1e-14 := by
    rw [inv_div, div_le_iff₀ hk]
    norm_num at p2 ⊢
    linarith
  rw [e, abs_le]
  norm_num at h1 h2 b1 b2 ⊢
  constructor <;> linarith

theorem main_tendsto {a : ℝ} (ha : 0 < a) :
    Tendsto (fun n : ℕ => lnG (a + (n + 1 : ℕ)) - a * Real.log n - Real.log (n.factorial : ℝ)) atTop (𝓝 rho) := by
  have hc : Tendsto (fun n : ℕ => (n:ℝ)) atTop atTop := tendsto_natCast_atTop_atTop
  have hst : Tendsto (fun n => Real.log (Stirling.stirlingSeq n)) atTop (𝓝 (Real.log √Real.pi)) :=
    ((Real.continuousAt_log (Real.sqrt_pos.2 Real.pi_pos).ne').tendsto).comp Stirling.tendsto_stirlingSeq_sqrt_pi
  have hs : Tendsto (fun n : ℕ => Real.log (ser ((n:ℝ) + (a + 1)))) atTop (𝓝 (Real.log 0.999999999999997092)) :=
    ((Real.continuousAt_log (by norm_num)).tendsto).comp (ser_tendsto.comp ((add_tendsto (a + 1)).comp hc))
  have hm : Tendsto (fun n : ℕ => (n:ℝ) * Real.log (1 + (a + 6.2421875) / n)) atTop (𝓝 (a + 6.2421875)) :=
    (Real.tendsto_mul_log_one_add_div_atTop (a + 6.2421875)).comp hc
  have hl : Tendsto (fun n : ℕ => Real.log ((n:ℝ) + (a + 6.2421875)) - Real.log ((n:ℝ) + 0)) atTop (𝓝 0) :=
    (logdiff_tendsto (a + 6.2421875) 0).comp hc
  have hl1 : Tendsto (fun n : ℕ => Real.log ((n:ℝ) + 0) - Real.log ((n:ℝ) + (a + 1))) atTop (𝓝 0) :=
    (logdiff_tendsto 0 (a + 1)).comp hc
  have h := ((((hl1.add (hm.sub_const (a + 6.2421875))).add (hl.const_mul (a + 1.5))).add
    (hs.const_add (Real.log 2.5066282746310005))).sub hst).sub_const (1 / 2 * Real.log 2)
  have e : 0 + (a + 6.2421875 - (a + 6.2421875)) + (a + 1.5) * 0 +
      (Real.log 2.5066282746310005 + Real.log 0.999999999999997092) - Real.log √Real.pi - 1 / 2 * Real.log 2 = rho := by
    unfold rho; ring
  rw [e] at h
  refine h.congr' ?_
  filter_upwards [eventually_ge_atTop 1] with n hn
  have hn0 : (0:ℝ) < n := by exact_mod_cast hn
  have hx : 0 < (n:ℝ) + (a + 1) := by positivity
  have s := ser_pos hx
  have c1 : 0 < (n:ℝ) + (a + 6.2421875) := by norm_num; positivity
  have f := Stirling.log_stirlingSeq_formula n
  rw [Real.log_div hn0.ne' (Real.exp_pos 1).ne', Real.log_exp, Real.log_mul two_ne_zero hn0.ne'] at f
  have g : Real.log (1 + (a + 6.2421875) / n) = Real.log ((n:ℝ) + (a + 6.2421875)) - Real.log n := by
    rw [← Real.log_div c1.ne' hn0.ne']
    congr 1
    field_simp
  have ea : a + ((n + 1 : ℕ) : ℝ) = (n:ℝ) + (a + 1) := by push_cast; ring
  rw [ea]
  unfold lnG
  rw [Real.log_div (by positivity) hx.ne', Real.log_mul (by norm_num) s.ne', g,
    show (n:ℝ) + (a + 1) + 5.2421875 = (n:ℝ) + (a + 6.2421875) by norm_num; ring, add_zero, f]
  ring

theorem lnG_close {a : ℝ} (ha : 0 < a) : |lnG a - Real.log (Real.Gamma a)| ≤ 3e-12 := by
  have h1 := main_tendsto ha
  have h2 := Real.BohrMollerup.tendsto_log_gamma ha
  have h3 : Tendsto (fun n : ℕ => |lnG a - Real.BohrMollerup.logGammaSeq a n -
      (lnG (a + (n + 1 : ℕ)) - a * Real.log n - Real.log (n.factorial : ℝ))|) atTop
      (𝓝 |lnG a - Real.log (Real.Gamma a) - rho|) := ((h2.const_sub (lnG a)).sub h1).abs
  have h4 : |lnG a - Real.log (Real.Gamma a) - rho| ≤ 2e-12 := by
    apply le_of_tendsto h3
    filter_upwards with n
    have e := lnG_shift (a := a) (n + 1)
    have hs := dfc_sum ha n
    unfold Real.BohrMollerup.logGammaSeq
    rw [show lnG a - (a * Real.log n + Real.log (n.factorial : ℝ) - ∑ m ∈ Finset.range (n + 1), Real.log (a + m)) -
      (lnG (a + (n + 1 : ℕ)) - a * Real.log n - Real.log (n.factorial : ℝ)) =
      -∑ m ∈ Finset.range (n + 1), dfc (a + m) by rw [e]; ring, abs_neg]
    exact hs
  have h5 := rho_bound
  rw [abs_le] at h4 h5 ⊢
  norm_num at h4 h5 ⊢
  constructor <;> linarith [h4.1, h4.2, h5.1, h5.2]

/-- The number that the code takes for the gamma function is close to it. -/
theorem G_close {a : ℝ} (ha : 0 < a) : |G a - Real.Gamma a| ≤ 6e-12 * Real.Gamma a := by
  have h := lnG_close ha
  have hg := Real.Gamma_pos_of_pos ha
  have e : G a = Real.Gamma a * Real.exp (lnG a - Real.log (Real.Gamma a)) := by
    unfold G
    rw [Real.exp_sub, Real.exp_log hg]
    field_simp
  have h2 := Real.abs_exp_sub_one_le (x := lnG a - Real.log (Real.Gamma a)) (by
    refine h.trans (by norm_num))
  have e2 : G a - Real.Gamma a = (Real.exp (lnG a - Real.log (Real.Gamma a)) - 1) * Real.Gamma a := by rw [e]; ring
  rw [e2, abs_mul, abs_of_pos hg]
  apply mul_le_mul_of_nonneg_right _ hg.le
  norm_num at h ⊢
  linarith

end Gam
end Verif
