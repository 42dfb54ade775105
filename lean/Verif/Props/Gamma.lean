import Verif.Lemmas.GammaInv
import Verif.Props.DistrInt

/-!
# Properties of the gamma functions

C134 (logarithm of the gamma function, binomial coefficients) and C135 (incomplete gamma function). The
theorems about C69 and C70 at the end use the functions of the code where the earlier ones take any.
-/

namespace Verif

open Gam

/-! ## C134: the logarithm of the gamma function, and binomial coefficients -/

/-- `gammln` is the logarithm of the gamma function to 3e-12. -/
theorem gammln_accurate {x : ℝ} (hx : 0 < x) :
    ∃ L, gammln x = .ok L ∧ |L - Real.log (Real.Gamma x)| ≤ 3e-12 :=
  ⟨_, gammln_eq hx, lnG_close hx⟩

example : ∃ L, gammln 4 = .ok L ∧ |L - Real.log (Real.Gamma 4)| ≤ 3e-12 := gammln_accurate (by norm_num)

/-- It refuses numbers that are not positive. -/
theorem gammln_refuses {x : ℝ} (hx : x ≤ 0) : ∃ e, gammln x = .throws e := by
  unfold gammln
  rw [if_pos hx]
  exact ⟨_, rfl⟩

example : ∃ e, gammln (-1) = .throws e := gammln_refuses (by norm_num)

/-- `bico` is the binomial coefficient, if that is at most 10^10. -/
theorem bico_exact {n k : ℕ} (hk : k ≤ n) (h : n.choose k ≤ 10 ^ 10) : bico n k = .ok (n.choose k) := by
  unfold bico
  rw [if_neg (by omega)]
  by_cases h0 : n = k ∨ k = 0
  · rw [if_pos (by omega)]
    rcases h0 with rfl | rfl <;> norm_num
  rw [if_neg (by omega)]
  have e1 : (((k : ℤ) : ℝ) + 1) = (k : ℝ) + 1 := by push_cast; ring
  have e2 : (((n : ℤ) : ℝ) - ((k : ℤ) : ℝ) + 1.0) = ((n - k : ℕ) : ℝ) + 1 := by
    rw [Nat.cast_sub hk]; push_cast; norm_num
  have e3 : (((n : ℤ) : ℝ) + 1) = (n : ℝ) + 1 := by push_cast; ring
  rw [e1, e2, e3, gammln_eq (by positivity), bind_ok', gammln_eq (by positivity), bind_ok',
    gammln_eq (by positivity), bind_ok']
  have l1 := abs_le.1 (lnG_close (a := (n : ℝ) + 1) (by positivity))
  have l2 := abs_le.1 (lnG_close (a := (k : ℝ) + 1) (by positivity))
  have l3 := abs_le.1 (lnG_close (a := ((n - k : ℕ) : ℝ) + 1) (by positivity))
  rw [Real.Gamma_nat_eq_factorial] at l1 l2 l3
  set d := lnG ((n : ℝ) + 1) - lnG ((k : ℝ) + 1) - lnG (((n - k : ℕ) : ℝ) + 1) with hd
  have hc : Real.log (n.choose k) = Real.log n.factorial - Real.log k.factorial - Real.log (n - k).factorial := by
    rw [Nat.cast_choose ℝ hk, Real.log_div (by positivity) (by positivity), Real.log_mul (by positivity)
      (by positivity)]
    ring
  have hcp : (0:ℝ) < n.choose k := by exact_mod_cast Nat.choose_pos hk
  have hc10 : ((n.choose k : ℕ) : ℝ) ≤ 10 ^ 10 := by exact_mod_cast h
  have he : |d - Real.log (n.choose k)| ≤ 9e-12 := by
    rw [hc, abs_le, hd]
    norm_num at l1 l2 l3 ⊢
    constructor <;> linarith [l1.1, l1.2, l2.1, l2.2, l3.1, l3.2]
  have hx : |Real.exp (d - Real.log (n.choose k)) - 1| ≤ 2 * |d - Real.log (n.choose k)| :=
    Real.abs_exp_sub_one_le (he.trans (by norm_num))
  have hx2 : Real.exp d = n.choose k * Real.exp (d - Real.log (n.choose k)) := by
    rw [Real.exp_sub d, Real.exp_log hcp]
    field_simp
  have hx3 := abs_le.1 (hx.trans (mul_le_mul_of_nonneg_left he (by norm_num : (0:ℝ) ≤ 2)))
  have hf : ⌊0.5 + Real.exp d⌋ = (n.choose k : ℤ) := by
    rw [Int.floor_eq_iff, hx2]
    generalize Real.exp (d - Real.log (n.choose k)) = E at hx3
    push_cast
    generalize ((n.choose k : ℕ) : ℝ) = C at hcp hc10 ⊢
    norm_num at hx3 hc10 ⊢
    obtain ⟨a1, a2⟩ := hx3
    constructor <;> nlinarith
  rw [hf]
  norm_cast

example : bico (10 : ℕ) (3 : ℕ) = .ok ((10 : ℕ).choose 3) := bico_exact (by norm_num) (by decide +kernel)

/-- In particular for all `n` to 36. -/
theorem bico_small {n : ℕ} (hn : n ≤ 36) (k : ℕ) (hk : k ≤ n) : bico n k = .ok (n.choose k) := by
  refine bico_exact hk ((Nat.choose_le_choose k hn).trans ((Nat.choose_le_middle k 36).trans ?_))
  decide +kernel

/-- It refuses other arguments. -/
theorem bico_refuses {n k : ℤ} (h : n < 0 ∨ k < 0 ∨ n < k) : ∃ e, bico n k = .throws e := by
  unfold bico
  rw [if_pos h]
  exact ⟨_, rfl⟩

example : ∃ e, bico 3 4 = .throws e := bico_refuses (by norm_num)

/-! ## C135: the incomplete gamma function -/

/-- For `a < 100`, `gammp` is the incomplete gamma function to 3e-9. -/
theorem gammp_accurate {a x : ℝ} (ha : 0 < a) (ha100 : a < 100) (hx : 0 ≤ x) :
    ∃ R, gammp a x = .ok R ∧
      |R - (∫ t in (0:ℝ)..x, t ^ (a - 1) * Real.exp (-t)) / Real.Gamma a| ≤ 3e-9 := by
  rcases hx.eq_or_lt with rfl | hx
  · refine ⟨0, ?_, by norm_num⟩
    unfold gammp gammpWith
    rw [if_neg (by push Not; exact ⟨le_refl _, ha⟩), if_pos rfl]
  have hg := Real.Gamma_pos_of_pos ha
  have hP1 : lowG a x / Real.Gamma a ≤ 1 := (div_le_one hg).2 (lowG_le_Gamma ha hx)
  have hP0 : 0 ≤ lowG a x / Real.Gamma a := div_nonneg (lowG_nonneg hx) hg.le
  by_cases h : x < a + 1
  · obtain ⟨R, e, hR⟩ := gammp_ser ha ha100 hx h
    refine ⟨R, e, hR.trans ?_⟩
    norm_num
    linarith
  · obtain ⟨R, e, hR⟩ := gammp_frac ha ha100 (not_lt.1 h)
    refine ⟨R, e, hR.trans ?_⟩
    norm_num
    linarith

example : ∃ R, gammp 5 7 = .ok R ∧
    |R - (∫ t in (0:ℝ)..7, t ^ ((5:ℝ) - 1) * Real.exp (-t)) / Real.Gamma 5| ≤ 3e-9 :=
  gammp_accurate (by norm_num) (by norm_num) (by norm_num)

/-- For `x < a + 1` the error is relative, so that small probabilities are right. -/
theorem gammp_lower_accurate {a x : ℝ} (ha : 0 < a) (ha100 : a < 100) (hx : 0 < x) (h : x < a + 1) :
    ∃ R, gammp a x = .ok R ∧
      |R - (∫ t in (0:ℝ)..x, t ^ (a - 1) * Real.exp (-t)) / Real.Gamma a|
        ≤ 1e-11 * ((∫ t in (0:ℝ)..x, t ^ (a - 1) * Real.exp (-t)) / Real.Gamma a) :=
  gammp_ser ha ha100 hx h

example : ∃ R, gammp 9 1 = .ok R ∧ |R - (∫ t in (0:ℝ)..1, t ^ ((9:ℝ) - 1) * Real.exp (-t)) / Real.Gamma 9|
    ≤ 1e-11 * ((∫ t in (0:ℝ)..1, t ^ ((9:ℝ) - 1) * Real.exp (-t)) / Real.Gamma 9) :=
  gammp_lower_accurate (by norm_num) (by norm_num) (by norm_num) (by norm_num)

/-- For `x ≥ a + 1` the error is relative to the probability above `x`. -/
theorem gammp_upper_accurate {a x : ℝ} (ha : 0 < a) (ha100 : a < 100) (h : a + 1 ≤ x) :
    ∃ R, gammp a x = .ok R ∧
      |R - (∫ t in (0:ℝ)..x, t ^ (a - 1) * Real.exp (-t)) / Real.Gamma a|
        ≤ 3e-9 * (1 - (∫ t in (0:ℝ)..x, t ^ (a - 1) * Real.exp (-t)) / Real.Gamma a) :=
  gammp_frac ha ha100 h

example : ∃ R, gammp 2 30 = .ok R ∧ |R - (∫ t in (0:ℝ)..30, t ^ ((2:ℝ) - 1) * Real.exp (-t)) / Real.Gamma 2|
    ≤ 3e-9 * (1 - (∫ t in (0:ℝ)..30, t ^ ((2:ℝ) - 1) * Real.exp (-t)) / Real.Gamma 2) :=
  gammp_upper_accurate (by norm_num) (by norm_num) (by norm_num)

/-- `gammp` is zero at zero, a number for every other `a > 0` and `x > 0`, and refuses other arguments. -/
theorem gammp_domain (a x : ℝ) : (0 < a → gammp a 0 = .ok 0) ∧ (0 < a → 0 ≤ x → ∃ R, gammp a x = .ok R) ∧
    (a ≤ 0 ∨ x < 0 → ∃ e, gammp a x = .throws e) := by
  refine ⟨fun ha => ?_, gammp_ok, fun h => ?_⟩
  · unfold gammp gammpWith
    rw [if_neg (by push Not; exact ⟨le_refl _, ha⟩), if_pos rfl]
  · unfold gammp gammpWith
    rw [if_pos h.symm]
    exact ⟨_, rfl⟩

example : ∃ R, gammp 150 120 = .ok R := (gammp_domain 150 120).2.1 (by norm_num) (by norm_num)

/-- For `a ≥ 100` and `x` far above `a`, where the exponential function of doubles is zero, `gammp` is 0
and not 1: it takes a sum of zero for one below `a`. -/
theorem gammp_underflow_violation {ex : ℝ → ℝ} (hex : ∀ u, u ≤ -746 → ex u = 0) :
    gammpWith ex 100 2000 = .ok 0 ∧
      0.999 ≤ (∫ t in (0:ℝ)..2000, t ^ ((100:ℝ) - 1) * Real.exp (-t)) / Real.Gamma 100 := by
  constructor
  · unfold gammpWith
    rw [if_neg (by norm_num), if_neg (by norm_num), if_pos (by norm_num)]
    unfold gammpapproxWith
    simp only
    have h99 : (100:ℝ) - 1 = 99 := by norm_num
    rw [h99, flog_ok (by norm_num), bind_ok', fsqrt_ok (by norm_num), bind_ok', gammln_eq (by norm_num), bind_ok',
      if_pos (by norm_num)]
    have s1 : √(99:ℝ) ≤ 10 := Real.sqrt_le_iff.2 ⟨by norm_num, by norm_num⟩
    have s0 : 0 ≤ √(99:ℝ) := Real.sqrt_nonneg _
    have hm : 2000 ≤ max (99 + 11.5 * √(99:ℝ)) (2000 + 6 * √99) := le_max_of_le_right (by linarith)
    have hm2 : max (99 + 11.5 * √(99:ℝ)) (2000 + 6 * √99) ≤ 2060 :=
      max_le (by norm_num; linarith) (by linarith)
    generalize max (99 + 11.5 * √(99:ℝ)) (2000 + 6 * √99) = xu at hm hm2
    have hq : quadLoop ex 99 (Real.log 99) 2000 xu (nodes.zip weights) 0 = .ok 0 := by
      refine quad_zero (fun y y0 y1 => ?_) _ nodes_mem
      have t1 : 2000 ≤ 2000 + (xu - 2000) * y := by nlinarith
      have t2 : 2000 + (xu - 2000) * y ≤ 2060 := by nlinarith
      generalize 2000 + (xu - 2000) * y = t at t1 t2
      refine ⟨by linarith, hex _ ?_⟩
      have hl : Real.log t - Real.log 99 ≤ 3.5 := by
        rw [← Real.log_div (by linarith) (by norm_num)]
        have h1 : Real.log (t / 99) ≤ Real.log ((2:ℝ) ^ 5) :=
          Real.log_le_log (by positivity) (by rw [div_le_iff₀ (by norm_num)]; linarith)
        rw [Real.log_pow] at h1
        have := Real.log_two_lt_d9
        norm_num at h1 this ⊢
        linarith
      norm_num at hl ⊢
      linarith
    rw [hq, bind_ok']
    norm_num
  · have ht := tail_eq (a := 100) (x := 2000) (by norm_num) (by norm_num)
    have hr := K_rec0 (a := 100) (x := 2000) (by norm_num)
    have hK1 := K_pos 100 (by norm_num : (0:ℝ) < 2000) 1
    have hK0 := K_pos 100 (by norm_num : (0:ℝ) < 2000) 0
    have hK : K 100 2000 0 ≤ 1 / 1901 := by
      rw [le_div_iff₀ (by norm_num)]
      linarith
    have hpow : (2000:ℝ) ^ (100:ℝ) * Real.exp (-2000) ≤ 1 := by
      rw [show (100:ℝ) = ((100:ℕ) : ℝ) by norm_num, Real.rpow_natCast, Real.exp_neg,
        ← div_eq_mul_inv, div_le_one (Real.exp_pos _)]
      have h2 : (2:ℝ) ≤ Real.exp 1 := by linarith [Real.exp_one_gt_d9]
      calc (2000:ℝ) ^ 100 ≤ (2 ^ 11) ^ 100 := pow_le_pow_left₀ (by norm_num) (by norm_num) _
        _ = 2 ^ 1100 := by rw [← pow_mul]
        _ ≤ Real.exp 1 ^ 1100 := pow_le_pow_left₀ (by norm_num) h2 _
        _ = Real.exp 1100 := by rw [← Real.exp_nat_mul]; norm_num
        _ ≤ Real.exp 2000 := Real.exp_le_exp.2 (by norm_num)
    have hG1 : 1 ≤ Real.Gamma 100 := by
      rw [show (100:ℝ) = ((99:ℕ) : ℝ) + 1 by norm_num, Real.Gamma_nat_eq_factorial]
      exact_mod_cast Nat.one_le_iff_ne_zero.2 (Nat.factorial_ne_zero 99)
    have h5 : Real.Gamma 100 - lowG 100 2000 ≤ 1 / 1901 := by
      rw [ht]
      calc _ ≤ 1 * K 100 2000 0 := mul_le_mul_of_nonneg_right hpow hK0.le
        _ ≤ 1 / 1901 := by rw [one_mul]; exact hK
    show 0.999 ≤ lowG 100 2000 / Real.Gamma 100
    rw [le_div_iff₀ (by linarith)]
    norm_num at h5 ⊢
    linarith

example : gammpWith (fun u => if u ≤ -746 then 0 else Real.exp u) 100 2000 = .ok 0 :=
  (gammp_underflow_violation fun _ h => if_pos h).1

/-! ## C69 and C70 with these functions -/

/-- The function that `Poisson::Cdf` uses is the probability of more than `k`, not of at most `k`. -/
theorem gammp_poisson {l : ℝ} (hl : 0 < l) {k : ℕ} (hk : k < 99) : ∃ g, gammp (k + 1) l = .ok g ∧
    |g - (1 - ∑ j ∈ Finset.range (k + 1), Real.exp (-l) * l ^ j / j.factorial)| ≤ 3e-9 := by
  have h99 : (k : ℝ) + 1 < 100 := by
    have : (k : ℝ) < 99 := by exact_mod_cast hk
    linarith
  obtain ⟨R, e, h⟩ := gammp_accurate (a := k + 1) (x := l) (by positivity) h99 hl.le
  refine ⟨R, e, ?_⟩
  rw [← lowG_nat hl]
  exact h

example : ∃ g, gammp ((3:ℕ) + 1) 2 = .ok g ∧
    |g - (1 - ∑ j ∈ Finset.range (3 + 1), Real.exp (-2) * 2 ^ j / j.factorial)| ≤ 3e-9 :=
  gammp_poisson (by norm_num) (by norm_num)

/-- `Poisson(2).Cdf(0)` is more than one half above the probability of 0. -/
theorem poisson_cdf_violation :
    ∃ x, (Poisson.create 2).cdf gammp 0 = .ok x ∧ Real.exp (-2) + 0.5 < x := by
  obtain ⟨g, e, h⟩ := gammp_poisson (l := 2) (by norm_num) (k := 0) (by norm_num)
  norm_num at e h
  exact poisson_cdf_refuted e (h.trans (by norm_num))

/-- `Poisson(2).Quantile(0.9)` overflows an `int`. -/
theorem poisson_quantile_violation : (Poisson.create 2).quantile gammp 0.9 = .ub "int overflow" := by
  refine poisson_quantile_refuted fun k hk => ?_
  obtain ⟨g, e, h⟩ := gammp_poisson (l := 2) (by norm_num) (k := k) (by omega)
  exact ⟨g, e, h.trans (by norm_num)⟩

/-- The binomial distribution of at most 36 trials, with the coefficients of the code.
Missing: more trials, and that `Quantile` is the inverse of `Cdf`, which is refuted. -/
theorem binomial_of_code_partial {n : ℕ} {p : ℝ} (hn : n ≤ 36) (h0 : 0 ≤ p) (h1 : p ≤ 1) :
    ∃ d, Binomial.create bico n p = .ok d ∧ ∃ ν : MeasureTheory.Measure ℤ,
      MeasureTheory.IsProbabilityMeasure ν ∧
      (∀ k : ℕ, ν.real {(k : ℤ)} = n.choose k * p ^ k * (1 - p) ^ (n - k)) ∧
      Spec.DrawsHaveLaw (drawQuantile d.quantile) ν ∧
      (∀ k, d.pdf bico k = .ok (ν.real {k})) ∧
      (∀ k, d.cdf k = .ok (ν.real (Set.Iic k))) := by
  obtain ⟨d, e, ν, hν, a1, a2, a3, a4, -⟩ :=
    binomial_describes_partial (bico := bico) (bico_small hn) h0 h1 (by omega)
  exact ⟨d, e, ν, hν, a1, a2, a3, a4⟩

example : ∃ d, Binomial.create bico (20 : ℕ) (1 / 4) = .ok d := by
  obtain ⟨d, e, -⟩ := binomial_of_code_partial (n := 20) (p := 1 / 4) (by norm_num) (by norm_num) (by norm_num)
  exact ⟨d, e⟩

end Verif
