import Verif.Lemmas.FlApprox

/-!
# Rounding of concrete numbers
-/

namespace Verif

open Ieee

theorem rne_up {n : ℤ} (h : Even (n + 1)) : rne ((n : ℝ) + 1 / 2) = n + 1 := by
  unfold rne
  have e : ⌊(n : ℝ) + 1 / 2⌋ = n := by
    rw [Int.floor_eq_iff]
    constructor <;> linarith
  have ne : ¬ Even n := by
    intro h'
    exact (Int.even_add_one.1 h) h'
  rw [e, if_neg (by linarith), if_neg (by linarith), if_neg ne]

theorem rne_down {n : ℤ} (h : Even n) : rne ((n : ℝ) + 1 / 2) = n := by
  unfold rne
  have e : ⌊(n : ℝ) + 1 / 2⌋ = n := by
    rw [Int.floor_eq_iff]
    constructor <;> linarith
  rw [e, if_neg (by linarith), if_neg (by linarith), if_pos h]

/-- The rounded value of `x`, given the binary exponent. -/
theorem rnd64_scale {x : ℝ} {j : ℕ} (hj : j ≤ 1000) (h1 : 2 ^ 52 ≤ x * 2 ^ j) (h2 : x * 2 ^ j < 2 ^ 53) :
    rnd64 x = rne (x * 2 ^ j) / 2 ^ j := by
  have p : (0 : ℝ) < 2 ^ j := by positivity
  have hx : 0 < x := by
    by_contra h
    have := mul_nonpos_of_nonpos_of_nonneg (not_lt.1 h) p.le
    have : (0 : ℝ) < 2 ^ 52 := by positivity
    linarith
  have hl : Int.log 2 |x| = 52 - j := by
    rw [abs_of_pos hx]
    have z1 : (2 : ℝ) ^ (52 - j : ℤ) = 2 ^ 52 / 2 ^ j := by
      rw [zpow_sub₀ (by norm_num)]
      norm_cast
    have z2 : (2 : ℝ) ^ (52 - j + 1 : ℤ) = 2 ^ 53 / 2 ^ j := by
      rw [show (52 - j + 1 : ℤ) = 53 - j by ring, zpow_sub₀ (by norm_num)]
      norm_cast
    apply le_antisymm
    · have := (Int.lt_zpow_iff_log_lt (b := 2) (by norm_num) hx (x := 52 - j + 1)).1 (by
        push_cast
        rw [z2, lt_div_iff₀ p]
        exact h2)
      omega
    · rw [← Int.zpow_le_iff_le_log (by norm_num) hx]
      push_cast
      rw [z1, div_le_iff₀ p]
      exact h1
  have he : expo 53 (-1074) x = -j := by
    unfold expo
    rw [hl, max_eq_left]
    · push_cast; ring
    · push_cast; omega
  unfold rnd64 rnd
  rw [he, zpow_neg, zpow_natCast, div_inv_eq_mul, ← div_eq_mul_inv]

theorem rnd64_eval {x : ℝ} (m : ℤ) (j : ℕ) (hj : j ≤ 1000) (h1 : 2 ^ 52 ≤ x * 2 ^ j) (h2 : x * 2 ^ j < 2 ^ 53)
    (h : |x * 2 ^ j - m| < 1 / 2) : rnd64 x = m / 2 ^ j := by
  rw [rnd64_scale hj h1 h2, rne_near h]

theorem rnd64_tie_up {x : ℝ} (n : ℤ) (j : ℕ) (hj : j ≤ 1000) (h1 : 2 ^ 52 ≤ x * 2 ^ j) (h2 : x * 2 ^ j < 2 ^ 53)
    (h : x * 2 ^ j = n + 1 / 2) (he : Even (n + 1)) : rnd64 x = ((n + 1 : ℤ) : ℝ) / 2 ^ j := by
  rw [rnd64_scale hj h1 h2, h, rne_up he]

theorem rnd64_tie_down {x : ℝ} (n : ℤ) (j : ℕ) (hj : j ≤ 1000) (h1 : 2 ^ 52 ≤ x * 2 ^ j) (h2 : x * 2 ^ j < 2 ^ 53)
    (h : x * 2 ^ j = n + 1 / 2) (he : Even n) : rnd64 x = n / 2 ^ j := by
  rw [rnd64_scale hj h1 h2, h, rne_down he]

end Verif
