import Verif.Lemmas.ExpBound
import Verif.Spec.Normal

/-! Helper lemmas: the function that the third branch of the normal sampler compares with is between
0 and 0.358 on [-3, 3]. -/

namespace Verif.WedgeBound

open Verif.ExpBound Verif.Spec

/-- exp (-x²/2) -/
noncomputable def bell (x : ℝ) : ℝ := Real.exp (-(x ^ 2 / 2))

theorem bell_pos (x : ℝ) : 0 < bell x := Real.exp_pos _

theorem hasDerivAt_bell (x : ℝ) : HasDerivAt bell (-x * bell x) x := by
  have h : HasDerivAt (fun x : ℝ => -(x ^ 2 / 2)) (-x) x := by
    have := (((hasDerivAt_id x).pow 2).div_const 2).neg
    refine this.congr_deriv ?_
    simp
  have := h.exp
  refine this.congr_deriv ?_
  unfold bell; ring

theorem third_le (x : ℝ) : |3 * x - x ^ 3| * bell x ≤ 1.4 := by
  have h1 : 1 + x ^ 2 / 2 + (x ^ 2 / 2) ^ 2 / 2 ≤ Real.exp (x ^ 2 / 2) := by
    have := Real.quadratic_le_exp_of_nonneg (x := x ^ 2 / 2) (by positivity)
    exact this
  have h2 : bell x * Real.exp (x ^ 2 / 2) = 1 := by
    unfold bell; rw [← Real.exp_add]; simp
  have h3 : |3 * x - x ^ 3| ≤ 1.4 * (1 + x ^ 2 / 2 + (x ^ 2 / 2) ^ 2 / 2) := by
    rw [abs_le]
    constructor
    · nlinarith [sq_nonneg (x ^ 2 - 20 / 7 * x - 2.66), sq_nonneg (x + 0.84)]
    · nlinarith [sq_nonneg (x ^ 2 + 20 / 7 * x - 2.66), sq_nonneg (x - 0.84)]
  calc |3 * x - x ^ 3| * bell x ≤ 1.4 * (1 + x ^ 2 / 2 + (x ^ 2 / 2) ^ 2 / 2) * bell x :=
        mul_le_mul_of_nonneg_right h3 (bell_pos x).le
    _ ≤ 1.4 * Real.exp (x ^ 2 / 2) * bell x :=
        mul_le_mul_of_nonneg_right (by linarith) (bell_pos x).le
    _ = 1.4 := by rw [mul_assoc, mul_comm (Real.exp _), h2, mul_one]

/-- Three derivatives: a function with vanishing value and derivatives at 0 and nonnegative third
derivative has the sign of its argument. -/
theorem sign_of_third {f f1 f2 f3 : ℝ → ℝ} (h1 : ∀ d, HasDerivAt f (f1 d) d)
    (h2 : ∀ d, HasDerivAt f1 (f2 d) d) (h3 : ∀ d, HasDerivAt f2 (f3 d) d) (h0 : f 0 = 0)
    (h01 : f1 0 = 0) (h02 : f2 0 = 0) (h : ∀ d, 0 ≤ f3 d) (d : ℝ) :
    (0 ≤ d → 0 ≤ f d) ∧ (d ≤ 0 → f d ≤ 0) := by
  have m2 : Monotone f2 := monotone_of_deriv_nonneg (fun d => (h3 d).differentiableAt) fun d => by
    rw [(h3 d).deriv]; exact h d
  have p1 : ∀ d, 0 ≤ f1 d := by
    intro d
    rcases le_total 0 d with hd | hd
    · have hm : MonotoneOn f1 (Set.Ici 0) := by
        refine monotoneOn_of_deriv_nonneg (convex_Ici 0)
          (fun y _ => (h2 y).continuousAt.continuousWithinAt)
          (fun y _ => (h2 y).differentiableAt.differentiableWithinAt) fun y hy => ?_
        rw [(h2 y).deriv]
        rw [interior_Ici] at hy
        rw [← h02]; exact m2 (le_of_lt hy)
      rw [← h01]
      exact hm (Set.mem_Ici.2 le_rfl) hd hd
    · have hm : AntitoneOn f1 (Set.Iic 0) := by
        refine antitoneOn_of_deriv_nonpos (convex_Iic 0)
          (fun y _ => (h2 y).continuousAt.continuousWithinAt)
          (fun y _ => (h2 y).differentiableAt.differentiableWithinAt) fun y hy => ?_
        rw [(h2 y).deriv]
        rw [interior_Iic] at hy
        rw [← h02]; exact m2 (le_of_lt hy)
      rw [← h01]
      exact hm hd (Set.mem_Iic.2 le_rfl) hd
  have m0 : Monotone f := monotone_of_deriv_nonneg (fun d => (h1 d).differentiableAt) fun d => by
    rw [(h1 d).deriv]; exact p1 d
  exact ⟨fun hd => h0 ▸ m0 hd, fun hd => h0 ▸ m0 hd⟩

/-- Taylor's formula for the bell curve around `m`. -/
theorem bell_taylor (m d : ℝ) :
    |bell (m + d) - bell m * (1 - m * d + (m ^ 2 - 1) * d ^ 2 / 2)| ≤ 1.4 / 6 * |d| ^ 3 := by
  have hb : ∀ d, HasDerivAt (fun d => bell (m + d)) (-(m + d) * bell (m + d)) d := fun d =>
    (hasDerivAt_bell (m + d)).comp_const_add m d
  have hb1 : ∀ d, HasDerivAt (fun d => -(m + d) * bell (m + d))
      (((m + d) ^ 2 - 1) * bell (m + d)) d := by
    intro d
    have := (((hasDerivAt_id d).const_add m).neg).mul (hb d)
    refine this.congr_deriv ?_
    simp only [id, Pi.neg_apply]
    ring
  have hb2 : ∀ d, HasDerivAt (fun d => ((m + d) ^ 2 - 1) * bell (m + d))
      ((3 * (m + d) - (m + d) ^ 3) * bell (m + d)) d := by
    intro d
    have := ((((hasDerivAt_id d).const_add m).pow 2).sub_const 1).mul (hb d)
    refine this.congr_deriv ?_
    simp
    ring
  have hp : ∀ d, HasDerivAt (fun d => bell m * (1 - m * d + (m ^ 2 - 1) * d ^ 2 / 2))
      (bell m * (-m + (m ^ 2 - 1) * d)) d := by
    intro d
    have := ((((hasDerivAt_id d).const_mul m).const_sub 1).add
      ((((hasDerivAt_id d).pow 2).const_mul (m ^ 2 - 1)).div_const 2)).const_mul (bell m)
    refine this.congr_deriv ?_
    simp only [id, Nat.cast_ofNat]
    ring
  have hp1 : ∀ d, HasDerivAt (fun d => bell m * (-m + (m ^ 2 - 1) * d))
      (bell m * (m ^ 2 - 1)) d := by
    intro d
    have := (((hasDerivAt_id d).const_mul (m ^ 2 - 1)).const_add (-m)).const_mul (bell m)
    refine this.congr_deriv ?_
    simp
  have hc : ∀ d, HasDerivAt (fun d : ℝ => 1.4 / 6 * d ^ 3) (1.4 / 2 * d ^ 2) d := by
    intro d
    refine (((hasDerivAt_id d).pow 3).const_mul (1.4 / 6)).congr_deriv ?_
    simp
    ring
  have hc1 : ∀ d, HasDerivAt (fun d : ℝ => 1.4 / 2 * d ^ 2) (1.4 * d) d := by
    intro d
    refine (((hasDerivAt_id d).pow 2).const_mul (1.4 / 2)).congr_deriv ?_
    simp
    ring
  have hc2 : ∀ d, HasDerivAt (fun d : ℝ => 1.4 * d) 1.4 d := by
    intro d
    refine ((hasDerivAt_id d).const_mul 1.4).congr_deriv ?_
    simp
  have third : ∀ x, |(3 * x - x ^ 3) * bell x| ≤ 1.4 := by
    intro x
    rw [abs_mul, abs_of_pos (bell_pos x)]
    exact third_le x
  have A := sign_of_third
    (fun d => (hc d).sub ((hb d).sub (hp d))) (fun d => (hc1 d).sub ((hb1 d).sub (hp1 d)))
    (fun d => (hc2 d).sub ((hb2 d).sub_const (bell m * (m ^ 2 - 1))))
    (by simp) (by simp; ring) (by simp; ring) (fun d => by
      have := (abs_le.1 (third (m + d))).2
      linarith) d
  have B := sign_of_third
    (fun d => (hc d).add ((hb d).sub (hp d))) (fun d => (hc1 d).add ((hb1 d).sub (hp1 d)))
    (fun d => (hc2 d).add ((hb2 d).sub_const (bell m * (m ^ 2 - 1))))
    (by simp) (by simp; ring) (by simp; ring) (fun d => by
      have := (abs_le.1 (third (m + d))).1
      linarith) d
  simp only [Pi.sub_apply, Pi.add_apply] at A B
  rcases le_total 0 d with hd | hd
  · rw [abs_of_nonneg hd, abs_le]
    constructor
    · linarith [B.1 hd]
    · linarith [A.1 hd]
  · rw [abs_of_nonpos hd, abs_le]
    have e : 1.4 / 6 * (-d) ^ 3 = -(1.4 / 6 * d ^ 3) := by ring
    rw [e]
    constructor
    · linarith [A.2 hd]
    · linarith [B.2 hd]

theorem poly_pos {m d : ℝ} (hd : |d| ≤ 1) : 0 ≤ 1 - m * d + (m ^ 2 - 1) * d ^ 2 / 2 := by
  have : d ^ 2 ≤ 1 := by rw [← sq_abs]; exact pow_le_one₀ (abs_nonneg _) hd
  nlinarith [sq_nonneg (1 - m * d)]

theorem cube_le {d h : ℝ} (hd : |d| ≤ h) : |d| ^ 3 ≤ h * d ^ 2 := by
  rw [pow_succ, sq_abs, mul_comm]
  exact mul_le_mul_of_nonneg_right hd (sq_nonneg d)

theorem bell_low {m h lo x : ℝ} (hlo : lo ≤ bell m) (hx : |x - m| ≤ h) (hh : h ≤ 1) :
    lo * (1 - m * (x - m) + (m ^ 2 - 1) * (x - m) ^ 2 / 2) - 1.4 / 6 * (h * (x - m) ^ 2) ≤ bell x := by
  have h1 := (abs_le.1 (bell_taylor m (x - m))).1
  rw [add_sub_cancel] at h1
  have h2 := mul_le_mul_of_nonneg_right hlo (poly_pos (m := m) (hx.trans hh))
  have h3 := cube_le hx
  linarith

theorem bell_up {m h hi x : ℝ} (hhi : bell m ≤ hi) (hx : |x - m| ≤ h) (hh : h ≤ 1) :
    bell x ≤ hi * (1 - m * (x - m) + (m ^ 2 - 1) * (x - m) ^ 2 / 2) + 1.4 / 6 * (h * (x - m) ^ 2) := by
  have h1 := (abs_le.1 (bell_taylor m (x - m))).2
  rw [add_sub_cancel] at h1
  have h2 := mul_le_mul_of_nonneg_right hhi (poly_pos (m := m) (hx.trans hh))
  have h3 := cube_le hx
  linarith

theorem low0_0 {x : ℝ} (h1 : 0 ≤ x) (h2 : x ≤ 0.5) :
    2 * 2.36785163 * (3 - x ^ 2) + 2.15787544 * (1.5 - x) ≤ 17.49731196 * bell x := by
  have hm : (0.9692332 : ℝ) ≤ bell 0.25 := le_trans (by norm_num [alt, Finset.sum_range_succ, Nat.factorial])
    (alt_even_le 3 (by norm_num : (0 : ℝ) ≤ 0.25 ^ 2 / 2))
  have := bell_low (x := x) (h := 0.25) hm (abs_le.2 ⟨by linarith, by linarith⟩) (by norm_num)
  nlinarith [mul_nonneg (sub_nonneg.2 h1) (sub_nonneg.2 h2), sq_nonneg (x - 250/881)]

theorem low0_1 {x : ℝ} (h1 : 0.5 ≤ x) (h2 : x ≤ 0.75) :
    2 * 2.36785163 * (3 - x ^ 2) + 2.15787544 * (1.5 - x) ≤ 17.49731196 * bell x := by
  have hm : (0.8225775 : ℝ) ≤ bell 0.625 := le_trans (by norm_num [alt, Finset.sum_range_succ, Nat.factorial])
    (alt_even_le 4 (by norm_num : (0 : ℝ) ≤ 0.625 ^ 2 / 2))
  have := bell_low (x := x) (h := 0.125) hm (abs_le.2 ⟨by linarith, by linarith⟩) (by norm_num)
  nlinarith [mul_nonneg (sub_nonneg.2 h1) (sub_nonneg.2 h2), sq_nonneg (x - -101/45)]

theorem low0_2 {x : ℝ} (h1 : 0.75 ≤ x) (h2 : x ≤ 1) :
    2 * 2.36785163 * (3 - x ^ 2) + 2.15787544 * (1.5 - x) ≤ 17.49731196 * bell x := by
  have hm : (0.6819407 : ℝ) ≤ bell 0.875 := le_trans (by norm_num [alt, Finset.sum_range_succ, Nat.factorial])
    (alt_even_le 5 (by norm_num : (0 : ℝ) ≤ 0.875 ^ 2 / 2))
  have := bell_low (x := x) (h := 0.125) hm (abs_le.2 ⟨by linarith, by linarith⟩) (by norm_num)
  nlinarith [mul_nonneg (sub_nonneg.2 h1) (sub_nonneg.2 h2), sq_nonneg (x - 521/596)]

theorem low1_0 {x : ℝ} (h1 : 1 ≤ x) (h2 : x ≤ 1.5) :
    2.36785163 * (3 - x) ^ 2 + 2.15787544 * (1.5 - x) ≤ 17.49731196 * bell x := by
  have hm : (0.4578333 : ℝ) ≤ bell 1.25 := le_trans (by norm_num [alt, Finset.sum_range_succ, Nat.factorial])
    (alt_even_le 6 (by norm_num : (0 : ℝ) ≤ 1.25 ^ 2 / 2))
  have := bell_low (x := x) (h := 0.25) hm (abs_le.2 ⟨by linarith, by linarith⟩) (by norm_num)
  nlinarith [mul_nonneg (sub_nonneg.2 h1) (sub_nonneg.2 h2), sq_nonneg (x - 1263/877)]

theorem low2_0 {x : ℝ} (h1 : 1.5 ≤ x) (h2 : x ≤ 1.75) :
    2.36785163 * (3 - x) ^ 2 ≤ 17.49731196 * bell x := by
  have hm : (0.2670518 : ℝ) ≤ bell 1.625 := le_trans (by norm_num [alt, Finset.sum_range_succ, Nat.factorial])
    (alt_even_le 7 (by norm_num : (0 : ℝ) ≤ 1.625 ^ 2 / 2))
  have := bell_low (x := x) (h := 0.125) hm (abs_le.2 ⟨by linarith, by linarith⟩) (by norm_num)
  nlinarith [mul_nonneg (sub_nonneg.2 h1) (sub_nonneg.2 h2), sq_nonneg (x - 1363/622)]

theorem low2_1 {x : ℝ} (h1 : 1.75 ≤ x) (h2 : x ≤ 2.25) :
    2.36785163 * (3 - x) ^ 2 ≤ 17.49731196 * bell x := by
  have hm : (0.1353352 : ℝ) ≤ bell 2 := le_trans (by norm_num [alt, Finset.sum_range_succ, Nat.factorial])
    (alt_even_le 9 (by norm_num : (0 : ℝ) ≤ 2 ^ 2 / 2))
  have := bell_low (x := x) (h := 0.25) hm (abs_le.2 ⟨by linarith, by linarith⟩) (by norm_num)
  nlinarith [mul_nonneg (sub_nonneg.2 h1) (sub_nonneg.2 h2), sq_nonneg (x - 2001/1000)]

theorem low2_2 {x : ℝ} (h1 : 2.25 ≤ x) (h2 : x ≤ 2.5) :
    2.36785163 * (3 - x) ^ 2 ≤ 17.49731196 * bell x := by
  have hm : (0.0595873 : ℝ) ≤ bell 2.375 := le_trans (by norm_num [alt, Finset.sum_range_succ, Nat.factorial])
    (alt_even_le 10 (by norm_num : (0 : ℝ) ≤ 2.375 ^ 2 / 2))
  have := bell_low (x := x) (h := 0.125) hm (abs_le.2 ⟨by linarith, by linarith⟩) (by norm_num)
  nlinarith [mul_nonneg (sub_nonneg.2 h1) (sub_nonneg.2 h2), sq_nonneg (x - 2571/886)]

theorem low2_3 {x : ℝ} (h1 : 2.5 ≤ x) (h2 : x ≤ 3) :
    2.36785163 * (3 - x) ^ 2 ≤ 17.49731196 * bell x := by
  have hm : (0.0227941 : ℝ) ≤ bell 2.75 := le_trans (by norm_num [alt, Finset.sum_range_succ, Nat.factorial])
    (alt_even_le 12 (by norm_num : (0 : ℝ) ≤ 2.75 ^ 2 / 2))
  have := bell_low (x := x) (h := 0.25) hm (abs_le.2 ⟨by linarith, by linarith⟩) (by norm_num)
  nlinarith [mul_nonneg (sub_nonneg.2 h1) (sub_nonneg.2 h2), sq_nonneg (x - 2613/943)]

theorem up0_0 {x : ℝ} (h1 : 0 ≤ x) (h2 : x ≤ 0.25) :
    17.49731196 * bell x ≤ 2 * 2.36785163 * (3 - x ^ 2) + 2.15787544 * (1.5 - x) + 0.358 := by
  have hm : bell 0.125 ≤ (0.992218 : ℝ) := le_trans
    (le_alt_odd 2 (by norm_num : (0 : ℝ) ≤ 0.125 ^ 2 / 2))
    (by norm_num [alt, Finset.sum_range_succ, Nat.factorial])
  have := bell_up (x := x) (h := 0.125) hm (abs_le.2 ⟨by linarith, by linarith⟩) (by norm_num)
  nlinarith [mul_nonneg (sub_nonneg.2 h1) (sub_nonneg.2 h2), sq_nonneg (x - 82/271)]

theorem up0_1 {x : ℝ} (h1 : 0.25 ≤ x) (h2 : x ≤ 0.375) :
    17.49731196 * bell x ≤ 2 * 2.36785163 * (3 - x ^ 2) + 2.15787544 * (1.5 - x) + 0.358 := by
  have hm : bell 0.3125 ≤ (0.9523448 : ℝ) := le_trans
    (le_alt_odd 3 (by norm_num : (0 : ℝ) ≤ 0.3125 ^ 2 / 2))
    (by norm_num [alt, Finset.sum_range_succ, Nat.factorial])
  have := bell_up (x := x) (h := 0.0625) hm (abs_le.2 ⟨by linarith, by linarith⟩) (by norm_num)
  nlinarith [mul_nonneg (sub_nonneg.2 h1) (sub_nonneg.2 h2), sq_nonneg (x - 242/821)]

theorem up0_2 {x : ℝ} (h1 : 0.375 ≤ x) (h2 : x ≤ 0.625) :
    17.49731196 * bell x ≤ 2 * 2.36785163 * (3 - x ^ 2) + 2.15787544 * (1.5 - x) + 0.358 := by
  have hm : bell 0.5 ≤ (0.882497 : ℝ) := le_trans
    (le_alt_odd 4 (by norm_num : (0 : ℝ) ≤ 0.5 ^ 2 / 2))
    (by norm_num [alt, Finset.sum_range_succ, Nat.factorial])
  have := bell_up (x := x) (h := 0.125) hm (abs_le.2 ⟨by linarith, by linarith⟩) (by norm_num)
  nlinarith [mul_nonneg (sub_nonneg.2 h1) (sub_nonneg.2 h2), sq_nonneg (x - -197/759)]

theorem up0_3 {x : ℝ} (h1 : 0.625 ≤ x) (h2 : x ≤ 1) :
    17.49731196 * bell x ≤ 2 * 2.36785163 * (3 - x ^ 2) + 2.15787544 * (1.5 - x) + 0.358 := by
  have hm : bell 0.8125 ≤ (0.7188676 : ℝ) := le_trans
    (le_alt_odd 5 (by norm_num : (0 : ℝ) ≤ 0.8125 ^ 2 / 2))
    (by norm_num [alt, Finset.sum_range_succ, Nat.factorial])
  have := bell_up (x := x) (h := 0.1875) hm (abs_le.2 ⟨by linarith, by linarith⟩) (by norm_num)
  nlinarith [mul_nonneg (sub_nonneg.2 h1) (sub_nonneg.2 h2), sq_nonneg (x - 580/669)]

theorem up1_0 {x : ℝ} (h1 : 1 ≤ x) (h2 : x ≤ 1.25) :
    17.49731196 * bell x ≤ 2.36785163 * (3 - x) ^ 2 + 2.15787544 * (1.5 - x) + 0.358 := by
  have hm : bell 1.125 ≤ (0.531096 : ℝ) := le_trans
    (le_alt_odd 6 (by norm_num : (0 : ℝ) ≤ 1.125 ^ 2 / 2))
    (by norm_num [alt, Finset.sum_range_succ, Nat.factorial])
  have := bell_up (x := x) (h := 0.125) hm (abs_le.2 ⟨by linarith, by linarith⟩) (by norm_num)
  nlinarith [mul_nonneg (sub_nonneg.2 h1) (sub_nonneg.2 h2), sq_nonneg (x - 1384/869)]

theorem up1_1 {x : ℝ} (h1 : 1.25 ≤ x) (h2 : x ≤ 1.5) :
    17.49731196 * bell x ≤ 2.36785163 * (3 - x) ^ 2 + 2.15787544 * (1.5 - x) + 0.358 := by
  have hm : bell 1.375 ≤ (0.3885582 : ℝ) := le_trans
    (le_alt_odd 6 (by norm_num : (0 : ℝ) ≤ 1.375 ^ 2 / 2))
    (by norm_num [alt, Finset.sum_range_succ, Nat.factorial])
  have := bell_up (x := x) (h := 0.125) hm (abs_le.2 ⟨by linarith, by linarith⟩) (by norm_num)
  nlinarith [mul_nonneg (sub_nonneg.2 h1) (sub_nonneg.2 h2), sq_nonneg (x - 641/553)]

theorem up2_0 {x : ℝ} (h1 : 1.5 ≤ x) (h2 : x ≤ 1.7) :
    17.49731196 * bell x ≤ 2.36785163 * (3 - x) ^ 2 + 0.358 := by
  have hm : bell 1.6 ≤ (0.2780374 : ℝ) := le_trans
    (le_alt_odd 7 (by norm_num : (0 : ℝ) ≤ 1.6 ^ 2 / 2))
    (by norm_num [alt, Finset.sum_range_succ, Nat.factorial])
  have := bell_up (x := x) (h := 0.1) hm (abs_le.2 ⟨by linarith, by linarith⟩) (by norm_num)
  nlinarith [mul_nonneg (sub_nonneg.2 h1) (sub_nonneg.2 h2), sq_nonneg (x - 492/257)]

theorem up2_1 {x : ℝ} (h1 : 1.7 ≤ x) (h2 : x ≤ 2.2) :
    17.49731196 * bell x ≤ 2.36785163 * (3 - x) ^ 2 + 0.358 := by
  have hm : bell 2 ≤ (0.1353353 : ℝ) := le_trans
    (le_alt_odd 9 (by norm_num : (0 : ℝ) ≤ 2 ^ 2 / 2))
    (by norm_num [alt, Finset.sum_range_succ, Nat.factorial])
  have := bell_up (x := x) (h := 0.3) hm (abs_le.2 ⟨by linarith, by linarith⟩) (by norm_num)
  nlinarith [mul_nonneg (sub_nonneg.2 h1) (sub_nonneg.2 h2), sq_nonneg (x - 2)]

theorem up2_2 {x : ℝ} (h1 : 2.2 ≤ x) (h2 : x ≤ 2.7) :
    17.49731196 * bell x ≤ 2.36785163 * (3 - x) ^ 2 + 0.358 := by
  have hm : bell 2.45 ≤ (0.0497249 : ℝ) := le_trans
    (le_alt_odd 10 (by norm_num : (0 : ℝ) ≤ 2.45 ^ 2 / 2))
    (by norm_num [alt, Finset.sum_range_succ, Nat.factorial])
  have := bell_up (x := x) (h := 0.25) hm (abs_le.2 ⟨by linarith, by linarith⟩) (by norm_num)
  nlinarith [mul_nonneg (sub_nonneg.2 h1) (sub_nonneg.2 h2), sq_nonneg (x - 1301/601)]

theorem up2_3 {x : ℝ} (h1 : 2.7 ≤ x) (h2 : x ≤ 3) :
    17.49731196 * bell x ≤ 2.36785163 * (3 - x) ^ 2 + 0.358 := by
  have hm : bell 2.85 ≤ (0.0172275 : ℝ) := le_trans
    (le_alt_odd 12 (by norm_num : (0 : ℝ) ≤ 2.85 ^ 2 / 2))
    (by norm_num [alt, Finset.sum_range_succ, Nat.factorial])
  have := bell_up (x := x) (h := 0.15) hm (abs_le.2 ⟨by linarith, by linarith⟩) (by norm_num)
  nlinarith [mul_nonneg (sub_nonneg.2 h1) (sub_nonneg.2 h2), sq_nonneg (x - 2423/884)]

theorem low0 {x : ℝ} (h1 : 0 ≤ x) (h2 : x ≤ 1) :
    2 * 2.36785163 * (3 - x ^ 2) + 2.15787544 * (1.5 - x) ≤ 17.49731196 * bell x := by
  rcases le_total x 0.5 with g0 | g0
  · exact low0_0 h1 g0
  rcases le_total x 0.75 with g1 | g1
  · exact low0_1 g0 g1
  exact low0_2 g1 h2

theorem low1 {x : ℝ} (h1 : 1 ≤ x) (h2 : x ≤ 1.5) :
    2.36785163 * (3 - x) ^ 2 + 2.15787544 * (1.5 - x) ≤ 17.49731196 * bell x := by
  exact low1_0 h1 h2

theorem low2 {x : ℝ} (h1 : 1.5 ≤ x) (h2 : x ≤ 3) :
    2.36785163 * (3 - x) ^ 2 ≤ 17.49731196 * bell x := by
  rcases le_total x 1.75 with g0 | g0
  · exact low2_0 h1 g0
  rcases le_total x 2.25 with g1 | g1
  · exact low2_1 g0 g1
  rcases le_total x 2.5 with g2 | g2
  · exact low2_2 g1 g2
  exact low2_3 g2 h2

theorem up0 {x : ℝ} (h1 : 0 ≤ x) (h2 : x ≤ 1) :
    17.49731196 * bell x ≤ 2 * 2.36785163 * (3 - x ^ 2) + 2.15787544 * (1.5 - x) + 0.358 := by
  rcases le_total x 0.25 with g0 | g0
  · exact up0_0 h1 g0
  rcases le_total x 0.375 with g1 | g1
  · exact up0_1 g0 g1
  rcases le_total x 0.625 with g2 | g2
  · exact up0_2 g1 g2
  exact up0_3 g2 h2

theorem up1 {x : ℝ} (h1 : 1 ≤ x) (h2 : x ≤ 1.5) :
    17.49731196 * bell x ≤ 2.36785163 * (3 - x) ^ 2 + 2.15787544 * (1.5 - x) + 0.358 := by
  rcases le_total x 1.25 with g0 | g0
  · exact up1_0 h1 g0
  exact up1_1 g0 h2

theorem up2 {x : ℝ} (h1 : 1.5 ≤ x) (h2 : x ≤ 3) :
    17.49731196 * bell x ≤ 2.36785163 * (3 - x) ^ 2 + 0.358 := by
  rcases le_total x 1.7 with g0 | g0
  · exact up2_0 h1 g0
  rcases le_total x 2.2 with g1 | g1
  · exact up2_1 g0 g1
  rcases le_total x 2.7 with g2 | g2
  · exact up2_2 g1 g2
  exact up2_3 g2 h2


theorem wedge_neg (x : ℝ) : wedge (-x) = wedge x := by unfold wedge; simp

theorem wedge_bounds {x : ℝ} (hx : |x| ≤ 3) : 0 ≤ wedge x ∧ wedge x ≤ 0.358 := by
  wlog h0 : 0 ≤ x generalizing x
  · have := this (x := -x) (by rwa [abs_neg]) (by linarith)
    rwa [wedge_neg] at this
  rw [abs_of_nonneg h0] at hx
  have hb : Real.exp (-(x ^ 2) / 2) = bell x := by unfold bell; congr 1; ring
  unfold wedge
  rw [abs_of_nonneg h0, hb]
  rcases lt_or_ge x 1 with h1 | h1
  · rw [if_pos h1, if_pos (h1.trans (by norm_num))]
    have := low0 h0 h1.le
    have := up0 h0 h1.le
    constructor <;> linarith
  rw [if_neg (not_lt.2 h1)]
  rcases lt_or_ge x 1.5 with h2 | h2
  · rw [if_pos h2]
    have := low1 h1 h2.le
    have := up1 h1 h2.le
    constructor <;> linarith
  · rw [if_neg (not_lt.2 h2)]
    have := low2 h2 hx
    have := up2 h2 hx
    constructor <;> linarith

end Verif.WedgeBound
