import Mathlib.Analysis.Complex.ExponentialBounds
import Verif.Props.NormalDistr

/-!
# C103: `PhiInverse`

`Normal::PhiInverse(y)` searches for the quantile by bisection and Newton steps. Here for standard deviations from 10⁻⁸
to 10¹⁰⁰; the tolerance of the search is an absolute one.
-/

namespace Verif

open Spec MeasureTheory ProbabilityTheory Set Filter Real NormalD Phi

/-- `q` is the quantile of `y` in the normal law. -/
def IsNormalQuantile (m s y q : ℝ) : Prop := (normalLaw m s).real (Iic q) = y

namespace NormalD

theorem quantile_form {m s y q : ℝ} (hs : 0 < s) (h : IsNormalQuantile m s y q) :
    ∃ r, Phi r = y ∧ q = m + s * r := by
  unfold IsNormalQuantile normalLaw at h
  rw [real_Iic hs] at h
  exact ⟨_, h, by field_simp; ring⟩

theorem abs_zero_five {y : ℝ} (h : |Phi 0 - y| ≤ 1e-6) : |y - 1 / 2| ≤ 1e-6 := by
  rw [Phi_zero] at h
  rw [abs_sub_comm]
  exact h

theorem phiInverse_half (d : NormalD) : d.phiInverse (1 / 2) = .ok d.mean := by
  unfold phiInverse
  rw [if_neg (by norm_num), if_neg (by norm_num), if_neg (by norm_num), if_neg (by norm_num), if_neg (by norm_num)]

end NormalD

/-- The result lies within 10⁻¹⁰ of the quantile, or it is a number whose cumulative probability is within 10⁻⁶ of the
given one. -/
theorem phiInverse_partial {m s y : ℝ} (hs : Moderate s) (h0 : 0 < y) (h1 : y < 1) :
    ∃ q x, IsNormalQuantile m s y q ∧ (NormalD.mk m s).phiInverse y = .ok x ∧
      (|x - q| ≤ 1e-10 ∨ |(normalLaw m s).real (Iic x) - y| ≤ 1e-6) := by
  obtain ⟨r, hr⟩ := Phi_surj h0 h1
  have hsp := hs.pos
  have hc : ∀ z, (m + s * z - m) / s = z := by intro z; field_simp; ring
  have hR : ∀ z, (normalLaw m s).real (Iic (m + s * z)) = Phi z := by
    intro z
    rw [normalLaw, real_Iic hsp, hc]
  have key : ∀ a b x, Ends ⟨m, s⟩ y r a b x →
      |x - (m + s * r)| ≤ 1e-10 ∨ |(normalLaw m s).real (Iic x) - y| ≤ 1e-6 := by
    rintro a b x (⟨rfl, h⟩ | ⟨rfl, h⟩ | ⟨h, -⟩)
    · exact Or.inr (by rw [hR]; exact h)
    · exact Or.inr (by rw [hR]; exact h)
    · exact Or.inl h
  rcases lt_trichotomy y (1 / 2) with hy | rfl | hy
  · obtain ⟨k, -, -, x, hx, he⟩ := phiInverse_down (d := ⟨m, s⟩) hs hr hy
    exact ⟨m + s * r, x, (hR r).trans hr, hx, key _ _ _ he⟩
  · refine ⟨m + s * 0, m, (hR 0).trans Phi_zero, phiInverse_half _, Or.inl ?_⟩
    norm_num
  · obtain ⟨k, -, -, x, hx, he⟩ := phiInverse_up (d := ⟨m, s⟩) hs hr hy
    exact ⟨m + s * r, x, (hR r).trans hr, hx, key _ _ _ he⟩

/-- Away from the cumulative probabilities of five points the result is within 10⁻¹⁰ of the quantile. -/
theorem phiInverse_close {m s y : ℝ} (hs : Moderate s) (h0 : 0 < y) (h1 : y < 1)
    (hy : ∀ c : ℝ, c = -10 ∨ c = -1 ∨ c = 0 ∨ c = 1 ∨ c = 10 → 1e-6 < |(normalLaw m s).real (Iic (m + s * c)) - y|) :
    ∃ q x, IsNormalQuantile m s y q ∧ (NormalD.mk m s).phiInverse y = .ok x ∧ |x - q| ≤ 1e-10 := by
  obtain ⟨r, hr⟩ := Phi_surj h0 h1
  have hsp := hs.pos
  have hc : ∀ z, (m + s * z - m) / s = z := by intro z; field_simp; ring
  have hR : ∀ z, (normalLaw m s).real (Iic (m + s * z)) = Phi z := by
    intro z
    rw [normalLaw, real_Iic hsp, hc]
  simp only [hR] at hy
  have y0 : ¬ |Phi 0 - y| ≤ 1e-6 := not_le.2 (hy 0 (by norm_num))
  have y1 : ¬ |Phi 1 - y| ≤ 1e-6 := not_le.2 (hy 1 (by norm_num))
  have y2 : ¬ |Phi 10 - y| ≤ 1e-6 := not_le.2 (hy 10 (by norm_num))
  have y3 : ¬ |Phi (-1) - y| ≤ 1e-6 := not_le.2 (hy (-1) (by norm_num))
  have y4 : ¬ |Phi (-10) - y| ≤ 1e-6 := not_le.2 (hy (-10) (by norm_num))
  rcases lt_trichotomy y (1 / 2) with hh | rfl | hh
  · obtain ⟨k, hk, hlt, x, hx, he⟩ := phiInverse_down (d := ⟨m, s⟩) hs hr hh
    refine ⟨m + s * r, x, (hR r).trans hr, hx, ?_⟩
    have hk2 : k < 2 := by
      by_contra hc
      refine y4 ?_
      have h2 := hlt 1 (by omega)
      have h3 := Phi_ten
      rw [pow_one] at h2
      have h4 := Phi_neg 10
      rw [abs_of_nonneg (by linarith)]
      norm_num at *
      linarith
    obtain rfl | rfl : k = 0 ∨ k = 1 := by omega
    · rcases he with ⟨-, h⟩ | ⟨-, h⟩ | ⟨h, -⟩
      · norm_num [NormalD.inner] at h
        norm_num at y0
        exact absurd h (not_le.2 y0)
      · norm_num at h
        norm_num at y3
        exact absurd h (not_le.2 y3)
      · exact h
    · rcases he with ⟨-, h⟩ | ⟨-, h⟩ | ⟨h, -⟩
      · norm_num [NormalD.inner] at h
        norm_num at y3
        exact absurd h (not_le.2 y3)
      · norm_num at h
        norm_num at y4
        exact absurd h (not_le.2 y4)
      · exact h
  · rw [Phi_zero] at y0
    norm_num at y0
  · obtain ⟨k, hk, hlt, x, hx, he⟩ := phiInverse_up (d := ⟨m, s⟩) hs hr hh
    refine ⟨m + s * r, x, (hR r).trans hr, hx, ?_⟩
    have hk2 : k < 2 := by
      by_contra hc
      refine y2 ?_
      have h2 := hlt 1 (by omega)
      have h3 := Phi_ten
      rw [pow_one] at h2
      rw [abs_of_nonpos (by linarith)]
      norm_num at *
      linarith
    obtain rfl | rfl : k = 0 ∨ k = 1 := by omega
    · rcases he with ⟨-, h⟩ | ⟨-, h⟩ | ⟨h, -⟩
      · norm_num at h
        norm_num at y1
        exact absurd h (not_le.2 y1)
      · norm_num [NormalD.inner] at h
        norm_num at y0
        exact absurd h (not_le.2 y0)
      · exact h
    · rcases he with ⟨-, h⟩ | ⟨-, h⟩ | ⟨h, -⟩
      · norm_num at h
        norm_num at y2
        exact absurd h (not_le.2 y2)
      · norm_num [NormalD.inner] at h
        norm_num at y1
        exact absurd h (not_le.2 y1)
      · exact h

namespace NormalD

/-- A lower bound for the probability between 0 and 1, and an upper bound. -/
theorem Phi_one : 0.7 ≤ Phi 1 ∧ Phi 1 ≤ 0.9 := by
  have e : Phi 1 - Phi 0 = ∫ x in (0 : ℝ)..1, phi x := Phi_sub (by norm_num)
  rw [Phi_zero] at e
  have hp3 := Real.pi_gt_three
  have hp4 := Real.pi_lt_d2
  have s1 : (2 : ℝ) ≤ 2.51 := by norm_num
  have hs : √(2 * π) ≤ 2.51 := by
    rw [Real.sqrt_le_left (by norm_num)]
    norm_num at *
    linarith
  have hs' : (2.5 : ℝ) ≤ √(2 * π) := by
    rw [Real.le_sqrt' (by norm_num)]
    have := Real.pi_gt_d2
    norm_num at *
    linarith
  have hsp : 0 < √(2 * π) := by positivity
  have up : ∀ x, phi x ≤ 0.4 := by
    intro x
    unfold phi
    have h1 : exp (-x ^ 2 / 2) ≤ 1 := Real.exp_le_one_iff.2 (by nlinarith [sq_nonneg x])
    have h3 : (√(2 * π))⁻¹ ≤ 0.4 := by
      rw [inv_le_comm₀ hsp (by norm_num)]
      norm_num at *
      linarith
    have : 0 < exp (-x ^ 2 / 2) := exp_pos _
    have : 0 < (√(2 * π))⁻¹ := by positivity
    nlinarith
  have low : ∀ x ∈ Icc (0 : ℝ) 1, 0.2 ≤ phi x := by
    intro x hx
    unfold phi
    have h1 : 1 - x ^ 2 / 2 ≤ exp (-x ^ 2 / 2) := by
      have := Real.add_one_le_exp (-x ^ 2 / 2)
      linarith
    have h3 : 0.398 ≤ (√(2 * π))⁻¹ := by
      rw [le_inv_comm₀ (by norm_num) hsp]
      norm_num at *
      linarith
    have h4 : x ^ 2 ≤ 1 := by nlinarith [hx.1, hx.2]
    have hx2 : (0.6 : ℝ) ≤ exp (-x ^ 2 / 2) := by
      have h5 : exp (-1 / 2) ≤ exp (-x ^ 2 / 2) := Real.exp_le_exp.2 (by linarith)
      have h6 : (0.6 : ℝ) ≤ exp (-1 / 2) := by
        rw [show (-1 / 2 : ℝ) = -(1 / 2) by norm_num, Real.exp_neg, le_inv_comm₀ (by norm_num) (exp_pos _)]
        have h7 : exp (1 / 2) ^ 2 = exp 1 := by rw [← Real.exp_nat_mul]; norm_num
        have h8 := Real.exp_one_lt_d9
        refine le_of_sq_le_sq ?_ (by norm_num)
        rw [h7]
        norm_num at *
        linarith
      linarith
    nlinarith
  have i1 := intervalIntegral.integral_mono_on (a := (0 : ℝ)) (b := 1) (by norm_num) (phi_int.intervalIntegrable)
    (_root_.intervalIntegrable_const (c := (0.4 : ℝ)) (μ := volume)) fun x _ => up x
  have i2 := intervalIntegral.integral_mono_on (a := (0 : ℝ)) (b := 1) (by norm_num)
    (_root_.intervalIntegrable_const (c := (0.2 : ℝ)) (μ := volume)) (phi_int.intervalIntegrable) low
  rw [← e, intervalIntegral.integral_const] at i1 i2
  norm_num at *
  constructor <;> linarith

end NormalD

/-- `phiInverse_close` has cases: the probability 0.6, with any mean and a moderate standard deviation. -/
example (m s : ℝ) (hs : Moderate s) :
    ∃ q x, IsNormalQuantile m s 0.6 q ∧ (NormalD.mk m s).phiInverse 0.6 = .ok x ∧ |x - q| ≤ 1e-10 := by
  refine phiInverse_close hs (by norm_num) (by norm_num) fun c hc => ?_
  have hR : (normalLaw m s).real (Iic (m + s * c)) = Phi c := by
    have := hs.pos
    rw [normalLaw, real_Iic hs.pos]
    congr 1
    field_simp
    ring
  rw [hR]
  have h1 := Phi_one
  have h0 := Phi_zero
  have hn := Phi_neg 1
  have m1 := Phi_strictMono (show (1 : ℝ) < 10 by norm_num)
  have m2 := Phi_strictMono (show (-10 : ℝ) < -1 by norm_num)
  rcases hc with rfl | rfl | rfl | rfl | rfl <;> rw [lt_abs] <;> norm_num at * <;> first
    | (left; linarith)
    | (right; linarith)

/-- At the ends: an infinite number for 0 and 1, and an exception outside. -/
theorem phiInverse_ends (d : NormalD) (y : ℝ) :
    (y = 0 ∨ y = 1 → ∃ e, d.phiInverse y = .nonfinite e) ∧ (y < 0 ∨ 1 < y → ∃ e, d.phiInverse y = .throws e) ∧
    (y = 1 / 2 → d.phiInverse y = .ok d.mean) := by
  refine ⟨?_, fun h => ?_, ?_⟩
  · rintro (rfl | rfl)
    · unfold phiInverse
      rw [if_neg (by norm_num), if_pos (by norm_num)]
      exact ⟨_, rfl⟩
    · unfold phiInverse
      rw [if_neg (by norm_num), if_neg (by norm_num), if_pos (by norm_num)]
      exact ⟨_, rfl⟩
  · unfold phiInverse
    rw [if_pos (by norm_num; exact h)]
    exact ⟨_, rfl⟩
  · rintro rfl
    exact phiInverse_half d

/-- In the upper tail, from 1 - 10⁻⁶ to the cumulative probability of the mean plus ten standard deviations, the result
is the mean plus ten standard deviations: for 1 - 5·10⁻⁷ the quantile is less than the mean plus five. -/
theorem phiInverse_tail_violation {m s : ℝ} (hs : 0 < s) :
    (∀ y, 1 - 1e-6 ≤ y → y ≤ (normalLaw m s).real (Iic (m + 10 * s)) →
      (NormalD.mk m s).phiInverse y = .ok (m + 10 * s)) ∧
    1 - 5e-7 ≤ (normalLaw m s).real (Iic (m + 10 * s)) ∧
    ∀ q, IsNormalQuantile m s (1 - 5e-7) q → q < m + 5 * s := by
  have hR : (normalLaw m s).real (Iic (m + 10 * s)) = Phi 10 := by
    rw [normalLaw, real_Iic hs]
    congr 1
    field_simp
    ring
  have h10 := Phi_ten
  rw [hR]
  refine ⟨fun y hy hy1 => ?_, ?_, fun q hq => ?_⟩
  · have hlt := Phi_lt_one 10
    have h1 := Phi_one
    rw [phiInverse_up_eq (d := ⟨m, s⟩) (k := 1) hs (by norm_num at *; linarith) (by linarith) (by norm_num; exact hy1)]
    · rw [phiBetween_up hs]
      · norm_num
        ring
      · norm_num at *
        rw [abs_of_nonneg] <;> linarith
    · intro j hj
      obtain rfl : j = 0 := by omega
      norm_num at *
      linarith
  · norm_num at *
    linarith
  · obtain ⟨r, hr, rfl⟩ := quantile_form hs hq
    have h5 := Phi_five
    have : r < 5 := by
      rw [← Phi_strictMono.lt_iff_lt, hr]
      norm_num at *
      linarith
    nlinarith

end Verif
