import Verif.Lemmas.Outcome
import Verif.Model.Variogram
import Verif.Spec.Variogram
import Mathlib.Analysis.Complex.Exponential
import Mathlib.Analysis.Complex.ExponentialBounds
import Mathlib.Tactic.FieldSimp
import Mathlib.Tactic.Ring
import Mathlib.Tactic.Linarith
import Mathlib.Tactic.NormNum
import Mathlib.Tactic.Positivity
import Mathlib.Order.Monotone.Basic

/-! Lemmas about the variogram model. -/

namespace Verif.Variogram

open Spec

/-! ### One-dimensional correlation functions -/

theorem matern32_antitone {a b : ℝ} (ha : 0 ≤ a) (hab : a ≤ b) :
    Real.exp (-b) * (1 + b) ≤ Real.exp (-a) * (1 + a) := by
  have h1 : Real.exp (-a) = Real.exp (-b) * Real.exp (b - a) := by
    rw [← Real.exp_add]; congr 1; ring
  have h2 : 1 + (b - a) ≤ Real.exp (b - a) := by linarith [Real.add_one_le_exp (b - a)]
  have h3 : 1 + b ≤ Real.exp (b - a) * (1 + a) := by
    have : (1 + (b - a)) * (1 + a) ≤ Real.exp (b - a) * (1 + a) :=
      mul_le_mul_of_nonneg_right h2 (by linarith)
    nlinarith
  rw [h1, mul_assoc]
  exact mul_le_mul_of_nonneg_left h3 (Real.exp_nonneg _)

theorem exp_ge_cubic {h : ℝ} (hh : 0 ≤ h) : 1 + h + h ^ 2 / 2 + h ^ 3 / 6 ≤ Real.exp h := by
  have := Real.sum_le_exp_of_nonneg hh 4
  simp only [Finset.sum_range_succ, Finset.sum_range_zero] at this
  norm_num [Nat.factorial] at this
  linarith

theorem matern52_antitone {a b : ℝ} (ha : 0 ≤ a) (hab : a ≤ b) :
    Real.exp (-b) * (1 + b + b * b / 3) ≤ Real.exp (-a) * (1 + a + a * a / 3) := by
  obtain ⟨h, rfl, hh⟩ : ∃ h, b = a + h ∧ 0 ≤ h := ⟨b - a, by ring, by linarith⟩
  have h1 : Real.exp (-a) = Real.exp (-(a + h)) * Real.exp h := by
    rw [← Real.exp_add]; congr 1; ring
  have h3 : 1 + (a + h) + (a + h) * (a + h) / 3 ≤ Real.exp h * (1 + a + a * a / 3) := by
    have h2 := exp_ge_cubic hh
    have : (1 + h + h ^ 2 / 2 + h ^ 3 / 6) * (1 + a + a * a / 3) ≤
        Real.exp h * (1 + a + a * a / 3) := mul_le_mul_of_nonneg_right h2 (by positivity)
    refine le_trans ?_ this
    have e : (1 + h + h ^ 2 / 2 + h ^ 3 / 6) * (1 + a + a * a / 3)
        - (1 + (a + h) + (a + h) * (a + h) / 3)
        = h * (a / 3 + a * a / 3) + h ^ 2 * (1 / 6 + a / 2 + a * a / 6)
          + h ^ 3 / 6 * (1 + a + a * a / 3) := by ring
    have : 0 ≤ h * (a / 3 + a * a / 3) + h ^ 2 * (1 / 6 + a / 2 + a * a / 6)
          + h ^ 3 / 6 * (1 + a + a * a / 3) := by positivity
    linarith
  rw [h1, mul_assoc]
  exact mul_le_mul_of_nonneg_left h3 (Real.exp_nonneg _)

theorem matern72_antitone {a b : ℝ} (ha : 0 ≤ a) (hab : a ≤ b) :
    Real.exp (-b) * (1 + b + 2 / 5 * b ^ 2 + b ^ 3 / 15) ≤
      Real.exp (-a) * (1 + a + 2 / 5 * a ^ 2 + a ^ 3 / 15) := by
  obtain ⟨h, rfl, hh⟩ : ∃ h, b = a + h ∧ 0 ≤ h := ⟨b - a, by ring, by linarith⟩
  have h1 : Real.exp (-a) = Real.exp (-(a + h)) * Real.exp h := by
    rw [← Real.exp_add]; congr 1; ring
  have h3 : 1 + (a + h) + 2 / 5 * (a + h) ^ 2 + (a + h) ^ 3 / 15 ≤
      Real.exp h * (1 + a + 2 / 5 * a ^ 2 + a ^ 3 / 15) := by
    have h2 := exp_ge_cubic hh
    have : (1 + h + h ^ 2 / 2 + h ^ 3 / 6) * (1 + a + 2 / 5 * a ^ 2 + a ^ 3 / 15) ≤
        Real.exp h * (1 + a + 2 / 5 * a ^ 2 + a ^ 3 / 15) :=
      mul_le_mul_of_nonneg_right h2 (by positivity)
    refine le_trans ?_ this
    have e : (1 + h + h ^ 2 / 2 + h ^ 3 / 6) * (1 + a + 2 / 5 * a ^ 2 + a ^ 3 / 15)
        - (1 + (a + h) + 2 / 5 * (a + h) ^ 2 + (a + h) ^ 3 / 15)
        = h * (a / 5 + a ^ 2 / 5 + a ^ 3 / 15)
          + h ^ 2 * (1 / 10 + 3 * a / 10 + a ^ 2 / 5 + a ^ 3 / 30)
          + h ^ 3 * (1 / 10 + a / 6 + a ^ 2 / 15 + a ^ 3 / 90) := by ring
    have : 0 ≤ h * (a / 5 + a ^ 2 / 5 + a ^ 3 / 15)
          + h ^ 2 * (1 / 10 + 3 * a / 10 + a ^ 2 / 5 + a ^ 3 / 30)
          + h ^ 3 * (1 / 10 + a / 6 + a ^ 2 / 15 + a ^ 3 / 90) := by positivity
    linarith
  rw [h1, mul_assoc]
  exact mul_le_mul_of_nonneg_left h3 (Real.exp_nonneg _)

theorem sph_antitone {a b : ℝ} (ha : 0 ≤ a) (hab : a ≤ b) (hb : b ≤ 1) :
    1 - b * (3 / 2 - 1 / 2 * b * b) ≤ 1 - a * (3 / 2 - 1 / 2 * a * a) := by
  nlinarith [mul_nonneg (sub_nonneg.2 hab) (sub_nonneg.2 hb),
    mul_nonneg (sub_nonneg.2 hab) ha, mul_nonneg (mul_nonneg (sub_nonneg.2 hab) ha) ha,
    mul_nonneg (sub_nonneg.2 hab) (mul_nonneg (sub_nonneg.2 hb) (sub_nonneg.2 hb)),
    mul_nonneg (sub_nonneg.2 hab) (mul_nonneg (sub_nonneg.2 hb) (add_nonneg (ha.trans hab) ha)),
    mul_nonneg (sub_nonneg.2 hab) (mul_nonneg (sub_nonneg.2 (hab.trans hb)) (add_nonneg (ha.trans hab) ha))]

theorem corr1D_antitone {t : VType} {p : ℝ} (hp : t = .generalExponential → 0 < p) {a b : ℝ}
    (ha : 0 ≤ a) (hab : a ≤ b) : corr1D t p b ≤ corr1D t p a := by
  have hb := ha.trans hab
  cases t with
  | constant => simp [corr1D]
  | exponential =>
    simp only [corr1D]
    apply Real.exp_le_exp.2
    norm_num
    linarith
  | spherical =>
    simp only [corr1D]
    norm_num
    split
    · next h1 =>
      rw [if_pos (by linarith)]
      exact sph_antitone ha hab h1.le
    · split
      · next h2 =>
        have := sph_antitone ha h2.le le_rfl
        norm_num at this
        linarith
      · exact le_rfl
  | gaussian =>
    simp only [corr1D]
    apply Real.exp_le_exp.2
    norm_num
    nlinarith
  | generalExponential =>
    have hp := hp rfl
    simp only [corr1D]
    rw [if_neg (by rintro ⟨-, h⟩; linarith), if_neg (by rintro ⟨-, h⟩; linarith)]
    apply Real.exp_le_exp.2
    have := Real.rpow_le_rpow ha hab hp.le
    norm_num
    linarith
  | matern32 =>
    have := matern32_antitone (a := 4.744 * a) (b := 4.744 * b) (by positivity) (by linarith)
    simp only [corr1D]
    norm_num at this ⊢
    exact this
  | matern52 =>
    have := matern52_antitone (a := 5.918 * a) (b := 5.918 * b) (by positivity) (by linarith)
    simp only [corr1D]
    norm_num at this ⊢
    exact this
  | matern72 =>
    have := matern72_antitone (a := 6.877 * a) (b := 6.877 * b) (by positivity) (by linarith)
    simp only [corr1D]
    norm_num at this ⊢
    exact this

theorem corr1D_zero {t : VType} {p : ℝ} (hp : t = .generalExponential → 0 < p) :
    corr1D t p 0 = 1 := by
  cases t <;> simp [corr1D] <;> norm_num
  have hp := hp rfl
  rw [if_neg (by linarith), Real.zero_rpow hp.ne']
  simp

theorem corr1D_nonneg {t : VType} {p : ℝ} {d : ℝ} (hd : 0 ≤ d) : 0 ≤ corr1D t p d := by
  cases t with
  | constant => simp [corr1D]; norm_num
  | spherical =>
    simp only [corr1D]
    norm_num
    split
    · next h =>
      have := sph_antitone hd h.le le_rfl
      norm_num at this
      linarith
    · exact le_rfl
  | exponential => exact Real.exp_nonneg _
  | gaussian => exact Real.exp_nonneg _
  | generalExponential =>
    simp only [corr1D]
    split
    · exact le_rfl
    · exact Real.exp_nonneg _
  | matern32 => simp only [corr1D]; positivity
  | matern52 => simp only [corr1D]; positivity
  | matern72 => simp only [corr1D]; positivity

/-- For every power the values stay at most 1. -/
theorem corr1D_le_one {t : VType} {p : ℝ} {d : ℝ} (hd : 0 ≤ d) : corr1D t p d ≤ 1 := by
  by_cases ht : t = .generalExponential
  · subst ht
    simp only [corr1D]
    split
    · norm_num
    · rw [Real.exp_le_one_iff]
      have := Real.rpow_nonneg hd p
      norm_num
      linarith
  · have h := corr1D_antitone (t := t) (p := p) (fun h => absurd h ht) le_rfl hd
    rwa [corr1D_zero (fun h => absurd h ht)] at h

/-! ### Cached factors -/

theorem estimateFactors_ok {v w : Variogram} (h : v.estimateFactors = .ok w) :
    v.rangeX ≠ 0 ∧ v.rangeY ≠ 0 ∧ v.rangeZ ≠ 0 ∧ w.type = v.type ∧ w.power = v.power ∧
      w.rangeX = v.rangeX ∧ w.rangeY = v.rangeY ∧ w.rangeZ = v.rangeZ ∧ w.azimuth = v.azimuth ∧
      w.dip = v.dip ∧ w.var = v.var := by
  unfold estimateFactors at h
  simp only at h
  split at h
  · cases h
  · next hne =>
    simp only [not_or] at hne
    simp only [Res.ok.injEq] at h
    subst h
    simp [hne]

/-- The cached quadratic form is the squared length in the rotated, scaled frame. -/
theorem estimateFactors_quad3 {v w : Variogram} (h : v.estimateFactors = .ok w) (x y z : ℝ) :
    w.quad3 x y z = ((mainAxis v.azimuth v.dip).dot ⟨x, y, z⟩ / v.rangeX) ^ 2
      + ((perpAxis v.azimuth).dot ⟨x, y, z⟩ / v.rangeY) ^ 2
      + ((downAxis v.azimuth v.dip).dot ⟨x, y, z⟩ / v.rangeZ) ^ 2 := by
  unfold estimateFactors at h
  simp only at h
  split at h
  · cases h
  · next hne =>
    simp only [not_or] at hne
    obtain ⟨h1, h2, h3⟩ := hne
    simp only [Res.ok.injEq] at h
    subst h
    simp only [quad3, mainAxis, perpAxis, downAxis, Vec3.dot]
    norm_num
    field_simp
    ring

theorem quad2_eq (v : Variogram) (x y : ℝ) : v.quad2 x y = v.quad3 x y 0 := by
  simp [quad2, quad3]

theorem quad1_eq (v : Variogram) (x : ℝ) : v.quad1 x = v.quad3 x 0 0 := by
  simp [quad1, quad3]

theorem quad3_smul (v : Variogram) (t x y z : ℝ) :
    v.quad3 (t * x) (t * y) (t * z) = t ^ 2 * v.quad3 x y z := by
  simp only [quad3]; ring

end Verif.Variogram
