import Verif.Props.VariogramFl
import Verif.Lemmas.FlEval

/-!
# C72: where the double arithmetic of the correlation functions fails
-/

namespace Verif

open scoped Fl
open Fl Variogram

namespace FlWitness

/-! Rounded operations of the computation of the correlation of lag (3, 3) with ranges 2^30 and 3 and azimuth 45
degrees. -/

theorem e1 : (1073741824 : ℝ) *ᶠ 1073741824 = 1152921504606846976 := by
  unfold Fl.mul
  have h := Ieee.rnd_rep (p := 53) (emin := -1074) (m := 1) (k := 60) (by norm_num) (by norm_num) (by norm_num)
  norm_num at h ⊢
  exact h

theorem e2 : (1 : ℝ) /ᶠ 1152921504606846976 = (1 / 2 ^ 60) := by
  unfold Fl.div
  rw [rnd64_eval (x := 1 / 1152921504606846976) 4503599627370496 112 (by norm_num) (by norm_num) (by norm_num) (by rw [abs_lt]; constructor <;> norm_num)]
  norm_num

theorem e3 : (3 : ℝ) *ᶠ 3 = 9 := by
  unfold Fl.mul
  rw [rnd64_eval (x := 3 * 3) 5066549580791808 49 (by norm_num) (by norm_num) (by norm_num) (by rw [abs_lt]; constructor <;> norm_num)]
  norm_num

theorem e4 : (1 : ℝ) /ᶠ 9 = (2001599834386887 / 2 ^ 54) := by
  unfold Fl.div
  rw [rnd64_eval (x := 1 / 9) 8006399337547548 56 (by norm_num) (by norm_num) (by norm_num) (by rw [abs_lt]; constructor <;> norm_num)]
  norm_num

theorem e5 : ((6369051672525773 / 2 ^ 53) : ℝ) *ᶠ (6369051672525773 / 2 ^ 53) = (4503599627370497 / 2 ^ 53) := by
  unfold Fl.mul
  rw [rnd64_eval (x := (6369051672525773 / 2 ^ 53) * (6369051672525773 / 2 ^ 53)) 4503599627370497 53 (by norm_num) (by norm_num) (by norm_num) (by rw [abs_lt]; constructor <;> norm_num)]
  norm_num

theorem e6 : ((4503599627370497 / 2 ^ 53) : ℝ) *ᶠ 1 = (4503599627370497 / 2 ^ 53) := by
  unfold Fl.mul
  rw [rnd64_eval (x := (4503599627370497 / 2 ^ 53) * 1) 4503599627370497 53 (by norm_num) (by norm_num) (by norm_num) (by rw [abs_lt]; constructor <;> norm_num)]
  norm_num

theorem e7 : ((4503599627370497 / 2 ^ 53) : ℝ) *ᶠ (1 / 2 ^ 60) = (4503599627370497 / 2 ^ 113) := by
  unfold Fl.mul
  rw [rnd64_eval (x := (4503599627370497 / 2 ^ 53) * (1 / 2 ^ 60)) 4503599627370497 113 (by norm_num) (by norm_num) (by norm_num) (by rw [abs_lt]; constructor <;> norm_num)]
  norm_num

theorem e8 : ((1592262918131443 / 2 ^ 51) : ℝ) *ᶠ (1592262918131443 / 2 ^ 51) = (4503599627370495 / 2 ^ 53) := by
  unfold Fl.mul
  rw [rnd64_eval (x := (1592262918131443 / 2 ^ 51) * (1592262918131443 / 2 ^ 51)) 9007199254740990 54 (by norm_num) (by norm_num) (by norm_num) (by rw [abs_lt]; constructor <;> norm_num)]
  norm_num

theorem e9 : ((4503599627370495 / 2 ^ 53) : ℝ) *ᶠ (2001599834386887 / 2 ^ 54) = (4003199668773773 / 2 ^ 56) := by
  unfold Fl.mul
  rw [rnd64_eval (x := (4503599627370495 / 2 ^ 53) * (2001599834386887 / 2 ^ 54)) 8006399337547546 57 (by norm_num) (by norm_num) (by norm_num) (by rw [abs_lt]; constructor <;> norm_num)]
  norm_num

theorem e10 : ((4503599627370497 / 2 ^ 113) : ℝ) +ᶠ (4003199668773773 / 2 ^ 56) = (4003199668773773 / 2 ^ 56) := by
  unfold Fl.add
  rw [rnd64_eval (x := (4503599627370497 / 2 ^ 113) + (4003199668773773 / 2 ^ 56)) 8006399337547546 57 (by norm_num) (by norm_num) (by norm_num) (by rw [abs_lt]; constructor <;> norm_num)]
  norm_num

theorem e11 : ((4503599627370497 / 2 ^ 53) : ℝ) *ᶠ 0 = 0 := by
  unfold Fl.mul
  norm_num [rnd64_zero]

theorem e12 : (0 : ℝ) *ᶠ 0 = 0 := by
  unfold Fl.mul
  norm_num [rnd64_zero]

theorem e13 : (0 : ℝ) *ᶠ (1 / 2 ^ 60) = 0 := by
  unfold Fl.mul
  norm_num [rnd64_zero]

theorem e14 : ((4003199668773773 / 2 ^ 56) : ℝ) +ᶠ 0 = (4003199668773773 / 2 ^ 56) := by
  unfold Fl.add
  rw [rnd64_eval (x := (4003199668773773 / 2 ^ 56) + 0) 8006399337547546 57 (by norm_num) (by norm_num) (by norm_num) (by rw [abs_lt]; constructor <;> norm_num)]
  norm_num

theorem e15 : ((4503599627370495 / 2 ^ 53) : ℝ) *ᶠ 1 = (4503599627370495 / 2 ^ 53) := by
  unfold Fl.mul
  rw [rnd64_eval (x := (4503599627370495 / 2 ^ 53) * 1) 9007199254740990 54 (by norm_num) (by norm_num) (by norm_num) (by rw [abs_lt]; constructor <;> norm_num)]
  norm_num

theorem e16 : ((4503599627370495 / 2 ^ 53) : ℝ) *ᶠ (1 / 2 ^ 60) = (4503599627370495 / 2 ^ 113) := by
  unfold Fl.mul
  rw [rnd64_eval (x := (4503599627370495 / 2 ^ 53) * (1 / 2 ^ 60)) 9007199254740990 114 (by norm_num) (by norm_num) (by norm_num) (by rw [abs_lt]; constructor <;> norm_num)]
  norm_num

theorem e17 : ((4503599627370497 / 2 ^ 53) : ℝ) *ᶠ (2001599834386887 / 2 ^ 54) = (4003199668773775 / 2 ^ 56) := by
  unfold Fl.mul
  rw [rnd64_eval (x := (4503599627370497 / 2 ^ 53) * (2001599834386887 / 2 ^ 54)) 8006399337547550 57 (by norm_num) (by norm_num) (by norm_num) (by rw [abs_lt]; constructor <;> norm_num)]
  norm_num

theorem e18 : ((4503599627370495 / 2 ^ 113) : ℝ) +ᶠ (4003199668773775 / 2 ^ 56) = (4003199668773775 / 2 ^ 56) := by
  unfold Fl.add
  rw [rnd64_eval (x := (4503599627370495 / 2 ^ 113) + (4003199668773775 / 2 ^ 56)) 8006399337547550 57 (by norm_num) (by norm_num) (by norm_num) (by rw [abs_lt]; constructor <;> norm_num)]
  norm_num

theorem e19 : ((4503599627370495 / 2 ^ 53) : ℝ) *ᶠ 0 = 0 := by
  unfold Fl.mul
  norm_num [rnd64_zero]

theorem e20 : ((4003199668773775 / 2 ^ 56) : ℝ) +ᶠ 0 = (4003199668773775 / 2 ^ 56) := by
  unfold Fl.add
  rw [rnd64_eval (x := (4003199668773775 / 2 ^ 56) + 0) 8006399337547550 57 (by norm_num) (by norm_num) (by norm_num) (by rw [abs_lt]; constructor <;> norm_num)]
  norm_num

theorem e21 : (1 : ℝ) *ᶠ 1 = 1 := by
  unfold Fl.mul
  rw [rnd64_eval (x := 1 * 1) 4503599627370496 52 (by norm_num) (by norm_num) (by norm_num) (by rw [abs_lt]; constructor <;> norm_num)]
  norm_num

theorem e22 : (1 : ℝ) *ᶠ (6369051672525773 / 2 ^ 53) = (6369051672525773 / 2 ^ 53) := by
  unfold Fl.mul
  rw [rnd64_eval (x := 1 * (6369051672525773 / 2 ^ 53)) 6369051672525773 53 (by norm_num) (by norm_num) (by norm_num) (by rw [abs_lt]; constructor <;> norm_num)]
  norm_num

theorem e23 : ((6369051672525773 / 2 ^ 53) : ℝ) *ᶠ (1592262918131443 / 2 ^ 51) = (1 / 2 ^ 1) := by
  unfold Fl.mul
  rw [rnd64_eval (x := (6369051672525773 / 2 ^ 53) * (1592262918131443 / 2 ^ 51)) 9007199254740992 54 (by norm_num) (by norm_num) (by norm_num) (by rw [abs_lt]; constructor <;> norm_num)]
  norm_num

theorem e24 : ((1 / 2 ^ 1) : ℝ) *ᶠ (1 / 2 ^ 60) = (1 / 2 ^ 61) := by
  unfold Fl.mul
  rw [rnd64_eval (x := (1 / 2 ^ 1) * (1 / 2 ^ 60)) 4503599627370496 113 (by norm_num) (by norm_num) (by norm_num) (by rw [abs_lt]; constructor <;> norm_num)]
  norm_num

theorem e25 : ((1592262918131443 / 2 ^ 51) : ℝ) *ᶠ (6369051672525773 / 2 ^ 53) = (1 / 2 ^ 1) := by
  unfold Fl.mul
  rw [rnd64_eval (x := (1592262918131443 / 2 ^ 51) * (6369051672525773 / 2 ^ 53)) 9007199254740992 54 (by norm_num) (by norm_num) (by norm_num) (by rw [abs_lt]; constructor <;> norm_num)]
  norm_num

theorem e26 : ((1 / 2 ^ 1) : ℝ) *ᶠ (2001599834386887 / 2 ^ 54) = (2001599834386887 / 2 ^ 55) := by
  unfold Fl.mul
  rw [rnd64_eval (x := (1 / 2 ^ 1) * (2001599834386887 / 2 ^ 54)) 8006399337547548 57 (by norm_num) (by norm_num) (by norm_num) (by rw [abs_lt]; constructor <;> norm_num)]
  norm_num

theorem e27 : ((1 / 2 ^ 61) : ℝ) -ᶠ (2001599834386887 / 2 ^ 55) = (-(2001599834386887 / 2 ^ 55)) := by
  unfold Fl.sub
  have h : rnd64 ((128102389400760767 : ℝ) / 2305843009213693952) = _ := rnd64_eval 8006399337547548 57 (by norm_num) (by norm_num) (by norm_num) (by rw [abs_lt]; constructor <;> norm_num)
  rw [show (((1 / 2 ^ 61) - (2001599834386887 / 2 ^ 55) : ℝ)) = -((128102389400760767 : ℝ) / 2305843009213693952) by norm_num, rnd64_neg, h]
  norm_num

theorem e28 : (0 : ℝ) *ᶠ (6369051672525773 / 2 ^ 53) = 0 := by
  unfold Fl.mul
  norm_num [rnd64_zero]

theorem e29 : (0 : ℝ) *ᶠ (1592262918131443 / 2 ^ 51) = 0 := by
  unfold Fl.mul
  norm_num [rnd64_zero]

theorem e30 : ((-(2001599834386887 / 2 ^ 55)) : ℝ) +ᶠ 0 = (-(2001599834386887 / 2 ^ 55)) := by
  unfold Fl.add
  have h : rnd64 ((2001599834386887 : ℝ) / 36028797018963968) = _ := rnd64_eval 8006399337547548 57 (by norm_num) (by norm_num) (by norm_num) (by rw [abs_lt]; constructor <;> norm_num)
  rw [show (((-(2001599834386887 / 2 ^ 55)) + 0 : ℝ)) = -((2001599834386887 : ℝ) / 36028797018963968) by norm_num, rnd64_neg, h]
  norm_num

theorem e31 : (2 : ℝ) *ᶠ (-(2001599834386887 / 2 ^ 55)) = (-(2001599834386887 / 2 ^ 54)) := by
  unfold Fl.mul
  have h : rnd64 ((2001599834386887 : ℝ) / 18014398509481984) = _ := rnd64_eval 8006399337547548 56 (by norm_num) (by norm_num) (by norm_num) (by rw [abs_lt]; constructor <;> norm_num)
  rw [show ((2 * (-(2001599834386887 / 2 ^ 55)) : ℝ)) = -((2001599834386887 : ℝ) / 18014398509481984) by norm_num, rnd64_neg, h]
  norm_num

theorem e32 : ((4003199668773773 / 2 ^ 56) : ℝ) *ᶠ 3 = (1501199875790165 / 2 ^ 53) := by
  unfold Fl.mul
  rw [rnd64_tie_up (x := (4003199668773773 / 2 ^ 56) * 3) 6004799503160659 55 (by norm_num) (by norm_num) (by norm_num) (by norm_num) (by decide)]
  norm_num

theorem e33 : ((1501199875790165 / 2 ^ 53) : ℝ) *ᶠ 3 = (4503599627370495 / 2 ^ 53) := by
  unfold Fl.mul
  rw [rnd64_eval (x := (1501199875790165 / 2 ^ 53) * 3) 9007199254740990 54 (by norm_num) (by norm_num) (by norm_num) (by rw [abs_lt]; constructor <;> norm_num)]
  norm_num

theorem e34 : ((4003199668773775 / 2 ^ 56) : ℝ) *ᶠ 3 = (3002399751580331 / 2 ^ 54) := by
  unfold Fl.mul
  rw [rnd64_tie_down (x := (4003199668773775 / 2 ^ 56) * 3) 6004799503160662 55 (by norm_num) (by norm_num) (by norm_num) (by norm_num) (by decide)]
  norm_num

theorem e35 : ((3002399751580331 / 2 ^ 54) : ℝ) *ᶠ 3 = (1 / 2 ^ 1) := by
  unfold Fl.mul
  rw [rnd64_tie_down (x := (3002399751580331 / 2 ^ 54) * 3) 4503599627370496 53 (by norm_num) (by norm_num) (by norm_num) (by norm_num) (by decide)]
  norm_num

theorem e36 : ((4503599627370495 / 2 ^ 53) : ℝ) +ᶠ (1 / 2 ^ 1) = (9007199254740991 / 2 ^ 53) := by
  unfold Fl.add
  rw [rnd64_eval (x := (4503599627370495 / 2 ^ 53) + (1 / 2 ^ 1)) 9007199254740991 53 (by norm_num) (by norm_num) (by norm_num) (by rw [abs_lt]; constructor <;> norm_num)]
  norm_num

theorem e37 : ((-(2001599834386887 / 2 ^ 54)) : ℝ) *ᶠ 3 = (-(6004799503160661 / 2 ^ 54)) := by
  unfold Fl.mul
  have h : rnd64 ((6004799503160661 : ℝ) / 18014398509481984) = _ := rnd64_eval 6004799503160661 54 (by norm_num) (by norm_num) (by norm_num) (by rw [abs_lt]; constructor <;> norm_num)
  rw [show (((-(2001599834386887 / 2 ^ 54)) * 3 : ℝ)) = -((6004799503160661 : ℝ) / 18014398509481984) by norm_num, rnd64_neg, h]
  norm_num

theorem e38 : ((-(6004799503160661 / 2 ^ 54)) : ℝ) *ᶠ 3 = (-1) := by
  unfold Fl.mul
  have h : rnd64 ((18014398509481983 : ℝ) / 18014398509481984) = _ := rnd64_tie_up 9007199254740991 53 (by norm_num) (by norm_num) (by norm_num) (by norm_num) (by decide)
  rw [show (((-(6004799503160661 / 2 ^ 54)) * 3 : ℝ)) = -((18014398509481983 : ℝ) / 18014398509481984) by norm_num, rnd64_neg, h]
  norm_num

theorem e39 : ((9007199254740991 / 2 ^ 53) : ℝ) +ᶠ (-1) = (-(1 / 2 ^ 53)) := by
  unfold Fl.add
  have h : rnd64 ((1 : ℝ) / 9007199254740992) = _ := rnd64_eval 4503599627370496 105 (by norm_num) (by norm_num) (by norm_num) (by rw [abs_lt]; constructor <;> norm_num)
  rw [show (((9007199254740991 / 2 ^ 53) + (-1) : ℝ)) = -((1 : ℝ) / 9007199254740992) by norm_num, rnd64_neg, h]
  norm_num

/-! Rounded operations of the Matérn 5/2 correlation of distance 15/2^32. -/

theorem m1 : ((6663075648694649 / 2 ^ 50) : ℝ) *ᶠ (15 / 2 ^ 32) = (6246633420651233 / 2 ^ 78) := by
  unfold Fl.mul
  rw [rnd64_eval (x := (6663075648694649 / 2 ^ 50) * (15 / 2 ^ 32)) 6246633420651233 78 (by norm_num) (by norm_num) (by norm_num) (by rw [abs_lt]; constructor <;> norm_num)]
  norm_num

theorem m2 : (1 : ℝ) +ᶠ (6246633420651233 / 2 ^ 78) = (1125899930113147 / 2 ^ 50) := by
  unfold Fl.add
  rw [rnd64_eval (x := 1 + (6246633420651233 / 2 ^ 78)) 4503599720452588 52 (by norm_num) (by norm_num) (by norm_num) (by rw [abs_lt]; constructor <;> norm_num)]
  norm_num

theorem m3 : ((6246633420651233 / 2 ^ 78) : ℝ) *ᶠ (6246633420651233 / 2 ^ 78) = (8664275761737655 / 2 ^ 104) := by
  unfold Fl.mul
  rw [rnd64_eval (x := (6246633420651233 / 2 ^ 78) * (6246633420651233 / 2 ^ 78)) 8664275761737655 104 (by norm_num) (by norm_num) (by norm_num) (by rw [abs_lt]; constructor <;> norm_num)]
  norm_num

theorem m4 : ((8664275761737655 / 2 ^ 104) : ℝ) /ᶠ 3 = (5776183841158437 / 2 ^ 105) := by
  unfold Fl.div
  rw [rnd64_eval (x := (8664275761737655 / 2 ^ 104) / 3) 5776183841158437 105 (by norm_num) (by norm_num) (by norm_num) (by rw [abs_lt]; constructor <;> norm_num)]
  norm_num

theorem m5 : ((1125899930113147 / 2 ^ 50) : ℝ) +ᶠ (5776183841158437 / 2 ^ 105) = (4503599720452589 / 2 ^ 52) := by
  unfold Fl.add
  rw [rnd64_eval (x := (1125899930113147 / 2 ^ 50) + (5776183841158437 / 2 ^ 105)) 4503599720452589 52 (by norm_num) (by norm_num) (by norm_num) (by rw [abs_lt]; constructor <;> norm_num)]
  norm_num

theorem m6 : ((9007199068576811 / 2 ^ 53) : ℝ) *ᶠ (4503599720452589 / 2 ^ 52) = (4503599627370497 / 2 ^ 52) := by
  unfold Fl.mul
  rw [rnd64_eval (x := (9007199068576811 / 2 ^ 53) * (4503599720452589 / 2 ^ 52)) 4503599627370497 52 (by norm_num) (by norm_num) (by norm_num) (by rw [abs_lt]; constructor <;> norm_num)]
  norm_num

theorem m7 : (1 : ℝ) *ᶠ (15 / 2 ^ 32) = (15 / 2 ^ 32) := by
  unfold Fl.mul
  rw [rnd64_eval (x := 1 * (15 / 2 ^ 32)) 8444249301319680 81 (by norm_num) (by norm_num) (by norm_num) (by rw [abs_lt]; constructor <;> norm_num)]
  norm_num

theorem m8 : ((15 / 2 ^ 32) : ℝ) *ᶠ (15 / 2 ^ 32) = (225 / 2 ^ 64) := by
  unfold Fl.mul
  rw [rnd64_eval (x := (15 / 2 ^ 32) * (15 / 2 ^ 32)) 7916483719987200 109 (by norm_num) (by norm_num) (by norm_num) (by rw [abs_lt]; constructor <;> norm_num)]
  norm_num

/-- `45 * NRLib::Degree`. -/
theorem az45 : (45 : ℝ) *ᶠ degreeFl = 7074237752028440 / 2 ^ 53 := by
  have h : degreeFl = 5030569068109113 / 2 ^ 58 := by
    unfold degreeFl
    rw [rnd64_eval 5030569068109113 58 (by norm_num) (by norm_num) (by norm_num)
      (by rw [abs_lt]; constructor <;> norm_num)]
    norm_num
  rw [h]
  unfold Fl.mul
  rw [rnd64_eval 7074237752028440 53 (by norm_num) (by norm_num) (by norm_num)
    (by rw [abs_lt]; constructor <;> norm_num)]
  norm_num

/-- The cosine and sine of that angle. -/
theorem cos_sin_az45 : roundedLibm.cos (7074237752028440 / 2 ^ 53) = 6369051672525773 / 2 ^ 53 ∧
    roundedLibm.sin (7074237752028440 / 2 ^ 53) = 1592262918131443 / 2 ^ 51 := by
  obtain ⟨δ, hδ⟩ : ∃ δ : ℝ, (7074237752028440 / 2 ^ 53 : ℝ) = Real.pi / 4 - δ := 
    ⟨Real.pi / 4 - 7074237752028440 / 2 ^ 53, by ring⟩
  have p1 := Real.pi_gt_d20
  have p2 := Real.pi_lt_d20
  have d1 : 3.06e-17 < δ := by norm_num at hδ p1 p2 ⊢; linarith
  have d2 : δ < 3.07e-17 := by norm_num at hδ p1 p2 ⊢; linarith
  have d0 : 0 < δ := by linarith
  have s1 := Real.sin_lt d0
  have s2 := Real.sin_gt_sub_cube d0
  have c1 := Real.one_sub_sq_div_two_le_cos (x := δ)
  have c2 := Real.cos_le_one δ
  have dd : δ ^ 2 ≤ 1e-33 := by
    have : δ ^ 2 ≤ (3.07e-17) ^ 2 := pow_le_pow_left₀ d0.le d2.le 2
    refine this.trans (by norm_num)
  have ddd : δ ^ 3 ≤ 1e-33 := by
    have : δ ^ 3 ≤ (3.07e-17) ^ 3 := pow_le_pow_left₀ d0.le d2.le 3
    refine this.trans (by norm_num)
  have r1 : (0.70710678118654752440 : ℝ) < √2 / 2 := by
    have : (1.41421356237309504880 : ℝ) < √2 := Real.lt_sqrt_of_sq_lt (by norm_num)
    linarith
  have r2 : √2 / 2 < (0.70710678118654752441 : ℝ) := by
    have : √2 < (1.41421356237309504882 : ℝ) := by
      rw [Real.sqrt_lt' (by norm_num)]
      norm_num
    linarith
  have r0 : (0 : ℝ) < √2 / 2 := by positivity
  have ec : Real.cos (Real.pi / 4 - δ) = √2 / 2 * (Real.cos δ + Real.sin δ) := by
    rw [Real.cos_sub, Real.cos_pi_div_four, Real.sin_pi_div_four]
    ring
  have es : Real.sin (Real.pi / 4 - δ) = √2 / 2 * (Real.cos δ - Real.sin δ) := by
    rw [Real.sin_sub, Real.cos_pi_div_four, Real.sin_pi_div_four]
    ring
  have lo1 : 1 + 3.0599e-17 ≤ Real.cos δ + Real.sin δ := by norm_num at *; linarith
  have hi1 : Real.cos δ + Real.sin δ ≤ 1 + 3.07e-17 := by linarith
  have lo2 : 1 - 3.0701e-17 ≤ Real.cos δ - Real.sin δ := by norm_num at *; linarith
  have hi2 : Real.cos δ - Real.sin δ ≤ 1 - 3.0599e-17 := by norm_num at *; linarith
  have C1 := mul_le_mul r1.le lo1 (by norm_num) r0.le
  have C2 := mul_le_mul r2.le hi1 (by linarith) (by norm_num)
  have S1 := mul_le_mul r1.le lo2 (by norm_num) r0.le
  have S2 := mul_le_mul r2.le hi2 (by linarith) (by norm_num)
  rw [← ec] at C1 C2
  rw [← es] at S1 S2
  constructor
  · show rnd64 (Real.cos (7074237752028440 / 2 ^ 53)) = _
    rw [hδ]
    generalize Real.cos (Real.pi / 4 - δ) = c at C1 C2
    clear * - C1 C2
    norm_num at C1 C2
    rw [rnd64_eval 6369051672525773 53 (by norm_num) (by norm_num; linarith) (by norm_num; linarith)
      (by rw [abs_lt]; constructor <;> norm_num <;> linarith)]
    norm_num
  · show rnd64 (Real.sin (7074237752028440 / 2 ^ 53)) = _
    rw [hδ]
    generalize Real.sin (Real.pi / 4 - δ) = c at S1 S2
    clear * - S1 S2
    norm_num at S1 S2
    rw [rnd64_eval 6369051672525772 53 (by norm_num) (by norm_num; linarith) (by norm_num; linarith)
      (by rw [abs_lt]; constructor <;> norm_num <;> linarith)]
    norm_num

/-- `exp(-sd)`. -/
theorem exp_sd : roundedLibm.exp (-(6246633420651233 / 2 ^ 78)) = 9007199068576811 / 2 ^ 53 := by
  show rnd64 (Real.exp (-(6246633420651233 / 2 ^ 78))) = _
  have h := Real.exp_bound (x := -(6246633420651233 / 2 ^ 78)) (by rw [abs_neg, abs_of_pos (by norm_num)]; norm_num)
    (n := 3) (by norm_num)
  generalize Real.exp (-(6246633420651233 / 2 ^ 78)) = c at h
  rw [abs_neg, abs_of_pos (show (0 : ℝ) < 6246633420651233 / 2 ^ 78 by norm_num), abs_le] at h
  norm_num [Finset.sum_range_succ, Nat.factorial] at h
  rw [rnd64_eval 9007199068576811 53 (by norm_num) (by norm_num; linarith) (by norm_num; linarith)
    (by rw [abs_lt]; constructor <;> norm_num <;> linarith)]
  norm_num

end FlWitness

open FlWitness

/-- **C72 refuted for strong anisotropy.** With the correctly rounded library, main range 2^30, perpendicular range
3 and azimuth 45, the correlation of the lag (3, 3) is NaN: the argument of the square root is negative. -/
theorem corrFl_nan_refuted {s : List Char} (hs : IsAscii s) : roundedLibm.Acc ∧ LagOk 3 3 0 ∧
    ∃ w msg, createVariogramFl roundedLibm s 1073741824 3 (-1) 45 0 1.5 = .ok w ∧
      w.corr2Fl roundedLibm 3 3 = .nonfinite msg := by
  have o : (1.0 : ℝ) = 1 := by norm_num
  have z0 : (0.0 : ℝ) = 0 := by norm_num
  have m0 : (0 : ℝ) *ᶠ degreeFl = 0 := by unfold Fl.mul; rw [zero_mul, rnd64_zero]
  have c0 : roundedLibm.cos 0 = 1 := by
    show rnd64 (Real.cos 0) = 1
    rw [Real.cos_zero, rnd64_one]
  have s0 : roundedLibm.sin 0 = 0 := by
    show rnd64 (Real.sin 0) = 0
    rw [Real.sin_zero, rnd64_zero]
  refine ⟨roundedLibm_acc, Or.inr ⟨Or.inl (by norm_num), by norm_num, by norm_num, by norm_num⟩, ?_⟩
  have hc : ∃ w, createVariogramFl roundedLibm s 1073741824 3 (-1) 45 0 1.5 = .ok w ∧
      w.txx = (4003199668773773 / 2 ^ 56) ∧ w.tyy = (4003199668773775 / 2 ^ 56) ∧ w.txy = (-(2001599834386887 / 2 ^ 54)) := by
    have i1 : (if (3 : ℝ) < 0 then (1073741824 : ℝ) else 3) = 3 := if_neg (by norm_num)
    have i2 : (if (-1 : ℝ) < 0 then (1073741824 : ℝ) else -1) = 1073741824 := if_pos (by norm_num)
    simp only [createVariogramFl, uppercase_ascii hs, Res.monad_bind_eq, Res.bind_ok, z0, createFl, estimateFactorsFl,
      i1, i2, az45, m0, cos_sin_az45.1, cos_sin_az45.2, c0, s0, o, e1, e2, e3, e4, e5, e6, e7, e8, e9, e10, e11, e12, e13, e14, e15, e16, e17, e18, e19, e20, e21, e22, e23, e24, e25, e26, e27, e28, e29, e30, e31]
    rw [if_neg (by norm_num)]
    exact ⟨_, rfl, rfl, rfl, rfl⟩
  obtain ⟨w, hw, t1, t2, t3⟩ := hc
  refine ⟨w, "square root of a negative number", hw, ?_⟩
  unfold corr2Fl quad2Fl
  rw [t1, t2, t3]
  simp only [e32, e33, e34, e35, e36, e37, e38, e39]
  unfold sqrtFl
  rw [if_pos (by norm_num)]
  rfl

/-- **C72 refuted for the bound 1.** With the correctly rounded library, the Matérn 5/2 correlation with range 1 of
the lag 15/2^32 is 1 + 2^-52, greater than one. -/
theorem corrFl_above_one_refuted : roundedLibm.Acc ∧ LagOk (15 / 2 ^ 32) 0 0 ∧
    ∃ w, createVariogramFl roundedLibm "matern52".toList 1 (-1) (-1) 0 0 1.5 = .ok w ∧
      ∃ c, w.corrFl roundedLibm (15 / 2 ^ 32) = .ok c ∧ 1 < c := by
  have o : (1.0 : ℝ) = 1 := by norm_num
  have z0 : (0.0 : ℝ) = 0 := by norm_num
  have t0 : (3.0 : ℝ) = 3 := by norm_num
  have m0 : ∀ x : ℝ, 0 *ᶠ x = 0 := fun x => by unfold Fl.mul; rw [zero_mul, rnd64_zero]
  have m1 : (1 : ℝ) *ᶠ 1 = 1 := by unfold Fl.mul; rw [mul_one, rnd64_one]
  have d1 : (1 : ℝ) /ᶠ 1 = 1 := by unfold Fl.div; rw [div_one, rnd64_one]
  have p1 : ∀ x : ℝ, x +ᶠ 0 = rnd64 x := fun x => by unfold Fl.add; rw [add_zero]
  have m2 : ∀ x : ℝ, x *ᶠ 0 = 0 := fun x => by unfold Fl.mul; rw [mul_zero, rnd64_zero]
  have c0 : roundedLibm.cos 0 = 1 := by
    show rnd64 (Real.cos 0) = 1
    rw [Real.cos_zero, rnd64_one]
  have s0 : roundedLibm.sin 0 = 0 := by
    show rnd64 (Real.sin 0) = 0
    rw [Real.sin_zero, rnd64_zero]
  refine ⟨roundedLibm_acc, Or.inr ⟨Or.inl ?_, ?_, by norm_num, by norm_num⟩, ?_⟩
  · rw [abs_of_pos (by norm_num)]
    norm_num
  · rw [abs_of_pos (by norm_num)]
    norm_num
  have hc : ∃ w, createVariogramFl roundedLibm "matern52".toList 1 (-1) (-1) 0 0 1.5 = .ok w ∧
      w.txx = 1 ∧ w.type = .matern52 := by
    have hs : IsAscii "matern52".toList := by unfold IsAscii; decide +kernel
    have ht : typeOfUpper ("matern52".toList.map upAscii) = .matern52 := by decide +kernel
    have i2 : (if (-1 : ℝ) < 0 then (1 : ℝ) else -1) = 1 := if_pos (by norm_num)
    simp only [createVariogramFl, uppercase_ascii hs, Res.monad_bind_eq, Res.bind_ok, z0, createFl, estimateFactorsFl,
      i2, m0, c0, s0, o, m1, d1, p1, m2, rnd64_one, ht]
    rw [if_neg (by norm_num)]
    exact ⟨_, rfl, rfl, rfl⟩
  obtain ⟨w, hw, t1, t2⟩ := hc
  refine ⟨w, hw, 4503599627370497 / 2 ^ 52, ?_, by norm_num⟩
  have hq : √(225 / 2 ^ 64 : ℝ) = 15 / 2 ^ 32 := by
    rw [show (225 / 2 ^ 64 : ℝ) = (15 / 2 ^ 32) ^ 2 by norm_num, Real.sqrt_sq (by norm_num)]
  have hr : rnd64 (15 / 2 ^ 32) = 15 / 2 ^ 32 := by
    have := FlWitness.m7
    unfold Fl.mul at this
    rwa [one_mul] at this
  have hlit : rnd64 5.918 = 6663075648694649 / 2 ^ 50 := by
    rw [rnd64_eval 6663075648694649 50 (by norm_num) (by norm_num) (by norm_num)
      (by rw [abs_lt]; constructor <;> norm_num)]
    norm_num
  unfold corrFl quad1Fl sqrtFl
  rw [t1, t2, FlWitness.m7, FlWitness.m8, if_neg (by norm_num), hq, hr]
  simp only [Res.monad_bind_eq, Res.bind_ok, corr1DFl, hlit, FlWitness.m1, exp_sd, o, t0, FlWitness.m2, FlWitness.m3,
    FlWitness.m4, FlWitness.m5, FlWitness.m6]

end Verif
