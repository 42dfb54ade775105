import Verif.Lemmas.DistrFl

/-! Concrete histograms and intervals in double arithmetic. The theorems `e1`, `e2`, … are single operations. -/

namespace Verif.DistrFlWit

open scoped Fl

theorem e1 : (0 : ℝ) +ᶠ 1 = 1 := by
  unfold Fl.add
  rw [rnd64_eval (x := 0 + 1) 4503599627370496 52 (by norm_num) (by norm_num) (by norm_num) (by rw [abs_lt]; constructor <;> norm_num)]
  norm_num

theorem e2 : (1 : ℝ) +ᶠ 1 = 2 := by
  unfold Fl.add
  rw [rnd64_eval (x := 1 + 1) 4503599627370496 51 (by norm_num) (by norm_num) (by norm_num) (by rw [abs_lt]; constructor <;> norm_num)]
  norm_num

theorem e3 : (2 : ℝ) +ᶠ 1 = 3 := by
  unfold Fl.add
  rw [rnd64_eval (x := 2 + 1) 6755399441055744 51 (by norm_num) (by norm_num) (by norm_num) (by rw [abs_lt]; constructor <;> norm_num)]
  norm_num

theorem e4 : (3 : ℝ) +ᶠ 1 = 4 := by
  unfold Fl.add
  rw [rnd64_eval (x := 3 + 1) 4503599627370496 50 (by norm_num) (by norm_num) (by norm_num) (by rw [abs_lt]; constructor <;> norm_num)]
  norm_num

theorem e5 : (4 : ℝ) +ᶠ 1 = 5 := by
  unfold Fl.add
  rw [rnd64_eval (x := 4 + 1) 5629499534213120 50 (by norm_num) (by norm_num) (by norm_num) (by rw [abs_lt]; constructor <;> norm_num)]
  norm_num

theorem e6 : (5 : ℝ) +ᶠ 1 = 6 := by
  unfold Fl.add
  rw [rnd64_eval (x := 5 + 1) 6755399441055744 50 (by norm_num) (by norm_num) (by norm_num) (by rw [abs_lt]; constructor <;> norm_num)]
  norm_num

theorem e7 : (1 : ℝ) /ᶠ 6 = (6004799503160661 / 2 ^ 55) := by
  unfold Fl.div
  rw [rnd64_eval (x := 1 / 6) 6004799503160661 55 (by norm_num) (by norm_num) (by norm_num) (by rw [abs_lt]; constructor <;> norm_num)]
  norm_num

theorem e8 : (0 : ℝ) +ᶠ (6004799503160661 / 2 ^ 55) = (6004799503160661 / 2 ^ 55) := by
  unfold Fl.add
  rw [rnd64_eval (x := 0 + (6004799503160661 / 2 ^ 55)) 6004799503160661 55 (by norm_num) (by norm_num) (by norm_num) (by rw [abs_lt]; constructor <;> norm_num)]
  norm_num

theorem e9 : ((6004799503160661 / 2 ^ 55) : ℝ) +ᶠ (6004799503160661 / 2 ^ 55) = (6004799503160661 / 2 ^ 54) := by
  unfold Fl.add
  rw [rnd64_eval (x := (6004799503160661 / 2 ^ 55) + (6004799503160661 / 2 ^ 55)) 6004799503160661 54 (by norm_num) (by norm_num) (by norm_num) (by rw [abs_lt]; constructor <;> norm_num)]
  norm_num

theorem e10 : ((6004799503160661 / 2 ^ 54) : ℝ) +ᶠ (6004799503160661 / 2 ^ 55) = (1 / 2 ^ 1) := by
  unfold Fl.add
  rw [rnd64_tie_up (x := (6004799503160661 / 2 ^ 54) + (6004799503160661 / 2 ^ 55)) 9007199254740991 54 (by norm_num) (by norm_num) (by norm_num) (by norm_num) (by decide)]
  norm_num

theorem e11 : ((1 / 2 ^ 1) : ℝ) +ᶠ (6004799503160661 / 2 ^ 55) = (6004799503160661 / 2 ^ 53) := by
  unfold Fl.add
  rw [rnd64_eval (x := (1 / 2 ^ 1) + (6004799503160661 / 2 ^ 55)) 6004799503160661 53 (by norm_num) (by norm_num) (by norm_num) (by rw [abs_lt]; constructor <;> norm_num)]
  norm_num

theorem e12 : ((6004799503160661 / 2 ^ 53) : ℝ) +ᶠ (6004799503160661 / 2 ^ 55) = (3752999689475413 / 2 ^ 52) := by
  unfold Fl.add
  rw [rnd64_eval (x := (6004799503160661 / 2 ^ 53) + (6004799503160661 / 2 ^ 55)) 7505999378950826 53 (by norm_num) (by norm_num) (by norm_num) (by rw [abs_lt]; constructor <;> norm_num)]
  norm_num

theorem e13 : ((3752999689475413 / 2 ^ 52) : ℝ) +ᶠ (6004799503160661 / 2 ^ 55) = (9007199254740991 / 2 ^ 53) := by
  unfold Fl.add
  rw [rnd64_eval (x := (3752999689475413 / 2 ^ 52) + (6004799503160661 / 2 ^ 55)) 9007199254740991 53 (by norm_num) (by norm_num) (by norm_num) (by rw [abs_lt]; constructor <;> norm_num)]
  norm_num

theorem e14 : (6 : ℝ) +ᶠ 1 = 7 := by
  unfold Fl.add
  rw [rnd64_eval (x := 6 + 1) 7881299347898368 50 (by norm_num) (by norm_num) (by norm_num) (by rw [abs_lt]; constructor <;> norm_num)]
  norm_num

theorem e15 : (7 : ℝ) +ᶠ 1 = 8 := by
  unfold Fl.add
  rw [rnd64_eval (x := 7 + 1) 4503599627370496 49 (by norm_num) (by norm_num) (by norm_num) (by rw [abs_lt]; constructor <;> norm_num)]
  norm_num

theorem e16 : (8 : ℝ) +ᶠ 1 = 9 := by
  unfold Fl.add
  rw [rnd64_eval (x := 8 + 1) 5066549580791808 49 (by norm_num) (by norm_num) (by norm_num) (by rw [abs_lt]; constructor <;> norm_num)]
  norm_num

theorem e17 : (1 : ℝ) /ᶠ 9 = (2001599834386887 / 2 ^ 54) := by
  unfold Fl.div
  rw [rnd64_eval (x := 1 / 9) 8006399337547548 56 (by norm_num) (by norm_num) (by norm_num) (by rw [abs_lt]; constructor <;> norm_num)]
  norm_num

theorem e18 : (0 : ℝ) +ᶠ (2001599834386887 / 2 ^ 54) = (2001599834386887 / 2 ^ 54) := by
  unfold Fl.add
  rw [rnd64_eval (x := 0 + (2001599834386887 / 2 ^ 54)) 8006399337547548 56 (by norm_num) (by norm_num) (by norm_num) (by rw [abs_lt]; constructor <;> norm_num)]
  norm_num

theorem e19 : ((2001599834386887 / 2 ^ 54) : ℝ) +ᶠ (2001599834386887 / 2 ^ 54) = (2001599834386887 / 2 ^ 53) := by
  unfold Fl.add
  rw [rnd64_eval (x := (2001599834386887 / 2 ^ 54) + (2001599834386887 / 2 ^ 54)) 8006399337547548 55 (by norm_num) (by norm_num) (by norm_num) (by rw [abs_lt]; constructor <;> norm_num)]
  norm_num

theorem e20 : ((2001599834386887 / 2 ^ 53) : ℝ) +ᶠ (2001599834386887 / 2 ^ 54) = (6004799503160661 / 2 ^ 54) := by
  unfold Fl.add
  rw [rnd64_eval (x := (2001599834386887 / 2 ^ 53) + (2001599834386887 / 2 ^ 54)) 6004799503160661 54 (by norm_num) (by norm_num) (by norm_num) (by rw [abs_lt]; constructor <;> norm_num)]
  norm_num

theorem e21 : ((6004799503160661 / 2 ^ 54) : ℝ) +ᶠ (2001599834386887 / 2 ^ 54) = (2001599834386887 / 2 ^ 52) := by
  unfold Fl.add
  rw [rnd64_eval (x := (6004799503160661 / 2 ^ 54) + (2001599834386887 / 2 ^ 54)) 8006399337547548 54 (by norm_num) (by norm_num) (by norm_num) (by rw [abs_lt]; constructor <;> norm_num)]
  norm_num

theorem e22 : ((2001599834386887 / 2 ^ 52) : ℝ) +ᶠ (2001599834386887 / 2 ^ 54) = (2501999792983609 / 2 ^ 52) := by
  unfold Fl.add
  rw [rnd64_tie_up (x := (2001599834386887 / 2 ^ 52) + (2001599834386887 / 2 ^ 54)) 5003999585967217 53 (by norm_num) (by norm_num) (by norm_num) (by norm_num) (by decide)]
  norm_num

theorem e23 : ((2501999792983609 / 2 ^ 52) : ℝ) +ᶠ (2001599834386887 / 2 ^ 54) = (3002399751580331 / 2 ^ 52) := by
  unfold Fl.add
  rw [rnd64_tie_up (x := (2501999792983609 / 2 ^ 52) + (2001599834386887 / 2 ^ 54)) 6004799503160661 53 (by norm_num) (by norm_num) (by norm_num) (by norm_num) (by decide)]
  norm_num

theorem e24 : ((3002399751580331 / 2 ^ 52) : ℝ) +ᶠ (2001599834386887 / 2 ^ 54) = (3502799710177053 / 2 ^ 52) := by
  unfold Fl.add
  rw [rnd64_tie_up (x := (3002399751580331 / 2 ^ 52) + (2001599834386887 / 2 ^ 54)) 7005599420354105 53 (by norm_num) (by norm_num) (by norm_num) (by norm_num) (by decide)]
  norm_num

theorem e25 : ((3502799710177053 / 2 ^ 52) : ℝ) +ᶠ (2001599834386887 / 2 ^ 54) = (4003199668773775 / 2 ^ 52) := by
  unfold Fl.add
  rw [rnd64_tie_up (x := (3502799710177053 / 2 ^ 52) + (2001599834386887 / 2 ^ 54)) 8006399337547549 53 (by norm_num) (by norm_num) (by norm_num) (by norm_num) (by decide)]
  norm_num

theorem e26 : ((4003199668773775 / 2 ^ 52) : ℝ) +ᶠ (2001599834386887 / 2 ^ 54) = (4503599627370497 / 2 ^ 52) := by
  unfold Fl.add
  rw [rnd64_eval (x := (4003199668773775 / 2 ^ 52) + (2001599834386887 / 2 ^ 54)) 4503599627370497 52 (by norm_num) (by norm_num) (by norm_num) (by rw [abs_lt]; constructor <;> norm_num)]
  norm_num

theorem e27 : (9 : ℝ) +ᶠ 1 = 10 := by
  unfold Fl.add
  rw [rnd64_eval (x := 9 + 1) 5629499534213120 49 (by norm_num) (by norm_num) (by norm_num) (by rw [abs_lt]; constructor <;> norm_num)]
  norm_num

theorem e28 : (10 : ℝ) +ᶠ 1 = 11 := by
  unfold Fl.add
  rw [rnd64_eval (x := 10 + 1) 6192449487634432 49 (by norm_num) (by norm_num) (by norm_num) (by rw [abs_lt]; constructor <;> norm_num)]
  norm_num

theorem e29 : (11 : ℝ) +ᶠ 1 = 12 := by
  unfold Fl.add
  rw [rnd64_eval (x := 11 + 1) 6755399441055744 49 (by norm_num) (by norm_num) (by norm_num) (by rw [abs_lt]; constructor <;> norm_num)]
  norm_num

theorem e30 : (12 : ℝ) +ᶠ 1 = 13 := by
  unfold Fl.add
  rw [rnd64_eval (x := 12 + 1) 7318349394477056 49 (by norm_num) (by norm_num) (by norm_num) (by rw [abs_lt]; constructor <;> norm_num)]
  norm_num

theorem e31 : (13 : ℝ) +ᶠ 1 = 14 := by
  unfold Fl.add
  rw [rnd64_eval (x := 13 + 1) 7881299347898368 49 (by norm_num) (by norm_num) (by norm_num) (by rw [abs_lt]; constructor <;> norm_num)]
  norm_num

theorem e32 : (1 : ℝ) /ᶠ 14 = (2573485501354569 / 2 ^ 55) := by
  unfold Fl.div
  rw [rnd64_eval (x := 1 / 14) 5146971002709138 56 (by norm_num) (by norm_num) (by norm_num) (by rw [abs_lt]; constructor <;> norm_num)]
  norm_num

theorem e33 : (0 : ℝ) +ᶠ (2573485501354569 / 2 ^ 55) = (2573485501354569 / 2 ^ 55) := by
  unfold Fl.add
  rw [rnd64_eval (x := 0 + (2573485501354569 / 2 ^ 55)) 5146971002709138 56 (by norm_num) (by norm_num) (by norm_num) (by rw [abs_lt]; constructor <;> norm_num)]
  norm_num

theorem e34 : ((2573485501354569 / 2 ^ 55) : ℝ) +ᶠ (2573485501354569 / 2 ^ 55) = (2573485501354569 / 2 ^ 54) := by
  unfold Fl.add
  rw [rnd64_eval (x := (2573485501354569 / 2 ^ 55) + (2573485501354569 / 2 ^ 55)) 5146971002709138 55 (by norm_num) (by norm_num) (by norm_num) (by rw [abs_lt]; constructor <;> norm_num)]
  norm_num

theorem e35 : ((2573485501354569 / 2 ^ 54) : ℝ) +ᶠ (2573485501354569 / 2 ^ 55) = (7720456504063707 / 2 ^ 55) := by
  unfold Fl.add
  rw [rnd64_eval (x := (2573485501354569 / 2 ^ 54) + (2573485501354569 / 2 ^ 55)) 7720456504063707 55 (by norm_num) (by norm_num) (by norm_num) (by rw [abs_lt]; constructor <;> norm_num)]
  norm_num

theorem e36 : ((7720456504063707 / 2 ^ 55) : ℝ) +ᶠ (2573485501354569 / 2 ^ 55) = (2573485501354569 / 2 ^ 53) := by
  unfold Fl.add
  rw [rnd64_eval (x := (7720456504063707 / 2 ^ 55) + (2573485501354569 / 2 ^ 55)) 5146971002709138 54 (by norm_num) (by norm_num) (by norm_num) (by rw [abs_lt]; constructor <;> norm_num)]
  norm_num

theorem e37 : ((2573485501354569 / 2 ^ 53) : ℝ) +ᶠ (2573485501354569 / 2 ^ 55) = (3216856876693211 / 2 ^ 53) := by
  unfold Fl.add
  rw [rnd64_tie_down (x := (2573485501354569 / 2 ^ 53) + (2573485501354569 / 2 ^ 55)) 6433713753386422 54 (by norm_num) (by norm_num) (by norm_num) (by norm_num) (by decide)]
  norm_num

theorem e38 : ((3216856876693211 / 2 ^ 53) : ℝ) +ᶠ (2573485501354569 / 2 ^ 55) = (3860228252031853 / 2 ^ 53) := by
  unfold Fl.add
  rw [rnd64_tie_down (x := (3216856876693211 / 2 ^ 53) + (2573485501354569 / 2 ^ 55)) 7720456504063706 54 (by norm_num) (by norm_num) (by norm_num) (by norm_num) (by decide)]
  norm_num

theorem e39 : ((3860228252031853 / 2 ^ 53) : ℝ) +ᶠ (2573485501354569 / 2 ^ 55) = (4503599627370495 / 2 ^ 53) := by
  unfold Fl.add
  rw [rnd64_tie_down (x := (3860228252031853 / 2 ^ 53) + (2573485501354569 / 2 ^ 55)) 9007199254740990 54 (by norm_num) (by norm_num) (by norm_num) (by norm_num) (by decide)]
  norm_num

theorem e40 : ((4503599627370495 / 2 ^ 53) : ℝ) +ᶠ (2573485501354569 / 2 ^ 55) = (5146971002709137 / 2 ^ 53) := by
  unfold Fl.add
  rw [rnd64_eval (x := (4503599627370495 / 2 ^ 53) + (2573485501354569 / 2 ^ 55)) 5146971002709137 53 (by norm_num) (by norm_num) (by norm_num) (by rw [abs_lt]; constructor <;> norm_num)]
  norm_num

theorem e41 : ((5146971002709137 / 2 ^ 53) : ℝ) +ᶠ (2573485501354569 / 2 ^ 55) = (5790342378047779 / 2 ^ 53) := by
  unfold Fl.add
  rw [rnd64_eval (x := (5146971002709137 / 2 ^ 53) + (2573485501354569 / 2 ^ 55)) 5790342378047779 53 (by norm_num) (by norm_num) (by norm_num) (by rw [abs_lt]; constructor <;> norm_num)]
  norm_num

theorem e42 : ((5790342378047779 / 2 ^ 53) : ℝ) +ᶠ (2573485501354569 / 2 ^ 55) = (6433713753386421 / 2 ^ 53) := by
  unfold Fl.add
  rw [rnd64_eval (x := (5790342378047779 / 2 ^ 53) + (2573485501354569 / 2 ^ 55)) 6433713753386421 53 (by norm_num) (by norm_num) (by norm_num) (by rw [abs_lt]; constructor <;> norm_num)]
  norm_num

theorem e43 : ((6433713753386421 / 2 ^ 53) : ℝ) +ᶠ (2573485501354569 / 2 ^ 55) = (7077085128725063 / 2 ^ 53) := by
  unfold Fl.add
  rw [rnd64_eval (x := (6433713753386421 / 2 ^ 53) + (2573485501354569 / 2 ^ 55)) 7077085128725063 53 (by norm_num) (by norm_num) (by norm_num) (by rw [abs_lt]; constructor <;> norm_num)]
  norm_num

theorem e44 : ((7077085128725063 / 2 ^ 53) : ℝ) +ᶠ (2573485501354569 / 2 ^ 55) = (7720456504063705 / 2 ^ 53) := by
  unfold Fl.add
  rw [rnd64_eval (x := (7077085128725063 / 2 ^ 53) + (2573485501354569 / 2 ^ 55)) 7720456504063705 53 (by norm_num) (by norm_num) (by norm_num) (by rw [abs_lt]; constructor <;> norm_num)]
  norm_num

theorem e45 : ((7720456504063705 / 2 ^ 53) : ℝ) +ᶠ (2573485501354569 / 2 ^ 55) = (8363827879402347 / 2 ^ 53) := by
  unfold Fl.add
  rw [rnd64_eval (x := (7720456504063705 / 2 ^ 53) + (2573485501354569 / 2 ^ 55)) 8363827879402347 53 (by norm_num) (by norm_num) (by norm_num) (by rw [abs_lt]; constructor <;> norm_num)]
  norm_num

theorem e46 : ((8363827879402347 / 2 ^ 53) : ℝ) +ᶠ (2573485501354569 / 2 ^ 55) = (9007199254740989 / 2 ^ 53) := by
  unfold Fl.add
  rw [rnd64_eval (x := (8363827879402347 / 2 ^ 53) + (2573485501354569 / 2 ^ 55)) 9007199254740989 53 (by norm_num) (by norm_num) (by norm_num) (by rw [abs_lt]; constructor <;> norm_num)]
  norm_num

theorem e47 : (3 : ℝ) -ᶠ 2 = 1 := by
  unfold Fl.sub
  rw [rnd64_eval (x := 3 - 2) 4503599627370496 52 (by norm_num) (by norm_num) (by norm_num) (by rw [abs_lt]; constructor <;> norm_num)]
  norm_num

theorem e48 : ((4503599627370495 / 2 ^ 52) : ℝ) *ᶠ 1 = (4503599627370495 / 2 ^ 52) := by
  unfold Fl.mul
  rw [rnd64_eval (x := (4503599627370495 / 2 ^ 52) * 1) 9007199254740990 53 (by norm_num) (by norm_num) (by norm_num) (by rw [abs_lt]; constructor <;> norm_num)]
  norm_num

theorem e49 : (2 : ℝ) +ᶠ (4503599627370495 / 2 ^ 52) = 3 := by
  unfold Fl.add
  rw [rnd64_tie_up (x := 2 + (4503599627370495 / 2 ^ 52)) 6755399441055743 51 (by norm_num) (by norm_num) (by norm_num) (by norm_num) (by decide)]
  norm_num

theorem e50 : ((4503599627370497 / 2 ^ 52) : ℝ) -ᶠ (-(1 / 2 ^ 53)) = (2251799813685249 / 2 ^ 51) := by
  unfold Fl.sub
  rw [rnd64_tie_up (x := (4503599627370497 / 2 ^ 52) - (-(1 / 2 ^ 53))) 4503599627370497 52 (by norm_num) (by norm_num) (by norm_num) (by norm_num) (by decide)]
  norm_num

theorem e51 : (1 : ℝ) *ᶠ (2251799813685249 / 2 ^ 51) = (2251799813685249 / 2 ^ 51) := by
  unfold Fl.mul
  rw [rnd64_eval (x := 1 * (2251799813685249 / 2 ^ 51)) 4503599627370498 52 (by norm_num) (by norm_num) (by norm_num) (by rw [abs_lt]; constructor <;> norm_num)]
  norm_num

theorem e52 : ((-(1 / 2 ^ 53)) : ℝ) +ᶠ (2251799813685249 / 2 ^ 51) = (2251799813685249 / 2 ^ 51) := by
  unfold Fl.add
  rw [rnd64_tie_up (x := (-(1 / 2 ^ 53)) + (2251799813685249 / 2 ^ 51)) 4503599627370497 52 (by norm_num) (by norm_num) (by norm_num) (by norm_num) (by decide)]
  norm_num

open GeneralDiscrete

theorem w_replicate (n : ℕ) (c : ℝ) (i : ℕ) (h : i < n) : w (List.replicate n c) i = c := by
  unfold w
  rw [List.getD_eq_getElem _ _ (by simpa using h), List.getElem_replicate]

theorem six_sum : fsum (w (List.replicate 6 1)) 6 = 6 := by
  simp only [fsum]
  repeat rw [w_replicate _ _ _ (by norm_num)]
  simp only [e1, e2, e3, e4, e5, e6]

theorem six_cum : fsum (w (List.replicate 6 (6004799503160661 / 2 ^ 55))) 6 = 9007199254740991 / 2 ^ 53 := by
  simp only [fsum]
  repeat rw [w_replicate _ _ _ (by norm_num)]
  simp only [e8, e9, e10, e11, e12, e13]

theorem six_create : createFl (List.replicate 6 1) = .ok ⟨List.replicate 6 (6004799503160661 / 2 ^ 55), (List.range 6).map fun i =>
    fsum (w (List.replicate 6 (6004799503160661 / 2 ^ 55))) (i + 1)⟩ := by
  rw [createFl_ok _ (by rw [List.length_replicate, six_sum]; norm_num)]
  simp only [List.length_replicate, six_sum, List.map_replicate, e7]

theorem nine_sum : fsum (w (List.replicate 9 1)) 9 = 9 := by
  simp only [fsum]
  repeat rw [w_replicate _ _ _ (by norm_num)]
  simp only [e1, e2, e3, e4, e5, e6, e14, e15, e16]

theorem nine_cum : fsum (w (List.replicate 9 (2001599834386887 / 2 ^ 54))) 9 = 4503599627370497 / 2 ^ 52 := by
  simp only [fsum]
  repeat rw [w_replicate _ _ _ (by norm_num)]
  simp only [e18, e19, e20, e21, e22, e23, e24, e25, e26]

theorem nine_create : createFl (List.replicate 9 1) = .ok ⟨List.replicate 9 (2001599834386887 / 2 ^ 54), (List.range 9).map fun i =>
    fsum (w (List.replicate 9 (2001599834386887 / 2 ^ 54))) (i + 1)⟩ := by
  rw [createFl_ok _ (by rw [List.length_replicate, nine_sum]; norm_num)]
  simp only [List.length_replicate, nine_sum, List.map_replicate, e17]

theorem fourteen_sum : fsum (w (List.replicate 14 1)) 14 = 14 := by
  simp only [fsum]
  repeat rw [w_replicate _ _ _ (by norm_num)]
  simp only [e1, e2, e3, e4, e5, e6, e14, e15, e16, e27, e28, e29, e30, e31]

theorem fourteen_cum : fsum (w (List.replicate 14 (2573485501354569 / 2 ^ 55))) 14 = 9007199254740989 / 2 ^ 53 := by
  simp only [fsum]
  repeat rw [w_replicate _ _ _ (by norm_num)]
  simp only [e33, e34, e35, e36, e37, e38, e39, e40, e41, e42, e43, e44, e45, e46]

theorem fourteen_create : createFl (List.replicate 14 1) = .ok ⟨List.replicate 14 (2573485501354569 / 2 ^ 55), (List.range 14).map fun i =>
    fsum (w (List.replicate 14 (2573485501354569 / 2 ^ 55))) (i + 1)⟩ := by
  rw [createFl_ok _ (by rw [List.length_replicate, fourteen_sum]; norm_num)]
  simp only [List.length_replicate, fourteen_sum, List.map_replicate, e32]

theorem w_replicate_nonneg (n : ℕ) {c : ℝ} (hc : 0 ≤ c) (i : ℕ) : 0 ≤ w (List.replicate n c) i := by
  unfold w
  rcases lt_or_ge i n with h | h
  · rw [List.getD_eq_getElem _ _ (by simpa using h), List.getElem_replicate]
    exact hc
  · rw [List.getD_eq_default _ _ (by simpa using h)]

theorem past {n : ℕ} {c v p : ℝ} (hc : 0 ≤ c) (hv : fsum (w (List.replicate n c)) n = v) (h : v < p) :
    (GeneralDiscrete.mk (List.replicate n c) ((List.range n).map fun i => fsum (w (List.replicate n c)) (i + 1))).quantile p
      = .ub "read out of range" :=
  quantile_past _ n _ rfl p fun i hi =>
    lt_of_le_of_lt (fsum_mono (w_replicate_nonneg n hc) (show i + 1 ≤ n by omega)) (hv ▸ h)

theorem six : ∃ d, createFl (List.replicate 6 1) = .ok d ∧
    d.cdf 5 = .ok (1 - 2⁻¹ ^ 53) ∧ d.quantile 1 = .ub "read out of range" := by
  refine ⟨_, six_create, ?_, past (by norm_num) six_cum (by norm_num)⟩
  unfold cdf
  rw [if_neg (by norm_num), rd_eq_ok]
  show ((List.range 6).map fun i => fsum (w (List.replicate 6 (6004799503160661 / 2 ^ 55))) (i + 1))[5]? = _
  rw [List.getElem?_map, List.getElem?_range (by norm_num)]
  show some (fsum _ 6) = _
  rw [six_cum]
  norm_num

theorem nine : ∃ d, createFl (List.replicate 9 1) = .ok d ∧ d.cdf 8 = .ok (1 + 2⁻¹ ^ 52) := by
  refine ⟨_, nine_create, ?_⟩
  unfold cdf
  rw [if_neg (by norm_num), rd_eq_ok]
  show ((List.range 9).map fun i => fsum (w (List.replicate 9 (2001599834386887 / 2 ^ 54))) (i + 1))[8]? = _
  rw [List.getElem?_map, List.getElem?_range (by norm_num)]
  show some (fsum _ 9) = _
  rw [nine_cum]
  norm_num

theorem fourteen : ∃ d, createFl (List.replicate 14 1) = .ok d ∧
    d.quantile (1 - 2⁻¹ ^ 52) = .ub "read out of range" :=
  ⟨_, fourteen_create, past (by norm_num) fourteen_cum (by norm_num)⟩

end Verif.DistrFlWit
