import Verif.Lemmas.VariogramFl

/-!
# Rounding errors of the correlation functions
-/

namespace Verif

open scoped Fl
open Fl Variogram

namespace Fl

/-- `x'` is `x ≥ 0` up to the relative error `a`. -/
def Rel (a x' x : ℝ) : Prop := 0 ≤ x ∧ |x' - x| ≤ a * x

theorem Rel.mono {a b x' x : ℝ} (h : Rel a x' x) (hab : a ≤ b) : Rel b x' x :=
  ⟨h.1, h.2.trans (mul_le_mul_of_nonneg_right hab h.1)⟩

theorem Rel.refl {x : ℝ} (h : 0 ≤ x) : Rel 0 x x := ⟨h, by simp⟩

theorem Rel.le {a x' x : ℝ} (h : Rel a x' x) : x' ≤ (1 + a) * x := by
  have := (abs_le.1 h.2).2
  linarith

theorem Rel.ge {a x' x : ℝ} (h : Rel a x' x) : (1 - a) * x ≤ x' := by
  have := (abs_le.1 h.2).1
  linarith

theorem Rel.nonneg {a x' x : ℝ} (h : Rel a x' x) (ha : a ≤ 1 / 2) : 0 ≤ x' :=
  le_trans (mul_nonneg (by linarith) h.1) h.ge

theorem Rel.mul {a b x' x y' y : ℝ} (hx : Rel a x' x) (hy : Rel b y' y) (ha : 0 ≤ a) :
    Rel (a + b + a * b) (x' * y') (x * y) := by
  refine ⟨mul_nonneg hx.1 hy.1, ?_⟩
  have e : x' * y' - x * y = (x' - x) * y + x * (y' - y) + (x' - x) * (y' - y) := by ring
  have h1 : |(x' - x) * y| ≤ a * x * y := by
    rw [abs_mul, abs_of_nonneg hy.1]
    exact mul_le_mul_of_nonneg_right hx.2 hy.1
  have h2 : |x * (y' - y)| ≤ x * (b * y) := by
    rw [abs_mul, abs_of_nonneg hx.1]
    exact mul_le_mul_of_nonneg_left hy.2 hx.1
  have h3 : |(x' - x) * (y' - y)| ≤ a * x * (b * y) := by
    rw [abs_mul]
    exact mul_le_mul hx.2 hy.2 (abs_nonneg _) (mul_nonneg ha hx.1)
  rw [e]
  have h7 := (abs_add_le ((x' - x) * y + x * (y' - y)) ((x' - x) * (y' - y))).trans
    (add_le_add_left (abs_add_le _ _) _)
  nlinarith

theorem Rel.add {a x' x y' y : ℝ} (hx : Rel a x' x) (hy : Rel a y' y) : Rel a (x' + y') (x + y) := by
  refine ⟨add_nonneg hx.1 hy.1, ?_⟩
  rw [show x' + y' - (x + y) = (x' - x) + (y' - y) by ring]
  have := (abs_add_le (x' - x) (y' - y)).trans (add_le_add hx.2 hy.2)
  linarith

theorem Rel.rnd {a x' x : ℝ} (h : Rel a x' x) (ha : a ≤ 1 / 2) (hx : 2⁻¹ ^ 900 ≤ x) : Rel (a + u) (rnd64 x') x := by
  refine ⟨h.1, ?_⟩
  have h1 : 1 / 2 * x ≤ x' := le_trans (mul_le_mul_of_nonneg_right (by linarith) h.1) h.ge
  have h2 : x' ≤ 2 * x := h.le.trans (mul_le_mul_of_nonneg_right (by linarith) h.1)
  have h3 : (2⁻¹ : ℝ) ^ 1000 ≤ |x'| := by
    rw [abs_of_nonneg (h.nonneg ha)]
    refine le_trans ?_ h1
    refine le_trans ?_ (mul_le_mul_of_nonneg_left hx (by norm_num))
    have : (1 / 2 : ℝ) * 2⁻¹ ^ 900 = 2⁻¹ ^ 901 := by rw [pow_succ' _ 900]; norm_num
    rw [this]
    exact pow_le_pow_of_le_one (by norm_num) (by norm_num) (by norm_num)
  have h4 := rnd64_rel h3
  rw [abs_of_nonneg (h.nonneg ha)] at h4
  have h5 : |rnd64 x' - x| ≤ |rnd64 x' - x'| + |x' - x| := abs_sub_le _ _ _
  have h6 : x' * 2⁻¹ ^ 53 ≤ u * x := by
    rw [u_eq]
    have : x' * 2⁻¹ ^ 53 ≤ 2 * x * 2⁻¹ ^ 53 := mul_le_mul_of_nonneg_right h2 (by positivity)
    norm_num at this ⊢
    linarith
  have := h.2
  nlinarith

theorem Rel.lit {x : ℝ} (hx : 2⁻¹ ^ 900 ≤ x) : Rel u (rnd64 x) x := by
  have := (Rel.refl (le_trans (by positivity) hx)).rnd (by norm_num) hx
  rwa [zero_add] at this

theorem Rel.rmul {a b x' x y' y : ℝ} (hx : Rel a x' x) (hy : Rel b y' y) (ha : 0 ≤ a) (hb : a + b + a * b ≤ 1 / 2)
    (h : 2⁻¹ ^ 900 ≤ x * y) : Rel (a + b + a * b + u) (x' *ᶠ y') (x * y) := (hx.mul hy ha).rnd hb h

theorem Rel.radd {a x' x y' y : ℝ} (hx : Rel a x' x) (hy : Rel a y' y) (ha : a ≤ 1 / 2)
    (h : 2⁻¹ ^ 900 ≤ x + y) : Rel (a + u) (x' +ᶠ y') (x + y) := (hx.add hy).rnd ha h

/-- Division by an exact positive number. -/
theorem Rel.rdiv {a x' x c : ℝ} (hx : Rel a x' x) (ha : a ≤ 1 / 2) (hc : 0 < c) (h : 2⁻¹ ^ 900 ≤ x / c) :
    Rel (a + u) (x' /ᶠ c) (x / c) := by
  refine Rel.rnd ⟨div_nonneg hx.1 hc.le, ?_⟩ ha h
  rw [← sub_div, abs_div, abs_of_pos hc, mul_div_assoc']
  exact div_le_div_of_nonneg_right hx.2 hc.le

/-- A power with an exponent of at most 2, or 3. -/
theorem Rel.rpow {a x' x y : ℝ} (hx : Rel a x' x) (ha0 : 0 ≤ a) (ha : a ≤ 1 / 10) (hy : 0 ≤ y) (hy2 : y ≤ 3) :
    Rel (4 * a) (x' ^ y) (x ^ y) := by
  refine ⟨Real.rpow_nonneg hx.1 _, ?_⟩
  have x'0 : 0 ≤ x' := hx.nonneg (by linarith)
  have p0 : 0 ≤ x ^ y := Real.rpow_nonneg hx.1 _
  have h1 : x' ^ y ≤ (1 + a) ^ y * x ^ y := by
    rw [← Real.mul_rpow (by linarith) hx.1]
    exact Real.rpow_le_rpow x'0 hx.le hy
  have h2 : (1 - a) ^ y * x ^ y ≤ x' ^ y := by
    rw [← Real.mul_rpow (by linarith) hx.1]
    exact Real.rpow_le_rpow (mul_nonneg (by linarith) hx.1) hx.ge hy
  have h3 : (1 + a) ^ y ≤ 1 + 4 * a := by
    refine (Real.rpow_le_rpow_of_exponent_le (by linarith) hy2).trans ?_
    rw [show (3 : ℝ) = ((3 : ℕ) : ℝ) by norm_num, Real.rpow_natCast]
    nlinarith [mul_nonneg ha0 ha0, mul_nonneg (mul_nonneg ha0 ha0) ha0, mul_nonneg ha0 (sub_nonneg.2 ha)]
  have h4 : 1 - 4 * a ≤ (1 - a) ^ y := by
    refine le_trans ?_ (Real.rpow_le_rpow_of_exponent_ge (by linarith) (by linarith) hy2)
    rw [show (3 : ℝ) = ((3 : ℕ) : ℝ) by norm_num, Real.rpow_natCast]
    nlinarith [mul_nonneg ha0 ha0, mul_nonneg (mul_nonneg ha0 ha0) ha0, mul_nonneg ha0 (sub_nonneg.2 ha)]
  have h5 := mul_le_mul_of_nonneg_right h3 p0
  have h6 := mul_le_mul_of_nonneg_right h4 p0
  rw [abs_le]
  constructor <;> linarith

/-- `pow`. -/
theorem Rel.lpow {lm : Libm} (hl : lm.Acc) {a x' x y : ℝ} (hx : Rel a x' x) (ha0 : 0 ≤ a) (ha : a ≤ 1 / 10)
    (hy : 0 ≤ y) (hy2 : y ≤ 3) (h : 2⁻¹ ^ 900 ≤ x ^ y) : Rel (4 * a + 2 * u) (lm.pow x' y) (x ^ y) := by
  have x'0 : 0 ≤ x' := hx.nonneg (by linarith)
  have h1 := hl.pow x' y x'0 hy
  have h2 := hx.rpow ha0 ha hy hy2
  refine ⟨h2.1, ?_⟩
  have h3 := abs_sub_le (lm.pow x' y) (x' ^ y) (x ^ y)
  have h4 := h2.2
  have h5 : x' ^ y ≤ 1.4 * x ^ y := h2.le.trans (mul_le_mul_of_nonneg_right (by linarith) h2.1)
  have h6 : (2⁻¹ : ℝ) ^ 1074 ≤ 2⁻¹ ^ 100 * x ^ y := by
    refine le_trans ?_ (mul_le_mul_of_nonneg_left h (by positivity))
    rw [← pow_add]
    exact pow_le_pow_of_le_one (by norm_num) (by norm_num) (by norm_num)
  have h7 : (2⁻¹ : ℝ) ^ 100 * x ^ y ≤ 0.5 * u * x ^ y := by
    refine mul_le_mul_of_nonneg_right ?_ h2.1
    rw [u_eq]; norm_num
  have h8 : (2⁻¹ : ℝ) ^ 52 * x' ^ y ≤ u * (1.4 * x ^ y) := mul_le_mul_of_nonneg_left h5 u_pos.le
  have h9 : |lm.pow x' y - x' ^ y| ≤ u * (1.4 * x ^ y) + 0.5 * u * x ^ y :=
    h1.trans (add_le_add h8 (h6.trans h7))
  have : 0 ≤ u * x ^ y := mul_nonneg u_pos.le h2.1
  linarith

/-- `exp` of a negative number. -/
theorem exp_err {lm : Libm} (hl : lm.Acc) {a t' t : ℝ} (h : Rel a t' t) (ha : a ≤ 1 / 2) :
    |lm.exp (-t') - Real.exp (-t)| ≤ (a * t + u) * Real.exp (-(t / 2)) + 2⁻¹ ^ 1074 := by
  have t0 := h.1
  have h1 : t / 2 ≤ t' := le_trans (by linarith [mul_le_mul_of_nonneg_right ha t0]) h.ge
  have h2 := hl.exp (-t') (by linarith)
  have h3 := abs_sub_le (lm.exp (-t')) (Real.exp (-t')) (Real.exp (-t))
  have h4 : Real.exp (-t') ≤ Real.exp (-(t / 2)) := Real.exp_le_exp.2 (by linarith)
  have h5 : |Real.exp (-t') - Real.exp (-t)| ≤ a * t * Real.exp (-(t / 2)) := by
    have key : ∀ {x y : ℝ}, t / 2 ≤ x → x ≤ y → |y - x| ≤ a * t →
        |Real.exp (-x) - Real.exp (-y)| ≤ a * t * Real.exp (-(t / 2)) := by
      intro x y hx hxy hd
      rw [abs_of_nonneg (sub_nonneg.2 hxy)] at hd
      rw [abs_of_nonneg (sub_nonneg.2 (Real.exp_le_exp.2 (by linarith)))]
      have e : Real.exp (-y) = Real.exp (-x) * Real.exp (-(y - x)) := by
        rw [← Real.exp_add]
        congr 1
        ring
      have e2 := Real.add_one_le_exp (-(y - x))
      have e3 : Real.exp (-x) ≤ Real.exp (-(t / 2)) := Real.exp_le_exp.2 (by linarith)
      rw [e]
      have e4 := Real.exp_pos (-x)
      have : Real.exp (-x) - Real.exp (-x) * Real.exp (-(y - x)) ≤ (y - x) * Real.exp (-x) := by nlinarith
      refine this.trans (mul_le_mul hd e3 e4.le ?_)
      linarith
    rcases le_total t' t with h6 | h6
    · exact key h1 h6 (by rw [abs_sub_comm]; exact h.2)
    · rw [abs_sub_comm]
      exact key (by linarith) h6 h.2
  have h6 : (2⁻¹ : ℝ) ^ 52 * Real.exp (-t') ≤ u * Real.exp (-(t / 2)) := mul_le_mul_of_nonneg_left h4 u_pos.le
  have h7 : |lm.exp (-t') - Real.exp (-t')| ≤ u * Real.exp (-(t / 2)) + 2⁻¹ ^ 1074 :=
    h2.trans (add_le_add_left h6 _)
  calc _ ≤ _ := h3
    _ ≤ (u * Real.exp (-(t / 2)) + 2⁻¹ ^ 1074) + a * t * Real.exp (-(t / 2)) := add_le_add h7 h5
    _ = _ := by ring

theorem mul_exp_le (t : ℝ) {n : ℕ} (hn : 0 < n) (ht : 0 ≤ t) :
    t ^ n * Real.exp (-(t / 2)) ≤ (0.75 * n) ^ n := by
  have hn' : (0 : ℝ) < n := by exact_mod_cast hn
  have h1 := Real.add_one_le_exp (t / (2 * n) - 1)
  have h2 : Real.exp (t / (2 * n) - 1) = Real.exp (t / (2 * n)) * Real.exp (-1) := by
    rw [← Real.exp_add, sub_eq_add_neg]
  have h3 : Real.exp (-1) ≤ 3 / 8 := by
    have := Real.exp_one_gt_d9
    rw [Real.exp_neg, inv_le_comm₀ (Real.exp_pos _) (by norm_num)]
    linarith
  have h4 : t ≤ 0.75 * n * Real.exp (t / (2 * n)) := by
    have h5 : t / (2 * n) ≤ Real.exp (t / (2 * n)) * (3 / 8) := by
      have := mul_le_mul_of_nonneg_left h3 (Real.exp_pos (t / (2 * n))).le
      linarith
    rw [div_le_iff₀ (by positivity)] at h5
    linarith
  have h5 := pow_le_pow_left₀ ht h4 n
  rw [mul_pow, ← Real.exp_nat_mul] at h5
  have h6 : (n : ℝ) * (t / (2 * n)) = t / 2 := by field_simp
  rw [h6] at h5
  calc t ^ n * Real.exp (-(t / 2)) ≤ (0.75 * n) ^ n * Real.exp (t / 2) * Real.exp (-(t / 2)) :=
        mul_le_mul_of_nonneg_right h5 (Real.exp_pos _).le
    _ = (0.75 * n) ^ n := by rw [mul_assoc, ← Real.exp_add, add_neg_cancel, Real.exp_zero, mul_one]

theorem tiny : (2⁻¹ : ℝ) ^ 1074 ≤ u := by
  unfold u
  exact pow_le_pow_of_le_one (by norm_num) (by norm_num) (by norm_num)

theorem exp_err1 {lm : Libm} (hl : lm.Acc) {a t' t : ℝ} (h : Rel a t' t) (ha : a ≤ 1 / 2) (ha0 : 0 ≤ a) :
    |lm.exp (-t') - Real.exp (-t)| ≤ a + 2 * u := by
  refine (exp_err hl h ha).trans ?_
  have h1 := mul_exp_le t (n := 1) one_pos h.1
  have h2 : Real.exp (-(t / 2)) ≤ 1 := Real.exp_le_one_iff.2 (by linarith [h.1])
  norm_num at h1
  have := tiny
  have := mul_le_mul_of_nonneg_left h1 ha0
  have := mul_le_mul_of_nonneg_left h2 u_pos.le
  have e : (a * t + u) * Real.exp (-(t / 2)) = a * (t * Real.exp (-(t / 2))) + u * Real.exp (-(t / 2)) := by ring
  rw [e]
  linarith

end Fl

/-- Correlation times polynomial, rounded. -/
theorem matern_err {lm : Libm} (hl : lm.Acc) {a t' t P' P : ℝ} (h : Rel a t' t) (ha0 : 10 * u ≤ a) (ha : a ≤ 1 / 20)
    (hP : Rel (5 * a) P' P) (hP1 : P ≤ 1 + t + 2.0 / 5.0 * t ^ 2 + t ^ 3 / 15.0) (h1 : 1 ≤ P)
    (ht : t ≤ 2 ^ 220) (hle : Real.exp (-t) * P ≤ 1) :
    |lm.exp (-t') *ᶠ P' - Real.exp (-t) * P| ≤ 25 * a := by
  have u0 := u_pos
  have t0 := h.1
  have E0 := Real.exp_pos (-(t / 2))
  have p1 := mul_exp_le t (n := 1) one_pos h.1
  have p2 := mul_exp_le t (n := 2) two_pos h.1
  have p3 := mul_exp_le t (n := 3) three_pos h.1
  have p4 := mul_exp_le t (n := 4) four_pos h.1
  have p0 : Real.exp (-(t / 2)) ≤ 1 := Real.exp_le_one_iff.2 (by linarith)
  set E := Real.exp (-(t / 2)) with hE
  norm_num at p1 p2 p3 p4 hP1
  have q0 : P * E ≤ 4 := by
    have := mul_le_mul_of_nonneg_right hP1 E0.le
    nlinarith
  have q1 : t * P * E ≤ 14 := by
    have := mul_le_mul_of_nonneg_left (mul_le_mul_of_nonneg_right hP1 E0.le) t0
    nlinarith
  have e1 := exp_err hl h (by linarith : a ≤ 1 / 2)
  rw [← hE] at e1
  have P'0 : 0 ≤ P' := hP.nonneg (by linarith)
  have P'1 : P' ≤ 1.25 * P := hP.le.trans (mul_le_mul_of_nonneg_right (by linarith) hP.1)
  have tin : (2⁻¹ : ℝ) ^ 1074 * P ≤ u := by
    have : P ≤ 2 ^ 700 := by
      have g1 : t ^ 2 ≤ (2 ^ 220) ^ 2 := pow_le_pow_left₀ t0 ht 2
      have g2 : t ^ 3 ≤ (2 ^ 220) ^ 3 := pow_le_pow_left₀ t0 ht 3
      refine hP1.trans ?_
      have k1 : ((2 : ℝ) ^ 220) ^ 2 ≤ 2 ^ 690 := by
        rw [← pow_mul]; exact pow_le_pow_right₀ (by norm_num) (by norm_num)
      have k2 : ((2 : ℝ) ^ 220) ^ 3 ≤ 2 ^ 690 := by
        rw [← pow_mul]; exact pow_le_pow_right₀ (by norm_num) (by norm_num)
      have k3 : (2 : ℝ) ^ 220 ≤ 2 ^ 690 := pow_le_pow_right₀ (by norm_num) (by norm_num)
      have k4 : (1 : ℝ) ≤ 2 ^ 690 := one_le_pow₀ (by norm_num)
      have k5 : (2 : ℝ) ^ 700 = 1024 * 2 ^ 690 := by
        rw [show 700 = 10 + 690 by norm_num, pow_add]; norm_num
      have l1 := g1.trans k1
      have l2 := g2.trans k2
      have l3 := ht.trans k3
      rw [k5]
      generalize (2 : ℝ) ^ 690 = B at *
      linarith only [l1, l2, l3, k4]
    refine (mul_le_mul_of_nonneg_left this (by positivity)).trans ?_
    have e : (2 : ℝ) ^ 700 = (2⁻¹ ^ 700)⁻¹ := by rw [inv_pow, inv_inv]
    rw [e, show 1074 = 374 + 700 by norm_num, pow_add, mul_assoc, mul_inv_cancel₀ (by positivity), mul_one]
    unfold u
    exact pow_le_pow_of_le_one (by norm_num) (by norm_num) (by norm_num)
  have main : |lm.exp (-t') * P' - Real.exp (-t) * P| ≤ 24 * a := by
    have e2 : lm.exp (-t') * P' - Real.exp (-t) * P =
        (lm.exp (-t') - Real.exp (-t)) * P' + Real.exp (-t) * (P' - P) := by ring
    have e3 : |(lm.exp (-t') - Real.exp (-t)) * P'| ≤ ((a * t + u) * E + 2⁻¹ ^ 1074) * (1.25 * P) := by
      rw [abs_mul, abs_of_nonneg P'0]
      exact mul_le_mul e1 P'1 P'0 ((abs_nonneg _).trans e1)
    have e4 : |Real.exp (-t) * (P' - P)| ≤ 5 * a := by
      rw [abs_mul, abs_of_pos (Real.exp_pos _)]
      refine (mul_le_mul_of_nonneg_left hP.2 (Real.exp_pos _).le).trans ?_
      nlinarith
    have e5 : ((a * t + u) * E + 2⁻¹ ^ 1074) * (1.25 * P) =
        1.25 * (a * (t * P * E) + u * (P * E) + 2⁻¹ ^ 1074 * P) := by ring
    have e6 : a * (t * P * E) ≤ a * 14 := mul_le_mul_of_nonneg_left q1 (by linarith)
    have e7 : u * (P * E) ≤ u * 4 := mul_le_mul_of_nonneg_left q0 u0.le
    rw [e5] at e3
    rw [e2]
    refine (abs_add_le _ _).trans ((add_le_add e3 e4).trans ?_)
    have : 1.25 * (a * (t * P * E) + u * (P * E) + 2⁻¹ ^ 1074 * P) ≤ 1.25 * (a * 14 + u * 4 + u) :=
      mul_le_mul_of_nonneg_left (add_le_add (add_le_add e6 e7) tin) (by norm_num)
    refine (add_le_add_left this _).trans ?_
    linarith
  have fin := rnd64_abs_err (lm.exp (-t') * P')
  have big : |lm.exp (-t') * P'| ≤ 3 := by
    have := abs_sub_abs_le_abs_sub (lm.exp (-t') * P') (Real.exp (-t) * P)
    rw [abs_of_nonneg (mul_nonneg (Real.exp_pos (-t)).le hP.1)] at this
    linarith
  have t75 : (2⁻¹ : ℝ) ^ 1075 ≤ 2⁻¹ ^ 60 := pow_le_pow_of_le_one (by norm_num) (by norm_num) (by norm_num)
  have fin2 : |rnd64 (lm.exp (-t') * P') - lm.exp (-t') * P'| ≤ 2 * u := by
    refine fin.trans ((add_le_add (mul_le_mul_of_nonneg_right big (by positivity)) t75).trans ?_)
    rw [u_eq]
    norm_num
  have := abs_sub_le (rnd64 (lm.exp (-t') * P')) (lm.exp (-t') * P') (Real.exp (-t) * P)
  unfold Fl.mul
  linarith

/-- Power of one half. -/
theorem half_anti {n m : ℕ} (h : n ≤ m) : (2⁻¹ : ℝ) ^ m ≤ 2⁻¹ ^ n :=
  pow_le_pow_of_le_one (by norm_num) (by norm_num) h

theorem rel_lit {b D' D c : ℝ} (h : Rel b D' D) (hb0 : 100 * u ≤ b) (hb : b ≤ 1 / 40) (hD : 2⁻¹ ^ 220 ≤ D)
    (hc : 1 ≤ c) : Rel (1.05 * b) (rnd64 c *ᶠ D') (c * D) := by
  have u0 := u_pos
  have D0 : 0 < D := lt_of_lt_of_le (by positivity) hD
  have hc9 : (2⁻¹ : ℝ) ^ 900 ≤ c := le_trans (pow_le_one₀ (by norm_num) (by norm_num)) hc
  have hD9 : (2⁻¹ : ℝ) ^ 900 ≤ D := (half_anti (by norm_num)).trans hD
  refine ((Rel.lit hc9).rmul h u0.le (by nlinarith) (hD9.trans (le_mul_of_one_le_left D0.le hc))).mono ?_
  nlinarith

theorem corr1DFl_matern32 {lm : Libm} (hl : lm.Acc) {p b D' D : ℝ} (h : Rel b D' D) (hb0 : 100 * u ≤ b)
    (hb : b ≤ 1 / 40) (hD : 2⁻¹ ^ 220 ≤ D) (hD' : D ≤ 2 ^ 210) :
    |corr1DFl lm .matern32 p D' - corr1D .matern32 p D| ≤ 29 * b := by
  have u0 := u_pos
  have b0 : 0 < b := by linarith
  have D0 : 0 < D := lt_of_lt_of_le (by positivity) hD
  have one_rel : ∀ a : ℝ, 0 ≤ a → Rel a 1.0 1.0 := fun a ha => (Rel.refl (by norm_num)).mono ha
  have one9 : (2⁻¹ : ℝ) ^ 900 ≤ 1 := pow_le_one₀ (by norm_num) (by norm_num)
  have le1 := corr1D_le_one (t := .matern32) (p := p) D0.le
  simp only [corr1DFl, corr1D] at le1 ⊢
  have r := rel_lit h hb0 hb hD (c := 4.744) (by norm_num)
  have t0 := r.1
  refine (matern_err hl r (by linarith) (by linarith) ?_ ?_ ?_ ?_ le1).trans (by linarith)
  · refine ((one_rel _ (by linarith)).radd r (by linarith) ?_).mono (by linarith)
    exact one9.trans (by linarith)
  · nlinarith [pow_nonneg t0 3, pow_nonneg t0 2]
  · linarith
  · have : (2 : ℝ) ^ 220 = 1024 * 2 ^ 210 := by norm_num
    linarith


theorem corr1DFl_matern52 {lm : Libm} (hl : lm.Acc) {p b D' D : ℝ} (h : Rel b D' D) (hb0 : 100 * u ≤ b)
    (hb : b ≤ 1 / 40) (hD : 2⁻¹ ^ 220 ≤ D) (hD' : D ≤ 2 ^ 210) :
    |corr1DFl lm .matern52 p D' - corr1D .matern52 p D| ≤ 29 * b := by
  have u0 := u_pos
  have b0 : 0 < b := by linarith
  have D0 : 0 < D := lt_of_lt_of_le (by positivity) hD
  have one_rel : ∀ a : ℝ, 0 ≤ a → Rel a 1.0 1.0 := fun a ha => (Rel.refl (by norm_num)).mono ha
  have one9 : (2⁻¹ : ℝ) ^ 900 ≤ 1 := pow_le_one₀ (by norm_num) (by norm_num)
  have le1 := corr1D_le_one (t := .matern52) (p := p) D0.le
  simp only [corr1DFl, corr1D] at le1 ⊢
  have r := rel_lit h hb0 hb hD (c := 5.918) (by norm_num)
  have t0 := r.1
  have t9 : (2⁻¹ : ℝ) ^ 220 ≤ 5.918 * D := hD.trans (by linarith)
  have up : 5.918 * D ≤ 2 ^ 220 := by
    have : (2 : ℝ) ^ 220 = 1024 * 2 ^ 210 := by norm_num
    linarith
  generalize 5.918 * D = s at *
  have h9 : (2⁻¹ : ℝ) ^ 890 ≤ s * s := by
    have : (2⁻¹ : ℝ) ^ 220 * 2⁻¹ ^ 220 ≤ s * s := mul_le_mul t9 t9 (by positivity) t0
    rw [← pow_add] at this
    exact (half_anti (by norm_num)).trans this
  have h9' : (2⁻¹ : ℝ) ^ 900 ≤ s * s / 3.0 := by
    rw [le_div_iff₀ (by norm_num)]
    refine le_trans ?_ h9
    rw [show 900 = 890 + 10 by norm_num, pow_add, mul_assoc]
    exact mul_le_of_le_one_right (by positivity) (by norm_num)
  have ss := mul_self_nonneg s
  have r1 := (r.rmul r (by linarith) (by nlinarith) ((half_anti (by norm_num)).trans h9)).mono
    (b := 2.3 * b) (by nlinarith)
  have r2 := (r1.rdiv (c := 3.0) (by linarith) (by norm_num) h9').mono (b := 2.4 * b) (by linarith)
  have r0 := ((one_rel _ (by linarith)).radd r (by linarith) (one9.trans (by linarith))).mono (b := 2.4 * b) (by linarith)
  refine (matern_err hl r (by linarith) (by linarith) ?_ ?_ ?_ ?_ le1).trans (by linarith)
  · refine (r0.radd r2 (by linarith) ?_).mono (by linarith)
    have := r2.1
    exact one9.trans (by linarith)
  · norm_num
    nlinarith [pow_nonneg t0 3, pow_nonneg t0 2]
  · have := r2.1
    linarith
  · exact up


theorem corr1DFl_matern72 {lm : Libm} (hl : lm.Acc) {p b D' D : ℝ} (h : Rel b D' D) (hb0 : 100 * u ≤ b)
    (hb : b ≤ 1 / 40) (hD : 2⁻¹ ^ 220 ≤ D) (hD' : D ≤ 2 ^ 210) :
    |corr1DFl lm .matern72 p D' - corr1D .matern72 p D| ≤ 29 * b := by
  have u0 := u_pos
  have b0 : 0 < b := by linarith
  have D0 : 0 < D := lt_of_lt_of_le (by positivity) hD
  have one_rel : ∀ a : ℝ, 0 ≤ a → Rel a 1.0 1.0 := fun a ha => (Rel.refl (by norm_num)).mono ha
  have one9 : (2⁻¹ : ℝ) ^ 900 ≤ 1 := pow_le_one₀ (by norm_num) (by norm_num)
  have le1 := corr1D_le_one (t := .matern72) (p := p) D0.le
  simp only [corr1DFl, corr1D] at le1 ⊢
  have r := rel_lit h hb0 hb hD (c := 6.877) (by norm_num)
  have t0 := r.1
  have t9 : (2⁻¹ : ℝ) ^ 220 ≤ 6.877 * D := hD.trans (by linarith)
  have up : 6.877 * D ≤ 2 ^ 220 := by
    have : (2 : ℝ) ^ 220 = 1024 * 2 ^ 210 := by norm_num
    linarith
  generalize 6.877 * D = s at *
  have g2 : s ^ (2 : ℝ) = s ^ 2 := Real.rpow_two s
  have g3 : s ^ (3 : ℝ) = s ^ 3 := by
    rw [show (3 : ℝ) = ((3 : ℕ) : ℝ) by norm_num, Real.rpow_natCast]
  have k2 : (2⁻¹ : ℝ) ^ 800 ≤ s ^ 2 := by
    refine le_trans ?_ (pow_le_pow_left₀ (by positivity) t9 2)
    rw [← pow_mul]
    exact half_anti (by norm_num)
  have k3 : (2⁻¹ : ℝ) ^ 800 ≤ s ^ 3 := by
    refine le_trans ?_ (pow_le_pow_left₀ (by positivity) t9 3)
    rw [← pow_mul]
    exact half_anti (by norm_num)
  have e9 : (2⁻¹ : ℝ) ^ 900 ≤ 2⁻¹ ^ 800 / 16 := by
    rw [le_div_iff₀ (by norm_num), show 900 = 800 + 100 by norm_num, pow_add]
    have : (0 : ℝ) < 2⁻¹ ^ 800 := by positivity
    have e : (2⁻¹ : ℝ) ^ 100 * 16 ≤ 1 := by norm_num
    rw [mul_assoc]
    exact mul_le_of_le_one_right this.le e
  have n2 := sq_nonneg s
  have n3 := pow_nonneg t0 3
  have r2 := r.lpow hl (y := 2) (by linarith) (by linarith) (by norm_num) (by norm_num)
    (by rw [g2]; exact (half_anti (by norm_num)).trans k2)
  have r3 := r.lpow hl (y := 3) (by linarith) (by linarith) (by norm_num) (by norm_num)
    (by rw [g3]; exact (half_anti (by norm_num)).trans k3)
  rw [g2] at r2
  rw [g3] at r3
  have l25 : Rel u (2.0 /ᶠ 5.0) (2.0 / 5.0) := Rel.lit (by
    refine (half_anti (n := 2) (by norm_num)).trans ?_
    norm_num)
  have w2 := (l25.rmul r2 u0.le (by nlinarith) (by
    refine e9.trans ((div_le_div_of_nonneg_right k2 (by norm_num)).trans ?_)
    norm_num
    linarith)).mono (b := 4.4 * b) (by nlinarith)
  have w3 := (r3.rdiv (c := 15.0) (by linarith) (by norm_num) (by
    refine e9.trans ((div_le_div_of_nonneg_right k3 (by norm_num)).trans ?_)
    norm_num
    linarith)).mono (b := 4.5 * b) (by nlinarith)
  have w0 := ((one_rel _ (by linarith)).radd r (by linarith) (one9.trans (by linarith))).mono (b := 4.4 * b) (by linarith)
  have w1 := (w0.radd w2 (by linarith) (one9.trans (by have := w2.1; linarith))).mono (b := 4.5 * b) (by linarith)
  refine (matern_err hl r (by linarith) (by linarith) ?_ ?_ ?_ ?_ le1).trans (by linarith)
  · refine (w1.radd w3 (by linarith) ?_).mono (by linarith)
    have := w2.1
    have := w3.1
    exact one9.trans (by linarith)
  · norm_num
  · have := w2.1
    have := w3.1
    linarith
  · exact up


theorem corr1DFl_spherical {lm : Libm} {p b D' D : ℝ} (h : Rel b D' D) (hb0 : 100 * u ≤ b)
    (hb : b ≤ 1 / 40) (hD : 2⁻¹ ^ 220 ≤ D) :
    |corr1DFl lm .spherical p D' - corr1D .spherical p D| ≤ 29 * b := by
  have u0 := u_pos
  have b0 : 0 < b := by linarith
  have D'0 : 0 ≤ D' := h.nonneg (by linarith)
  have D0 : 0 < D := lt_of_lt_of_le (by positivity) hD
  simp only [corr1DFl, corr1D]
  have rnd1 : D' < 1.0 → |(1.0 -ᶠ D' *ᶠ (1.5 -ᶠ (0.5 *ᶠ D' *ᶠ D'))) -
      (1.0 - D' * (1.5 - (0.5 * D' * D')))| ≤ 60 * u := by
    intro hD1
    have one : (2⁻¹ : ℝ) ^ 1000 ≤ 1 := pow_le_one₀ (by norm_num) (by norm_num)
    have a1 : App 1 0 D' D' := App.exact (by rw [abs_of_nonneg D'0]; norm_num at hD1; exact hD1.le)
    have a2 : App 1 0 (0.5 : ℝ) 0.5 := App.exact (by rw [abs_of_pos (by norm_num)]; norm_num)
    have a3 : App 2 0 (1.5 : ℝ) 1.5 := App.exact (by rw [abs_of_pos (by norm_num)]; norm_num)
    have a4 : App 1 0 (1.0 : ℝ) 1.0 := App.exact (by rw [abs_of_pos (by norm_num)]; norm_num)
    have a5 := App.sub 4 a3 ((a2.mul1 a1 one).mul1 a1 one) (one.trans (by norm_num))
    have a6 := App.sub 7 a4 (a1.mul1 a5 (one.trans (by norm_num))) one
    refine a6.2.trans ?_
    push_cast
    linarith only [u0]
  have exact1 : ∀ x : ℝ, 0 ≤ x → x < 1.0 → 0 ≤ 1.0 - x * (1.5 - (0.5 * x * x)) ∧
      1.0 - x * (1.5 - (0.5 * x * x)) ≤ 1.5 * (1 - x) := by
    intro x x0 x1
    norm_num at x1 ⊢
    have := mul_nonneg x0 (sub_nonneg.2 x1.le)
    constructor
    · nlinarith [mul_nonneg (sq_nonneg (1 - x)) (by linarith : 0 ≤ x + 2)]
    · nlinarith [mul_nonneg this x0]
  have hd := abs_le.1 h.2
  by_cases h1 : D < 1.0 <;> by_cases h2 : D' < 1.0
  · rw [if_pos h1, if_pos h2]
    have e1 := rnd1 h2
    norm_num at h1 h2
    have e2 : |(1.0 - D' * (1.5 - (0.5 * D' * D'))) - (1.0 - D * (1.5 - (0.5 * D * D)))| ≤ 1.5 * |D' - D| := by
      have e3 : (1.0 - D' * (1.5 - (0.5 * D' * D'))) - (1.0 - D * (1.5 - (0.5 * D * D))) =
          (D' - D) * (0.5 * (D' ^ 2 + D' * D + D ^ 2) - 1.5) := by
        norm_num
        ring
      rw [e3, abs_mul, mul_comm]
      refine mul_le_mul_of_nonneg_right ?_ (abs_nonneg _)
      rw [abs_le]
      have m1 := mul_nonneg D'0 D0.le
      have m2 := mul_le_mul h2.le h1.le D0.le zero_le_one
      constructor <;> nlinarith [sq_nonneg D, sq_nonneg D']
    have e4 : b * D ≤ b := by nlinarith
    have := abs_sub_le (1.0 -ᶠ D' *ᶠ (1.5 -ᶠ (0.5 *ᶠ D' *ᶠ D'))) (1.0 - D' * (1.5 - (0.5 * D' * D')))
      (1.0 - D * (1.5 - (0.5 * D * D)))
    have := h.2
    linarith
  · rw [if_pos h1, if_neg h2]
    have e1 := exact1 D D0.le h1
    norm_num at h1 h2
    have e4 : b * D ≤ b := by nlinarith
    rw [abs_sub_comm, show (0.0 : ℝ) = 0 by norm_num, sub_zero, abs_of_nonneg e1.1]
    linarith
  · rw [if_neg h1, if_pos h2]
    have e1 := exact1 D' D'0 h2
    have e2 := rnd1 h2
    norm_num at h1 h2
    have e5 : D ≤ 2 := by nlinarith
    have e4 : b * D ≤ b * 2 := by nlinarith
    rw [show (0.0 : ℝ) = 0 by norm_num, sub_zero]
    have := abs_sub_abs_le_abs_sub (1.0 -ᶠ D' *ᶠ (1.5 -ᶠ (0.5 *ᶠ D' *ᶠ D')))
      (1.0 - D' * (1.5 - (0.5 * D' * D')))
    rw [abs_of_nonneg e1.1] at this
    linarith
  · rw [if_neg h1, if_neg h2, sub_self, abs_zero]
    linarith

theorem corr1DFl_err {lm : Libm} (hl : lm.Acc) {t : VType} {p b D' D : ℝ} (h : Rel b D' D) (hb0 : 100 * u ≤ b)
    (hb : b ≤ 1 / 40) (hD : 2⁻¹ ^ 220 ≤ D) (hD' : D ≤ 2 ^ 210) (hp : t = .generalExponential → 0 < p ∧ p ≤ 2) :
    |corr1DFl lm t p D' - corr1D t p D| ≤ 29 * b := by
  have u0 := u_pos
  have b0 : 0 < b := by linarith
  have D'0 : 0 ≤ D' := h.nonneg (by linarith)
  have D0 : 0 < D := lt_of_lt_of_le (by positivity) hD
  have bb : b * b ≤ 1 / 40 * b := mul_le_mul_of_nonneg_right hb b0.le
  have r3 : rnd64 3 = 3 := by
    have := rnd64_nat (n := 3) (by norm_num)
    simpa using this
  have rel3 : Rel (1.05 * b) (3 *ᶠ D') (3 * D) := by
    have := rel_lit h hb0 hb hD (c := 3) (by norm_num)
    rwa [r3] at this
  have neg3 : ∀ y : ℝ, -3.0 *ᶠ y = -(3 *ᶠ y) := by
    intro y
    unfold Fl.mul
    rw [← rnd64_neg]
    congr 1
    norm_num
  cases t with
  | constant =>
    simp only [corr1DFl, corr1D, sub_self, abs_zero]
    linarith
  | exponential =>
    simp only [corr1DFl, corr1D]
    rw [neg3, show -3.0 * D = -(3 * D) by norm_num]
    refine (exp_err1 hl rel3 (by linarith) (by linarith)).trans ?_
    linarith
  | gaussian =>
    simp only [corr1DFl, corr1D]
    have e : -3.0 *ᶠ D' *ᶠ D' = -(3 *ᶠ D' *ᶠ D') := by
      rw [neg3]
      unfold Fl.mul
      rw [neg_mul, rnd64_neg]
    rw [e, show -3.0 * D * D = -(3 * D * D) by norm_num]
    have h9 : (2⁻¹ : ℝ) ^ 900 ≤ 3 * D * D := by
      have : (2⁻¹ : ℝ) ^ 220 * 2⁻¹ ^ 220 ≤ D * D := mul_le_mul hD hD (by positivity) D0.le
      rw [← pow_add] at this
      exact (half_anti (by norm_num)).trans (this.trans (by nlinarith only [mul_pos D0 D0]))
    have r := (rel3.rmul h (by linarith only [b0]) (by linarith only [bb, hb]) h9).mono (b := 3 * b)
      (by linarith only [bb, hb0, b0])
    refine (exp_err1 hl r (by linarith only [hb]) (by linarith only [b0])).trans ?_
    linarith only [hb0, b0]
  | generalExponential =>
    obtain ⟨p0, p2⟩ := hp rfl
    simp only [corr1DFl, corr1D]
    rw [if_neg (by intro h; linarith [h.2]), if_neg (by intro h; linarith [h.2]), neg3,
      show -3.0 * D ^ p = -(3 * D ^ p) by norm_num]
    have h9 : (2⁻¹ : ℝ) ^ 800 ≤ D ^ p := by
      rcases le_total D 1 with hD1 | hD1
      · refine le_trans ?_ (Real.rpow_le_rpow_of_exponent_ge D0 hD1 p2)
        rw [Real.rpow_two]
        refine le_trans ?_ (pow_le_pow_left₀ (by positivity) hD 2)
        rw [← pow_mul]
        exact half_anti (by norm_num)
      · exact le_trans (pow_le_one₀ (by norm_num) (by norm_num)) (Real.one_le_rpow hD1 p0.le)
    have h9' := (half_anti (m := 900) (by norm_num)).trans h9
    have r1 := h.lpow hl b0.le (by linarith only [hb]) p0.le (by linarith only [p2]) h9'
    have r3' : Rel 0 3 3 := Rel.refl (by norm_num)
    have r2 := (r3'.rmul r1 le_rfl (by linarith only [hb, hb0, b0]) (h9'.trans (by linarith only [show 0 ≤ D ^ p from r1.1]))).mono
      (b := 5 * b) (by linarith only [hb0, b0])
    refine (exp_err1 hl r2 (by linarith only [hb]) (by linarith only [b0])).trans ?_
    linarith only [hb0, b0]
  | spherical =>
    exact corr1DFl_spherical h hb0 hb hD
  | matern32 => exact corr1DFl_matern32 hl h hb0 hb hD hD'
  | matern52 => exact corr1DFl_matern52 hl h hb0 hb hD hD'
  | matern72 => exact corr1DFl_matern72 hl h hb0 hb hD hD'

end Verif
