import Verif.Lemmas.Distr
import Mathlib.Analysis.Calculus.Deriv.Pow
import Mathlib.Analysis.Calculus.Deriv.Mul
import Mathlib.Analysis.SpecialFunctions.Pow.Deriv
import Mathlib.Tactic.Linarith
import Mathlib.Tactic.FieldSimp
import Mathlib.Tactic.Positivity

/-! Helper lemmas: the continuous distributions. -/

namespace Verif.Distr

open Spec MeasureTheory ProbabilityTheory Set Filter Topology

theorem fdiv_ok {x y : ℝ} (h : y ≠ 0) : fdiv x y = .ok (x / y) := if_neg h

theorem fsqrt_ok {x : ℝ} (h : 0 ≤ x) : fsqrt x = .ok √x := if_neg (not_lt.2 h)

theorem fpow_ok {x : ℝ} (h : 0 < x) (y : ℝ) : fpow x y = .ok (x ^ y) := by
  unfold fpow
  rw [if_neg (fun h' => absurd h'.1 (not_lt.2 h.le)), if_neg (fun h' => absurd h'.1 h.ne')]

theorem lit : (0.0 : ℝ) = 0 ∧ (1.0 : ℝ) = 1 ∧ (2.0 : ℝ) = 2 ∧ (0.5 : ℝ) = 1 / 2 ∧ (-1.0 : ℝ) = -1 := by
  norm_num

/-! ### Derivatives of functions given piecewise -/

theorem deriv_below {F G : ℝ → ℝ} {a x g : ℝ} (hx : x < a) (h : ∀ y < a, F y = G y)
    (hG : HasDerivAt G g x) : HasDerivAt F g x :=
  hG.congr_of_eventuallyEq <| by
    filter_upwards [Iio_mem_nhds hx] with y hy
    exact h y hy

theorem deriv_above {F G : ℝ → ℝ} {a x g : ℝ} (hx : a < x) (h : ∀ y, a < y → F y = G y)
    (hG : HasDerivAt G g x) : HasDerivAt F g x :=
  hG.congr_of_eventuallyEq <| by
    filter_upwards [Ioi_mem_nhds hx] with y hy
    exact h y hy

theorem deriv_between {F G : ℝ → ℝ} {a b x g : ℝ} (ha : a < x) (hb : x < b)
    (h : ∀ y, a < y → y < b → F y = G y) (hG : HasDerivAt G g x) : HasDerivAt F g x :=
  hG.congr_of_eventuallyEq <| by
    filter_upwards [Ioo_mem_nhds ha hb] with y hy
    exact h y hy.1 hy.2

/-! ### Uniform -/

section Unif

variable {a b : ℝ} (hab : a < b)
include hab

noncomputable def uF (a b x : ℝ) : ℝ := max 0 (min 1 ((x - a) / (b - a)))

noncomputable def uf (a b x : ℝ) : ℝ := if a ≤ x ∧ x ≤ b then 1 / (b - a) else 0

theorem uF_low {x : ℝ} (h : x ≤ a) : uF a b x = 0 := by
  have : (x - a) / (b - a) ≤ 0 := div_nonpos_of_nonpos_of_nonneg (by linarith) (by linarith)
  rw [uF, min_eq_right (by linarith), max_eq_left this]

theorem uF_high {x : ℝ} (h : b ≤ x) : uF a b x = 1 := by
  have : 1 ≤ (x - a) / (b - a) := (one_le_div (by linarith)).2 (by linarith)
  rw [uF, min_eq_left this, max_eq_right zero_le_one]

theorem uF_mid {x : ℝ} (h : a ≤ x) (h' : x ≤ b) : uF a b x = (x - a) / (b - a) := by
  have h1 : 0 ≤ (x - a) / (b - a) := div_nonneg (by linarith) (by linarith)
  have h2 : (x - a) / (b - a) ≤ 1 := (div_le_one (by linarith)).2 (by linarith)
  rw [uF, min_eq_right h2, max_eq_right h1]

theorem uniform_galois {p x : ℝ} (h0 : 0 < p) (h1 : p ≤ 1) : a + p * (b - a) ≤ x ↔ p ≤ uF a b x := by
  have hb : 0 < b - a := by linarith
  rw [uF, le_max_iff, le_min_iff, le_div_iff₀ hb]
  constructor
  · intro h
    exact Or.inr ⟨h1, by linarith⟩
  · rintro (h | h)
    · linarith
    · linarith [h.2]

theorem uniform_describes (d : Uniform) (h1 : d.minVal = a) (h2 : d.maxVal = b) :
    Describes (unif.map fun p => a + p * (b - a)) (drawQuantile d.quantile) d.pdf d.cdf d.quantile := by
  have hb : b - a ≠ 0 := by intro h; linarith
  have hq : Measurable fun p : ℝ => a + p * (b - a) := by fun_prop
  have hqu : ∀ p, d.quantile p = .ok (a + p * (b - a)) := fun p => by rw [Uniform.quantile, h1, h2]
  have hF0 : ∀ x, 0 ≤ uF a b x := fun x => le_max_left _ _
  have hF1 : ∀ x, uF a b x ≤ 1 := fun x => max_le zero_le_one (min_le_left _ _)
  have hg : ∀ p x, 0 < p → p ≤ 1 → (a + p * (b - a) ≤ x ↔ p ≤ uF a b x) :=
    fun p x h0 h1 => uniform_galois hab h0 h1
  refine ⟨Measure.isProbabilityMeasure_map hq.aemeasurable,
    drawQuantile_law hq fun u _ _ => hqu u, ?_, cdfOf hq hF0 hF1 hg fun x => ?_,
    quantileOf hq hF0 hF1 hg fun p _ _ => hqu p⟩
  · refine densityOf (f := uf a b) hq hF1 hg (fun x => ?_) (a := a) (S := {a, b})
      (Set.toFinite _).countable (by unfold uF; fun_prop) (fun x hx => uF_low hab hx) (fun x hx => ?_)
      ?_ (fun x => ?_) (fun x hx => ?_) (C := 1 / (b - a)) (fun x => ?_)
    · unfold Uniform.pdf uf
      rw [h1, h2, fdiv_ok hb, lit.1, lit.2.1]
      by_cases h : a ≤ x ∧ x ≤ b
      · rw [if_pos h, if_pos h]
      · rw [if_neg h, if_neg h]
    · simp only [mem_insert_iff, mem_singleton_iff, not_or] at hx
      unfold uf
      rcases lt_or_gt_of_ne hx.1 with h | h
      · rw [if_neg (fun h' => absurd h'.1 (not_le.2 h))]
        exact deriv_below h (fun y hy => uF_low hab hy.le) (hasDerivAt_const _ _)
      rcases lt_or_gt_of_ne hx.2 with h' | h'
      · rw [if_pos ⟨h.le, h'.le⟩]
        refine deriv_between h h' (fun y h1 h2 => uF_mid hab h1.le h2.le) ?_
        exact ((hasDerivAt_id x).sub_const a).div_const (b - a)
      · rw [if_neg (fun h'' => absurd h''.2 (not_le.2 h'))]
        exact deriv_above h' (fun y hy => uF_high hab (le_of_lt hy)) (hasDerivAt_const _ _)
    · unfold uf
      exact Measurable.ite (measurableSet_Icc) measurable_const measurable_const
    · unfold uf
      have : 0 ≤ 1 / (b - a) := by have : 0 < b - a := by linarith
                                   positivity
      split_ifs <;> linarith
    · exact if_neg (fun h' => absurd h'.1 (not_le.2 hx))
    · unfold uf
      have : 0 ≤ 1 / (b - a) := by have : 0 < b - a := by linarith
                                   positivity
      split_ifs <;> linarith
  · unfold Uniform.cdf
    rw [h1, h2, lit.1, lit.2.1]
    by_cases h : x ≥ a
    · rw [if_pos h]
      by_cases h' : x < b
      · rw [if_pos h', fdiv_ok hb, uF_mid hab h h'.le]
      · rw [if_neg h', uF_high hab (not_lt.1 h')]
    · rw [if_neg h, uF_low hab (not_le.1 h).le]

end Unif

/-! ### Triangular -/

section Tri

variable {a m b : ℝ} (hab : a < b)

noncomputable def tF (a m b x : ℝ) : ℝ :=
  (min (max x a) m - a) ^ 2 / ((m - a) * (b - a))
    + ((b - m) ^ 2 - (b - max (min x b) m) ^ 2) / ((b - m) * (b - a))

noncomputable def tf (a m b x : ℝ) : ℝ :=
  if x < a ∨ b < x then 0
  else if x = a then if m = a then 2 / (b - a) else 0
  else if x = b then if m = b then 2 / (b - a) else 0
  else if x ≤ m then 2 * (x - a) / ((m - a) * (b - a))
  else 2 * (b - x) / ((b - m) * (b - a))

noncomputable def tq (a m b p : ℝ) : ℝ :=
  if p ≤ (m - a) / (b - a) then √((b - a) * (m - a) * p) + a else b - √((b - a) * (b - m) * (1 - p))

theorem tF_zero {x : ℝ} (ham : a ≤ m) (hmb : m ≤ b) (h : x ≤ a) : tF a m b x = 0 := by
  unfold tF
  rw [max_eq_right h, min_eq_left ham, min_eq_left (h.trans (ham.trans hmb)), max_eq_right (h.trans ham)]
  simp

theorem tF_left {x : ℝ} (hmb : m ≤ b) (h : a ≤ x) (h' : x ≤ m) :
    tF a m b x = (x - a) ^ 2 / ((m - a) * (b - a)) := by
  unfold tF
  rw [max_eq_left h, min_eq_left h', min_eq_left (h'.trans hmb), max_eq_right h']
  simp

include hab in
theorem left_total : (m - a) ^ 2 / ((m - a) * (b - a)) = (m - a) / (b - a) := by
  have hb : b - a ≠ 0 := by intro h; linarith
  rcases eq_or_ne m a with rfl | hm
  · simp
  · have : m - a ≠ 0 := sub_ne_zero.2 hm
    field_simp

include hab in
theorem right_total : (b - m) ^ 2 / ((b - m) * (b - a)) = (b - m) / (b - a) := by
  have hb : b - a ≠ 0 := by intro h; linarith
  rcases eq_or_ne b m with rfl | hm
  · simp
  · have : b - m ≠ 0 := sub_ne_zero.2 hm
    field_simp

include hab in
theorem tF_right {x : ℝ} (ham : a ≤ m) (h : m ≤ x) (h' : x ≤ b) :
    tF a m b x = 1 - (b - x) ^ 2 / ((b - m) * (b - a)) := by
  have hb : b - a ≠ 0 := by intro h; linarith
  unfold tF
  rw [max_eq_left (ham.trans h), min_eq_right h, min_eq_left h', max_eq_left h, left_total hab,
    sub_div ((b - m) ^ 2), right_total hab]
  have : (m - a) / (b - a) + (b - m) / (b - a) = 1 := by
    rw [← add_div, div_eq_one_iff_eq hb]; ring
  linarith

include hab in
theorem tF_one {x : ℝ} (ham : a ≤ m) (hmb : m ≤ b) (h : b ≤ x) : tF a m b x = 1 := by
  have e : tF a m b x = tF a m b b := by
    unfold tF
    rw [max_eq_left (by linarith), max_eq_left hab.le, min_eq_right (hmb.trans h), min_eq_right hmb,
      min_eq_right h, min_self]
  rw [e, tF_right hab ham hmb le_rfl]
  simp

include hab in
theorem tF_mono (ham : a ≤ m) (hmb : m ≤ b) : Monotone (tF a m b) := by
  intro x y hxy
  unfold tF
  have h1 : 0 ≤ (m - a) * (b - a) := mul_nonneg (by linarith) (by linarith)
  have h2 : 0 ≤ (b - m) * (b - a) := mul_nonneg (by linarith) (by linarith)
  refine add_le_add (div_le_div_of_nonneg_right ?_ h1) (div_le_div_of_nonneg_right ?_ h2)
  · have : a ≤ min (max x a) m := le_min (le_max_right _ _) ham
    refine pow_le_pow_left₀ (by linarith) ?_ 2
    have : min (max x a) m ≤ min (max y a) m := min_le_min_right _ (max_le_max_right _ hxy)
    linarith
  · have h3 : max (min y b) m ≤ b := max_le (min_le_right _ _) hmb
    have h4 : max (min x b) m ≤ max (min y b) m := max_le_max_right _ (min_le_min_right _ hxy)
    have : (b - max (min y b) m) ^ 2 ≤ (b - max (min x b) m) ^ 2 :=
      pow_le_pow_left₀ (by linarith) (by linarith) 2
    linarith

include hab in
theorem tri_galois (ham : a ≤ m) (hmb : m ≤ b) {p x : ℝ} (h0 : 0 < p) (h1 : p ≤ 1) :
    tq a m b p ≤ x ↔ p ≤ tF a m b x := by
  have hb : 0 < b - a := by linarith
  have hmono := tF_mono hab ham hmb
  have hFm : tF a m b m = (m - a) / (b - a) := by rw [tF_left hmb ham le_rfl, left_total hab]
  unfold tq
  by_cases hp : p ≤ (m - a) / (b - a)
  · rw [if_pos hp]
    have hma : 0 < m - a := by
      rcases ham.eq_or_lt with rfl | h
      · simp at hp; linarith
      · linarith
    have hc : 0 < (m - a) * (b - a) := mul_pos hma hb
    rcases le_or_gt x a with hx | hx
    · rw [tF_zero ham hmb hx]
      have : 0 < √((b - a) * (m - a) * p) := Real.sqrt_pos.2 (by positivity)
      constructor <;> intro h <;> linarith
    rcases le_or_gt x m with hxm | hxm
    · rw [tF_left hmb hx.le hxm, le_div_iff₀ hc,
        show √((b - a) * (m - a) * p) + a ≤ x ↔ √((b - a) * (m - a) * p) ≤ x - a by
          constructor <;> intro h <;> linarith, Real.sqrt_le_left (by linarith)]
      constructor <;> intro h <;> linarith
    · refine iff_of_true ?_ ?_
      · have : √((b - a) * (m - a) * p) ≤ m - a := by
          rw [Real.sqrt_le_left hma.le]
          rw [le_div_iff₀ hb] at hp
          nlinarith
        linarith
      · exact (hp.trans hFm.symm.le).trans (hmono hxm.le)
  · rw [if_neg hp]
    push Not at hp
    have hbm : 0 < b - m := by
      rcases hmb.eq_or_lt with rfl | h
      · rw [div_self hb.ne'] at hp; linarith
      · linarith
    have hd : 0 < (b - m) * (b - a) := mul_pos hbm hb
    rcases le_or_gt b x with hx | hx
    · rw [tF_one hab ham hmb hx]
      have : 0 ≤ √((b - a) * (b - m) * (1 - p)) := Real.sqrt_nonneg _
      constructor <;> intro h <;> linarith
    rcases le_or_gt x m with hxm | hxm
    · refine iff_of_false ?_ ?_
      · rw [not_le]
        have : √((b - a) * (b - m) * (1 - p)) < b - m := by
          rw [Real.sqrt_lt' hbm]
          rw [div_lt_iff₀ hb] at hp
          nlinarith
        linarith
      · rw [not_le]
        exact lt_of_le_of_lt ((hmono hxm).trans hFm.le) hp
    · rw [tF_right hab ham hxm.le hx.le,
        show b - √((b - a) * (b - m) * (1 - p)) ≤ x ↔ b - x ≤ √((b - a) * (b - m) * (1 - p)) by
          constructor <;> intro h <;> linarith, Real.le_sqrt' (by linarith),
        show p ≤ 1 - (b - x) ^ 2 / ((b - m) * (b - a)) ↔ (b - x) ^ 2 / ((b - m) * (b - a)) ≤ 1 - p by
          constructor <;> intro h <;> linarith, div_le_iff₀ hd]
      constructor <;> intro h <;> linarith

include hab in
theorem tf_nonneg (ham : a ≤ m) (hmb : m ≤ b) (x : ℝ) : 0 ≤ tf a m b x := by
  have hb : 0 < b - a := by linarith
  unfold tf
  split_ifs with h1 h2 h3 h4 h5 h6
  · exact le_rfl
  · positivity
  · exact le_rfl
  · positivity
  · exact le_rfl
  · push Not at h1
    exact div_nonneg (by linarith) (mul_nonneg (by linarith) hb.le)
  · push Not at h1
    exact div_nonneg (by linarith) (mul_nonneg (by linarith) hb.le)

include hab in
theorem tf_le (x : ℝ) : tf a m b x ≤ 2 / (b - a) := by
  have hb : 0 < b - a := by linarith
  have h2b : 0 ≤ 2 / (b - a) := by positivity
  unfold tf
  split_ifs with h1 h2 h3 h4 h5 h6
  · exact h2b
  · exact le_rfl
  · exact h2b
  · exact le_rfl
  · exact h2b
  · push Not at h1
    have hxa : a < x := lt_of_le_of_ne h1.1 (Ne.symm h2)
    have hma : 0 < m - a := by linarith
    rw [div_le_div_iff₀ (mul_pos hma hb) hb]
    nlinarith
  · push Not at h1 h6
    have hbm : 0 < b - m := by linarith
    rw [div_le_div_iff₀ (mul_pos hbm hb) hb]
    nlinarith [mul_nonneg hb.le (sub_nonneg.2 h6.le)]

include hab in
theorem tri_deriv (ham : a ≤ m) (hmb : m ≤ b) {x : ℝ} (hx : x ∉ ({a, m, b} : Set ℝ)) :
    HasDerivAt (tF a m b) (tf a m b x) x := by
  simp only [mem_insert_iff, mem_singleton_iff, not_or] at hx
  obtain ⟨ha, hm, hb'⟩ := hx
  unfold tf
  rcases lt_or_gt_of_ne ha with h | h
  · rw [if_pos (Or.inl h)]
    exact deriv_below h (fun y hy => tF_zero ham hmb hy.le) (hasDerivAt_const _ _)
  rcases lt_or_gt_of_ne hb' with h' | h'
  swap
  · rw [if_pos (Or.inr h')]
    exact deriv_above h' (fun y hy => tF_one hab ham hmb (le_of_lt hy)) (hasDerivAt_const _ _)
  rw [if_neg (by push Not; exact ⟨h.le, h'.le⟩), if_neg ha, if_neg hb']
  rcases lt_or_gt_of_ne hm with hxm | hxm
  · rw [if_pos hxm.le]
    refine deriv_between h hxm (fun y h1 h2 => tF_left hmb h1.le h2.le) ?_
    have := ((((hasDerivAt_id x).sub_const a).pow 2).div_const ((m - a) * (b - a)))
    simpa using this
  · rw [if_neg (not_le.2 hxm)]
    refine deriv_between hxm h' (fun y h1 h2 => tF_right hab ham h1.le h2.le) ?_
    have := ((((hasDerivAt_id x).const_sub b).pow 2).div_const ((b - m) * (b - a))).const_sub 1
    simpa [neg_div] using this

theorem measurable_tf : Measurable (tf a m b) := by
  unfold tf
  refine Measurable.ite ((measurableSet_Iio).union measurableSet_Ioi) measurable_const ?_
  refine Measurable.ite (measurableSet_singleton a) measurable_const ?_
  refine Measurable.ite (measurableSet_singleton b) measurable_const ?_
  refine Measurable.ite measurableSet_Iic (by fun_prop) (by fun_prop)

theorem measurable_tq : Measurable (tq a m b) := by
  unfold tq
  exact Measurable.ite measurableSet_Iic (by fun_prop) (by fun_prop)

include hab in
theorem tri_quantile (ham : a ≤ m) (hmb : m ≤ b) {p : ℝ} (h0 : 0 ≤ p) (h1 : p ≤ 1) :
    Triangular.quantile ⟨a, m, b⟩ p = .ok (tq a m b p) := by
  have hb : 0 < b - a := by linarith
  have hp0 : 0 ≤ (m - a) / (b - a) := div_nonneg (by linarith) hb.le
  unfold Triangular.quantile tq
  simp only [lit.1, lit.2.1, Res.monad_bind_eq, fdiv_ok hb.ne', Res.bind_ok]
  by_cases e0 : p = 0
  · subst e0
    rw [if_pos rfl, if_pos hp0]
    simp
  rw [if_neg e0]
  by_cases e1 : p = 1
  · subst e1
    rw [if_pos rfl]
    by_cases h : 1 ≤ (m - a) / (b - a)
    · rw [if_pos h]
      have e : m = b := by
        rw [le_div_iff₀ hb] at h
        linarith
      subst e
      rw [mul_one, Real.sqrt_mul_self hb.le, sub_add_cancel]
    · rw [if_neg h]
      simp
  rw [if_neg e1]
  rcases lt_trichotomy p ((m - a) / (b - a)) with h | h | h
  · rw [if_pos h, if_pos h.le, fsqrt_ok (mul_nonneg (mul_nonneg hb.le (by linarith)) h0), Res.bind_ok]
  · rw [if_neg h.not_lt, if_pos h, if_pos h.le, h,
      show (b - a) * (m - a) * ((m - a) / (b - a)) = (m - a) * (m - a) by field_simp,
      Real.sqrt_mul_self (by linarith), sub_add_cancel]
  · rw [if_neg h.not_gt, if_neg h.ne', if_neg h.not_ge,
      fsqrt_ok (mul_nonneg (mul_nonneg hb.le (by linarith)) (by linarith)), Res.bind_ok]

include hab in
theorem tri_describes (ham : a ≤ m) (hmb : m ≤ b) (d : Triangular) (hd : d = ⟨a, m, b⟩) :
    Describes (unif.map (tq a m b)) (drawQuantile d.quantile) d.pdf d.cdf d.quantile := by
  subst hd
  have hb : 0 < b - a := by linarith
  have hq : Measurable (tq a m b) := measurable_tq
  have hF0 : ∀ x, 0 ≤ tF a m b x := fun x => by
    rcases le_or_gt x a with h | h
    · rw [tF_zero ham hmb h]
    · rw [← tF_zero ham hmb (le_refl a)]
      exact tF_mono hab ham hmb h.le
  have hF1 : ∀ x, tF a m b x ≤ 1 := fun x => by
    rcases le_or_gt b x with h | h
    · rw [tF_one hab ham hmb h]
    · rw [← tF_one hab ham hmb (le_refl b)]
      exact tF_mono hab ham hmb h.le
  have hg : ∀ p x, 0 < p → p ≤ 1 → (tq a m b p ≤ x ↔ p ≤ tF a m b x) :=
    fun p x h0 h1 => tri_galois hab ham hmb h0 h1
  refine ⟨Measure.isProbabilityMeasure_map hq.aemeasurable,
    drawQuantile_law hq fun u h0 h1 => tri_quantile hab ham hmb h0.le h1.le, ?_,
    cdfOf hq hF0 hF1 hg fun x => ?_,
    quantileOf hq hF0 hF1 hg fun p h0 h1 => tri_quantile hab ham hmb h0.le h1⟩
  · refine densityOf (f := tf a m b) hq hF1 hg (fun x => ?_) (a := a) (S := {a, m, b})
      (Set.toFinite _).countable (by unfold tF; fun_prop) (fun x hx => tF_zero ham hmb hx)
      (fun x hx => tri_deriv hab ham hmb hx) measurable_tf (fun x => tf_nonneg hab ham hmb x)
      (fun x hx => if_pos (Or.inl hx)) (C := 2 / (b - a)) (fun x => tf_le hab x)
    unfold Triangular.pdf tf
    simp only [lit.1, lit.2.2.1, fdiv_ok hb.ne', gt_iff_lt]
    split_ifs with h1 h2 h3 h4 h5 h6
    · rfl
    · rfl
    · rfl
    · rfl
    · rfl
    · push Not at h1
      have hxa : a < x := lt_of_le_of_ne h1.1 (Ne.symm h2)
      exact fdiv_ok (mul_pos (by linarith) hb).ne'
    · push Not at h1 h6
      exact fdiv_ok (mul_pos (by linarith) hb).ne'
  · unfold Triangular.cdf
    simp only [lit.1, lit.2.1, gt_iff_lt]
    by_cases h : a < x
    swap
    · rw [if_neg h, tF_zero ham hmb (not_lt.1 h)]
    rw [if_pos h]
    by_cases h' : x ≤ m
    · rw [if_pos h', fdiv_ok (mul_pos (by linarith) hb).ne', tF_left hmb h.le h', sq]
    rw [if_neg h']
    push Not at h'
    by_cases h'' : x < b
    · rw [if_pos h'', fdiv_ok (mul_pos (by linarith) hb).ne', tF_right hab ham h'.le h''.le, sq]
      rfl
    · rw [if_neg h'', tF_one hab ham hmb (not_lt.1 h'')]

end Tri

end Verif.Distr
