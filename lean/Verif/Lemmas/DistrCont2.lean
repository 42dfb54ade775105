import Verif.Lemmas.DistrCont

/-! Helper lemmas: the split uniform and the fractal distribution. -/

namespace Verif.Distr

open Spec MeasureTheory ProbabilityTheory Set Filter Topology

/-! ### Split uniform -/

section Split

variable {a m b : ℝ} (ham : a < m) (hmb : m < b)

noncomputable def sF (a m b x : ℝ) : ℝ := uF a m x / 2 + uF m b x / 2

noncomputable def sq' (a m b p : ℝ) : ℝ :=
  if p ≤ 1 / 2 then a + 2 * p * (m - a) else m + (2 * p - 1) * (b - m)

include ham hmb

theorem split_galois {p x : ℝ} (h0 : 0 < p) (h1 : p ≤ 1) : sq' a m b p ≤ x ↔ p ≤ sF a m b x := by
  unfold sq' sF
  by_cases hp : p ≤ 1 / 2
  · rw [if_pos hp, uniform_galois ham (p := 2 * p) (by linarith) (by linarith)]
    rcases le_or_gt x m with hx | hx
    · rw [uF_low hmb hx]
      constructor <;> intro h <;> linarith
    · have h2 : 0 ≤ uF m b x := le_max_left _ _
      rw [uF_high ham hx.le]
      constructor <;> intro h <;> linarith
  · rw [if_neg hp]
    push Not at hp
    rw [uniform_galois hmb (p := 2 * p - 1) (by linarith) (by linarith)]
    rcases le_or_gt x m with hx | hx
    · rw [uF_low hmb hx]
      have h2 : uF a m x ≤ 1 := max_le zero_le_one (min_le_left _ _)
      constructor <;> intro h <;> linarith
    · rw [uF_high ham hx.le]
      constructor <;> intro h <;> linarith

theorem split_draws (d : SplitUniform) (hd : d = ⟨a, m, b⟩) :
    IsProbabilityMeasure (unif.map (sq' a m b)) ∧
    DrawsHaveLaw (drawQuantile d.quantile) (unif.map (sq' a m b)) ∧
    CdfOf (unif.map (sq' a m b)) d.cdf ∧ QuantileOf (unif.map (sq' a m b)) d.quantile := by
  subst hd
  have hq : Measurable (sq' a m b) := by
    unfold sq'
    exact Measurable.ite measurableSet_Iic (by fun_prop) (by fun_prop)
  have hu0 : ∀ a b x, 0 ≤ uF a b x := fun a b x => le_max_left _ _
  have hu1 : ∀ a b x, uF a b x ≤ 1 := fun a b x => max_le zero_le_one (min_le_left _ _)
  have hF0 : ∀ x, 0 ≤ sF a m b x := fun x => by
    unfold sF; linarith [hu0 a m x, hu0 m b x]
  have hF1 : ∀ x, sF a m b x ≤ 1 := fun x => by
    unfold sF; linarith [hu1 a m x, hu1 m b x]
  have hqu : ∀ p, SplitUniform.quantile ⟨a, m, b⟩ p = .ok (sq' a m b p) := fun p => by
    unfold SplitUniform.quantile sq'
    simp only [lit.2.2.2.1, lit.2.2.1, lit.2.1]
    split_ifs <;> rfl
  have hg : ∀ p x, 0 < p → p ≤ 1 → (sq' a m b p ≤ x ↔ p ≤ sF a m b x) :=
    fun p x h0 h1 => split_galois ham hmb h0 h1
  refine ⟨Measure.isProbabilityMeasure_map hq.aemeasurable, drawQuantile_law hq fun u _ _ => hqu u,
    cdfOf hq hF0 hF1 hg fun x => ?_, quantileOf hq hF0 hF1 hg fun p _ _ => hqu p⟩
  unfold SplitUniform.cdf sF
  simp only [lit.1, lit.2.1, lit.2.2.2.1]
  by_cases h : x ≥ a
  swap
  · have h := (not_le.1 h)
    rw [if_neg (not_le.2 h), uF_low ham h.le, uF_low hmb (by linarith)]
    norm_num
  rw [if_pos h]
  by_cases h' : x ≤ m
  · rw [if_pos h', fdiv_ok (by intro h; linarith), uF_mid ham h h', uF_low hmb h']
    congr 1
    ring
  rw [if_neg h']
  push Not at h'
  rw [uF_high ham h'.le]
  by_cases h'' : x < b
  · rw [if_pos h'', fdiv_ok (by intro h; linarith), uF_mid hmb h'.le h''.le, Res.monad_bind_eq, Res.bind_ok]
    congr 1
    ring
  · rw [if_neg h'', uF_high hmb (not_lt.1 h'')]
    norm_num

/-- The function `Pdf` is not the density of any probability law: it is a positive constant beyond the
maximum. -/
theorem split_pdf {ν : Measure ℝ} [IsProbabilityMeasure ν] (d : SplitUniform) (hd : d = ⟨a, m, b⟩) :
    ¬ DensityOf ν d.pdf := by
  subst hd
  rintro ⟨f, hf, h0, hp, hν⟩
  have hb : 0 < b - m := by linarith
  have hfx : ∀ x ∈ Ioi b, f x = 1 / 2 / (b - m) := by
    intro x hx
    have hx : b < x := hx
    have := hp x
    unfold SplitUniform.pdf at this
    simp only [lit.2.2.2.1] at this
    rw [if_neg (fun h => by linarith [h.2]), if_pos ⟨by linarith, hx⟩, fdiv_ok hb.ne'] at this
    exact (Res.ok.inj this).symm
  have : ν (Ioi b) = ⊤ := by
    rw [hν, withDensity_apply _ measurableSet_Ioi,
      setLIntegral_congr_fun measurableSet_Ioi fun x hx => by rw [hfx x hx], lintegral_const,
      Measure.restrict_apply MeasurableSet.univ, Set.univ_inter, Real.volume_Ioi]
    refine ENNReal.mul_top ?_
    rw [ne_eq, ENNReal.ofReal_eq_zero, not_le]
    positivity
  exact measure_ne_top ν _ this

end Split

/-! ### Fractal -/

section Frac

variable {a b e : ℝ} (ha : 0 < a) (hab : a < b) (he : 0 < e)

noncomputable def fF (a b e x : ℝ) : ℝ :=
  (a ^ (-e) - (max a (min x b)) ^ (-e)) / (a ^ (-e) - b ^ (-e))

noncomputable def ff (a b e x : ℝ) : ℝ :=
  if a < x ∧ x < b then e / (a ^ (-e) - b ^ (-e)) * x ^ (-e - 1) else 0

noncomputable def fq (a b e p : ℝ) : ℝ := ((1 - p) * a ^ (-e) + p * b ^ (-e)) ^ (-1 / e)

include ha hab he

theorem frac_lt : b ^ (-e) < a ^ (-e) := Real.rpow_lt_rpow_of_neg ha hab (by linarith)

theorem frac_arg {p : ℝ} (h0 : 0 ≤ p) (h1 : p ≤ 1) : 0 < (1 - p) * a ^ (-e) + p * b ^ (-e) := by
  have hA : 0 < a ^ (-e) := Real.rpow_pos_of_pos ha _
  have hB : 0 < b ^ (-e) := Real.rpow_pos_of_pos (by linarith) _
  rcases h0.eq_or_lt with rfl | h
  · simpa using hA
  · have : 0 ≤ (1 - p) * a ^ (-e) := mul_nonneg (by linarith) hA.le
    have : 0 < p * b ^ (-e) := mul_pos h hB
    linarith

theorem frac_pow_le {t x : ℝ} (ht : 0 < t) (hx : 0 < x) : t ^ (-1 / e) ≤ x ↔ x ^ (-e) ≤ t := by
  have hx' : 0 < x ^ (-e) := Real.rpow_pos_of_pos hx _
  have ex : x = (x ^ (-e)) ^ (-1 / e) := by
    rw [← Real.rpow_mul hx.le, show -e * (-1 / e) = 1 by field_simp, Real.rpow_one]
  have hne : -1 / e < 0 := div_neg_of_neg_of_pos (by norm_num) he
  conv_lhs => rw [ex]
  exact Real.rpow_le_rpow_iff_of_neg ht hx' hne

theorem frac_galois {p x : ℝ} (h0 : 0 < p) (h1 : p ≤ 1) : fq a b e p ≤ x ↔ p ≤ fF a b e x := by
  have hlt := frac_lt ha hab he
  have hd : 0 < a ^ (-e) - b ^ (-e) := by linarith
  have harg := frac_arg ha hab he h0.le h1
  have hanti : ∀ {x y : ℝ}, 0 < x → x ≤ y → y ^ (-e) ≤ x ^ (-e) := fun hx hxy =>
    Real.rpow_le_rpow_of_nonpos hx hxy (by linarith)
  unfold fq fF
  rw [le_div_iff₀ hd]
  rcases le_or_gt x a with hx | hx
  · rw [min_eq_left (by linarith), max_eq_left hx]
    refine iff_of_false ?_ ?_
    · rw [not_le]
      refine lt_of_le_of_lt hx ?_
      rw [← not_le, frac_pow_le ha hab he harg ha, not_le]
      nlinarith
    · rw [not_le]
      have := mul_pos h0 hd
      linarith
  rcases le_or_gt x b with hxb | hxb
  · rw [min_eq_left hxb, max_eq_right hx.le, frac_pow_le ha hab he harg (by linarith)]
    constructor <;> intro h <;> linarith
  · rw [min_eq_right hxb.le, max_eq_right hab.le, frac_pow_le ha hab he harg (by linarith)]
    have := hanti (by linarith) hxb.le
    refine iff_of_true ?_ ?_
    · nlinarith
    · nlinarith

theorem frac_deriv {x : ℝ} (hx : x ∉ ({a, b} : Set ℝ)) : HasDerivAt (fF a b e) (ff a b e x) x := by
  simp only [mem_insert_iff, mem_singleton_iff, not_or] at hx
  unfold ff
  rcases lt_or_gt_of_ne hx.1 with h | h
  · rw [if_neg (fun h' => by linarith [h'.1])]
    refine deriv_below h (G := fun _ => 0) (fun y hy => ?_) (hasDerivAt_const _ _)
    unfold fF
    rw [min_eq_left (by linarith), max_eq_left hy.le, sub_self, zero_div]
  rcases lt_or_gt_of_ne hx.2 with h' | h'
  · rw [if_pos ⟨h, h'⟩]
    refine deriv_between h h' (G := fun y => (a ^ (-e) - y ^ (-e)) / (a ^ (-e) - b ^ (-e)))
      (fun y h1 h2 => ?_) ?_
    · unfold fF
      rw [min_eq_left h2.le, max_eq_right h1.le]
    · have := ((Real.hasDerivAt_rpow_const (x := x) (p := -e) (Or.inl (by linarith))).const_sub
        (a ^ (-e))).div_const (a ^ (-e) - b ^ (-e))
      rw [show e / (a ^ (-e) - b ^ (-e)) * x ^ (-e - 1)
        = -(-e * x ^ (-e - 1)) / (a ^ (-e) - b ^ (-e)) by ring]
      exact this
  · rw [if_neg (fun h'' => by linarith [h''.2])]
    refine deriv_above h' (G := fun _ => 1) (fun y hy => ?_) (hasDerivAt_const _ _)
    have := frac_lt ha hab he
    unfold fF
    rw [min_eq_right (le_of_lt hy), max_eq_right hab.le, div_self (by intro h; linarith)]

theorem frac_create : Fractal.create a b e = .ok ⟨a, b, e, a ^ (-e), b ^ (-e)⟩ := by
  unfold Fractal.create
  rw [fpow_ok ha, fpow_ok (by linarith)]
  rfl

theorem frac_quantile {p : ℝ} (h0 : 0 ≤ p) (h1 : p ≤ 1) :
    Fractal.quantile ⟨a, b, e, a ^ (-e), b ^ (-e)⟩ p = .ok (fq a b e p) := by
  unfold Fractal.quantile fq
  simp only [lit.2.1, lit.2.2.2.2, Res.monad_bind_eq, fdiv_ok he.ne', Res.bind_ok]
  rw [fpow_ok (frac_arg ha hab he h0 h1)]

theorem measurable_fq : Measurable (fq a b e) := by
  unfold fq
  fun_prop

theorem frac_describes (d : Fractal) (hd : d = ⟨a, b, e, a ^ (-e), b ^ (-e)⟩) :
    Describes (unif.map (fq a b e)) (drawQuantile d.quantile) d.pdf d.cdf d.quantile := by
  subst hd
  have hlt := frac_lt ha hab he
  have hd : 0 < a ^ (-e) - b ^ (-e) := by linarith
  have hq : Measurable (fq a b e) := measurable_fq ha hab he
  have hanti : ∀ {x y : ℝ}, 0 < x → x ≤ y → y ^ (-e) ≤ x ^ (-e) := fun hx hxy =>
    Real.rpow_le_rpow_of_nonpos hx hxy (by linarith)
  have hmid : ∀ x, a ≤ max a (min x b) ∧ max a (min x b) ≤ b := fun x =>
    ⟨le_max_left _ _, max_le hab.le (min_le_right _ _)⟩
  have hF0 : ∀ x, 0 ≤ fF a b e x := fun x => by
    unfold fF
    exact div_nonneg (by linarith [hanti ha (hmid x).1]) hd.le
  have hF1 : ∀ x, fF a b e x ≤ 1 := fun x => by
    unfold fF
    rw [div_le_one hd]
    linarith [hanti (by linarith [(hmid x).1]) (hmid x).2]
  have hg : ∀ p x, 0 < p → p ≤ 1 → (fq a b e p ≤ x ↔ p ≤ fF a b e x) :=
    fun p x h0 h1 => frac_galois ha hab he h0 h1
  have hlow : ∀ x ≤ a, fF a b e x = 0 := fun x hx => by
    unfold fF
    rw [min_eq_left (by linarith), max_eq_left hx, sub_self, zero_div]
  refine ⟨Measure.isProbabilityMeasure_map hq.aemeasurable,
    drawQuantile_law hq fun u h0 h1 => frac_quantile ha hab he h0.le h1.le, ?_,
    cdfOf hq hF0 hF1 hg fun x => ?_,
    quantileOf hq hF0 hF1 hg fun p h0 h1 => frac_quantile ha hab he h0.le h1⟩
  · refine densityOf (f := ff a b e) hq hF1 hg (fun x => ?_) (a := a) (S := {a, b})
      (Set.toFinite _).countable ?_ hlow (fun x hx => frac_deriv ha hab he hx) ?_ (fun x => ?_)
      (fun x hx => if_neg fun h => by linarith [h.1])
      (C := e / (a ^ (-e) - b ^ (-e)) * a ^ (-e - 1)) (fun x => ?_)
    · unfold Fractal.pdf ff
      simp only [lit.1, lit.2.1, gt_iff_lt, Res.monad_bind_eq, fdiv_ok hd.ne', Res.bind_ok]
      by_cases h : a < x ∧ x < b
      · rw [if_pos h, if_pos h, fpow_ok (by linarith [h.1]), Res.bind_ok]
      · rw [if_neg h, if_neg h]
    · unfold fF
      refine (continuous_const.sub ?_).div_const _
      refine Continuous.rpow_const (by fun_prop) fun x => Or.inl ?_
      have := (hmid x).1
      linarith
    · unfold ff
      exact Measurable.ite measurableSet_Ioo (by fun_prop) measurable_const
    · unfold ff
      split_ifs with h
      · have : 0 < x ^ (-e - 1) := Real.rpow_pos_of_pos (by linarith [h.1]) _
        positivity
      · exact le_rfl
    · have hc : 0 ≤ e / (a ^ (-e) - b ^ (-e)) := by positivity
      unfold ff
      split_ifs with h
      · exact mul_le_mul_of_nonneg_left
          (Real.rpow_le_rpow_of_nonpos ha h.1.le (by linarith)) hc
      · have : 0 < a ^ (-e - 1) := Real.rpow_pos_of_pos ha _
        positivity
  · unfold Fractal.cdf
    simp only [lit.1, lit.2.1, Res.monad_bind_eq]
    by_cases h : x ≤ a
    · rw [if_pos h, hlow x h]
    rw [if_neg h]
    push Not at h
    by_cases h' : x < b
    · rw [if_pos h', fpow_ok (by linarith), Res.bind_ok, fdiv_ok hd.ne']
      unfold fF
      rw [min_eq_left h'.le, max_eq_right h.le]
    · rw [if_neg h']
      unfold fF
      rw [min_eq_right (not_lt.1 h'), max_eq_right hab.le, div_self hd.ne']

end Frac

end Verif.Distr
