import Verif.Lemmas.UnifSum
import Verif.Lemmas.WedgeBound
import Mathlib.Analysis.SpecialFunctions.PolarCoord
import Mathlib.Analysis.SpecialFunctions.Gaussian.GaussianIntegral
import Mathlib.MeasureTheory.Function.JacobianOneDim

/-! Helper lemmas: the law of the numbers made by the tail branch of the normal sampler. -/

namespace Verif.TailLaw

open MeasureTheory Set Real
open Verif.UnifSum Verif.WedgeBound Verif.Spec
open scoped ENNReal

/-- Integration over an affine image. -/
theorem lintegral_affine {a : ℝ} (ha : a ≠ 0) (b : ℝ) {F : ℝ → ℝ≥0∞} (hF : Measurable F) :
    ∫⁻ u, F (a * u + b) = ENNReal.ofReal |a⁻¹| * ∫⁻ x, F x := by
  have h1 : ∫⁻ u, F (a * u + b) = ∫⁻ x, F (x + b) ∂Measure.map (a * ·) volume :=
    (lintegral_map (f := fun x => F (x + b)) (hF.comp (measurable_id.add_const b))
      (measurable_const_mul a)).symm
  rw [h1, Real.map_volume_mul_left ha, lintegral_smul_measure, lintegral_add_right_eq_self, smul_eq_mul]

theorem lintegral_polar {f : ℝ × ℝ → ℝ≥0∞} (hf : Measurable f) :
    ∫⁻ p, f p = ∫⁻ θ in Ioo (-π) π, ∫⁻ r in Ioi 0, ENNReal.ofReal r * f (r * cos θ, r * sin θ) := by
  rw [← lintegral_comp_polarCoord_symm, polarCoord_target, Measure.volume_eq_prod,
    ← Measure.prod_restrict, lintegral_prod_symm']
  · rfl
  · refine (ENNReal.measurable_ofReal.comp measurable_fst).smul (hf.comp ?_)
    exact (measurable_fst.mul (measurable_cos.comp measurable_snd)).prodMk
      (measurable_fst.mul (measurable_sin.comp measurable_snd))

/-- The change of the radius. -/
theorem lintegral_radius (g : ℝ → ℝ≥0∞) :
    ∫⁻ ρ in Ioo (0 : ℝ) 1, ENNReal.ofReal ρ * g (√(9 - 2 * log (ρ ^ 2)))
      = ∫⁻ r in Ioi 3, ENNReal.ofReal r * (ENNReal.ofReal (exp ((9 - r ^ 2) / 2) / 2) * g r) := by
  set f : ℝ → ℝ := fun r => exp ((9 - r ^ 2) / 4) with hf
  have hd : ∀ r ∈ Ioi (3 : ℝ), HasDerivWithinAt f (-(r / 2) * f r) (Ioi 3) r := by
    intro r _
    have h1 : HasDerivAt (fun r : ℝ => (9 - r ^ 2) / 4) (-(r / 2)) r := by
      have := ((((hasDerivAt_id r).pow 2).const_sub 9).div_const 4)
      refine this.congr_deriv ?_
      simp; ring
    refine (h1.exp.congr_deriv ?_).hasDerivWithinAt
    simp only [hf]; ring
  have hi : InjOn f (Ioi 3) := by
    intro a ha b hb hab
    have h1 := exp_injective hab
    have ha' : (3 : ℝ) < a := ha
    have hb' : (3 : ℝ) < b := hb
    have : a ^ 2 = b ^ 2 := by linarith
    exact (pow_left_inj₀ (by linarith) (by linarith) (by norm_num)).1 this
  have him : f '' Ioi 3 = Ioo 0 1 := by
    ext ρ
    simp only [mem_image, mem_Ioi, mem_Ioo, hf]
    constructor
    · rintro ⟨r, hr, rfl⟩
      exact ⟨exp_pos _, by rw [← exp_zero]; exact exp_lt_exp.2 (by nlinarith)⟩
    · rintro ⟨h0, h1⟩
      have hl : log ρ < 0 := log_neg h0 h1
      refine ⟨√(9 - 4 * log ρ), ?_, ?_⟩
      · rw [lt_sqrt (by norm_num)]; linarith
      · rw [sq_sqrt (by linarith), show (9 - (9 - 4 * log ρ)) / 4 = log ρ by ring, exp_log h0]
  rw [← him, lintegral_image_eq_lintegral_abs_deriv_mul measurableSet_Ioi hd hi]
  refine setLIntegral_congr_fun measurableSet_Ioi fun r hr => ?_
  have hr' : (3 : ℝ) < r := hr
  have e : √(9 - 2 * log (f r ^ 2)) = r := by
    have : log (f r ^ 2) = (9 - r ^ 2) / 2 := by
      rw [log_pow]; simp only [hf]; rw [log_exp]; push_cast; ring
    rw [this, show 9 - 2 * ((9 - r ^ 2) / 2) = r ^ 2 by ring, sqrt_sq (by linarith)]
  have hfp : 0 < f r := exp_pos _
  have hff : f r * f r = exp ((9 - r ^ 2) / 2) := by
    simp only [hf]; rw [← exp_add]; congr 1; ring
  simp only [e]
  rw [← mul_assoc, ← mul_assoc, ← ENNReal.ofReal_mul (abs_nonneg _), ← ENNReal.ofReal_mul (by linarith),
    abs_mul, abs_neg, abs_of_pos (by linarith : 0 < r / 2), abs_of_pos hfp]
  congr 2
  rw [← hff]; ring

open Classical in
/-- A function of the stretched point, for points of the disc without its centre. -/
noncomputable def inDisc (G : ℝ × ℝ → ℝ≥0∞) (v : ℝ × ℝ) : ℝ≥0∞ :=
  if 0 < v.1 ^ 2 + v.2 ^ 2 ∧ v.1 ^ 2 + v.2 ^ 2 < 1 then
    G (√((9 - 2 * log (v.1 ^ 2 + v.2 ^ 2)) / (v.1 ^ 2 + v.2 ^ 2)) * v.1,
      √((9 - 2 * log (v.1 ^ 2 + v.2 ^ 2)) / (v.1 ^ 2 + v.2 ^ 2)) * v.2)
  else 0

open Classical in
/-- The same outside the circle of radius 3, weighted with the normal density. -/
noncomputable def outside (G : ℝ × ℝ → ℝ≥0∞) (v : ℝ × ℝ) : ℝ≥0∞ :=
  if 9 < v.1 ^ 2 + v.2 ^ 2 then
    ENNReal.ofReal (exp ((9 - (v.1 ^ 2 + v.2 ^ 2)) / 2) / 2) * G v
  else 0

theorem measurable_inDisc {G : ℝ × ℝ → ℝ≥0∞} (hG : Measurable G) : Measurable (inDisc G) := by
  classical
  unfold inDisc
  have hw : Measurable fun v : ℝ × ℝ => v.1 ^ 2 + v.2 ^ 2 := by fun_prop
  have hs : Measurable fun v : ℝ × ℝ =>
      √((9 - 2 * log (v.1 ^ 2 + v.2 ^ 2)) / (v.1 ^ 2 + v.2 ^ 2)) :=
    (((measurable_const.sub ((measurable_log.comp hw).const_mul 2)).div hw).sqrt)
  refine Measurable.ite ?_ (hG.comp ((hs.mul measurable_fst).prodMk (hs.mul measurable_snd)))
    measurable_const
  exact (measurableSet_lt measurable_const hw).inter (measurableSet_lt hw measurable_const)

theorem measurable_outside {G : ℝ × ℝ → ℝ≥0∞} (hG : Measurable G) : Measurable (outside G) := by
  classical
  unfold outside
  have hw : Measurable fun v : ℝ × ℝ => v.1 ^ 2 + v.2 ^ 2 := by fun_prop
  refine Measurable.ite (measurableSet_lt measurable_const hw) (Measurable.mul ?_ hG)
    measurable_const
  exact ENNReal.measurable_ofReal.comp (by fun_prop)

/-- Points uniform in the disc are stretched to normally distributed points outside the circle. -/
theorem lintegral_disc {G : ℝ × ℝ → ℝ≥0∞} (hG : Measurable G) :
    ∫⁻ v, inDisc G v = ∫⁻ v, outside G v := by
  rw [lintegral_polar (measurable_inDisc hG), lintegral_polar (measurable_outside hG)]
  refine lintegral_congr fun θ => ?_
  have hcs : cos θ ^ 2 + sin θ ^ 2 = 1 := cos_sq_add_sin_sq θ
  have hw : ∀ r : ℝ, (r * cos θ) ^ 2 + (r * sin θ) ^ 2 = r ^ 2 := by
    intro r
    rw [mul_pow, mul_pow, ← mul_add, hcs, mul_one]
  have h1 : ∫⁻ r in Ioi (0 : ℝ), ENNReal.ofReal r * inDisc G (r * cos θ, r * sin θ)
      = ∫⁻ r in Ioo (0 : ℝ) 1, ENNReal.ofReal r *
        (fun R => G (R * cos θ, R * sin θ)) (√(9 - 2 * log (r ^ 2))) := by
    rw [← lintegral_indicator measurableSet_Ioi, ← lintegral_indicator measurableSet_Ioo]
    refine lintegral_congr fun r => ?_
    by_cases h0 : 0 < r
    · rw [indicator_of_mem (show r ∈ Ioi (0 : ℝ) from h0)]
      by_cases h1 : r < 1
      · rw [indicator_of_mem (show r ∈ Ioo (0 : ℝ) 1 from ⟨h0, h1⟩)]
        unfold inDisc
        simp only [hw]
        rw [if_pos ⟨by positivity, by nlinarith⟩]
        have hs : √((9 - 2 * log (r ^ 2)) / r ^ 2) * r = √(9 - 2 * log (r ^ 2)) := by
          rw [sqrt_div' _ (sq_nonneg r), sqrt_sq h0.le, div_mul_cancel₀ _ h0.ne']
        rw [← mul_assoc, ← mul_assoc, hs]
      · rw [indicator_of_notMem (show r ∉ Ioo (0 : ℝ) 1 from fun hc => h1 hc.2)]
        unfold inDisc
        simp only [hw]
        rw [if_neg (fun hc => h1 (by nlinarith [hc.2])), mul_zero]
    · rw [indicator_of_notMem (show r ∉ Ioi (0 : ℝ) from h0),
        indicator_of_notMem (show r ∉ Ioo (0 : ℝ) 1 from fun hc => h0 hc.1)]
  have h2 : ∫⁻ r in Ioi (0 : ℝ), ENNReal.ofReal r * outside G (r * cos θ, r * sin θ)
      = ∫⁻ r in Ioi (3 : ℝ), ENNReal.ofReal r * (ENNReal.ofReal (exp ((9 - r ^ 2) / 2) / 2) *
        (fun R => G (R * cos θ, R * sin θ)) r) := by
    rw [← lintegral_indicator measurableSet_Ioi, ← lintegral_indicator measurableSet_Ioi]
    refine lintegral_congr fun r => ?_
    by_cases h0 : 0 < r
    · rw [indicator_of_mem (show r ∈ Ioi (0 : ℝ) from h0)]
      unfold outside
      simp only [hw]
      by_cases h1 : 3 < r
      · rw [indicator_of_mem (show r ∈ Ioi (3 : ℝ) from h1), if_pos (by nlinarith)]
      · rw [indicator_of_notMem (show r ∉ Ioi (3 : ℝ) from h1), if_neg (by nlinarith), mul_zero]
    · rw [indicator_of_notMem (show r ∉ Ioi (0 : ℝ) from h0),
        indicator_of_notMem (show r ∉ Ioi (3 : ℝ) from fun hc => h0 (by
          have : (3 : ℝ) < r := hc
          linarith))]
  rw [h1, h2]
  exact lintegral_radius fun R => G (R * cos θ, R * sin θ)

/-! ### From uniform numbers -/

theorem lintegral_inDisc_unif {G : ℝ × ℝ → ℝ≥0∞} (hG : Measurable G) :
    ∫⁻ p, inDisc G (2 * p.1 - 1, 2 * p.2 - 1) ∂unif.prod unif
      = ENNReal.ofReal (1 / 4) * ∫⁻ v, outside G v := by
  have hm := measurable_inDisc hG
  have h0 : ∀ p : ℝ × ℝ, p ∉ Ico (0 : ℝ) 1 ×ˢ Ico (0 : ℝ) 1 →
      inDisc G (2 * p.1 - 1, 2 * p.2 - 1) = 0 := by
    intro p hp
    unfold inDisc
    rw [if_neg]
    rintro ⟨-, h⟩
    simp only at h
    refine hp ⟨⟨?_, ?_⟩, ?_, ?_⟩ <;> nlinarith [sq_nonneg (2 * p.1 - 1), sq_nonneg (2 * p.2 - 1)]
  have h1 : ∫⁻ p, inDisc G (2 * p.1 - 1, 2 * p.2 - 1) ∂unif.prod unif
      = ∫⁻ p : ℝ × ℝ, inDisc G (2 * p.1 - 1, 2 * p.2 - 1) := by
    unfold unif
    rw [Measure.prod_restrict, ← Measure.volume_eq_prod,
      ← lintegral_indicator (measurableSet_Ico.prod measurableSet_Ico)]
    refine lintegral_congr fun p => ?_
    by_cases hp : p ∈ Ico (0 : ℝ) 1 ×ˢ Ico (0 : ℝ) 1
    · rw [indicator_of_mem hp]
    · rw [indicator_of_notMem hp, h0 p hp]
  have hm2 : Measurable fun p : ℝ × ℝ => inDisc G (2 * p.1 - 1, 2 * p.2 - 1) :=
    hm.comp (by fun_prop)
  have h2 : ∀ x : ℝ, ∫⁻ y, inDisc G (2 * x - 1, 2 * y - 1)
      = ENNReal.ofReal |(2 : ℝ)⁻¹| * ∫⁻ y, inDisc G (2 * x - 1, y) := by
    intro x
    have := lintegral_affine (a := 2) (by norm_num) (-1) (F := fun y => inDisc G (2 * x - 1, y))
      (hm.comp (by fun_prop))
    rw [← this]
    rfl
  have h3 := lintegral_affine (a := 2) (by norm_num) (-1) (F := fun x => ∫⁻ y, inDisc G (x, y))
    hm.lintegral_prod_right'
  rw [h1, Measure.volume_eq_prod, lintegral_prod _ hm2.aemeasurable]
  simp only [h2]
  rw [lintegral_const_mul']
  · have e : ∫⁻ x : ℝ, ∫⁻ y, inDisc G (2 * x - 1, y) = ∫⁻ x : ℝ, ∫⁻ y, inDisc G (2 * x + -1, y) := rfl
    rw [e, h3, ← mul_assoc, ← lintegral_prod _ hm.aemeasurable, ← Measure.volume_eq_prod,
      lintegral_disc hG, ← ENNReal.ofReal_mul (abs_nonneg _)]
    congr 2
    norm_num
  · exact ENNReal.ofReal_ne_top

/-- Beyond three standard deviations. -/
def far : Set ℝ := {x | 3 < |x|}

theorem measurableSet_far : MeasurableSet far := measurableSet_lt measurable_const measurable_norm

theorem measurable_bell : Measurable bell := by unfold bell; fun_prop

theorem integrable_bell : Integrable bell := by
  have := integrable_exp_neg_mul_sq (b := 1 / 2) (by norm_num)
  refine this.congr (Filter.Eventually.of_forall fun x => ?_)
  unfold bell
  simp only
  congr 1; ring

/-- Mass of the bell curve. -/
noncomputable def mass (A : Set ℝ) : ℝ≥0∞ := ∫⁻ x in A, ENNReal.ofReal (bell x)

theorem mass_ne_top (A : Set ℝ) : mass A ≠ ∞ := by
  have := integrable_bell.integrableOn (s := A)
  have h := this.lintegral_lt_top
  exact h.ne

theorem mass_univ_ne_zero : mass univ ≠ 0 := by
  unfold mass
  rw [setLIntegral_univ, ne_eq, lintegral_eq_zero_iff
    (f := fun x => ENNReal.ofReal (bell x)) (ENNReal.measurable_ofReal.comp measurable_bell)]
  intro h
  have : ∀ᵐ _x : ℝ, False := by
    filter_upwards [h] with x hx
    have := bell_pos x
    simp at hx
    linarith
  exact this.exists.elim fun _ h => h

open Classical in
noncomputable def pick (F : ℝ → ℝ≥0∞) (v : ℝ × ℝ) : ℝ≥0∞ :=
  if v.1 ∈ far then F v.1 else if v.2 ∈ far then F v.2 else 0

theorem measurable_pick {F : ℝ → ℝ≥0∞} (hF : Measurable F) : Measurable (pick F) := by
  classical
  unfold pick
  exact Measurable.ite (measurable_fst measurableSet_far) (hF.comp measurable_fst)
    (Measurable.ite (measurable_snd measurableSet_far) (hF.comp measurable_snd) measurable_const)

theorem lintegral_outside_pick {F : ℝ → ℝ≥0∞} (hF : Measurable F) :
    ∫⁻ v, outside (pick F) v = ENNReal.ofReal (exp (9 / 2) / 2) * (mass univ + mass farᶜ) *
      ∫⁻ x in far, F x * ENNReal.ofReal (bell x) := by
  set c := ENNReal.ofReal (exp (9 / 2) / 2) with hc
  set T := ∫⁻ x in far, F x * ENNReal.ofReal (bell x) with hT
  have hb : Measurable fun x => ENNReal.ofReal (bell x) := ENNReal.measurable_ofReal.comp measurable_bell
  have e : ∀ v : ℝ × ℝ, outside (pick F) v
      = c * (ENNReal.ofReal (bell v.1) * (ENNReal.ofReal (bell v.2) * pick F v)) := by
    intro v
    have h1 : ENNReal.ofReal (exp ((9 - (v.1 ^ 2 + v.2 ^ 2)) / 2) / 2)
        = c * (ENNReal.ofReal (bell v.1) * ENNReal.ofReal (bell v.2)) := by
      rw [hc, ← ENNReal.ofReal_mul (bell_pos _).le, ← ENNReal.ofReal_mul (by positivity)]
      congr 1
      unfold bell
      rw [show (9 - (v.1 ^ 2 + v.2 ^ 2)) / 2 = 9 / 2 + (-(v.1 ^ 2 / 2) + -(v.2 ^ 2 / 2)) by ring,
        exp_add, exp_add]
      ring
    unfold outside
    by_cases h : 9 < v.1 ^ 2 + v.2 ^ 2
    · rw [if_pos h, h1]; ring
    · rw [if_neg h]
      have n1 : ∀ x y : ℝ, ¬ 9 < x ^ 2 + y ^ 2 → x ∉ far := by
        intro x y h hx
        have hx' : 3 < |x| := hx
        have : |x| ^ 2 = x ^ 2 := sq_abs x
        nlinarith [sq_nonneg y]
      unfold pick
      rw [if_neg (n1 _ _ h), if_neg (n1 _ v.1 (by rwa [add_comm])), mul_zero, mul_zero, mul_zero]
  have hmp : Measurable fun v : ℝ × ℝ =>
      ENNReal.ofReal (bell v.1) * (ENNReal.ofReal (bell v.2) * pick F v) :=
    (hb.comp measurable_fst).mul ((hb.comp measurable_snd).mul (measurable_pick hF))
  simp only [e]
  rw [lintegral_const_mul _ hmp, Measure.volume_eq_prod, lintegral_prod _ hmp.aemeasurable]
  have e2 : ∀ x : ℝ, ∫⁻ y, ENNReal.ofReal (bell x) * (ENNReal.ofReal (bell y) * pick F (x, y))
      = far.indicator (fun x => (F x * ENNReal.ofReal (bell x)) * mass univ) x
        + farᶜ.indicator (fun x => ENNReal.ofReal (bell x) * T) x := by
    intro x
    rw [lintegral_const_mul' _ _ ENNReal.ofReal_ne_top]
    by_cases hx : x ∈ far
    · rw [indicator_of_mem hx, indicator_of_notMem (notMem_compl_iff.2 hx), add_zero]
      have : ∀ y, pick F (x, y) = F x := fun y => by unfold pick; rw [if_pos hx]
      simp only [this]
      rw [lintegral_mul_const _ hb]
      unfold mass
      rw [setLIntegral_univ]
      ring
    · rw [indicator_of_notMem hx, indicator_of_mem (mem_compl hx), zero_add]
      congr 1
      rw [hT, ← lintegral_indicator measurableSet_far]
      refine lintegral_congr fun y => ?_
      unfold pick
      rw [if_neg hx]
      by_cases hy : y ∈ far
      · rw [if_pos hy, indicator_of_mem hy, mul_comm]
      · rw [if_neg hy, indicator_of_notMem hy, mul_zero]
  simp only [e2]
  have hFb : Measurable fun x => F x * ENNReal.ofReal (bell x) := hF.mul hb
  rw [lintegral_add_left ((hFb.mul_const _).indicator measurableSet_far),
    lintegral_indicator measurableSet_far, lintegral_indicator measurableSet_far.compl,
    lintegral_mul_const _ hFb, lintegral_mul_const _ hb, ← hT]
  unfold mass
  ring

/-- The accepted pairs. -/
def accept : Set (ℝ × ℝ) := {p | TailAccept p.1 p.2}

/-- **The tail.** What is made from accepted pairs is distributed like a normal number beyond three
standard deviations. -/
theorem tail_law : ∃ K : ℝ≥0∞, K ≠ 0 ∧ K ≠ ∞ ∧ MeasurableSet accept ∧
    (Measurable fun p : ℝ × ℝ => tailValue p.1 p.2) ∧ ∀ F : ℝ → ℝ≥0∞, Measurable F →
    ∫⁻ p in accept, F (tailValue p.1 p.2) ∂unif.prod unif
      = K * ∫⁻ x in far, F x * ENNReal.ofReal (bell x) := by
  classical
  have hd : Measurable fun p : ℝ × ℝ => disc p.1 p.2 := by unfold disc; fun_prop
  have hs : Measurable fun p : ℝ × ℝ => stretch p.1 p.2 := by
    unfold stretch
    exact (((measurable_const.sub ((measurable_log.comp hd).const_mul 2)).div hd).sqrt)
  have h1 : Measurable fun p : ℝ × ℝ => stretch p.1 p.2 * (2 * p.1 - 1) := hs.mul (by fun_prop)
  have h2 : Measurable fun p : ℝ × ℝ => stretch p.1 p.2 * (2 * p.2 - 1) := hs.mul (by fun_prop)
  have m1 : MeasurableSet {p : ℝ × ℝ | 3 < |stretch p.1 p.2 * (2 * p.1 - 1)|} := h1 measurableSet_far
  have m2 : MeasurableSet {p : ℝ × ℝ | 3 < |stretch p.1 p.2 * (2 * p.2 - 1)|} := h2 measurableSet_far
  have hacc : MeasurableSet accept :=
    (measurableSet_lt measurable_const hd).inter ((measurableSet_lt hd measurable_const).inter
      (m1.union m2))
  have hval : Measurable fun p : ℝ × ℝ => tailValue p.1 p.2 := by
    unfold tailValue
    exact Measurable.ite m1 h1 h2
  refine ⟨ENNReal.ofReal (1 / 4) * (ENNReal.ofReal (exp (9 / 2) / 2) * (mass univ + mass farᶜ)),
    ?_, ?_, hacc, hval, fun F hF => ?_⟩
  · refine mul_ne_zero ?_ (mul_ne_zero ?_ fun h => mass_univ_ne_zero (add_eq_zero.1 h).1)
    · rw [ne_eq, ENNReal.ofReal_eq_zero]; norm_num
    · rw [ne_eq, ENNReal.ofReal_eq_zero]; have := exp_pos (9 / 2); linarith
  · exact ENNReal.mul_ne_top ENNReal.ofReal_ne_top (ENNReal.mul_ne_top ENNReal.ofReal_ne_top
      (ENNReal.add_ne_top.2 ⟨mass_ne_top _, mass_ne_top _⟩))
  · rw [mul_assoc, ← lintegral_outside_pick hF, ← lintegral_inDisc_unif (measurable_pick hF),
      ← lintegral_indicator hacc]
    refine lintegral_congr fun p => ?_
    have ed : disc p.1 p.2 = (2 * p.1 - 1) ^ 2 + (2 * p.2 - 1) ^ 2 := rfl
    have es : stretch p.1 p.2 = √((9 - 2 * log (disc p.1 p.2)) / disc p.1 p.2) := rfl
    unfold inDisc
    simp only [← ed, ← es]
    by_cases hp : 0 < disc p.1 p.2 ∧ disc p.1 p.2 < 1
    · rw [if_pos hp]
      by_cases a1 : 3 < |stretch p.1 p.2 * (2 * p.1 - 1)|
      · rw [indicator_of_mem (show p ∈ accept from ⟨hp.1, hp.2, .inl a1⟩)]
        unfold tailValue pick
        rw [if_pos a1, if_pos (show _ ∈ far from a1)]
      · by_cases a2 : 3 < |stretch p.1 p.2 * (2 * p.2 - 1)|
        · rw [indicator_of_mem (show p ∈ accept from ⟨hp.1, hp.2, .inr a2⟩)]
          unfold tailValue pick
          rw [if_neg a1, if_neg (show _ ∉ far from a1), if_pos (show _ ∈ far from a2)]
        · rw [indicator_of_notMem]
          · unfold pick
            rw [if_neg (show _ ∉ far from a1), if_neg (show _ ∉ far from a2)]
          rintro ⟨-, -, h | h⟩
          · exact a1 h
          · exact a2 h
    · rw [if_neg hp, indicator_of_notMem]
      rintro ⟨h1, h2, -⟩
      exact hp ⟨h1, h2⟩

end Verif.TailLaw
