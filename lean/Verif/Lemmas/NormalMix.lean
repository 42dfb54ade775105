import Verif.Lemmas.NormalLaw
import Verif.Lemmas.ExpBound
import Mathlib.Probability.Distributions.Gaussian.Real
import Mathlib.Analysis.Real.Pi.Bounds

/-! Helper lemmas: the law of the normal sampler has a density close to the normal density. -/

namespace Verif.NormalLaw

open MeasureTheory Set ProbabilityTheory
open Verif.Iid Verif.UnifSum Verif.WedgeBound Verif.TailLaw Verif.Spec
open scoped ENNReal Real

/-! ### Integrals -/

/-- The integral of the bell curve from 0 to 3. -/
noncomputable def J : ℝ := ∫ x in (0 : ℝ)..3, bell x

theorem J_bounds : 1.2499304447415 ≤ J ∧ J ≤ 1.2499304447416 := ExpBound.integral_bounds

theorem near_eq : farᶜ = Icc (-3 : ℝ) 3 := by
  ext x
  simp only [far, mem_compl_iff, mem_ofPred_eq, not_lt, mem_Icc, abs_le]

theorem integral_near {f : ℝ → ℝ} : ∫ x in farᶜ, f x = ∫ x in (-3 : ℝ)..3, f x := by
  rw [near_eq, integral_Icc_eq_integral_Ioc, intervalIntegral.integral_of_le (by norm_num)]

theorem bell_neg (x : ℝ) : bell (-x) = bell x := by unfold bell; rw [neg_sq]

theorem integral_bell_near : ∫ x in farᶜ, bell x = 2 * J := by
  have hc : Continuous bell := by unfold bell; fun_prop
  rw [integral_near, ← intervalIntegral.integral_add_adjacent_intervals (b := 0)
    (hc.intervalIntegrable _ _) (hc.intervalIntegrable _ _)]
  have h := intervalIntegral.integral_comp_neg (a := 0) (b := 3) bell
  simp only [bell_neg, neg_zero] at h
  rw [← h]
  unfold J
  ring

theorem integral_bell : ∫ x, bell x = √(2 * π) := by
  have h := integral_gaussian (1 / 2)
  have e : (fun x : ℝ => Real.exp (-(1 / 2) * x ^ 2)) = bell := by
    funext x
    unfold bell
    congr 1
    ring
  rw [e] at h
  rw [h]
  congr 1
  ring

theorem integral_bell_far : ∫ x in far, bell x = √(2 * π) - 2 * J := by
  have h := integral_add_compl (μ := volume) measurableSet_far integrable_bell
  rw [integral_bell_near, integral_bell] at h
  linarith

theorem mass_far : mass far = ENNReal.ofReal (√(2 * π) - 2 * J) := by
  rw [← integral_bell_far, ofReal_integral_eq_lintegral_ofReal integrable_bell.integrableOn
    (Filter.Eventually.of_forall fun x => (bell_pos x).le)]
  rfl

theorem lintegral_f3 : ∫⁻ x, ENNReal.ofReal (f3 x) = 1 := by
  have h := branch1 (F := fun _ _ => 1) measurable_const
  simpa using h.symm

theorem lintegral_f2 : ∫⁻ x, ENNReal.ofReal (f2 x) = 1 := by
  have h := branch2 (F := fun _ _ => 1) measurable_const
  simpa using h.symm

theorem integrable_f3 : Integrable f3 := by
  refine ⟨measurable_f3.aestronglyMeasurable, ?_⟩
  rw [hasFiniteIntegral_iff_ofReal (Filter.Eventually.of_forall f3_nonneg), lintegral_f3]
  exact ENNReal.one_lt_top

theorem integrable_f2 : Integrable f2 := by
  refine ⟨measurable_f2.aestronglyMeasurable, ?_⟩
  rw [hasFiniteIntegral_iff_ofReal (Filter.Eventually.of_forall f2_nonneg), lintegral_f2]
  exact ENNReal.one_lt_top

theorem integral_f3 : ∫ x in farᶜ, f3 x = 1 := by
  have hz : ∀ x, x ∉ farᶜ → f3 x = 0 := fun x hx => f3_far (not_notMem.1 hx)
  rw [setIntegral_eq_integral_of_forall_compl_eq_zero hz,
    integral_eq_lintegral_of_nonneg_ae (Filter.Eventually.of_forall f3_nonneg)
      measurable_f3.aestronglyMeasurable, lintegral_f3]
  rfl

theorem integral_f2 : ∫ x in farᶜ, f2 x = 1 := by
  have hz : ∀ x, x ∉ farᶜ → f2 x = 0 := fun x hx => f2_far (not_notMem.1 hx)
  rw [setIntegral_eq_integral_of_forall_compl_eq_zero hz,
    integral_eq_lintegral_of_nonneg_ae (Filter.Eventually.of_forall f2_nonneg)
      measurable_f2.aestronglyMeasurable, lintegral_f2]
  rfl

/-- The integral of the density of the third branch. -/
noncomputable def G : ℝ := 17.49731196 * (2 * J) - 16 * 2.36785163 - 2.25 * 2.15787544

theorem G_bounds : 1.000000019885 ≤ G ∧ G ≤ 1.0000000199 := by
  obtain ⟨j1, j2⟩ := J_bounds
  unfold G
  constructor <;> norm_num at * <;> linarith

theorem integral_wedge : ∫ x in farᶜ, wedge x = G ∧ IntegrableOn wedge farᶜ := by
  have e : EqOn wedge (fun x => 17.49731196 * bell x - 16 * 2.36785163 * f3 x - 2.25 * 2.15787544 * f2 x)
      farᶜ := fun x hx => wedge_eq hx
  have i1 := (integrable_bell.const_mul 17.49731196).integrableOn (s := farᶜ)
  have i2 := (integrable_f3.const_mul (16 * 2.36785163)).integrableOn (s := farᶜ)
  have i3 := (integrable_f2.const_mul (2.25 * 2.15787544)).integrableOn (s := farᶜ)
  refine ⟨?_, ((i1.sub i2).sub i3).congr_fun e.symm measurableSet_far.compl⟩
  have h1 := integral_sub (i1.sub i2) i3
  have h2 := integral_sub i1 i2
  simp only [Pi.sub_apply] at h1
  rw [setIntegral_congr_fun measurableSet_far.compl e, h1, h2, integral_const_mul, integral_const_mul, integral_const_mul, integral_bell_near,
    integral_f3, integral_f2]
  unfold G
  ring

theorem wedge_nonneg {x : ℝ} (h : x ∉ far) : 0 ≤ wedge x := (wedge_bounds (not_lt.1 h)).1

theorem lintegral_wedge : ∫⁻ x in farᶜ, ENNReal.ofReal (wedge x) = ENNReal.ofReal G := by
  rw [← integral_wedge.1, ofReal_integral_eq_lintegral_ofReal integral_wedge.2]
  exact (ae_restrict_iff' measurableSet_far.compl).2
    (Filter.Eventually.of_forall fun x hx => wedge_nonneg hx)

theorem sqrt_bounds : 2.5066282746310005 ≤ √(2 * π) ∧ √(2 * π) ≤ 2.5066282746310006 := by
  have h1 := Real.pi_gt_d20
  have h2 := Real.pi_lt_d20
  constructor
  · refine Real.le_sqrt_of_sq_le ?_
    norm_num at *
    linarith
  · refine Real.sqrt_le_iff.2 ⟨by norm_num, ?_⟩
    norm_num at *
    linarith

theorem tail_pos : 0 < √(2 * π) - 2 * J := by
  have h1 := sqrt_bounds.1
  have h2 := J_bounds.2
  generalize √(2 * π) = S at *
  norm_num at *
  linarith

/-! ### The mixture -/

open Classical in
/-- The density of the numbers made. -/
noncomputable def dens (x : ℝ) : ℝ :=
  if x ∈ far then 0.0026997961 / (√(2 * π) - 2 * J) * bell x
  else 0.8638 * f3 x + 0.1107 * f2 x + 0.0228002039 / G * wedge x

theorem dens_near {x : ℝ} (h : x ∉ far) :
    dens x = 0.8638 * f3 x + 0.1107 * f2 x + 0.0228002039 / G * wedge x := by
  unfold dens; rw [if_neg h]

theorem dens_far {x : ℝ} (h : x ∈ far) :
    dens x = 0.0026997961 / (√(2 * π) - 2 * J) * bell x := by
  unfold dens; rw [if_pos h]

theorem measurable_dens : Measurable dens := by
  have h1 := measurable_bell
  have h2 := measurable_wedge
  have h3 := measurable_f3
  have h4 := measurable_f2
  unfold dens
  exact Measurable.ite measurableSet_far (h1.const_mul _)
    (((h3.const_mul _).add (h4.const_mul _)).add (h2.const_mul _))

theorem dens_bounds (x : ℝ) : (1 - 2e-8) * (bell x / √(2 * π)) ≤ dens x ∧
    dens x ≤ (1 + 2e-8) * (bell x / √(2 * π)) := by
  obtain ⟨s1, s2⟩ := sqrt_bounds
  obtain ⟨j1, j2⟩ := J_bounds
  obtain ⟨g1, g2⟩ := G_bounds
  have hb := bell_pos x
  have ht := tail_pos
  by_cases hx : x ∈ far
  · rw [dens_far hx]
    generalize √(2 * π) = S at *
    have hs : (0 : ℝ) < S := lt_of_lt_of_le (by norm_num) s1
    have e : ∀ q : ℝ, q * (bell x / S) = q / S * bell x := fun q => by ring
    rw [e, e]
    constructor
    · refine mul_le_mul_of_nonneg_right ?_ hb.le
      rw [div_le_div_iff₀ hs ht]
      norm_num at *
      linarith
    · refine mul_le_mul_of_nonneg_right ?_ hb.le
      rw [div_le_div_iff₀ ht hs]
      norm_num at *
      linarith
  · rw [dens_near hx]
    generalize √(2 * π) = S at *
    have hs : (0 : ℝ) < S := lt_of_lt_of_le (by norm_num) s1
    have hg : (0 : ℝ) < G := lt_of_lt_of_le (by norm_num) g1
    have hw := wedge_nonneg hx
    have w := wedge_eq hx
    have p3 := f3_nonneg x
    have p2 := f2_nonneg x
    have q3 : 16 * 2.36785163 * f3 x ≤ 17.49731196 * bell x := by
      norm_num at *; linarith
    have q2 : 2.25 * 2.15787544 * f2 x ≤ 17.49731196 * bell x := by
      norm_num at *; linarith
    have r1 : (0.0228002034462 : ℝ) ≤ 0.0228002039 / G := by
      rw [le_div_iff₀ hg]; norm_num at *; linarith
    have r2 : 0.0228002039 / G ≤ (0.0228002034467 : ℝ) := by
      rw [div_le_iff₀ hg]; norm_num at *; linarith
    have t1 : (0.39894228040143 : ℝ) * bell x ≤ bell x / S := by
      rw [le_div_iff₀ hs]; norm_num at *; nlinarith
    have t2 : bell x / S ≤ (0.39894228040144 : ℝ) * bell x := by
      rw [div_le_iff₀ hs]; norm_num at *; nlinarith
    rw [w]
    generalize 0.0228002039 / G = r at *
    generalize bell x / S = t at *
    generalize bell x = y at *
    generalize f3 x = z3 at *
    generalize f2 x = z2 at *
    have h3 := mul_le_mul_of_nonneg_right r1 hb.le
    have h3' := mul_le_mul_of_nonneg_right r2 hb.le
    have h4 := mul_le_mul_of_nonneg_right r1 p3
    have h4' := mul_le_mul_of_nonneg_right r2 p3
    have h5 := mul_le_mul_of_nonneg_right r1 p2
    have h5' := mul_le_mul_of_nonneg_right r2 p2
    rw [mul_sub, mul_sub, mul_left_comm r, mul_left_comm r (16 * 2.36785163), mul_left_comm r (2.25 * 2.15787544)]
    constructor <;> norm_num at * <;> linarith

theorem dens_nonneg (x : ℝ) : 0 ≤ dens x := by
  refine le_trans ?_ (dens_bounds x).1
  have := bell_pos x
  exact mul_nonneg (by norm_num) (by positivity)

/-- The law of the numbers made. -/
noncomputable def law : Measure ℝ := volume.withDensity fun x => ENNReal.ofReal (dens x)

theorem lintegral_Ico_split {a b c : ℝ} (h1 : a ≤ b) (h2 : b ≤ c) (f : ℝ → ℝ≥0∞) :
    ∫⁻ x in Ico a c, f x = (∫⁻ x in Ico a b, f x) + ∫⁻ x in Ico b c, f x := by
  rw [← Ico_union_Ico_eq_Ico h1 h2]
  exact lintegral_union measurableSet_Ico (by
    refine Set.disjoint_left.2 fun x hx hy => ?_
    exact absurd hx.2 (not_lt.2 hy.1))

theorem lintegral_steps (I1 I2 I3 I4 : ℝ≥0∞) :
    ∫⁻ a, (if a < 0.8638 then I1 else if a < 0.9745 then I2 else if a < 0.9973002039 then I3 else I4) ∂unif
      = ENNReal.ofReal 0.8638 * I1 + ENNReal.ofReal 0.1107 * I2 + ENNReal.ofReal 0.0228002039 * I3
        + ENNReal.ofReal 0.0026997961 * I4 := by
  unfold unif
  rw [lintegral_Ico_split (b := 0.9973002039) (by norm_num) (by norm_num),
    lintegral_Ico_split (b := 0.9745) (c := 0.9973002039) (by norm_num) (by norm_num),
    lintegral_Ico_split (b := 0.8638) (c := 0.9745) (by norm_num) (by norm_num)]
  have h1 : ∀ a ∈ Ico (0 : ℝ) 0.8638, (if a < 0.8638 then I1 else if a < 0.9745 then I2
      else if a < 0.9973002039 then I3 else I4) = I1 := fun a ha => if_pos ha.2
  have h2 : ∀ a ∈ Ico (0.8638 : ℝ) 0.9745, (if a < 0.8638 then I1 else if a < 0.9745 then I2
      else if a < 0.9973002039 then I3 else I4) = I2 := fun a ha => by
    rw [if_neg (not_lt.2 ha.1), if_pos ha.2]
  have h3 : ∀ a ∈ Ico (0.9745 : ℝ) 0.9973002039, (if a < 0.8638 then I1 else if a < 0.9745 then I2
      else if a < 0.9973002039 then I3 else I4) = I3 := fun a ha => by
    rw [if_neg (not_lt.2 (le_trans (by norm_num) ha.1)), if_neg (not_lt.2 ha.1), if_pos ha.2]
  have h4 : ∀ a ∈ Ico (0.9973002039 : ℝ) 1, (if a < 0.8638 then I1 else if a < 0.9745 then I2
      else if a < 0.9973002039 then I3 else I4) = I4 := fun a ha => by
    rw [if_neg (not_lt.2 (le_trans (by norm_num) ha.1)), if_neg (not_lt.2 (le_trans (by norm_num) ha.1)),
      if_neg (not_lt.2 ha.1)]
  rw [setLIntegral_congr_fun measurableSet_Ico h1, setLIntegral_congr_fun measurableSet_Ico h2,
    setLIntegral_congr_fun measurableSet_Ico h3, setLIntegral_congr_fun measurableSet_Ico h4]
  simp only [setLIntegral_const, Real.volume_Ico]
  rw [mul_comm I1, mul_comm I2, mul_comm I3, mul_comm I4]
  norm_num

section
variable {F : ℝ → (ℕ → ℝ) → ℝ≥0∞} (hF : Measurable (Function.uncurry F))
include hF

theorem branch3 : ∫⁻ r, F (loop wedgeAcc (fun p => 6 * p.1 - 3) r).1
      (loop wedgeAcc (fun p => 6 * p.1 - 3) r).2 ∂seq unif
    = (ENNReal.ofReal G)⁻¹ * ∫⁻ x in farᶜ, (∫⁻ r, F x r ∂seq unif) * ENNReal.ofReal (wedge x) := by
  have hG : 0 < G := lt_of_lt_of_le (by norm_num) G_bounds.1
  have k0 : ENNReal.ofReal (1 / (6 * 0.358)) ≠ 0 := by
    rw [ne_eq, ENNReal.ofReal_eq_zero, not_le]; norm_num
  have hm := wedge_law (F := fun _ => 1) measurable_const
  simp only [one_mul, setLIntegral_one, lintegral_wedge] at hm
  have hp : unif.prod unif wedgeAcc ≠ 0 := by
    rw [hm]
    exact mul_ne_zero k0 (by rw [ne_eq, ENNReal.ofReal_eq_zero, not_le]; exact hG)
  rw [lintegral_loop unif measurableSet_wedgeAcc hp (by fun_prop) hF,
    wedge_law (F := fun x => ∫⁻ r, F x r ∂seq unif) (measurable_inner hF), hm,
    ENNReal.mul_inv (.inl k0) (.inl ENNReal.ofReal_ne_top), mul_comm (ENNReal.ofReal (1 / (6 * 0.358)))⁻¹,
    mul_assoc, ← mul_assoc (ENNReal.ofReal (1 / (6 * 0.358)))⁻¹, ENNReal.inv_mul_cancel k0
    ENNReal.ofReal_ne_top, one_mul]

theorem branch4 : ∫⁻ r, F (loop accept (fun p => tailValue p.1 p.2) r).1
      (loop accept (fun p => tailValue p.1 p.2) r).2 ∂seq unif
    = (mass far)⁻¹ * ∫⁻ x in far, (∫⁻ r, F x r ∂seq unif) * ENNReal.ofReal (bell x) := by
  obtain ⟨K, k0, k1, hA, hV, hK⟩ := tail_law
  have hm := hK (fun _ => 1) measurable_const
  simp only [one_mul, setLIntegral_one] at hm
  have hm' : unif.prod unif accept = K * mass far := hm
  have hp : unif.prod unif accept ≠ 0 := by
    rw [hm', mass_far]
    exact mul_ne_zero k0 (by rw [ne_eq, ENNReal.ofReal_eq_zero, not_le]; exact tail_pos)
  rw [lintegral_loop unif hA hp hV hF, hK _ (measurable_inner hF), hm',
    ENNReal.mul_inv (.inl k0) (.inl k1), mul_comm K⁻¹,
    mul_assoc, ← mul_assoc K⁻¹, ENNReal.inv_mul_cancel k0 k1, one_mul]

end

open Classical in
/-- What follows the choice of the branch. -/
noncomputable def pick (a : ℝ) (r : ℕ → ℝ) : ℝ × (ℕ → ℝ) :=
  if a < 0.8638 then (2 * (r 0 + r 1 + r 2) - 3, shift 3 r)
  else if a < 0.9745 then (1.5 * (r 0 + r 1 - 1), shift 2 r)
  else if a < 0.9973002039 then loop wedgeAcc (fun p => 6 * p.1 - 3) r
  else loop accept (fun p => tailValue p.1 p.2) r

theorem prog_eq (u : ℕ → ℝ) : prog u = pick (u 0) (shift 1 u) := rfl

theorem measurable_pick : Measurable (Function.uncurry pick) := by
  obtain ⟨K, k0, k1, hA, hV, hK⟩ := tail_law
  have hc : ∀ c : ℝ, MeasurableSet {p : ℝ × (ℕ → ℝ) | p.1 < c} := fun c =>
    measurableSet_lt measurable_fst measurable_const
  have m3 : Measurable (shift (X := ℝ) 3) := measurable_shift 3
  have m2 : Measurable (shift (X := ℝ) 2) := measurable_shift 2
  refine Measurable.ite (hc _) (Measurable.prodMk (by fun_prop) (by fun_prop))
    (Measurable.ite (hc _) (Measurable.prodMk (by fun_prop) (by fun_prop))
    (Measurable.ite (hc _) ?_ ?_))
  · exact (measurable_loop measurableSet_wedgeAcc (by fun_prop)).comp measurable_snd
  · exact (measurable_loop hA hV).comp measurable_snd

theorem lintegral_pick {F : ℝ → (ℕ → ℝ) → ℝ≥0∞} (hF : Measurable (Function.uncurry F)) (a : ℝ) :
    ∫⁻ r, F (pick a r).1 (pick a r).2 ∂seq unif
      = if a < 0.8638 then ∫⁻ x, (∫⁻ r, F x r ∂seq unif) * ENNReal.ofReal (f3 x)
        else if a < 0.9745 then ∫⁻ x, (∫⁻ r, F x r ∂seq unif) * ENNReal.ofReal (f2 x)
        else if a < 0.9973002039 then
          (ENNReal.ofReal G)⁻¹ * ∫⁻ x in farᶜ, (∫⁻ r, F x r ∂seq unif) * ENNReal.ofReal (wedge x)
        else (mass far)⁻¹ * ∫⁻ x in far, (∫⁻ r, F x r ∂seq unif) * ENNReal.ofReal (bell x) := by
  rw [← branch1 hF, ← branch2 hF, ← branch3 hF, ← branch4 hF]
  unfold pick
  split_ifs <;> rfl

theorem lintegral_near {f : ℝ → ℝ≥0∞} (h : ∀ x ∈ far, f x = 0) : ∫⁻ x, f x = ∫⁻ x in farᶜ, f x := by
  rw [← lintegral_add_compl f measurableSet_far, setLIntegral_congr_fun measurableSet_far h]
  simp

theorem mix {Φ : ℝ → ℝ≥0∞} (hΦ : Measurable Φ) :
    ENNReal.ofReal 0.8638 * (∫⁻ x, Φ x * ENNReal.ofReal (f3 x))
      + ENNReal.ofReal 0.1107 * (∫⁻ x, Φ x * ENNReal.ofReal (f2 x))
      + ENNReal.ofReal 0.0228002039 * ((ENNReal.ofReal G)⁻¹ * ∫⁻ x in farᶜ, Φ x * ENNReal.ofReal (wedge x))
      + ENNReal.ofReal 0.0026997961 * ((mass far)⁻¹ * ∫⁻ x in far, Φ x * ENNReal.ofReal (bell x))
      = ∫⁻ x, Φ x ∂law := by
  have hG : 0 < G := lt_of_lt_of_le (by norm_num) G_bounds.1
  have m3 : Measurable fun x => ENNReal.ofReal (f3 x) := ENNReal.measurable_ofReal.comp measurable_f3
  have m2 : Measurable fun x => ENNReal.ofReal (f2 x) := ENNReal.measurable_ofReal.comp measurable_f2
  have mw : Measurable fun x => ENNReal.ofReal (wedge x) := ENNReal.measurable_ofReal.comp measurable_wedge
  have mb : Measurable fun x => ENNReal.ofReal (bell x) := ENNReal.measurable_ofReal.comp measurable_bell
  have md : Measurable fun x => ENNReal.ofReal (dens x) := ENNReal.measurable_ofReal.comp measurable_dens
  have n3 : Measurable fun x => Φ x * ENNReal.ofReal (f3 x) := hΦ.mul m3
  have n2 : Measurable fun x => Φ x * ENNReal.ofReal (f2 x) := hΦ.mul m2
  have nw : Measurable fun x => Φ x * ENNReal.ofReal (wedge x) := hΦ.mul mw
  have nb : Measurable fun x => Φ x * ENNReal.ofReal (bell x) := hΦ.mul mb
  have e : ∫⁻ x, Φ x ∂law = ∫⁻ x, Φ x * ENNReal.ofReal (dens x) := by
    unfold law
    rw [lintegral_withDensity_eq_lintegral_mul _ md hΦ]
    exact lintegral_congr fun x => mul_comm _ _
  rw [e, ← lintegral_add_compl (fun x => Φ x * ENNReal.ofReal (dens x)) measurableSet_far,
    lintegral_near (f := fun x => Φ x * ENNReal.ofReal (f3 x)) (fun x hx => by
      rw [f3_far hx, ENNReal.ofReal_zero, mul_zero]),
    lintegral_near (f := fun x => Φ x * ENNReal.ofReal (f2 x)) (fun x hx => by
      rw [f2_far hx, ENNReal.ofReal_zero, mul_zero]), add_comm (∫⁻ x in far, _)]
  congr 1
  · rw [← mul_assoc, ← ENNReal.ofReal_inv_of_pos hG, ← ENNReal.ofReal_mul (by norm_num),
      ← lintegral_const_mul _ n3, ← lintegral_const_mul _ n2,
      ← lintegral_const_mul _ nw, ← lintegral_add_left (n3.const_mul _),
      ← lintegral_add_left (f := fun x => ENNReal.ofReal 0.8638 * (Φ x * ENNReal.ofReal (f3 x)) +
        ENNReal.ofReal 0.1107 * (Φ x * ENNReal.ofReal (f2 x))) ((n3.const_mul _).add (n2.const_mul _))]
    refine setLIntegral_congr_fun measurableSet_far.compl fun x hx => ?_
    have a1 := f3_nonneg x
    have a2 := f2_nonneg x
    have a3 := wedge_nonneg hx
    have e9 : ENNReal.ofReal (0.0228002039 / G * wedge x)
        = ENNReal.ofReal 0.0228002039 * ENNReal.ofReal G⁻¹ * ENNReal.ofReal (wedge x) := by
      rw [ENNReal.ofReal_mul (by positivity), div_eq_mul_inv, ENNReal.ofReal_mul (by norm_num)]
    rw [dens_near hx, ENNReal.ofReal_add (by positivity) (by positivity),
      ENNReal.ofReal_add (by positivity) (by positivity), ENNReal.ofReal_mul (by norm_num),
      ENNReal.ofReal_mul (by norm_num), e9, ENNReal.ofReal_mul (p := 0.1107) (by norm_num)]
    ring
  · rw [mass_far, ← mul_assoc, ← ENNReal.ofReal_inv_of_pos tail_pos, ← ENNReal.ofReal_mul (by norm_num),
      ← lintegral_const_mul _ nb]
    refine setLIntegral_congr_fun measurableSet_far fun x hx => ?_
    rw [dens_far hx, ENNReal.ofReal_mul (div_nonneg (by norm_num) tail_pos.le), ← div_eq_mul_inv]
    ring

/-- From independent uniform numbers the sampler makes a number of this law, independent of the
uniform numbers left. -/
theorem fresh : Fresh unif prog law where
  measurable := measurable_pick.comp ((measurable_pi_apply 0).prodMk (measurable_shift 1))
  law := fun F hF => by
    simp only [prog_eq]
    have h := lintegral_cons unif (F := fun a r => F (pick a r).1 (pick a r).2) (hF.comp measurable_pick)
    rw [h]
    simp only [lintegral_pick hF]
    rw [lintegral_steps, mix (measurable_inner hF)]

instance : IsProbabilityMeasure law := ⟨by
  have h := fresh.law (F := fun _ _ => 1) measurable_const
  simpa using h.symm⟩

/-! ### Comparison with the normal law -/

theorem gaussianPDF_eq (x : ℝ) : gaussianPDF 0 1 x = ENNReal.ofReal (bell x / √(2 * π)) := by
  unfold gaussianPDF gaussianPDFReal bell
  rw [NNReal.coe_one, mul_one, sub_zero, mul_one, neg_div]
  congr 1
  ring

theorem law_le : law ≤ ENNReal.ofReal (1 + 2e-8) • gaussianReal 0 1 := by
  rw [gaussianReal_of_var_ne_zero _ one_ne_zero, ← withDensity_smul _ (measurable_gaussianPDF 0 1)]
  refine withDensity_mono (Filter.Eventually.of_forall fun x => ?_)
  rw [Pi.smul_apply, smul_eq_mul, gaussianPDF_eq, ← ENNReal.ofReal_mul (by norm_num)]
  exact ENNReal.ofReal_le_ofReal (dens_bounds x).2

theorem le_law : ENNReal.ofReal (1 - 2e-8) • gaussianReal 0 1 ≤ law := by
  rw [gaussianReal_of_var_ne_zero _ one_ne_zero, ← withDensity_smul _ (measurable_gaussianPDF 0 1)]
  refine withDensity_mono (Filter.Eventually.of_forall fun x => ?_)
  rw [Pi.smul_apply, smul_eq_mul, gaussianPDF_eq, ← ENNReal.ofReal_mul (by norm_num)]
  exact ENNReal.ofReal_le_ofReal (dens_bounds x).1

theorem dens_neg (x : ℝ) : dens (-x) = dens x := by
  have hf : -x ∈ far ↔ x ∈ far := by simp [far]
  by_cases h : x ∈ far
  · rw [dens_far h, dens_far (hf.2 h), bell_neg]
  · rw [dens_near h, dens_near fun hc => h (hf.1 hc), wedge_neg, f3_eq, f2_eq, f3_eq, f2_eq, abs_neg,
      neg_sq]

theorem law_neg : law.map (fun x => -x) = law := by
  refine Measure.ext_of_lintegral _ fun f hf => ?_
  rw [lintegral_map hf measurable_neg]
  have md : Measurable fun x => ENNReal.ofReal (dens x) := ENNReal.measurable_ofReal.comp measurable_dens
  unfold law
  rw [lintegral_withDensity_eq_lintegral_mul _ md (show Measurable fun x => f (-x) from
    hf.comp measurable_neg),
    lintegral_withDensity_eq_lintegral_mul _ md hf, ← lintegral_neg_eq_self]
  refine lintegral_congr fun x => ?_
  simp only [Pi.mul_apply, neg_neg, dens_neg]

section
variable {ν : Measure ℝ} (hu : ν ≤ ENNReal.ofReal (1 + 2e-8) • gaussianReal 0 1)
include hu

theorem integrable_near {f : ℝ → ℝ} (h : Integrable f (gaussianReal 0 1)) : Integrable f ν :=
  (h.smul_measure ENNReal.ofReal_ne_top).mono_measure hu

theorem integral_near_bounds (hl : ENNReal.ofReal (1 - 2e-8) • gaussianReal 0 1 ≤ ν) {f : ℝ → ℝ}
    (h : Integrable f (gaussianReal 0 1)) (h0 : ∀ x, 0 ≤ f x) :
    (1 - 2e-8) * ∫ x, f x ∂gaussianReal 0 1 ≤ ∫ x, f x ∂ν ∧
      ∫ x, f x ∂ν ≤ (1 + 2e-8) * ∫ x, f x ∂gaussianReal 0 1 := by
  have h1 := integral_mono_measure hu (Filter.Eventually.of_forall h0)
    (h.smul_measure ENNReal.ofReal_ne_top)
  have h2 := integral_mono_measure hl (Filter.Eventually.of_forall h0) (integrable_near hu h)
  rw [integral_smul_measure, ENNReal.toReal_ofReal (by norm_num), smul_eq_mul] at h1 h2
  exact ⟨h2, h1⟩

end

theorem mean_symm {ν : Measure ℝ} (hs : ν.map (fun x => -x) = ν) : ∫ x, x ∂ν = 0 := by
  have h : ∫ x, x ∂ν = ∫ x, -x ∂ν := by
    conv_lhs => rw [← hs]
    rw [integral_map (by fun_prop) (by fun_prop)]
  rw [integral_neg] at h
  linarith

theorem integrable_pow (n : ℕ) : Integrable (fun x : ℝ => x ^ n) (gaussianReal 0 1) := by
  have := (memLp_id_gaussianReal (μ := 0) (v := 1) n).integrable_norm_pow'
  refine this.mono (by fun_prop) (Filter.Eventually.of_forall fun x => ?_)
  simp

theorem second_gaussian : ∫ x, x ^ 2 ∂gaussianReal 0 1 = 1 := by
  have := variance_id_gaussianReal (μ := 0) (v := 1)
  rw [variance_eq_integral (by fun_prop)] at this
  simpa using this

theorem law_far : law far = ENNReal.ofReal 0.0026997961 := by
  have h : law far = ENNReal.ofReal (0.0026997961 / (√(2 * π) - 2 * J)) * mass far := by
    unfold law mass
    rw [withDensity_apply _ measurableSet_far, ← lintegral_const_mul' _ _ ENNReal.ofReal_ne_top]
    refine setLIntegral_congr_fun measurableSet_far fun x hx => ?_
    rw [dens_far hx, ENNReal.ofReal_mul (div_nonneg (by norm_num) tail_pos.le)]
  rw [h, mass_far, ← ENNReal.ofReal_mul (div_nonneg (by norm_num) tail_pos.le),
    div_mul_cancel₀ _ tail_pos.ne']

theorem gaussian_far : gaussianReal 0 1 far < ENNReal.ofReal 0.0026997961 := by
  have h : gaussianReal 0 1 far = ENNReal.ofReal (√(2 * π))⁻¹ * mass far := by
    unfold mass
    rw [gaussianReal_of_var_ne_zero _ one_ne_zero, withDensity_apply _ measurableSet_far,
      ← lintegral_const_mul' _ _ ENNReal.ofReal_ne_top]
    refine lintegral_congr fun x => ?_
    rw [gaussianPDF_eq, ← ENNReal.ofReal_mul (by positivity), div_eq_inv_mul]
  obtain ⟨s1, s2⟩ := sqrt_bounds
  obtain ⟨j1, j2⟩ := J_bounds
  rw [h, mass_far, ← ENNReal.ofReal_mul (by positivity), ENNReal.ofReal_lt_ofReal_iff (by norm_num)]
  generalize √(2 * π) = S at *
  have hs : (0 : ℝ) < S := lt_of_lt_of_le (by norm_num) s1
  rw [inv_mul_lt_iff₀ hs]
  norm_num at *
  linarith

end Verif.NormalLaw
