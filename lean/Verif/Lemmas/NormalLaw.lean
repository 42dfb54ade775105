import Verif.Lemmas.Iid
import Verif.Lemmas.TailLaw

/-! Helper lemmas: the law of what the normal sampler makes from independent uniform numbers. -/

namespace Verif.NormalLaw

open MeasureTheory Set
open Verif.Iid Verif.UnifSum Verif.WedgeBound Verif.TailLaw Verif.Spec
open scoped ENNReal

/-! ### The sampler as a function of the uniform numbers -/

/-- Pairs accepted by the third branch. -/
def wedgeAcc : Set (ℝ × ℝ) := {p | 0.358 * p.2 ≤ wedge (6 * p.1 - 3)}

open Classical in
noncomputable def prog (u : ℕ → ℝ) : ℝ × (ℕ → ℝ) :=
  if u 0 < 0.8638 then (2 * (u 1 + u 2 + u 3) - 3, shift 4 u)
  else if u 0 < 0.9745 then (1.5 * (u 1 + u 2 - 1), shift 3 u)
  else if u 0 < 0.9973002039 then loop wedgeAcc (fun p => 6 * p.1 - 3) (shift 1 u)
  else loop accept (fun p => tailValue p.1 p.2) (shift 1 u)

theorem measurable_wedge : Measurable wedge := by
  unfold wedge
  have habs : Measurable fun x : ℝ => |x| := measurable_norm
  refine (Measurable.sub (by fun_prop) (Measurable.ite (measurableSet_lt habs measurable_const)
    (by fun_prop) ?_)).sub (Measurable.ite (measurableSet_lt habs measurable_const) ?_ measurable_const)
  · exact ((measurable_const.sub habs).pow_const 2).const_mul _
  · exact (measurable_const.sub habs).const_mul _

theorem measurableSet_wedgeAcc : MeasurableSet wedgeAcc :=
  measurableSet_le (measurable_snd.const_mul _) (measurable_wedge.comp (by fun_prop))

/-! ### Densities -/

/-- Density of the first branch. -/
noncomputable def f3 (x : ℝ) : ℝ := quad ((x + 3) / 2) / 2

/-- Density of the second branch. -/
noncomputable def f2 (x : ℝ) : ℝ := tri (2 / 3 * x + 1) * (2 / 3)

theorem f3_eq (x : ℝ) : f3 x = if |x| < 1 then (3 - x ^ 2) / 8 else if |x| < 3 then (3 - |x|) ^ 2 / 16
    else 0 := by
  unfold f3 quad
  rcases le_total x (-3) with h | h
  · have : |x| = -x := abs_of_nonpos (by linarith)
    rw [pp_of_nonpos (by linarith), pp_of_nonpos (by linarith), pp_of_nonpos (by linarith),
      pp_of_nonpos (by linarith), if_neg (by rw [this]; linarith), if_neg (by rw [this]; linarith)]
    norm_num
  rcases le_total x (-1) with h1 | h1
  · have e : |x| = -x := abs_of_nonpos (by linarith)
    rw [pp_of_nonneg (by linarith), pp_of_nonpos (by linarith), pp_of_nonpos (by linarith),
      pp_of_nonpos (by linarith), if_neg (by rw [e]; linarith), e]
    rcases eq_or_lt_of_le h with rfl | h2
    · norm_num
    · rw [if_pos (by linarith)]; ring
  rcases le_total x 1 with h2 | h2
  · rw [pp_of_nonneg (by linarith), pp_of_nonneg (by linarith), pp_of_nonpos (by linarith),
      pp_of_nonpos (by linarith)]
    split_ifs with g1 g2
    · ring
    · have : |x| = 1 := le_antisymm (abs_le.2 ⟨h1, h2⟩) (not_lt.1 g1)
      have hx : x ^ 2 = 1 := by rw [← sq_abs, this]; norm_num
      rw [this]; nlinarith
    · exact absurd (abs_le.2 ⟨h1, h2⟩) (by linarith)
  rcases le_total x 3 with h3 | h3
  · have e : |x| = x := abs_of_nonneg (by linarith)
    rw [pp_of_nonneg (by linarith), pp_of_nonneg (by linarith), pp_of_nonneg (by linarith),
      pp_of_nonpos (by linarith), e, if_neg (by linarith)]
    rcases eq_or_lt_of_le h3 with rfl | h4
    · norm_num
    · rw [if_pos h4]; ring
  · have e : |x| = x := abs_of_nonneg (by linarith)
    rw [pp_of_nonneg (by linarith), pp_of_nonneg (by linarith), pp_of_nonneg (by linarith),
      pp_of_nonneg (by linarith), e, if_neg (by linarith), if_neg (by linarith)]
    ring

theorem f2_eq (x : ℝ) : f2 x = if |x| < 1.5 then (1.5 - |x|) / 2.25 else 0 := by
  rw [show (1.5 : ℝ) = 3 / 2 by norm_num, show (2.25 : ℝ) = 9 / 4 by norm_num]
  unfold f2 tri
  rcases le_total x (-(3 / 2)) with h | h
  · have : |x| = -x := abs_of_nonpos (by linarith)
    rw [pp_of_nonpos (by linarith), pp_of_nonpos (by linarith), pp_of_nonpos (by linarith),
      if_neg (by rw [this]; linarith)]
    norm_num
  rcases le_total x 0 with h1 | h1
  · have e : |x| = -x := abs_of_nonpos (by linarith)
    rw [pp_of_nonneg (by linarith), pp_of_nonpos (by linarith), pp_of_nonpos (by linarith), e]
    rcases eq_or_lt_of_le h with rfl | h2
    · norm_num
    · rw [if_pos (by linarith)]; ring
  rcases le_total x (3 / 2) with h2 | h2
  · have e : |x| = x := abs_of_nonneg (by linarith)
    rw [pp_of_nonneg (by linarith), pp_of_nonneg (by linarith), pp_of_nonpos (by linarith), e]
    rcases eq_or_lt_of_le h2 with rfl | h3
    · norm_num
    · rw [if_pos (by linarith)]; ring
  · have e : |x| = x := abs_of_nonneg (by linarith)
    rw [pp_of_nonneg (by linarith), pp_of_nonneg (by linarith), pp_of_nonneg (by linarith), e,
      if_neg (by linarith)]
    ring

theorem f3_nonneg (x : ℝ) : 0 ≤ f3 x := by
  rw [f3_eq]
  split_ifs with h
  · have : x ^ 2 < 1 := by rw [← sq_abs]; nlinarith [abs_nonneg x]
    linarith
  · positivity
  · exact le_rfl

theorem f2_nonneg (x : ℝ) : 0 ≤ f2 x := by
  rw [f2_eq]
  split_ifs with h
  · exact div_nonneg (by linarith) (by norm_num)
  · exact le_rfl

theorem measurable_f3 : Measurable f3 := by
  have : Measurable pp := continuous_pp.measurable
  unfold f3 quad
  fun_prop

theorem measurable_f2 : Measurable f2 := by
  have : Measurable pp := continuous_pp.measurable
  unfold f2 tri
  fun_prop

theorem f3_far {x : ℝ} (h : x ∈ far) : f3 x = 0 := by
  have h' : 3 < |x| := h
  rw [f3_eq, if_neg (by linarith), if_neg (by linarith)]

theorem f2_far {x : ℝ} (h : x ∈ far) : f2 x = 0 := by
  have h' : 3 < |x| := h
  rw [f2_eq, if_neg (by linarith)]

/-- The third branch fills up what the first two leave of the bell curve. -/
theorem wedge_eq {x : ℝ} (h : x ∉ far) :
    wedge x = 17.49731196 * bell x - 16 * 2.36785163 * f3 x - 2.25 * 2.15787544 * f2 x := by
  have h' : |x| ≤ 3 := not_lt.1 h
  have hb : Real.exp (-(x ^ 2) / 2) = bell x := by unfold bell; congr 1; ring
  unfold wedge
  rw [f3_eq, f2_eq, hb]
  have e2 : (if |x| < 1.5 then 2.15787544 * (1.5 - |x|) else 0)
      = 2.25 * 2.15787544 * (if |x| < 1.5 then (1.5 - |x|) / 2.25 else 0) := by
    split_ifs <;> ring
  have e3 : (if |x| < 1 then 2 * 2.36785163 * (3 - x ^ 2) else 2.36785163 * (3 - |x|) ^ 2)
      = 16 * 2.36785163 * (if |x| < 1 then (3 - x ^ 2) / 8 else if |x| < 3 then (3 - |x|) ^ 2 / 16
        else 0) := by
    split_ifs with g1 g2
    · ring
    · ring
    · have : |x| = 3 := le_antisymm h' (not_lt.1 g2)
      rw [this]; norm_num
  rw [e2, e3]

/-! ### The branches -/

section
variable {F : ℝ → (ℕ → ℝ) → ℝ≥0∞} (hF : Measurable (Function.uncurry F))
include hF

theorem measurable_inner : Measurable fun x => ∫⁻ r, F x r ∂seq unif := hF.lintegral_prod_right'

theorem branch1 : ∫⁻ r, F (2 * (r 0 + r 1 + r 2) - 3) (shift 3 r) ∂seq unif
    = ∫⁻ x, (∫⁻ r, F x r ∂seq unif) * ENNReal.ofReal (f3 x) := by
  have hm := measurable_inner hF
  have m : Measurable fun q : ℝ × ℝ × ℝ × (ℕ → ℝ) => F (2 * (q.1 + q.2.1 + q.2.2.1) - 3) q.2.2.2 :=
    hF.comp (Measurable.prodMk (by fun_prop) (by fun_prop))
  have ms : ∀ i, Measurable (shift (X := ℝ) i) := measurable_shift
  have h1 := lintegral_cons unif (F := fun a r => F (2 * (a + r 0 + r 1) - 3) (shift 2 r))
    (hF.comp (Measurable.prodMk (by fun_prop) ((ms 2).comp measurable_snd)))
  have h2 : ∀ a, _ := fun a => lintegral_cons unif (F := fun b r => F (2 * (a + b + r 0) - 3) (shift 1 r))
    (hF.comp (Measurable.prodMk (by fun_prop) ((ms 1).comp measurable_snd)))
  have h3 : ∀ a b, _ := fun a b => lintegral_cons unif (F := fun c r => F (2 * (a + b + c) - 3) r)
    (hF.comp (Measurable.prodMk (by fun_prop) measurable_snd))
  have e1 : (fun r : ℕ → ℝ => F (2 * (r 0 + r 1 + r 2) - 3) (shift 3 r))
      = fun u => F (2 * (u 0 + (shift 1 u) 0 + (shift 1 u) 1) - 3) (shift 2 (shift 1 u)) := rfl
  have e2 : ∀ a, (fun r : ℕ → ℝ => F (2 * (a + r 0 + r 1) - 3) (shift 2 r))
      = fun u => F (2 * (a + u 0 + (shift 1 u) 0) - 3) (shift 1 (shift 1 u)) := fun _ => rfl
  rw [e1, h1]
  simp only [e2, h2, h3]
  rw [lintegral_sum3 (F := fun y => ∫⁻ r, F (2 * y - 3) r ∂seq unif) (hm.comp (by fun_prop))]
  have h4 := lintegral_affine (a := 2) (by norm_num) (-3)
    (F := fun x => (∫⁻ r, F x r ∂seq unif) * ENNReal.ofReal (quad ((x + 3) / 2)))
    (hm.mul (ENNReal.measurable_ofReal.comp (by
      have : Measurable pp := continuous_pp.measurable
      unfold quad; fun_prop)))
  have e4 : ∀ y : ℝ, (2 * y + -3 + 3) / 2 = y := fun y => by ring
  simp only [e4] at h4
  have e5 : (fun y : ℝ => (∫⁻ r, F (2 * y - 3) r ∂seq unif) * ENNReal.ofReal (quad y))
      = fun y => (∫⁻ r, F (2 * y + -3) r ∂seq unif) * ENNReal.ofReal (quad y) := rfl
  rw [e5, h4, ← lintegral_const_mul' _ _ ENNReal.ofReal_ne_top]
  refine lintegral_congr fun x => ?_
  unfold f3
  rw [mul_left_comm, ← ENNReal.ofReal_mul (abs_nonneg _)]
  congr 2
  rw [abs_of_pos (by norm_num)]
  ring

theorem branch2 : ∫⁻ r, F (1.5 * (r 0 + r 1 - 1)) (shift 2 r) ∂seq unif
    = ∫⁻ x, (∫⁻ r, F x r ∂seq unif) * ENNReal.ofReal (f2 x) := by
  have hm := measurable_inner hF
  have h1 := lintegral_cons2 unif (F := fun p r => F (1.5 * (p.1 + p.2 - 1)) r)
    (hF.comp (Measurable.prodMk (by fun_prop) measurable_snd))
  rw [h1, lintegral_prod _ (Measurable.aemeasurable (show Measurable fun p : ℝ × ℝ =>
    ∫⁻ r, F (1.5 * (p.1 + p.2 - 1)) r ∂seq unif from hm.comp (by fun_prop)))]
  simp only
  rw [lintegral_sum2 (F := fun y => ∫⁻ r, F (1.5 * (y - 1)) r ∂seq unif) (hm.comp (by fun_prop))]
  have h4 := lintegral_affine (a := 3 / 2) (by norm_num) (-(3 / 2))
    (F := fun x => (∫⁻ r, F x r ∂seq unif) * ENNReal.ofReal (tri (2 / 3 * x + 1)))
    (hm.mul (ENNReal.measurable_ofReal.comp (by
      have : Measurable pp := continuous_pp.measurable
      unfold tri; fun_prop)))
  have e4 : ∀ y : ℝ, 2 / 3 * (3 / 2 * y + -(3 / 2)) + 1 = y := fun y => by ring
  have e5 : ∀ y : ℝ, 1.5 * (y - 1) = 3 / 2 * y + -(3 / 2) := fun y => by norm_num; ring
  simp only [e4] at h4
  simp only [e5]
  rw [h4, ← lintegral_const_mul' _ _ ENNReal.ofReal_ne_top]
  refine lintegral_congr fun x => ?_
  unfold f2
  rw [mul_left_comm, ← ENNReal.ofReal_mul (abs_nonneg _)]
  congr 2
  rw [abs_of_pos (by norm_num)]
  ring

end

theorem unif_Iic {t : ℝ} (h1 : t ≤ 1) : unif (Iic t) = ENNReal.ofReal t := by
  unfold unif
  rw [Measure.restrict_apply measurableSet_Iic]
  refine le_antisymm ?_ ?_
  · refine (measure_mono (t := Icc 0 t) fun a ha => ⟨ha.2.1, ha.1⟩).trans ?_
    rw [Real.volume_Icc, sub_zero]
  · refine le_trans ?_ (measure_mono (s := Ico 0 t) fun a ha => ⟨ha.2.le, ha.1, ha.2.trans_le h1⟩)
    rw [Real.volume_Ico, sub_zero]

theorem wedge_law {F : ℝ → ℝ≥0∞} (hF : Measurable F) :
    ∫⁻ p in wedgeAcc, F (6 * p.1 - 3) ∂unif.prod unif
      = ENNReal.ofReal (1 / (6 * 0.358)) * ∫⁻ x in farᶜ, F x * ENNReal.ofReal (wedge x) := by
  have hw : Measurable fun x => ENNReal.ofReal (wedge x) := ENNReal.measurable_ofReal.comp measurable_wedge
  have hm : Measurable (wedgeAcc.indicator fun p : ℝ × ℝ => F (6 * p.1 - 3)) :=
    (hF.comp (by fun_prop)).indicator measurableSet_wedgeAcc
  rw [← lintegral_indicator measurableSet_wedgeAcc, lintegral_prod _ hm.aemeasurable]
  have h1 : ∀ u ∈ Ico (0 : ℝ) 1, ∫⁻ y, wedgeAcc.indicator (fun p : ℝ × ℝ => F (6 * p.1 - 3)) (u, y) ∂unif
      = ENNReal.ofReal (1 / 0.358) * (F (6 * u - 3) * ENNReal.ofReal (wedge (6 * u - 3))) := by
    intro u hu
    have hx : |6 * u - 3| ≤ 3 := abs_le.2 ⟨by linarith [hu.1], by linarith [hu.2]⟩
    obtain ⟨w0, w1⟩ := wedge_bounds hx
    have e : (fun y => wedgeAcc.indicator (fun p : ℝ × ℝ => F (6 * p.1 - 3)) (u, y))
        = (Iic (wedge (6 * u - 3) / 0.358)).indicator fun _ => F (6 * u - 3) := by
      funext y
      by_cases hy : (u, y) ∈ wedgeAcc
      · have hy' : 0.358 * y ≤ wedge (6 * u - 3) := hy
        rw [indicator_of_mem hy, indicator_of_mem]
        exact mem_Iic.2 ((le_div_iff₀ (by norm_num)).2 (by linarith))
      · rw [indicator_of_notMem hy, indicator_of_notMem]
        intro hc
        refine hy ?_
        have := (le_div_iff₀ (by norm_num)).1 (mem_Iic.1 hc)
        show 0.358 * y ≤ wedge (6 * u - 3)
        linarith
    rw [e, lintegral_indicator measurableSet_Iic, setLIntegral_const,
      unif_Iic ((div_le_one (by norm_num)).2 w1), div_eq_mul_one_div,
      ENNReal.ofReal_mul w0]
    ring
  have h2 : ∫⁻ u, ∫⁻ y, wedgeAcc.indicator (fun p : ℝ × ℝ => F (6 * p.1 - 3)) (u, y) ∂unif ∂unif
      = ∫⁻ u in Ico (0 : ℝ) 1, ENNReal.ofReal (1 / 0.358) *
        (F (6 * u - 3) * ENNReal.ofReal (wedge (6 * u - 3))) := by
    conv_lhs => rw [unif]
    exact setLIntegral_congr_fun measurableSet_Ico h1
  have hFw : Measurable fun x => F x * ENNReal.ofReal (wedge x) := hF.mul hw
  rw [h2, lintegral_const_mul' _ _ ENNReal.ofReal_ne_top, ← lintegral_indicator measurableSet_Ico]
  have h4 := lintegral_affine (a := 6) (by norm_num) (-3)
    (F := (Ico (-3 : ℝ) 3).indicator fun x => F x * ENNReal.ofReal (wedge x))
    (hFw.indicator measurableSet_Ico)
  have e5 : (fun u : ℝ => (Ico (0 : ℝ) 1).indicator (fun u => F (6 * u - 3) * ENNReal.ofReal (wedge (6 * u - 3))) u)
      = fun u => (Ico (-3 : ℝ) 3).indicator (fun x => F x * ENNReal.ofReal (wedge x)) (6 * u + -3) := by
    funext u
    by_cases hu : u ∈ Ico (0 : ℝ) 1
    · rw [indicator_of_mem hu, indicator_of_mem (show 6 * u + -3 ∈ Ico (-3 : ℝ) 3 from
        ⟨by linarith [hu.1], by linarith [hu.2]⟩)]
      rfl
    · rw [indicator_of_notMem hu, indicator_of_notMem]
      intro hc
      exact hu ⟨by linarith [hc.1], by linarith [hc.2]⟩
  have e6 : ∫⁻ x in Ico (-3 : ℝ) 3, F x * ENNReal.ofReal (wedge x)
      = ∫⁻ x in farᶜ, F x * ENNReal.ofReal (wedge x) := by
    have : farᶜ = Icc (-3 : ℝ) 3 := by
      ext x
      simp only [far, mem_compl_iff, mem_ofPred_eq, not_lt, mem_Icc, abs_le]
    rw [this]
    exact setLIntegral_congr Ico_ae_eq_Icc
  rw [e5, h4, lintegral_indicator measurableSet_Ico, e6, ← mul_assoc,
    ← ENNReal.ofReal_mul (by norm_num)]
  congr 2
  rw [abs_of_pos (by norm_num)]
  norm_num

end Verif.NormalLaw
