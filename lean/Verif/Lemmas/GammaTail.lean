import Verif.Lemmas.GammaSer
import Mathlib.MeasureTheory.Integral.ExpDecay
import Mathlib.Analysis.SpecialFunctions.Gamma.Basic
import Mathlib.MeasureTheory.Integral.IntegralEqImproper
import Mathlib.Analysis.SpecialFunctions.Pow.Asymptotics

/-!
# The tail of the gamma function as a continued fraction
-/

namespace Verif
namespace Gam

open MeasureTheory Set Filter Asymptotics

/-- The integrand. -/
noncomputable def itg (x : ℝ) (i : ℕ) (β s : ℝ) : ℝ := Real.exp (-x * s) * s ^ i * (1 + s) ^ β

theorem itg_cont (x : ℝ) (i : ℕ) (β : ℝ) : ContinuousOn (itg x i β) (Ici 0) := by
  unfold itg
  apply ContinuousOn.mul
  · fun_prop
  · apply ContinuousOn.rpow_const (by fun_prop)
    intro s hs
    left
    have : (0:ℝ) ≤ s := hs
    linarith

theorem itg_bigO {x : ℝ} (hx : 0 < x) (i : ℕ) (β : ℝ) :
    itg x i β =O[atTop] fun s => Real.exp (-(x / 2) * s) := by
  obtain ⟨m, hm⟩ := exists_nat_ge (i + |β|)
  have h1 := (isLittleO_pow_exp_pos_mul_atTop m (half_pos hx)).isBigO
  obtain ⟨C, hC⟩ := h1.bound
  apply IsBigO.of_bound (2 ^ m * C)
  filter_upwards [hC, eventually_ge_atTop (1:ℝ)] with s hs h1s
  have hs0 : 0 < s := by linarith
  rw [Real.norm_of_nonneg (by positivity), Real.norm_of_nonneg (by positivity)] at hs
  rw [Real.norm_of_nonneg (by unfold itg; positivity), Real.norm_of_nonneg (by positivity)]
  unfold itg
  have h2 : s ^ i * (1 + s) ^ β ≤ 2 ^ m * s ^ m := by
    calc s ^ i * (1 + s) ^ β ≤ (1 + s) ^ i * (1 + s) ^ |β| := by
          apply mul_le_mul _ _ (by positivity) (by positivity)
          · exact pow_le_pow_left₀ hs0.le (by linarith) i
          · exact Real.rpow_le_rpow_of_exponent_le (by linarith) (le_abs_self β)
      _ = (1 + s) ^ ((i:ℝ) + |β|) := by rw [Real.rpow_add (by linarith), Real.rpow_natCast]
      _ ≤ (1 + s) ^ (m:ℝ) := Real.rpow_le_rpow_of_exponent_le (by linarith) hm
      _ = (1 + s) ^ m := Real.rpow_natCast _ _
      _ ≤ (2 * s) ^ m := pow_le_pow_left₀ (by linarith) (by linarith) m
      _ = _ := by rw [mul_pow]
  calc Real.exp (-x * s) * s ^ i * (1 + s) ^ β = Real.exp (-x * s) * (s ^ i * (1 + s) ^ β) := by ring
    _ ≤ Real.exp (-x * s) * (2 ^ m * (C * Real.exp (x / 2 * s))) := by
      apply mul_le_mul_of_nonneg_left _ (Real.exp_pos _).le
      exact h2.trans (mul_le_mul_of_nonneg_left hs (by positivity))
    _ = 2 ^ m * C * (Real.exp (-x * s) * Real.exp (x / 2 * s)) := by ring
    _ = _ := by
      rw [← Real.exp_add]
      congr 2
      ring

theorem itg_int {x : ℝ} (hx : 0 < x) (i : ℕ) (β : ℝ) : IntegrableOn (itg x i β) (Ioi 0) :=
  integrable_of_isBigO_exp_neg (half_pos hx) (itg_cont x i β) (itg_bigO hx i β)

theorem itg_tendsto {x : ℝ} (hx : 0 < x) (i : ℕ) (β : ℝ) : Tendsto (itg x i β) atTop (nhds 0) := by
  apply (itg_bigO hx i β).trans_tendsto
  have h1 : Tendsto (fun s : ℝ => x / 2 * s) atTop atTop := tendsto_id.const_mul_atTop (half_pos hx)
  have h2 := Real.tendsto_exp_neg_atTop_nhds_zero.comp h1
  refine h2.congr fun s => ?_
  simp only [Function.comp]
  congr 1
  ring

/-- The integral. -/
noncomputable def J (x : ℝ) (i : ℕ) (β : ℝ) : ℝ := ∫ s in Ioi (0:ℝ), itg x i β s

theorem J_split {x : ℝ} (hx : 0 < x) (i : ℕ) (β : ℝ) : J x i β = J x i (β - 1) + J x (i + 1) (β - 1) := by
  unfold J
  rw [← integral_add (itg_int hx i _) (itg_int hx (i + 1) _)]
  apply setIntegral_congr_fun measurableSet_Ioi
  intro s hs
  have hs0 : (0:ℝ) < s := hs
  have e : (1 + s) ^ β = (1 + s) * (1 + s) ^ (β - 1) := by
    have h1 : (1 + s) ≠ 0 := by linarith
    rw [Real.rpow_sub_one h1]
    field_simp
  simp only [itg]
  rw [e]
  ring

theorem J_zero {x : ℝ} (hx : 0 < x) (β : ℝ) : x * J x 0 β = 1 + β * J x 0 (β - 1) := by
  have h := integral_Ioi_of_hasDerivAt_of_tendsto' (a := 0) (f := itg x 0 β)
    (f' := fun s => -x * itg x 0 β s + β * itg x 0 (β - 1) s) (m := 0) ?_ ?_ (itg_tendsto hx 0 β)
  · rw [integral_add ((itg_int hx 0 β).const_mul _) ((itg_int hx 0 _).const_mul _),
      integral_const_mul, integral_const_mul] at h
    have e0 : itg x 0 β 0 = 1 := by simp [itg]
    rw [e0] at h
    unfold J
    linarith
  · intro s hs
    have hs0 : (0:ℝ) ≤ s := hs
    have d1 : HasDerivAt (fun s : ℝ => Real.exp (-x * s)) (Real.exp (-x * s) * (-x * 1)) s :=
      ((hasDerivAt_id s).const_mul (-x)).exp
    have d3 : HasDerivAt (fun s : ℝ => (1 + s) ^ β) (1 * β * (1 + s) ^ (β - 1)) s :=
      ((hasDerivAt_id s).const_add 1).rpow_const (Or.inl (by simp only [id]; linarith))
    have d := d1.mul d3
    have e : itg x 0 β = fun s => Real.exp (-x * s) * (1 + s) ^ β := by
      funext s; simp [itg]
    have e2 : -x * itg x 0 β s + β * itg x 0 (β - 1) s =
        Real.exp (-x * s) * (-x * 1) * (1 + s) ^ β + Real.exp (-x * s) * (1 * β * (1 + s) ^ (β - 1)) := by
      simp only [itg, pow_zero]
      ring
    rw [e2, e]
    exact d
  · exact ((itg_int hx 0 β).const_mul _).add ((itg_int hx 0 _).const_mul _)

theorem J_succ {x : ℝ} (hx : 0 < x) (k : ℕ) (β : ℝ) :
    x * J x (k + 1) β = (k + 1) * J x k β + β * J x (k + 1) (β - 1) := by
  have h := integral_Ioi_of_hasDerivAt_of_tendsto' (a := 0) (f := itg x (k + 1) β)
    (f' := fun s => -x * itg x (k + 1) β s + ((k + 1) * itg x k β s + β * itg x (k + 1) (β - 1) s)) (m := 0) ?_ ?_
    (itg_tendsto hx (k + 1) β)
  · have hi : IntegrableOn (fun s => ((k:ℝ) + 1) * itg x k β s + β * itg x (k + 1) (β - 1) s) (Ioi 0) :=
      ((itg_int hx k β).const_mul _).add ((itg_int hx (k + 1) _).const_mul _)
    rw [integral_add ((itg_int hx (k + 1) β).const_mul _) hi,
      integral_add ((itg_int hx k β).const_mul _) ((itg_int hx (k + 1) _).const_mul _),
      integral_const_mul, integral_const_mul, integral_const_mul] at h
    have e0 : itg x (k + 1) β 0 = 0 := by simp [itg]
    rw [e0] at h
    unfold J
    linarith
  · intro s hs
    have hs0 : (0:ℝ) ≤ s := hs
    have d1 : HasDerivAt (fun s : ℝ => Real.exp (-x * s)) (Real.exp (-x * s) * (-x * 1)) s :=
      ((hasDerivAt_id s).const_mul (-x)).exp
    have d2 : HasDerivAt (fun s : ℝ => s ^ (k + 1)) (((k + 1 : ℕ) : ℝ) * s ^ k) s := by
      simpa using hasDerivAt_pow (k + 1) s
    have d3 : HasDerivAt (fun s : ℝ => (1 + s) ^ β) (1 * β * (1 + s) ^ (β - 1)) s :=
      ((hasDerivAt_id s).const_add 1).rpow_const (Or.inl (by simp only [id]; linarith))
    have d := (d1.mul d2).mul d3
    have e : -x * itg x (k + 1) β s + ((k + 1) * itg x k β s + β * itg x (k + 1) (β - 1) s) =
        (Real.exp (-x * s) * (-x * 1) * s ^ (k + 1) + Real.exp (-x * s) * (((k + 1 : ℕ) : ℝ) * s ^ k)) *
          (1 + s) ^ β + Real.exp (-x * s) * s ^ (k + 1) * (1 * β * (1 + s) ^ (β - 1)) := by
      simp only [itg]
      push_cast
      ring
    rw [e]
    exact d
  · exact ((itg_int hx (k + 1) β).const_mul _).add
      (((itg_int hx k β).const_mul _).add ((itg_int hx (k + 1) _).const_mul _))

theorem J_pos {x : ℝ} (hx : 0 < x) (i : ℕ) (β : ℝ) : 0 < J x i β := by
  unfold J
  rw [setIntegral_pos_iff_support_of_nonneg_ae _ (itg_int hx i β)]
  · have : Ioi (0:ℝ) ⊆ Function.support (itg x i β) ∩ Ioi 0 := by
      intro s hs
      have hs0 : (0:ℝ) < s := hs
      refine ⟨?_, hs⟩
      have : 0 < itg x i β s := by unfold itg; positivity
      exact this.ne'
    refine lt_of_lt_of_le ?_ (measure_mono this)
    simp
  · filter_upwards [ae_restrict_mem measurableSet_Ioi] with s hs
    have hs0 : (0:ℝ) < s := hs
    show 0 ≤ itg x i β s
    unfold itg; positivity

/-- The integrals of the continued fraction. -/
noncomputable def K (a x : ℝ) (i : ℕ) : ℝ := J x i (a - 1 - i)

theorem K_pos {x : ℝ} (a : ℝ) (hx : 0 < x) (i : ℕ) : 0 < K a x i := J_pos hx _ _

theorem K_anti {x : ℝ} (a : ℝ) (hx : 0 < x) (i : ℕ) : K a x (i + 1) ≤ K a x i := by
  have h := J_split hx i (a - 1 - i)
  have h2 := J_pos hx i (a - 1 - i - 1)
  unfold K
  rw [h]
  push_cast
  rw [show a - 1 - ((i:ℝ) + 1) = a - 1 - i - 1 by ring]
  linarith

theorem K_rec0 {a x : ℝ} (hx : 0 < x) : (x + 1 - a) * K a x 0 = 1 + (1 - a) * K a x 1 := by
  have h0 := J_zero hx a
  have h1 := J_succ hx 0 (a - 1)
  have h2 := J_split hx 0 a
  unfold K
  push_cast at *
  simp only [sub_zero] at *
  rw [h2] at h0
  linarith

theorem K_rec {a x : ℝ} (hx : 0 < x) (j : ℕ) : (x + 1 - a + 2 * (j + 1)) * K a x (j + 1) =
    (j + 1) * K a x j + (j + 2 - a) * K a x (j + 2) := by
  have h0 := J_succ hx j (a - 1 - j)
  have h1 := J_succ hx (j + 1) (a - 1 - j - 1)
  have h2 := J_split hx (j + 1) (a - 1 - j)
  unfold K
  push_cast at *
  rw [show a - 1 - ((j:ℝ) + 1) = a - 1 - j - 1 by ring, show a - 1 - ((j:ℝ) + 2) = a - 1 - j - 1 - 1 by ring]
  rw [h2] at h0
  linarith

/-- The tail of the gamma function. -/
theorem tail_eq {a x : ℝ} (ha : 0 < a) (hx : 0 < x) :
    Real.Gamma a - lowG a x = x ^ a * Real.exp (-x) * K a x 0 := by
  have hG := Real.Gamma_eq_integral ha
  have hc := Real.GammaIntegral_convergent ha
  have hl : lowG a x = ∫ t in (0:ℝ)..x, Real.exp (-t) * t ^ (a - 1) := by
    unfold lowG
    congr 1
    funext t
    ring
  rw [hG, hl, ← intervalIntegral.integral_Ioi_sub_Ioi hc hx.le, sub_sub_cancel]
  have hpos : ∀ s ∈ Ici (0:ℝ), 0 < x + x * s := fun s hs => by
    have : (0:ℝ) ≤ s := hs
    positivity
  have hge : ∀ s ∈ Ici (0:ℝ), x ≤ x + x * s := fun s hs => by
    have : (0:ℝ) ≤ s := hs
    have : 0 ≤ x * s := by positivity
    linarith
  have hg : ∀ s ∈ Ioi (0:ℝ), ((fun t => Real.exp (-t) * t ^ (a - 1)) ∘ fun s => x + x * s) s * x =
      x ^ a * Real.exp (-x) * itg x 0 (a - 1) s := by
    intro s hs
    have hs0 : (0:ℝ) < s := hs
    simp only [Function.comp, itg, pow_zero, mul_one]
    rw [show x + x * s = x * (1 + s) by ring, Real.mul_rpow hx.le (by linarith),
      show -(x * (1 + s)) = -x + -x * s by ring, Real.exp_add, Real.rpow_sub_one hx.ne']
    field_simp
  have hi : IntegrableOn (fun s => ((fun t => Real.exp (-t) * t ^ (a - 1)) ∘ fun s => x + x * s) s * x)
      (Ici 0) := by
    rw [integrableOn_Ici_iff_integrableOn_Ioi]
    exact (integrableOn_congr_fun hg measurableSet_Ioi).2 ((itg_int hx 0 _).const_mul _)
  have hsub := integral_comp_mul_deriv_Ioi (f := fun s => x + x * s) (f' := fun _ => x)
    (g := fun t => Real.exp (-t) * t ^ (a - 1)) (a := 0) (by fun_prop)
    (tendsto_atTop_add_const_left _ x (tendsto_id.const_mul_atTop hx))
    (fun s _ => by
      have d : HasDerivAt (fun s : ℝ => x + x * s) (x * 1) s := ((hasDerivAt_id s).const_mul x).const_add x
      rw [mul_one] at d
      exact d.hasDerivWithinAt)
    (by
      rintro t ⟨s, hs, rfl⟩
      apply ContinuousAt.continuousWithinAt
      apply ContinuousAt.mul (by fun_prop)
      exact Real.continuousAt_rpow_const _ _ (Or.inl (hpos s (Ioi_subset_Ici_self hs)).ne'))
    (hc.mono_set (by
      rintro t ⟨s, hs, rfl⟩
      exact hpos s hs)) hi
  rw [setIntegral_congr_fun measurableSet_Ioi hg, integral_const_mul] at hsub
  simp only [mul_zero, add_zero] at hsub
  rw [← hsub]
  unfold K J
  simp

end Gam
end Verif
