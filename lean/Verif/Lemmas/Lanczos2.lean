import Verif.Lemmas.Lanczos1
import Mathlib.Analysis.Calculus.MeanValue
import Mathlib.Analysis.Calculus.Deriv.MeanValue
import Mathlib.Analysis.SpecialFunctions.Log.Deriv
import Mathlib.Analysis.SpecialFunctions.Complex.LogBounds
import Mathlib.Order.Filter.AtTopBot.Field

/-!
# The defect of `gammln` in the functional equation of the gamma function
-/

namespace Verif
namespace Gam

open Filter Topology Set

/-- A convex function that vanishes with its derivative at infinity is not negative. -/
theorem nonneg_of_convex {f f' f'' : ℝ → ℝ} (h1 : ∀ x > 0, HasDerivAt f (f' x) x)
    (h2 : ∀ x > 0, HasDerivAt f' (f'' x) x) (h3 : ∀ x > 0, 0 ≤ f'' x) (t1 : Tendsto f' atTop (𝓝 0))
    (t0 : Tendsto f atTop (𝓝 0)) {x : ℝ} (hx : 0 < x) : 0 ≤ f x := by
  have m : MonotoneOn f' (Ioi 0) := by
    apply monotoneOn_of_deriv_nonneg (convex_Ioi 0)
    · exact fun y hy => (h2 y hy).continuousAt.continuousWithinAt
    · rw [interior_Ioi]
      exact fun y hy => (h2 y hy).differentiableAt.differentiableWithinAt
    · rw [interior_Ioi]
      intro y hy
      rw [(h2 y hy).deriv]
      exact h3 y hy
  have n : ∀ y > 0, f' y ≤ 0 := by
    intro y hy
    apply ge_of_tendsto t1
    filter_upwards [eventually_ge_atTop y] with z hz
    exact m hy (lt_of_lt_of_le hy hz) hz
  have a : AntitoneOn f (Ioi 0) := by
    apply antitoneOn_of_deriv_nonpos (convex_Ioi 0)
    · exact fun y hy => (h1 y hy).continuousAt.continuousWithinAt
    · rw [interior_Ioi]
      exact fun y hy => (h1 y hy).differentiableAt.differentiableWithinAt
    · rw [interior_Ioi]
      intro y hy
      rw [(h1 y hy).deriv]
      exact n y hy
  apply le_of_tendsto t0
  filter_upwards [eventually_ge_atTop x] with z hz
  exact a hx (lt_of_lt_of_le hx hz) hz

/-- The defect. -/
noncomputable def dfc (a : ℝ) : ℝ := lnG (a + 1) - lnG a - Real.log a

theorem dfc_ser {a : ℝ} (ha : 0 < a) : dfc a = (a + 1.5) * Real.log (a + 6.2421875) -
    (a + 0.5) * Real.log (a + 5.2421875) - 1 + Real.log (ser (a + 1)) - Real.log (a + 1) - Real.log (ser a) := by
  have s0 := ser_pos ha
  have s1 := ser_pos (show 0 < a + 1 by linarith)
  unfold dfc lnG
  rw [Real.log_div (by positivity) (by linarith), Real.log_div (by positivity) ha.ne',
    Real.log_mul (by norm_num) s1.ne', Real.log_mul (by norm_num) s0.ne']
  rw [show a + 1 + 5.2421875 = a + 6.2421875 by norm_num; ring]
  ring_nf

/-- The defect with polynomials. -/
noncomputable def dfcP (a : ℝ) : ℝ := (a + 1.5) * Real.log (a + 6.2421875) -
    (a + 0.5) * Real.log (a + 5.2421875) - 1 + Real.log (pe (pP 1) a) - Real.log (pe (pP 0) a) - Real.log (a + 15)

theorem dfc_eq {a : ℝ} (ha : 0 < a) : dfc a = dfcP a := by
  rw [dfc_ser ha]
  unfold dfcP
  have s0 := ser_pos ha
  have s1 := ser_pos (show 0 < a + 1 by linarith)
  have d0 := pden_pos cofZ (le_refl (0:ℤ)) ha.le
  have d1 := pden_pos cofZ (zero_le_one (α := ℤ)) ha.le
  have e0 := pP_eq (le_refl (0:ℤ)) ha.le
  have e1 := pP_eq (zero_le_one (α := ℤ)) ha.le
  push_cast at e0 e1
  rw [add_zero] at e0
  have sh := congrArg Real.log (pden_shift (x := a))
  rw [Real.log_mul d1.ne' (by linarith), Real.log_mul d0.ne' (by linarith)] at sh
  rw [← e0, ← e1, Real.log_mul (by positivity) d1.ne', Real.log_mul (by positivity) d0.ne',
    Real.log_mul (by positivity) s1.ne', Real.log_mul (by positivity) s0.ne']
  linarith

/-- The first derivative of the defect. -/
noncomputable def dfc1 (a : ℝ) : ℝ := Real.log (a + 6.2421875) + (a + 1.5) / (a + 6.2421875) -
  (Real.log (a + 5.2421875) + (a + 0.5) / (a + 5.2421875)) + pe (pder (pP 1)) a / pe (pP 1) a -
  pe (pder (pP 0)) a / pe (pP 0) a - 1 / (a + 15)

/-- The second derivative of the defect. -/
noncomputable def dfc2 (a : ℝ) : ℝ := 1 / (a + 6.2421875) + 4.7421875 / (a + 6.2421875) ^ 2 -
  (1 / (a + 5.2421875) + 4.7421875 / (a + 5.2421875) ^ 2) +
  (pe (pder (pder (pP 1))) a * pe (pP 1) a - pe (pder (pP 1)) a * pe (pder (pP 1)) a) / pe (pP 1) a ^ 2 -
  (pe (pder (pder (pP 0))) a * pe (pP 0) a - pe (pder (pP 0)) a * pe (pder (pP 0)) a) / pe (pP 0) a ^ 2 +
  1 / (a + 15) ^ 2

theorem der_log {a c : ℝ} (h : 0 < a + c) : HasDerivAt (fun a : ℝ => Real.log (a + c)) (1 / (a + c)) a :=
  ((hasDerivAt_id a).add_const c).log h.ne'

theorem der_mlog {a b c : ℝ} (h : 0 < a + c) : HasDerivAt (fun a : ℝ => (a + b) * Real.log (a + c))
    (Real.log (a + c) + (a + b) / (a + c)) a := by
  have d := ((hasDerivAt_id a).add_const b).mul (der_log h)
  have e : Real.log (a + c) + (a + b) / (a + c) = 1 * Real.log (a + c) + (id a + b) * (1 / (a + c)) := by
    simp only [id]; ring
  rw [e]
  exact d

theorem der_frac {a b c : ℝ} (h : 0 < a + c) : HasDerivAt (fun a : ℝ => (a + b) / (a + c))
    ((c - b) / (a + c) ^ 2) a := by
  have d := ((hasDerivAt_id a).add_const b).div ((hasDerivAt_id a).add_const c) h.ne'
  have e : (c - b) / (a + c) ^ 2 = (1 * (id a + c) - (id a + b) * 1) / (id a + c) ^ 2 := by
    simp only [id]; ring
  rw [e]
  exact d

theorem dfcP_der {a : ℝ} (ha : 0 < a) : HasDerivAt dfcP (dfc1 a) a := by
  have p0 := pP_pos (le_refl (0:ℤ)) ha
  have p1 := pP_pos (zero_le_one (α := ℤ)) ha
  have d1 := der_mlog (a := a) (b := 1.5) (c := 6.2421875) (by norm_num; linarith)
  have d2 := der_mlog (a := a) (b := 0.5) (c := 5.2421875) (by norm_num; linarith)
  have d3 := (pe_der (pP 1) a).log p1.ne'
  have d4 := (pe_der (pP 0) a).log p0.ne'
  have d5 := der_log (a := a) (c := 15) (by linarith)
  exact ((((d1.sub d2).sub_const 1).add d3).sub d4).sub d5

theorem dfc1_der {a : ℝ} (ha : 0 < a) : HasDerivAt dfc1 (dfc2 a) a := by
  have p0 := pP_pos (le_refl (0:ℤ)) ha
  have p1 := pP_pos (zero_le_one (α := ℤ)) ha
  have c1 : 0 < a + 6.2421875 := by norm_num; linarith
  have c2 : 0 < a + 5.2421875 := by norm_num; linarith
  have c3 : 0 < a + 15 := by linarith
  have d1 := (der_log c1).add (der_frac (b := 1.5) c1)
  have d2 := (der_log c2).add (der_frac (b := 0.5) c2)
  have d3 := (pe_der (pder (pP 1)) a).div (pe_der (pP 1) a) p1.ne'
  have d4 := (pe_der (pder (pP 0)) a).div (pe_der (pP 0) a) p0.ne'
  have d5 := (hasDerivAt_const a (1:ℝ)).div ((hasDerivAt_id a).add_const 15) c3.ne'
  have d := (((d1.sub d2).add d3).sub d4).sub d5
  have e : dfc2 a = 1 / (a + 6.2421875) + (6.2421875 - 1.5) / (a + 6.2421875) ^ 2 -
      (1 / (a + 5.2421875) + (5.2421875 - 0.5) / (a + 5.2421875) ^ 2) +
      (pe (pder (pder (pP 1))) a * pe (pP 1) a - pe (pder (pP 1)) a * pe (pder (pP 1)) a) / pe (pP 1) a ^ 2 -
      (pe (pder (pder (pP 0))) a * pe (pP 0) a - pe (pder (pP 0)) a * pe (pder (pP 0)) a) / pe (pP 0) a ^ 2 -
      (0 * (id a + 15) - 1 * 1) / (id a + 15) ^ 2 := by
    unfold dfc2
    have n1 : (6.2421875:ℝ) - 1.5 = 4.7421875 := by norm_num
    have n2 : (5.2421875:ℝ) - 0.5 = 4.7421875 := by norm_num
    rw [n1, n2]
    simp only [id]
    ring
  rw [e]
  exact d

theorem dfc2_eq {a : ℝ} (ha : 0 < a) : dfc2 a = pe pN a / pe pD a := by
  have p0 := pP_pos (le_refl (0:ℤ)) ha
  have p1 := pP_pos (zero_le_one (α := ℤ)) ha
  have eA : a + 6.2421875 = pe pA a / 128 := by simp only [pA, pe]; push_cast; ring
  have eB : a + 5.2421875 = pe pB a / 128 := by simp only [pB, pe]; push_cast; ring
  have eC : a + 15 = pe pC a := by simp only [pC, pe]; push_cast; ring
  have hA : 0 < pe pA a := by simp only [pA, pe]; push_cast; linarith
  have hB : 0 < pe pB a := by simp only [pB, pe]; push_cast; linarith
  have hC : 0 < pe pC a := by simp only [pC, pe]; push_cast; linarith
  unfold dfc2
  rw [eA, eB, eC]
  have h607 : pe [607] a = 607 := by simp [pe]
  unfold pN pD plog2 sq
  simp only [pe_add, pe_mul, pe_scale, h607]
  generalize pe pA a = A at *
  generalize pe pB a = B at *
  generalize pe pC a = C at *
  generalize pe (pder (pder (pP 1))) a = u2
  generalize pe (pder (pder (pP 0))) a = v2
  generalize pe (pder (pP 1)) a = u1
  generalize pe (pder (pP 0)) a = v1
  generalize pe (pP 1) a = u at *
  generalize pe (pP 0) a = v at *
  have n1 : (4.7421875:ℝ) = 607 / 128 := by norm_num
  rw [n1]
  push_cast
  field_simp
  ring

theorem dfc2_bound {a : ℝ} (ha : 0 < a) : |dfc2 a| ≤ 6e-12 / (a + 1) ^ 4 := by
  rw [dfc2_eq ha]
  have h := pN_bound ha.le
  have hD : 0 < pe pD a := by
    have p0 := pP_pos (le_refl (0:ℤ)) ha
    have p1 := pP_pos (zero_le_one (α := ℤ)) ha
    have hA : 0 < pe pA a := by simp only [pA, pe]; push_cast; linarith
    have hB : 0 < pe pB a := by simp only [pB, pe]; push_cast; linarith
    have hC : 0 < pe pC a := by simp only [pC, pe]; push_cast; linarith
    unfold pD sq
    simp only [pe_mul]
    positivity
  rw [abs_div, abs_of_pos hD, div_le_div_iff₀ hD (by positivity)]
  rw [show (1 + a) = a + 1 by ring] at h
  have : 0 ≤ |pe pN a| * (a + 1) ^ 4 := by positivity
  norm_num at h ⊢
  linarith

theorem pd_tendsto {k : ℤ} (hk : 0 ≤ k) (hp : (pP k).all (fun c => decide (0 ≤ c)) = true) :
    Tendsto (fun a => pe (pder (pP k)) a / pe (pP k) a) atTop (𝓝 0) := by
  have h : Tendsto (fun a : ℝ => ((pP k).length : ℝ) / a) atTop (𝓝 0) := tendsto_const_nhds.div_atTop tendsto_id
  apply tendsto_of_tendsto_of_tendsto_of_le_of_le' tendsto_const_nhds h
  · filter_upwards [eventually_gt_atTop 0] with a ha
    exact div_nonneg (pe_der_le hp ha.le).1 (pP_pos hk ha).le
  · filter_upwards [eventually_gt_atTop 0] with a ha
    rw [div_le_div_iff₀ (pP_pos hk ha) ha]
    have := (pe_der_le hp (le_of_lt ha)).2
    linarith

theorem add_tendsto (c : ℝ) : Tendsto (fun a : ℝ => a + c) atTop atTop :=
  tendsto_atTop_add_const_right _ c tendsto_id

theorem frac_tendsto (b c : ℝ) : Tendsto (fun a : ℝ => (a + b) / (a + c)) atTop (𝓝 1) := by
  have h : Tendsto (fun a : ℝ => 1 + (b - c) / (a + c)) atTop (𝓝 (1 + 0)) :=
    tendsto_const_nhds.add (tendsto_const_nhds.div_atTop (add_tendsto c))
  rw [add_zero] at h
  refine h.congr' ?_
  filter_upwards [eventually_gt_atTop (-c)] with a ha
  have : a + c ≠ 0 := by linarith
  field_simp
  ring

theorem logdiff_tendsto (b c : ℝ) :
    Tendsto (fun a : ℝ => Real.log (a + b) - Real.log (a + c)) atTop (𝓝 0) := by
  have h := ((Real.continuousAt_log one_ne_zero).tendsto).comp (frac_tendsto b c)
  rw [Real.log_one] at h
  refine h.congr' ?_
  filter_upwards [eventually_gt_atTop (-c), eventually_gt_atTop (-b)] with a ha hb
  have h1 : a + c ≠ 0 := by linarith
  have h2 : a + b ≠ 0 := by linarith
  simp only [Function.comp]
  rw [Real.log_div h2 h1]

theorem dfc1_tendsto : Tendsto dfc1 atTop (𝓝 0) := by
  have h := ((((logdiff_tendsto 6.2421875 5.2421875).add ((frac_tendsto 1.5 6.2421875).sub
    (frac_tendsto 0.5 5.2421875))).add (pd_tendsto zero_le_one pP_nonneg1)).sub
    (pd_tendsto le_rfl pP_nonneg0)).sub (tendsto_const_nhds.div_atTop (add_tendsto 15) (f := fun _ => (1:ℝ)))
  norm_num at h
  refine h.congr fun a => ?_
  unfold dfc1
  norm_num
  ring

theorem serSum_tendsto (cs : List ℝ) : Tendsto (serSum cs) atTop (𝓝 0) := by
  induction cs with
  | nil =>
    have : serSum [] = fun _ => 0 := by funext; rfl
    rw [this]
    exact tendsto_const_nhds
  | cons c cs ih =>
    have h := (tendsto_const_nhds.div_atTop (add_tendsto 1) (f := fun _ => c)).add (ih.comp (add_tendsto 1))
    rw [add_zero] at h
    exact h

theorem ser_tendsto : Tendsto ser atTop (𝓝 0.999999999999997092) := by
  have h := (serSum_tendsto cof).const_add 0.999999999999997092
  rw [add_zero] at h
  exact h

theorem dfc_tendsto : Tendsto dfcP atTop (𝓝 0) := by
  have hs : Tendsto (fun a => Real.log (ser a)) atTop (𝓝 (Real.log 0.999999999999997092)) :=
    ((Real.continuousAt_log (by norm_num)).tendsto).comp ser_tendsto
  have hs1 : Tendsto (fun a => Real.log (ser (a + 1))) atTop (𝓝 (Real.log 0.999999999999997092)) :=
    hs.comp (add_tendsto 1)
  have hm : Tendsto (fun a : ℝ => (a + 5.2421875) * Real.log (1 + 1 / (a + 5.2421875))) atTop (𝓝 1) :=
    (Real.tendsto_mul_log_one_add_div_atTop 1).comp (add_tendsto 5.2421875)
  have h := (((hm.sub ((logdiff_tendsto 6.2421875 5.2421875).const_mul 4.7421875)).add
    (logdiff_tendsto 6.2421875 1)).sub_const 1).add (hs1.sub hs)
  simp only [mul_zero, sub_zero, add_zero, sub_self] at h
  refine h.congr' ?_
  filter_upwards [eventually_gt_atTop 0] with a ha
  rw [← dfc_eq ha, dfc_ser ha]
  have c1 : 0 < a + 6.2421875 := by norm_num; linarith
  have c2 : 0 < a + 5.2421875 := by norm_num; linarith
  have e : Real.log (1 + 1 / (a + 5.2421875)) = Real.log (a + 6.2421875) - Real.log (a + 5.2421875) := by
    rw [← Real.log_div c1.ne' c2.ne']
    congr 1
    field_simp
    norm_num
    ring
  rw [e]
  ring

theorem dfc_bound {a : ℝ} (ha : 0 < a) : |dfc a| ≤ 1e-12 / (a + 1) ^ 2 := by
  rw [dfc_eq ha]
  have b1 : ∀ x > (0:ℝ), HasDerivAt (fun a : ℝ => 1e-12 / (a + 1) ^ 2) (-2e-12 / (x + 1) ^ 3) x := by
    intro x hx
    have d := (hasDerivAt_const x (1e-12:ℝ)).div (((hasDerivAt_id x).add_const 1).pow 2)
      (pow_pos (show (0:ℝ) < x + 1 by linarith) 2).ne'
    have e : -2e-12 / (x + 1) ^ 3 = (0 * (id x + 1) ^ 2 - 1e-12 * ((2:ℕ) * (id x + 1) ^ (2 - 1) * 1)) /
        ((id x + 1) ^ 2) ^ 2 := by
      simp only [id]
      field_simp
      norm_num
    rw [e]
    exact d
  have b2 : ∀ x > (0:ℝ), HasDerivAt (fun a : ℝ => -2e-12 / (a + 1) ^ 3) (6e-12 / (x + 1) ^ 4) x := by
    intro x hx
    have d := (hasDerivAt_const x (-2e-12:ℝ)).div (((hasDerivAt_id x).add_const 1).pow 3)
      (pow_pos (show (0:ℝ) < x + 1 by linarith) 3).ne'
    have e : 6e-12 / (x + 1) ^ 4 = (0 * (id x + 1) ^ 3 - -2e-12 * ((3:ℕ) * (id x + 1) ^ (3 - 1) * 1)) /
        ((id x + 1) ^ 3) ^ 2 := by
      simp only [id]
      field_simp
      norm_num
    rw [e]
    exact d
  have t0 : Tendsto (fun a : ℝ => 1e-12 / (a + 1) ^ 2) atTop (𝓝 0) :=
    tendsto_const_nhds.div_atTop ((tendsto_pow_atTop two_ne_zero).comp (add_tendsto 1))
  have t1 : Tendsto (fun a : ℝ => -2e-12 / (a + 1) ^ 3) atTop (𝓝 0) :=
    tendsto_const_nhds.div_atTop ((tendsto_pow_atTop three_ne_zero).comp (add_tendsto 1))
  have u1 := t1.sub dfc1_tendsto
  have u0 := t0.sub dfc_tendsto
  have v1 := t1.add dfc1_tendsto
  have v0 := t0.add dfc_tendsto
  rw [sub_zero] at u1 u0
  rw [add_zero] at v1 v0
  have h1 := nonneg_of_convex (fun x hx => (b1 x hx).sub (dfcP_der hx)) (fun x hx => (b2 x hx).sub (dfc1_der hx))
    (fun x hx => by have := (abs_le.1 (dfc2_bound hx)).2; linarith) u1 u0 ha
  have h2 := nonneg_of_convex (fun x hx => (b1 x hx).add (dfcP_der hx)) (fun x hx => (b2 x hx).add (dfc1_der hx))
    (fun x hx => by have := (abs_le.1 (dfc2_bound hx)).1; linarith) v1 v0 ha
  rw [abs_le]
  simp only [Pi.sub_apply, Pi.add_apply] at h1 h2
  constructor <;> linarith

end Gam
end Verif
