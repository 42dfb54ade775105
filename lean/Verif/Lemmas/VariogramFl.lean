import Verif.Lemmas.FlApprox
import Verif.Lemmas.Variogram
import Mathlib.Analysis.SpecialFunctions.Trigonometric.Bounds

/-!
# Rounding errors of the normalised distance
-/

namespace Verif

open scoped Fl
open Fl Variogram Spec

/-- The mathematical library is accurate: `sin` and `cos` within 2^-52, `exp` of non-positive and `pow` of
non-negative numbers within a relative error of 2^-52 (or the least positive double); `exp(0)` and `pow(0, y)` are
exact. -/
structure Libm.Acc (lm : Libm) : Prop where
  sin : ∀ x, |lm.sin x - Real.sin x| ≤ 2⁻¹ ^ 52
  cos : ∀ x, |lm.cos x - Real.cos x| ≤ 2⁻¹ ^ 52
  exp : ∀ x ≤ 0, |lm.exp x - Real.exp x| ≤ 2⁻¹ ^ 52 * Real.exp x + 2⁻¹ ^ 1074
  pow : ∀ x y, 0 ≤ x → 0 ≤ y → |lm.pow x y - x ^ y| ≤ 2⁻¹ ^ 52 * x ^ y + 2⁻¹ ^ 1074
  exp_zero : lm.exp 0 = 1
  pow_zero : ∀ y, 0 < y → lm.pow 0 y = 0

namespace Fl

theorem App.weaken {M N : ℝ} {k : ℕ} {x' x : ℝ} (h : App M k x' x) (hMN : M ≤ N) : App N k x' x :=
  ⟨h.1.trans hMN, h.2.trans (mul_le_mul_of_nonneg_left hMN (mul_nonneg (Nat.cast_nonneg _) u_pos.le))⟩

theorem App.sin {lm : Libm} (h : lm.Acc) {x' x : ℝ} (hx : |x' - x| ≤ 7 * u) : App 1 8 (lm.sin x') (Real.sin x) := by
  refine ⟨Real.abs_sin_le_one x, ?_⟩
  have h1 := h.sin x'
  have h2 := abs_sub_le (lm.sin x') (Real.sin x') (Real.sin x)
  have h3 := Real.abs_sin_sub_sin_le x' x
  have : (2⁻¹ : ℝ) ^ 52 = u := rfl
  push_cast
  linarith

theorem App.cos {lm : Libm} (h : lm.Acc) {x' x : ℝ} (hx : |x' - x| ≤ 7 * u) : App 1 8 (lm.cos x') (Real.cos x) := by
  refine ⟨Real.abs_cos_le_one x, ?_⟩
  have h1 := h.cos x'
  have h2 := abs_sub_le (lm.cos x') (Real.cos x') (Real.cos x)
  have h3 := Real.abs_cos_sub_cos_le x' x
  have : (2⁻¹ : ℝ) ^ 52 = u := rfl
  push_cast
  linarith

/-- `1.0/(r*r)`. -/
theorem app_fac {r : ℝ} (h1 : 2⁻¹ ^ 100 ≤ r) (h2 : r ≤ 2 ^ 100) :
    r *ᶠ r ≠ 0 ∧ App (1 / (r * r)) 2 (1.0 /ᶠ (r *ᶠ r)) (1.0 / (r * r)) := by
  have hr : 0 < r := lt_of_lt_of_le (by positivity) h1
  have hrr : 0 < r * r := mul_pos hr hr
  have h3 : (2⁻¹ : ℝ) ^ 200 ≤ r * r := by
    refine le_trans ?_ (mul_le_mul h1 h1 (by positivity) hr.le)
    rw [← pow_add]
  have h4 : r * r ≤ 2 ^ 200 := by
    refine (mul_le_mul h2 h2 hr.le (by positivity)).trans ?_
    rw [← pow_add]
  have h5 : (2⁻¹ : ℝ) ^ 1000 ≤ 2⁻¹ ^ 200 := pow_le_pow_of_le_one (by norm_num) (by norm_num) (by norm_num)
  have e1 := le_rnd64 (h5.trans h3)
  have e2 := rnd64_le (h5.trans h3)
  have h7 : (0 : ℝ) < rnd64 (r * r) := by
    refine lt_of_lt_of_le (mul_pos hrr ?_) e1
    norm_num
  refine ⟨h7.ne', ?_⟩
  have h6 : (2⁻¹ : ℝ) ^ 1000 ≤ 1 / (r * r) := by
    rw [le_div_iff₀ hrr]
    refine (mul_le_mul_of_nonneg_left h4 (by positivity)).trans ?_
    have : (2 : ℝ) ^ 200 = (2⁻¹ ^ 200)⁻¹ := by rw [inv_pow, inv_inv]
    rw [this, ← div_eq_mul_inv, div_le_one (by positivity)]
    exact h5
  have h8 : App (1 / (r * r)) 1 (1.0 / rnd64 (r * r)) (1.0 / (r * r)) := by
    have z : (1.0 : ℝ) = 1 := by norm_num
    rw [z]
    refine ⟨by rw [abs_of_pos (by positivity)], ?_⟩
    have e : (1 : ℝ) / rnd64 (r * r) - 1 / (r * r) = (r * r - rnd64 (r * r)) / (rnd64 (r * r) * (r * r)) := by
      rw [div_sub_div _ _ h7.ne' hrr.ne', one_mul, mul_one]
    rw [e, abs_div, abs_of_pos (mul_pos h7 hrr), div_le_iff₀ (mul_pos h7 hrr)]
    have e3 : ((1 : ℕ) : ℝ) * u * (1 / (r * r)) * (rnd64 (r * r) * (r * r)) = u * rnd64 (r * r) := by
      push_cast
      field_simp
    rw [e3, u_eq, abs_le]
    norm_num at e1 e2 ⊢
    constructor <;> nlinarith
  exact h8.rnd (by norm_num) h6

end Fl

/-- A factor of a variogram within the bounds. -/
structure FactorsApp (S : ℝ) (w v : Variogram) : Prop where
  txx : App (S + S + S) 44 w.txx v.txx
  tyy : App (S + S + S) 44 w.tyy v.tyy
  tzz : App (S + S) 23 w.tzz v.tzz
  txy : App (2 * (S + S + S)) 46 w.txy v.txy
  txz : App (2 * (S + S)) 35 w.txz v.txz
  tyz : App (2 * (S + S)) 35 w.tyz v.tyz

theorem factorsApp {lm : Libm} (hl : lm.Acc) {t : VType} {p rx ry rz az dp az' dp' sd S : ℝ}
    (haz : |az' - az| ≤ 7 * u) (hdp : |dp' - dp| ≤ 7 * u)
    (hrx : 2⁻¹ ^ 100 ≤ rx) (hrx' : rx ≤ 2 ^ 100) (hry : 2⁻¹ ^ 100 ≤ ry) (hry' : ry ≤ 2 ^ 100)
    (hrz : 2⁻¹ ^ 100 ≤ rz) (hrz' : rz ≤ 2 ^ 100) (h1 : 1 / (rx * rx) ≤ S) (h2 : 1 / (ry * ry) ≤ S)
    (h3 : 1 / (rz * rz) ≤ S) :
    ∃ v w, create t p rx ry rz az dp sd = .ok v ∧ createFl lm t p rx ry rz az' dp' sd = .ok w ∧
      w.type = t ∧ w.power = p ∧ v.type = t ∧ v.power = p ∧ FactorsApp S w v := by
  have n0 : (0 : ℝ) < 2⁻¹ ^ 100 := by positivity
  have x0 : 0 < rx := lt_of_lt_of_le n0 hrx
  have y0 : 0 < ry := lt_of_lt_of_le n0 hry
  have z0 : 0 < rz := lt_of_lt_of_le n0 hrz
  obtain ⟨n1, f1⟩ := app_fac hrx hrx'
  obtain ⟨n2, f2⟩ := app_fac hry hry'
  obtain ⟨n3, f3⟩ := app_fac hrz hrz'
  replace f1 := f1.weaken h1
  replace f2 := f2.weaken h2
  replace f3 := f3.weaken h3
  have hS : (2⁻¹ : ℝ) ^ 1000 ≤ S := by
    refine le_trans ?_ h1
    rw [le_div_iff₀ (mul_pos x0 x0)]
    have h4 : rx * rx ≤ 2 ^ 200 := by
      refine (mul_le_mul hrx' hrx' x0.le (by positivity)).trans ?_
      rw [← pow_add]
    refine (mul_le_mul_of_nonneg_left h4 (by positivity)).trans ?_
    have : (2 : ℝ) ^ 200 = (2⁻¹ ^ 200)⁻¹ := by rw [inv_pow, inv_inv]
    rw [this, ← div_eq_mul_inv, div_le_one (by positivity)]
    exact pow_le_pow_of_le_one (by norm_num) (by norm_num) (by norm_num)
  have one : (2⁻¹ : ℝ) ^ 1000 ≤ 1 := pow_le_one₀ (by norm_num) (by norm_num)
  have S0 : 0 ≤ S := f1.nonneg
  have hSS : (2⁻¹ : ℝ) ^ 1000 ≤ S + S := hS.trans (by linarith)
  have cr := App.cos hl haz
  have sr := App.sin hl haz
  have cd := App.cos hl hdp
  have sdp := App.sin hl hdp
  have two : App 2 0 2 2 := App.exact (by norm_num)
  have hv : ∃ v, create t p rx ry rz az dp sd = .ok v := by
    unfold create estimateFactors
    simp only []
    rw [if_neg (by simp [x0.ne', y0.ne', z0.ne'])]
    exact ⟨_, rfl⟩
  have hw : ∃ w, createFl lm t p rx ry rz az' dp' sd = .ok w := by
    unfold createFl estimateFactorsFl
    simp only []
    rw [if_neg (by simp [n1, n2, n3])]
    exact ⟨_, rfl⟩
  obtain ⟨v, hv⟩ := hv
  obtain ⟨w, hw⟩ := hw
  refine ⟨v, w, hv, hw, ?_⟩
  unfold create estimateFactors at hv
  unfold createFl estimateFactorsFl at hw
  simp only [] at hv hw
  rw [if_neg (by simp [x0.ne', y0.ne', z0.ne'])] at hv
  rw [if_neg (by simp [n1, n2, n3])] at hw
  obtain rfl := Res.ok.inj hv
  obtain rfl := Res.ok.inj hw
  refine ⟨rfl, rfl, rfl, rfl, ?_⟩
  have key : (2⁻¹ : ℝ) ^ 1000 ≤ 2 * (S + S + S) ∧ (2⁻¹ : ℝ) ^ 1000 ≤ 2 * (S + S) :=
    ⟨hS.trans (by linarith), hS.trans (by linarith)⟩
  constructor
  · exact App.add 43 (App.add 42 ((((cr.mul1 cr one).mul1 cd one).mul1 cd one).mul1 f1 hS)
      ((sr.mul1 sr one).mul1 f2 hS) hS) ((((cr.mul1 cr one).mul1 sdp one).mul1 sdp one).mul1 f3 hS) hSS
  · exact App.add 43 (App.add 42 ((((sr.mul1 sr one).mul1 cd one).mul1 cd one).mul1 f1 hS)
      ((cr.mul1 cr one).mul1 f2 hS) hS) ((((sr.mul1 sr one).mul1 sdp one).mul1 sdp one).mul1 f3 hS) hSS
  · exact App.add 22 ((sdp.mul1 sdp one).mul1 f1 hS) ((cd.mul1 cd one).mul1 f3 hS) hS
  · exact two.mul (App.add 43 (App.sub 42 ((((cd.mul1 cd one).mul1 cr one).mul1 sr one).mul1 f1 hS)
      ((sr.mul1 cr one).mul1 f2 hS) hS) ((((sdp.mul1 sdp one).mul1 cr one).mul1 sr one).mul1 f3 hS) hSS) key.1
  · exact two.mul (App.sub 32 (((cr.mul1 cd one).mul1 sdp one).mul1 f1 hS)
      (((cr.mul1 cd one).mul1 sdp one).mul1 f3 hS) hS) key.2
  · exact two.mul (App.sub 32 (((sr.mul1 cd one).mul1 sdp one).mul1 f1 hS)
      (((sr.mul1 cd one).mul1 sdp one).mul1 f3 hS) hS) key.2

section quad
variable {S d : ℝ} {w v : Variogram} (h : FactorsApp S w v) (hS : 2⁻¹ ^ 200 ≤ S) (hd : 2⁻¹ ^ 200 ≤ d)
  {x' y' z' x y z : ℝ} (hx : App d 1 x' x) (hy : App d 1 y' y) (hz : App d 1 z' z)
include h hS hd hx

theorem app_term {M : ℝ} {k : ℕ} {t' t x' y' x y : ℝ} (ht : App M k t' t) (hx : App d 1 x' x) (hy : App d 1 y' y)
    (hM : S ≤ M) (hk : k ≤ 100) : App (M * d * d) (k + 6) (t' *ᶠ x' *ᶠ y') (t * x * y) := by
  have s0 : (0 : ℝ) < 2⁻¹ ^ 200 := by positivity
  have d0 : 0 < d := lt_of_lt_of_le s0 hd
  have hM' : (2⁻¹ : ℝ) ^ 200 ≤ M := hS.trans hM
  have M0 : 0 < M := lt_of_lt_of_le s0 hM'
  have e1 : (2⁻¹ : ℝ) ^ 1000 ≤ 2⁻¹ ^ 200 * 2⁻¹ ^ 200 := by
    rw [← pow_add]
    exact pow_le_pow_of_le_one (by norm_num) (by norm_num) (by norm_num)
  have e2 : (2⁻¹ : ℝ) ^ 1000 ≤ 2⁻¹ ^ 200 * 2⁻¹ ^ 200 * 2⁻¹ ^ 200 := by
    rw [← pow_add, ← pow_add]
    exact pow_le_pow_of_le_one (by norm_num) (by norm_num) (by norm_num)
  have e3 : (2⁻¹ : ℝ) ^ 200 * 2⁻¹ ^ 200 ≤ M * d := mul_le_mul hM' hd s0.le M0.le
  exact ((ht.mul hx (e1.trans e3) (hk.trans (by norm_num))).mul hy
    (e2.trans (mul_le_mul e3 hd s0.le (mul_pos M0 d0).le)) (by omega))

include hy

theorem app_quad2 : |w.quad2Fl x' y' - v.quad2 x y| ≤ 1300 * u * S * d ^ 2 := by
  have s0 : (0 : ℝ) < 2⁻¹ ^ 200 := by positivity
  have d0 : 0 < d := lt_of_lt_of_le s0 hd
  have S0 : 0 < S := lt_of_lt_of_le s0 hS
  have t1 := app_term h hS hd hx h.txx hx hx (by linarith) (by norm_num)
  have t2 := app_term h hS hd hx h.tyy hy hy (by linarith) (by norm_num)
  have t3 := app_term h hS hd hx h.txy hx hy (by linarith) (by norm_num)
  have e1 : (2⁻¹ : ℝ) ^ 1000 ≤ (S + S + S) * d * d := by
    have e2 : (2⁻¹ : ℝ) ^ 1000 ≤ 2⁻¹ ^ 200 * 2⁻¹ ^ 200 * 2⁻¹ ^ 200 := by
      rw [← pow_add, ← pow_add]
      exact pow_le_pow_of_le_one (by norm_num) (by norm_num) (by norm_num)
    refine e2.trans (mul_le_mul (mul_le_mul ?_ hd s0.le (by linarith)) hd s0.le (by positivity))
    exact hS.trans (by linarith)
  have := (App.add 52 (App.add 50 t1 t2 e1) t3 (e1.trans (le_add_of_nonneg_right (by positivity)))).2
  unfold quad2Fl quad2
  refine this.trans ?_
  push_cast
  have : 0 ≤ u * S * d ^ 2 := mul_nonneg (mul_nonneg u_pos.le S0.le) (by positivity)
  nlinarith

include hz

theorem app_quad3 : |w.quad3Fl x' y' z' - v.quad3 x y z| ≤ 1300 * u * S * d ^ 2 := by
  have s0 : (0 : ℝ) < 2⁻¹ ^ 200 := by positivity
  have d0 : 0 < d := lt_of_lt_of_le s0 hd
  have S0 : 0 < S := lt_of_lt_of_le s0 hS
  have t1 := app_term h hS hd hx h.txx hx hx (by linarith) (by norm_num)
  have t2 := app_term h hS hd hx h.tyy hy hy (by linarith) (by norm_num)
  have t3 := app_term h hS hd hx h.tzz hz hz (by linarith) (by norm_num)
  have t4 := app_term h hS hd hx h.txy hx hy (by linarith) (by norm_num)
  have t5 := app_term h hS hd hx h.txz hx hz (by linarith) (by norm_num)
  have t6 := app_term h hS hd hx h.tyz hy hz (by linarith) (by norm_num)
  have e1 : (2⁻¹ : ℝ) ^ 1000 ≤ (S + S + S) * d * d := by
    have e2 : (2⁻¹ : ℝ) ^ 1000 ≤ 2⁻¹ ^ 200 * 2⁻¹ ^ 200 * 2⁻¹ ^ 200 := by
      rw [← pow_add, ← pow_add]
      exact pow_le_pow_of_le_one (by norm_num) (by norm_num) (by norm_num)
    refine e2.trans (mul_le_mul (mul_le_mul ?_ hd s0.le (by linarith)) hd s0.le (by positivity))
    exact hS.trans (by linarith)
  have g2 := App.add 50 t1 t2 e1
  have e2 := e1.trans (le_add_of_nonneg_right (t2.nonneg))
  have g3 := App.add 51 g2 t3 e2
  have e3 := e2.trans (le_add_of_nonneg_right (t3.nonneg))
  have g4 := App.add 52 g3 t4 e3
  have e4 := e3.trans (le_add_of_nonneg_right (t4.nonneg))
  have g5 := App.add 53 g4 t5 e4
  have e5 := e4.trans (le_add_of_nonneg_right (t5.nonneg))
  have g6 := (App.add 54 g5 t6 e5).2
  unfold quad3Fl quad3
  refine g6.trans ?_
  push_cast
  have : 0 ≤ u * S * d ^ 2 := mul_nonneg (mul_nonneg u_pos.le S0.le) (by positivity)
  nlinarith

end quad

theorem app_quad1 {S d : ℝ} {w v : Variogram} (h : FactorsApp S w v) (hS : 2⁻¹ ^ 200 ≤ S) (hd : 2⁻¹ ^ 200 ≤ d)
    {x' x : ℝ} (hx : App d 1 x' x) : |w.quad1Fl x' - v.quad1 x| ≤ 1300 * u * S * d ^ 2 := by
  have s0 : (0 : ℝ) < 2⁻¹ ^ 200 := by positivity
  have S0 : 0 < S := lt_of_lt_of_le s0 hS
  have t1 := (app_term h hS hd hx h.txx hx hx (by linarith) (by norm_num)).2
  unfold quad1Fl quad1
  refine t1.trans ?_
  push_cast
  have : 0 ≤ u * S * d ^ 2 := mul_nonneg (mul_nonneg u_pos.le S0.le) (by positivity)
  nlinarith

/-- The exact quadratic form is at least that of the sphere of the largest range. -/
theorem quad3_ge {t : VType} {p rx ry rz az dp sd b : ℝ} {v : Variogram} (hv : create t p rx ry rz az dp sd = .ok v)
    (x0 : 0 < rx) (y0 : 0 < ry) (z0 : 0 < rz) (hx : rx ≤ b) (hy : ry ≤ b) (hz : rz ≤ b) (x y z : ℝ) :
    (x ^ 2 + y ^ 2 + z ^ 2) / b ^ 2 ≤ v.quad3 x y z := by
  have b0 : 0 < b := lt_of_lt_of_le x0 hx
  rw [estimateFactors_quad3 hv]
  have key : ∀ {r : ℝ} (a : ℝ), 0 < r → r ≤ b → a ^ 2 / b ^ 2 ≤ (a / r) ^ 2 := by
    intro r a r0 hr
    rw [div_pow]
    exact div_le_div_of_nonneg_left (sq_nonneg a) (by positivity) (pow_le_pow_left₀ r0.le hr 2)
  have h1 := key ((mainAxis az dp).dot ⟨x, y, z⟩) x0 hx
  have h2 := key ((perpAxis az).dot ⟨x, y, z⟩) y0 hy
  have h3 := key ((downAxis az dp).dot ⟨x, y, z⟩) z0 hz
  have e : x ^ 2 + y ^ 2 + z ^ 2 = ((mainAxis az dp).dot ⟨x, y, z⟩) ^ 2 + ((perpAxis az).dot ⟨x, y, z⟩) ^ 2 +
      ((downAxis az dp).dot ⟨x, y, z⟩) ^ 2 := by
    simp only [mainAxis, perpAxis, downAxis, Vec3.dot]
    have c1 := Real.sin_sq_add_cos_sq az
    have c2 := Real.sin_sq_add_cos_sq dp
    have : Real.cos az ^ 2 = 1 - Real.sin az ^ 2 := by linarith
    have : Real.cos dp ^ 2 = 1 - Real.sin dp ^ 2 := by linarith
    ring_nf
    simp only [*]
    ring
  rw [e, add_div, add_div]
  linarith

end Verif
