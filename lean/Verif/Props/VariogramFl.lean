import Verif.Lemmas.Corr1DFl
import Verif.Props.Factory
import Mathlib.Analysis.Real.Pi.Bounds

/-!
# C72: correlations in double arithmetic
-/

namespace Verif

open scoped Fl
open Fl Variogram

/-! ## Size of the error -/

theorem quad3_le {t : VType} {p rx ry rz az dp sd a : ℝ} {v : Variogram} (hv : create t p rx ry rz az dp sd = .ok v)
    (a0 : 0 < a) (hx : a ≤ rx) (hy : a ≤ ry) (hz : a ≤ rz) (x y z : ℝ) :
    v.quad3 x y z ≤ (x ^ 2 + y ^ 2 + z ^ 2) / a ^ 2 := by
  rw [estimateFactors_quad3 hv]
  have key : ∀ {r : ℝ} (c : ℝ), a ≤ r → (c / r) ^ 2 ≤ c ^ 2 / a ^ 2 := by
    intro r c hr
    rw [div_pow]
    exact div_le_div_of_nonneg_left (sq_nonneg c) (by positivity) (pow_le_pow_left₀ a0.le hr 2)
  have h1 := key ((Spec.mainAxis az dp).dot ⟨x, y, z⟩) hx
  have h2 := key ((Spec.perpAxis az).dot ⟨x, y, z⟩) hy
  have h3 := key ((Spec.downAxis az dp).dot ⟨x, y, z⟩) hz
  have e : x ^ 2 + y ^ 2 + z ^ 2 = ((Spec.mainAxis az dp).dot ⟨x, y, z⟩) ^ 2 +
      ((Spec.perpAxis az).dot ⟨x, y, z⟩) ^ 2 + ((Spec.downAxis az dp).dot ⟨x, y, z⟩) ^ 2 := by
    simp only [Spec.mainAxis, Spec.perpAxis, Spec.downAxis, Spec.Vec3.dot]
    have c1 := Real.sin_sq_add_cos_sq az
    have c2 := Real.sin_sq_add_cos_sq dp
    have : Real.cos az ^ 2 = 1 - Real.sin az ^ 2 := by linarith
    have : Real.cos dp ^ 2 = 1 - Real.sin dp ^ 2 := by linarith
    ring_nf
    simp only [*]
    ring
  rw [e, add_div, add_div]
  linarith

/-- The square root of an approximation. -/
theorem sqrtFl_rel {q' q r : ℝ} (h : |q' - q| ≤ r * q) (hr : r ≤ 1 / 4) (hr0 : 0 ≤ r) (hq : 2⁻¹ ^ 900 ≤ √q) :
    ∃ D', sqrtFl q' = .ok D' ∧ Rel (r + u) D' (√q) := by
  have sq0 : 0 < √q := lt_of_lt_of_le (by positivity) hq
  have q0 : 0 < q := Real.sqrt_pos.1 sq0
  have h1 := abs_le.1 h
  have hlo : (1 - r) * q ≤ q' := by linarith
  have hhi : q' ≤ (1 + r) * q := by linarith
  have q'0 : 0 ≤ q' := le_trans (mul_nonneg (by linarith) q0.le) hlo
  refine ⟨rnd64 (√q'), ?_, ?_⟩
  · unfold sqrtFl
    rw [if_neg (not_lt.2 q'0)]
  · refine Rel.rnd ⟨sq0.le, ?_⟩ (by linarith) hq
    have e : √q ^ 2 = q := Real.sq_sqrt q0.le
    have up : √q' ≤ (1 + r) * √q := by
      rw [Real.sqrt_le_iff]
      refine ⟨by positivity, hhi.trans ?_⟩
      rw [mul_pow, e]
      exact mul_le_mul_of_nonneg_right (by nlinarith) q0.le
    have lo : (1 - r) * √q ≤ √q' := by
      apply Real.le_sqrt_of_sq_le
      refine le_trans ?_ hlo
      rw [mul_pow, e]
      exact mul_le_mul_of_nonneg_right (by nlinarith) q0.le
    rw [abs_le]
    constructor <;> linarith

/-- From the error of the quadratic form to that of the correlation. -/
theorem corr_core {lm : Libm} (hl : lm.Acc) {t : VType} {p a b d q' q : ℝ} (ha : 2⁻¹ ^ 100 ≤ a) (hb : b ≤ 2 ^ 100)
    (hab : a ≤ b) (hk : b ≤ 2 ^ 18 * a) (hd : 2⁻¹ ^ 100 ≤ d) (hd' : d ≤ 2 ^ 100)
    (h1 : d ^ 2 / b ^ 2 ≤ q) (h2 : q ≤ 3 * d ^ 2 / a ^ 2) (h : |q' - q| ≤ 1300 * u * (1 / (a * a)) * d ^ 2)
    (hp : t = .generalExponential → 0 < p ∧ p ≤ 2) :
    ∃ D', sqrtFl q' = .ok D' ∧ |corr1DFl lm t p D' - corr1D t p (√q)| ≤ 2⁻¹ ^ 36 * (b / a) ^ 2 := by
  have a0 : 0 < a := lt_of_lt_of_le (by positivity) ha
  have b0 : 0 < b := lt_of_lt_of_le a0 hab
  have d0 : 0 < d := lt_of_lt_of_le (by positivity) hd
  have u0 := u_pos
  set k := b / a with hkdef
  have k1 : 1 ≤ k := (one_le_div a0).2 hab
  have k2 : k ≤ 2 ^ 18 := (div_le_iff₀ a0).2 hk
  have kk1 : 1 ≤ k ^ 2 := one_le_pow₀ k1
  have kk2 : k ^ 2 ≤ (2 ^ 18) ^ 2 := pow_le_pow_left₀ (by linarith) k2 2
  have uk : u * k ^ 2 ≤ u * (2 ^ 18) ^ 2 := mul_le_mul_of_nonneg_left kk2 u0.le
  have uk1 : u ≤ u * k ^ 2 := le_mul_of_one_le_right u0.le kk1
  have uk3 : u * k ^ 2 ≤ 1 / 65536 := by
    refine uk.trans ?_
    rw [u_eq]; norm_num
  have h' : |q' - q| ≤ 1300 * (u * k ^ 2) * q := by
    refine h.trans ?_
    have e : 1300 * u * (1 / (a * a)) * d ^ 2 = 1300 * (u * k ^ 2) * (d ^ 2 / b ^ 2) := by
      rw [hkdef]
      field_simp
    rw [e]
    exact mul_le_mul_of_nonneg_left h1 (by linarith only [uk1, u0])
  have lo : (2⁻¹ : ℝ) ^ 200 ≤ d / b := by
    rw [le_div_iff₀ b0]
    have e : (2⁻¹ : ℝ) ^ 200 * b ≤ 2⁻¹ ^ 200 * 2 ^ 100 := mul_le_mul_of_nonneg_left hb (by positivity)
    refine e.trans (le_trans (le_of_eq ?_) hd)
    norm_num
  have hi : d / a ≤ 2 ^ 200 := by
    rw [div_le_iff₀ a0]
    have e : (2 : ℝ) ^ 200 * 2⁻¹ ^ 100 ≤ 2 ^ 200 * a := mul_le_mul_of_nonneg_left ha (by positivity)
    refine hd'.trans (le_trans (le_of_eq ?_) e)
    norm_num
  have sq1 : d / b ≤ √q := by
    apply Real.le_sqrt_of_sq_le
    rw [div_pow]
    exact h1
  have sq2 : √q ≤ 2 * (d / a) := by
    rw [Real.sqrt_le_iff]
    refine ⟨by positivity, h2.trans ?_⟩
    rw [mul_pow, div_pow, mul_div_assoc]
    refine mul_le_mul_of_nonneg_right (by norm_num) (by positivity)
  have D1 : (2⁻¹ : ℝ) ^ 220 ≤ √q := (half_anti (by norm_num)).trans (lo.trans sq1)
  have D2 : √q ≤ 2 ^ 210 := by
    refine sq2.trans ((mul_le_mul_of_nonneg_left hi (by norm_num)).trans ?_)
    norm_num
  obtain ⟨D', e1, e2⟩ := sqrtFl_rel h' (by linarith) (by linarith) ((half_anti (by norm_num)).trans D1)
  refine ⟨D', e1, (corr1DFl_err hl (b := 1301 * (u * k ^ 2)) (e2.mono (by linarith)) (by linarith) (by linarith)
    D1 D2 hp).trans ?_⟩
  have : (2⁻¹ : ℝ) ^ 36 = 65536 * u := by rw [u_eq]; norm_num
  rw [this]
  nlinarith

/-- The angle in radians. -/
theorem angle_err {az : ℝ} (h : |az| ≤ 360) : |az *ᶠ degreeFl - az * degree| ≤ 7 * u := by
  have lit := rnd64_abs_err 0.01745329251994329576924
  rw [abs_of_pos (show (0 : ℝ) < 0.01745329251994329576924 by norm_num)] at lit
  have t75 : (2⁻¹ : ℝ) ^ 1075 ≤ 2⁻¹ ^ 70 := half_anti (by norm_num)
  have p1 := Real.pi_gt_d20
  have p2 := Real.pi_lt_d20
  have d1 : |degreeFl - degree| ≤ 0.0018 * u * 5 := by
    have e : |(0.01745329251994329576924 : ℝ) - degree| ≤ 2⁻¹ ^ 70 := by
      unfold degree
      rw [abs_le]
      constructor <;> norm_num <;> linarith
    have := abs_sub_le degreeFl 0.01745329251994329576924 degree
    refine this.trans ((add_le_add (lit.trans (add_le_add_right t75 _)) e).trans ?_)
    rw [u_eq]
    norm_num
  have d2 : |degreeFl| ≤ 0.01746 := by
    have e : |degree| ≤ 0.017455 := by
      unfold degree
      rw [abs_of_pos (by positivity)]
      linarith
    have := abs_sub_abs_le_abs_sub degreeFl degree
    rw [u_eq] at d1
    norm_num at d1 e ⊢
    linarith
  have e1 : |az * degreeFl - az * degree| ≤ 360 * (0.0018 * u * 5) := by
    rw [← mul_sub, abs_mul]
    exact mul_le_mul h d1 (abs_nonneg _) (by norm_num)
  have e2 : |az * degreeFl| ≤ 360 * 0.01746 := by
    rw [abs_mul]
    exact mul_le_mul h d2 (abs_nonneg _) (by norm_num)
  have e3 := rnd64_abs_err (az * degreeFl)
  have e4 : |rnd64 (az * degreeFl) - az * degreeFl| ≤ 3.2 * u := by
    refine e3.trans ((add_le_add (mul_le_mul_of_nonneg_right e2 (by positivity)) t75).trans ?_)
    rw [u_eq]
    norm_num
  have := abs_sub_le (rnd64 (az * degreeFl)) (az * degreeFl) (az * degree)
  unfold Fl.mul
  linarith [u_pos]

/-- A lag of zero, or of a size between 2^-100 and 2^100. -/
def LagOk (x y z : ℝ) : Prop :=
  (x = 0 ∧ y = 0 ∧ z = 0) ∨
    ((2⁻¹ ^ 100 ≤ |x| ∨ 2⁻¹ ^ 100 ≤ |y| ∨ 2⁻¹ ^ 100 ≤ |z|) ∧ |x| ≤ 2 ^ 100 ∧ |y| ≤ 2 ^ 100 ∧ |z| ≤ 2 ^ 100)

theorem LagOk.size {x y z : ℝ} (h : LagOk x y z) (h0 : ¬ (x = 0 ∧ y = 0 ∧ z = 0)) :
    ∃ d, 2⁻¹ ^ 100 ≤ d ∧ d ≤ 2 ^ 100 ∧ |x| ≤ d ∧ |y| ≤ d ∧ |z| ≤ d ∧ d ^ 2 ≤ x ^ 2 + y ^ 2 + z ^ 2 := by
  rcases h with h | ⟨h1, hx, hy, hz⟩
  · exact absurd h h0
  refine ⟨max |x| (max |y| |z|), ?_, max_le hx (max_le hy hz), le_max_left _ _,
    (le_max_left _ _).trans (le_max_right _ _), (le_max_right _ _).trans (le_max_right _ _), ?_⟩
  · rcases h1 with h1 | h1 | h1
    · exact h1.trans (le_max_left _ _)
    · exact h1.trans ((le_max_left _ _).trans (le_max_right _ _))
    · exact h1.trans ((le_max_right _ _).trans (le_max_right _ _))
  · have e1 := sq_abs x
    have e2 := sq_abs y
    have e3 := sq_abs z
    rcases max_choice |x| (max |y| |z|) with h2 | h2
    · rw [h2, e1]
      nlinarith
    · rcases max_choice |y| |z| with h3 | h3
      · rw [h2, h3, e2]
        nlinarith
      · rw [h2, h3, e3]
        nlinarith

theorem rnd64_one : rnd64 1 = 1 := by
  have := rnd64_nat (n := 1) (by norm_num)
  simpa using this

/-- Correlation of distance zero. -/
theorem corr1DFl_zero {lm : Libm} (hl : lm.Acc) {t : VType} {p : ℝ} (hp : t = .generalExponential → 0 < p) :
    corr1DFl lm t p 0 = 1 := by
  have e0 := hl.exp_zero
  have e2 := hl.pow_zero 2 (by norm_num)
  have e3 := hl.pow_zero 3 (by norm_num)
  have o : (1.0 : ℝ) = 1 := by norm_num
  cases t with
  | constant => simp only [corr1DFl, o]
  | exponential => simp [corr1DFl, Fl.mul, rnd64_zero, e0]
  | spherical =>
    simp only [corr1DFl, o]
    rw [if_pos one_pos]
    simp [Fl.mul, Fl.sub, rnd64_zero, rnd64_one]
  | gaussian => simp [corr1DFl, Fl.mul, rnd64_zero, e0]
  | generalExponential =>
    have p0 := hp rfl
    simp only [corr1DFl]
    rw [if_neg (by intro h; linarith [h.2]), hl.pow_zero p p0]
    simp [Fl.mul, rnd64_zero, e0]
  | matern32 => simp [corr1DFl, Fl.mul, Fl.add, rnd64_zero, rnd64_one, e0, o]
  | matern52 => simp [corr1DFl, Fl.mul, Fl.add, Fl.div, rnd64_zero, rnd64_one, e0, o]
  | matern72 => simp [corr1DFl, Fl.mul, Fl.add, Fl.div, rnd64_zero, rnd64_one, e0, e2, e3, o]

theorem sqrtFl_zero : sqrtFl 0 = .ok 0 := by
  unfold sqrtFl
  rw [if_neg (lt_irrefl _), Real.sqrt_zero, rnd64_zero]

theorem corr3Fl_zero' {lm : Libm} (hl : lm.Acc) (w : Variogram) (hp : w.type = .generalExponential → 0 < w.power) :
    w.corr3Fl lm 0 0 0 = .ok 1 ∧ w.corr2Fl lm 0 0 = .ok 1 ∧ w.corrFl lm 0 = .ok 1 := by
  have q : w.quad3Fl 0 0 0 = 0 ∧ w.quad2Fl 0 0 = 0 ∧ w.quad1Fl 0 = 0 := by
    simp [quad3Fl, quad2Fl, quad1Fl, Fl.mul, Fl.add, rnd64_zero]
  unfold corr3Fl corr2Fl corrFl
  simp only [q.1, q.2.1, q.2.2, sqrtFl_zero, Res.monad_bind_eq, Res.bind_ok, corr1DFl_zero hl hp, and_self]

theorem quad2_eq (v : Variogram) (x y : ℝ) : v.quad2 x y = v.quad3 x y 0 := by
  unfold quad2 quad3
  ring

theorem quad1_eq (v : Variogram) (x : ℝ) : v.quad1 x = v.quad3 x 0 0 := by
  unfold quad1 quad3
  ring

/-- A lag known with the relative precision of a double. -/
def LagNear (x' x : ℝ) : Prop := |x' - x| ≤ u * |x|

theorem LagNear.refl (x : ℝ) : LagNear x x := by
  unfold LagNear
  rw [sub_self, abs_zero]
  exact mul_nonneg u_pos.le (abs_nonneg x)

theorem LagNear.app {x' x d : ℝ} (h : LagNear x' x) (hd : |x| ≤ d) : App d 1 x' x := by
  refine ⟨hd, h.trans ?_⟩
  rw [Nat.cast_one, one_mul]
  exact mul_le_mul_of_nonneg_left hd u_pos.le

theorem LagNear.zero {x' : ℝ} (h : LagNear x' 0) : x' = 0 := by
  unfold LagNear at h
  rw [abs_zero, mul_zero, sub_zero] at h
  exact abs_nonpos_iff.1 h

/-- The rounded correlation of rounded lags. -/
theorem corrFl_near {lm : Libm} (hl : lm.Acc) {s : List Char} (hs : IsAscii s) {rx ry rz az dp p a b : ℝ}
    (ha : 2⁻¹ ^ 100 ≤ a) (hb : b ≤ 2 ^ 100) (hk : b ≤ 2 ^ 18 * a) (hx : a ≤ rx ∧ rx ≤ b)
    (hy : ry < 0 ∨ a ≤ ry ∧ ry ≤ b) (hz : rz < 0 ∨ a ≤ rz ∧ rz ≤ b) (haz : |az| ≤ 360) (hdp : |dp| ≤ 360) :
    ∃ v w, createVariogram s rx ry rz az dp p = .ok v ∧ createVariogramFl lm s rx ry rz az dp p = .ok w ∧
      v.type = w.type ∧ ((v.type = .generalExponential → 0 < p ∧ p ≤ 2) →
      (∀ x y z x' y' z', LagOk x y z → LagNear x' x → LagNear y' y → LagNear z' z → ∃ c, w.corr3Fl lm x' y' z' = .ok c ∧
        |c - v.corr3 x y z| ≤ 2⁻¹ ^ 36 * (b / a) ^ 2) ∧
      (∀ x y x' y', LagOk x y 0 → LagNear x' x → LagNear y' y → ∃ c, w.corr2Fl lm x' y' = .ok c ∧
        |c - v.corr2 x y| ≤ 2⁻¹ ^ 36 * (b / a) ^ 2) ∧
      (∀ x x', LagOk x 0 0 → LagNear x' x → ∃ c, w.corrFl lm x' = .ok c ∧
        |c - v.corr x| ≤ 2⁻¹ ^ 36 * (b / a) ^ 2)) := by
  have z0 : (0.0 : ℝ) = 0 := by norm_num
  have a0 : 0 < a := lt_of_lt_of_le (by positivity) ha
  have hab : a ≤ b := hx.1.trans hx.2
  have hy' : a ≤ (if ry < 0 then rx else ry) ∧ (if ry < 0 then rx else ry) ≤ b := by
    split
    · exact hx
    · rename_i h
      exact hy.resolve_left h
  have hz' : a ≤ (if rz < 0 then rx else rz) ∧ (if rz < 0 then rx else rz) ≤ b := by
    split
    · exact hx
    · rename_i h
      exact hz.resolve_left h
  generalize hRy : (if ry < 0 then rx else ry) = Ry at hy'
  generalize hRz : (if rz < 0 then rx else rz) = Rz at hz'
  have inv : ∀ {r : ℝ}, a ≤ r → 1 / (r * r) ≤ 1 / (a * a) := fun hr =>
    one_div_le_one_div_of_le (mul_pos a0 a0) (mul_self_le_mul_self a0.le hr)
  obtain ⟨v, w, hv, hw, w1, w2, v1, v2, F⟩ := factorsApp hl (t := typeOfUpper (s.map upAscii)) (p := p) (sd := 1.0)
    (angle_err haz) (angle_err hdp) (ha.trans hx.1) (hx.2.trans hb) (ha.trans hy'.1) (hy'.2.trans hb)
    (ha.trans hz'.1) (hz'.2.trans hb) (inv hx.1) (inv hy'.1) (inv hz'.1)
  refine ⟨v, w, ?_, ?_, ?_, ?_⟩
  · simp only [createVariogram, uppercase_ascii hs, Res.monad_bind_eq, Res.bind_ok, z0, hRy, hRz]
    exact hv
  · simp only [createVariogramFl, uppercase_ascii hs, Res.monad_bind_eq, Res.bind_ok, z0, hRy, hRz]
    exact hw
  · rw [w1, v1]
  intro hp
  have hpv : v.type = .generalExponential → 0 < v.power := fun h => by rw [v2]; exact (hp h).1
  have hpw : w.type = .generalExponential → 0 < w.power := fun h => by
    rw [w2]; exact (hp (by rw [v1, ← w1]; exact h)).1
  have hp' : typeOfUpper (s.map upAscii) = .generalExponential → 0 < p ∧ p ≤ 2 := by rwa [v1] at hp
  have hS : (2⁻¹ : ℝ) ^ 200 ≤ 1 / (a * a) := by
    have a1 : a ≤ 2 ^ 100 := hab.trans hb
    rw [le_div_iff₀ (mul_pos a0 a0)]
    have : a * a ≤ 2 ^ 100 * 2 ^ 100 := mul_le_mul a1 a1 a0.le (by positivity)
    refine (mul_le_mul_of_nonneg_left this (by positivity)).trans ?_
    norm_num
  have lower : ∀ {x y z d : ℝ}, d ^ 2 ≤ x ^ 2 + y ^ 2 + z ^ 2 → d ^ 2 / b ^ 2 ≤ v.quad3 x y z := by
    intro x y z d h
    refine le_trans ?_ (quad3_ge hv (a0.trans_le hx.1) (a0.trans_le hy'.1) (a0.trans_le hz'.1) hx.2 hy'.2 hz'.2 x y z)
    exact div_le_div_of_nonneg_right h (by positivity)
  have upper : ∀ {x y z d : ℝ}, |x| ≤ d → |y| ≤ d → |z| ≤ d → v.quad3 x y z ≤ 3 * d ^ 2 / a ^ 2 := by
    intro x y z d h1 h2 h3
    refine (quad3_le hv a0 hx.1 hy'.1 hz'.1 x y z).trans (div_le_div_of_nonneg_right ?_ (by positivity))
    have e1 := sq_le_sq' (abs_le.1 h1).1 (abs_le.1 h1).2
    have e2 := sq_le_sq' (abs_le.1 h2).1 (abs_le.1 h2).2
    have e3 := sq_le_sq' (abs_le.1 h3).1 (abs_le.1 h3).2
    linarith
  have bound0 : (0 : ℝ) ≤ 2⁻¹ ^ 36 * (b / a) ^ 2 := by positivity
  refine ⟨fun x y z x' y' z' h nx ny nz => ?_, fun x y x' y' h nx ny => ?_, fun x x' h nx => ?_⟩
  · by_cases h0 : x = 0 ∧ y = 0 ∧ z = 0
    · obtain ⟨rfl, rfl, rfl⟩ := h0
      rw [nx.zero, ny.zero, nz.zero]
      refine ⟨1, (corr3Fl_zero' hl w hpw).1, ?_⟩
      rw [show v.corr3 0 0 0 = 1 by unfold corr3 distance3 quad3; simpa using corr1D_zero hpv, sub_self, abs_zero]
      exact bound0
    · obtain ⟨d, d1, d2, d3, d4, d5, d6⟩ := h.size h0
      obtain ⟨D', e1, e2⟩ := corr_core hl ha hb hab hk d1 d2 (lower d6) (upper d3 d4 d5)
        (app_quad3 F hS ((half_anti (by norm_num)).trans d1) (nx.app d3) (ny.app d4) (nz.app d5)) hp'
      refine ⟨corr1DFl lm w.type w.power D', ?_, ?_⟩
      · unfold corr3Fl
        rw [e1]
        rfl
      · rw [w1, w2]
        unfold corr3 distance3
        rw [v1, v2]
        exact e2
  · by_cases h0 : x = 0 ∧ y = 0 ∧ (0 : ℝ) = 0
    · obtain ⟨rfl, rfl, -⟩ := h0
      rw [nx.zero, ny.zero]
      refine ⟨1, (corr3Fl_zero' hl w hpw).2.1, ?_⟩
      rw [show v.corr2 0 0 = 1 by unfold corr2 distance2 quad2; simpa using corr1D_zero hpv, sub_self, abs_zero]
      exact bound0
    · obtain ⟨d, d1, d2, d3, d4, d5, d6⟩ := h.size h0
      have q2 := app_quad2 F hS ((half_anti (by norm_num)).trans d1) (nx.app d3) (ny.app d4)
      rw [quad2_eq v] at q2
      obtain ⟨D', e1, e2⟩ := corr_core hl ha hb hab hk d1 d2 (lower d6) (upper d3 d4 d5) q2 hp'
      refine ⟨corr1DFl lm w.type w.power D', ?_, ?_⟩
      · unfold corr2Fl
        rw [e1]
        rfl
      · rw [w1, w2]
        unfold corr2 distance2
        rw [v1, v2, quad2_eq]
        exact e2
  · by_cases h0 : x = 0 ∧ (0 : ℝ) = 0 ∧ (0 : ℝ) = 0
    · obtain ⟨rfl, -, -⟩ := h0
      rw [nx.zero]
      refine ⟨1, (corr3Fl_zero' hl w hpw).2.2, ?_⟩
      rw [show v.corr 0 = 1 by unfold corr distance1 quad1; simpa using corr1D_zero hpv, sub_self, abs_zero]
      exact bound0
    · obtain ⟨d, d1, d2, d3, d4, d5, d6⟩ := h.size h0
      have q1 := app_quad1 F hS ((half_anti (by norm_num)).trans d1) (nx.app d3)
      rw [quad1_eq v] at q1
      obtain ⟨D', e1, e2⟩ := corr_core hl ha hb hab hk d1 d2 (lower d6) (upper d3 d4 d5) q1 hp'
      refine ⟨corr1DFl lm w.type w.power D', ?_, ?_⟩
      · unfold corrFl
        rw [e1]
        rfl
      · rw [w1, w2]
        unfold corr distance1
        rw [v1, v2, quad1_eq]
        exact e2

/-- **C72.** With an accurate mathematical library, a factory-made variogram with ranges between `a` and `b`
(`b ≤ 2^18 a`) never gives NaN, and its correlation of three, two or one lags differs from the exact correlation by
at most 2^-36 (b/a)². -/
theorem corrFl_accurate {lm : Libm} (hl : lm.Acc) {s : List Char} (hs : IsAscii s) {rx ry rz az dp p a b : ℝ}
    (ha : 2⁻¹ ^ 100 ≤ a) (hb : b ≤ 2 ^ 100) (hk : b ≤ 2 ^ 18 * a) (hx : a ≤ rx ∧ rx ≤ b)
    (hy : ry < 0 ∨ a ≤ ry ∧ ry ≤ b) (hz : rz < 0 ∨ a ≤ rz ∧ rz ≤ b) (haz : |az| ≤ 360) (hdp : |dp| ≤ 360) :
    ∃ v w, createVariogram s rx ry rz az dp p = .ok v ∧ createVariogramFl lm s rx ry rz az dp p = .ok w ∧
      v.type = w.type ∧ ((v.type = .generalExponential → 0 < p ∧ p ≤ 2) →
      (∀ x y z, LagOk x y z → ∃ c, w.corr3Fl lm x y z = .ok c ∧ |c - v.corr3 x y z| ≤ 2⁻¹ ^ 36 * (b / a) ^ 2) ∧
      (∀ x y, LagOk x y 0 → ∃ c, w.corr2Fl lm x y = .ok c ∧ |c - v.corr2 x y| ≤ 2⁻¹ ^ 36 * (b / a) ^ 2) ∧
      (∀ x, LagOk x 0 0 → ∃ c, w.corrFl lm x = .ok c ∧ |c - v.corr x| ≤ 2⁻¹ ^ 36 * (b / a) ^ 2)) := by
  obtain ⟨v, w, h1, h2, h3, h4⟩ := corrFl_near hl hs (p := p) ha hb hk hx hy hz haz hdp
  refine ⟨v, w, h1, h2, h3, fun hp => ?_⟩
  obtain ⟨g3, g2, g1⟩ := h4 hp
  exact ⟨fun x y z h => g3 x y z x y z h (.refl x) (.refl y) (.refl z),
    fun x y h => g2 x y x y h (.refl x) (.refl y), fun x h => g1 x x h (.refl x)⟩

/-- **C72.** The correlation of lag zero is exactly one. -/
theorem corrFl_zero {lm : Libm} (hl : lm.Acc) (w : Variogram) (hp : w.type = .generalExponential → 0 < w.power) :
    w.corr3Fl lm 0 0 0 = .ok 1 ∧ w.corr2Fl lm 0 0 = .ok 1 ∧ w.corrFl lm 0 = .ok 1 := corr3Fl_zero' hl w hp

/-- **C72.** Opposite lags give identical results. -/
theorem corrFl_neg (lm : Libm) (w : Variogram) (x y z : ℝ) :
    w.corr3Fl lm (-x) (-y) (-z) = w.corr3Fl lm x y z ∧ w.corr2Fl lm (-x) (-y) = w.corr2Fl lm x y ∧
      w.corrFl lm (-x) = w.corrFl lm x := by
  have m : ∀ a b c : ℝ, a *ᶠ (-b) *ᶠ (-c) = a *ᶠ b *ᶠ c := by
    intro a b c
    simp [Fl.mul, rnd64_neg]
  simp only [corr3Fl, corr2Fl, corrFl, quad3Fl, quad2Fl, quad1Fl, m, and_self]

/-! ## Libraries -/

/-- The exact library. -/
noncomputable def exactLibm : Libm where
  sin := Real.sin
  cos := Real.cos
  exp := Real.exp
  pow := fun x y => x ^ y

/-- The correctly rounded library. -/
noncomputable def roundedLibm : Libm where
  sin x := rnd64 (Real.sin x)
  cos x := rnd64 (Real.cos x)
  exp x := rnd64 (Real.exp x)
  pow x y := rnd64 (x ^ y)

theorem exactLibm_acc : exactLibm.Acc where
  sin x := by simp [exactLibm]
  cos x := by simp [exactLibm]
  exp x _ := by simp [exactLibm]; positivity
  pow x y hx _ := by
    have := Real.rpow_nonneg hx y
    simp only [exactLibm, sub_self, abs_zero]
    positivity
  exp_zero := Real.exp_zero
  pow_zero y hy := Real.zero_rpow hy.ne'

theorem roundedLibm_acc : roundedLibm.Acc := by
  have t1 : (2⁻¹ : ℝ) ^ 1075 ≤ 2⁻¹ ^ 1074 := half_anti (by norm_num)
  have t2 : (2⁻¹ : ℝ) ^ 1075 ≤ 2⁻¹ ^ 53 := half_anti (by norm_num)
  have t3 : (2⁻¹ : ℝ) ^ 53 ≤ 2⁻¹ ^ 52 := half_anti (by norm_num)
  have b1 : ∀ x : ℝ, |x| ≤ 1 → |rnd64 x - x| ≤ 2⁻¹ ^ 52 := by
    intro x hx
    refine (rnd64_abs_err x).trans ((add_le_add (mul_le_mul_of_nonneg_right hx (by positivity)) t2).trans ?_)
    norm_num
  have b2 : ∀ x : ℝ, 0 ≤ x → |rnd64 x - x| ≤ 2⁻¹ ^ 52 * x + 2⁻¹ ^ 1074 := by
    intro x hx
    refine (rnd64_abs_err x).trans (add_le_add ?_ t1)
    rw [abs_of_nonneg hx, mul_comm]
    exact mul_le_mul_of_nonneg_right t3 hx
  exact {
    sin := fun x => b1 _ (Real.abs_sin_le_one x)
    cos := fun x => b1 _ (Real.abs_cos_le_one x)
    exp := fun x _ => b2 _ (Real.exp_pos x).le
    pow := fun x y hx _ => b2 _ (Real.rpow_nonneg hx y)
    exp_zero := by
      show rnd64 (Real.exp 0) = 1
      rw [Real.exp_zero, rnd64_one]
    pow_zero := fun y hy => by
      show rnd64 ((0 : ℝ) ^ y) = 0
      rw [Real.zero_rpow hy.ne', rnd64_zero] }

/-- The hypotheses hold: ranges 1000, 500 and 250, rotated, the lag (300, -20, 7). -/
example : ∃ v w, createVariogram "gaussian".toList 1000 500 250 30 10 1.5 = .ok v ∧
    createVariogramFl roundedLibm "gaussian".toList 1000 500 250 30 10 1.5 = .ok w ∧
    ∃ c, w.corr3Fl roundedLibm 300 (-20) 7 = .ok c ∧ |c - v.corr3 300 (-20) 7| ≤ 2⁻¹ ^ 32 := by
  have hs : IsAscii "gaussian".toList := by unfold IsAscii; decide +kernel
  obtain ⟨v, w, hv, hw, -, h⟩ := corrFl_accurate roundedLibm_acc hs (rx := 1000) (ry := 500) (rz := 250) (az := 30)
    (dp := 10) (p := 1.5) (a := 250) (b := 1000) (by norm_num) (by norm_num) (by norm_num) (by norm_num) (by norm_num)
    (by norm_num) (by norm_num) (by norm_num)
  obtain ⟨c, h1, h2⟩ := (h (fun _ => by norm_num)).1 300 (-20) 7
    (Or.inr ⟨Or.inl (by norm_num), by norm_num, by norm_num, by norm_num⟩)
  exact ⟨v, w, hv, hw, c, h1, h2.trans (by norm_num)⟩

end Verif
