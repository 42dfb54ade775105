import Verif.Lemmas.Variogram

/-!
# C23-C29, C47, C48: correlation functions, anisotropy, setters

A variogram `v` is "created" by `Variogram.create type power rx ry rz azi dip sd = .ok v`, which
is what the Python factory calls (see `Props/Factory`). All hypotheses about creation are
satisfied by the concrete variogram of `exists_rotated`.
-/

namespace Verif

open Spec Variogram

/-- Concrete instance for the hypotheses below: a rotated, dipping, anisotropic variogram. -/
theorem exists_rotated (t : VType) : ∃ v, Variogram.create t 1.5 1000 500 250 1 0.5 1 = .ok v := by
  simp [Variogram.create, estimateFactors]

/-- Creation succeeds exactly when no range is zero, and stores its parameters. -/
theorem create_ok_iff {t : VType} {p rx ry rz az dp sd : ℝ} :
    (∃ v, Variogram.create t p rx ry rz az dp sd = .ok v) ↔ rx ≠ 0 ∧ ry ≠ 0 ∧ rz ≠ 0 := by
  unfold Variogram.create
  constructor
  · rintro ⟨v, h⟩
    have := estimateFactors_ok h
    exact ⟨this.1, this.2.1, this.2.2.1⟩
  · rintro ⟨h1, h2, h3⟩
    simp [estimateFactors, h1, h2, h3]

theorem create_fields {t : VType} {p rx ry rz az dp sd : ℝ} {v : Variogram}
    (h : Variogram.create t p rx ry rz az dp sd = .ok v) :
    v.type = t ∧ v.power = p ∧ v.rangeX = rx ∧ v.rangeY = ry ∧ v.rangeZ = rz ∧ v.azimuth = az ∧
      v.dip = dp ∧ v.var = sd * sd := by
  have := estimateFactors_ok h
  simp only at this
  exact this.2.2.2

/-- The axes of the specification are an orthonormal frame. -/
theorem frame_orthonormal (az dp : ℝ) :
    (mainAxis az dp).dot (mainAxis az dp) = 1 ∧ (perpAxis az).dot (perpAxis az) = 1 ∧
    (downAxis az dp).dot (downAxis az dp) = 1 ∧ (mainAxis az dp).dot (perpAxis az) = 0 ∧
    (mainAxis az dp).dot (downAxis az dp) = 0 ∧ (perpAxis az).dot (downAxis az dp) = 0 := by
  have h1 := Real.sin_sq_add_cos_sq az
  have h2 := Real.sin_sq_add_cos_sq dp
  simp only [mainAxis, perpAxis, downAxis, Vec3.dot]
  refine ⟨?_, ?_, ?_, ?_, ?_, ?_⟩
  · linear_combination Real.cos dp ^ 2 * h1 + h2
  · linear_combination h1
  · linear_combination Real.sin dp ^ 2 * h1 + h2
  · ring
  · linear_combination -(Real.cos dp * Real.sin dp) * h1
  · ring

/-- **C28.** Correlation is the one-dimensional model at the length of the lag measured in the
rotated frame in units of the three ranges. -/
theorem corr3_eq_normDist {t : VType} {p rx ry rz az dp sd : ℝ} {v : Variogram}
    (h : Variogram.create t p rx ry rz az dp sd = .ok v) (x y z : ℝ) :
    v.corr3 x y z = corr1D t p (normDist rx ry rz az dp ⟨x, y, z⟩) := by
  obtain ⟨h1, h2, -⟩ := create_fields h
  unfold corr3 distance3 normDist
  rw [h1, h2, estimateFactors_quad3 h]

/-- The argument of the square root is never negative, so `Distance` is never NaN. -/
theorem quad3_nonneg {t : VType} {p rx ry rz az dp sd : ℝ} {v : Variogram}
    (h : Variogram.create t p rx ry rz az dp sd = .ok v) (x y z : ℝ) : 0 ≤ v.quad3 x y z := by
  rw [estimateFactors_quad3 h]
  positivity

/-- Lag zero is the only lag at distance zero. -/
theorem normDist_eq_zero_iff {rx ry rz az dp : ℝ} (hx : rx ≠ 0) (hy : ry ≠ 0) (hz : rz ≠ 0)
    (x y z : ℝ) : normDist rx ry rz az dp ⟨x, y, z⟩ = 0 ↔ x = 0 ∧ y = 0 ∧ z = 0 := by
  unfold normDist
  rw [Real.sqrt_eq_zero (by positivity)]
  constructor
  · intro h
    set a := (mainAxis az dp).dot ⟨x, y, z⟩ / rx with ha
    set b := (perpAxis az).dot ⟨x, y, z⟩ / ry with hb
    set c := (downAxis az dp).dot ⟨x, y, z⟩ / rz with hc
    have h1 : a = 0 := by nlinarith [sq_nonneg a, sq_nonneg b, sq_nonneg c]
    have h2 : b = 0 := by nlinarith [sq_nonneg a, sq_nonneg b, sq_nonneg c]
    have h3 : c = 0 := by nlinarith [sq_nonneg a, sq_nonneg b, sq_nonneg c]
    rw [ha, div_eq_zero_iff, or_iff_left hx] at h1
    rw [hb, div_eq_zero_iff, or_iff_left hy] at h2
    rw [hc, div_eq_zero_iff, or_iff_left hz] at h3
    simp only [mainAxis, perpAxis, downAxis, Vec3.dot] at h1 h2 h3
    have s1 := Real.sin_sq_add_cos_sq az
    have s2 := Real.sin_sq_add_cos_sq dp
    have hxx : x ^ 2 + y ^ 2 + z ^ 2 = 0 := by
      have : x ^ 2 + y ^ 2 + z ^ 2 =
          (Real.cos dp * Real.cos az * x + Real.cos dp * Real.sin az * y + Real.sin dp * z) ^ 2
          + (-Real.sin az * x + Real.cos az * y + 0 * z) ^ 2
          + (-(Real.sin dp * Real.cos az) * x + -(Real.sin dp * Real.sin az) * y
            + Real.cos dp * z) ^ 2 := by
        linear_combination (-(x ^ 2 + y ^ 2)) * s1
          + (-(z ^ 2) - (Real.cos az * x + Real.sin az * y) ^ 2) * s2
      rw [this, h1, h2, h3]; ring
    refine ⟨?_, ?_, ?_⟩ <;> nlinarith [sq_nonneg x, sq_nonneg y, sq_nonneg z]
  · rintro ⟨rfl, rfl, rfl⟩
    simp [Vec3.dot]

/-- **C27.** Fewer arguments mean zero lag in the missing directions. -/
theorem corr_arity (v : Variogram) (x y : ℝ) :
    v.corr2 x y = v.corr3 x y 0 ∧ v.corr x = v.corr2 x 0 ∧ v.corr x = v.corr3 x 0 0 := by
  simp only [corr, corr2, corr3, distance1, distance2, distance3, quad1_eq, quad2_eq, and_self]

/-- **C23.** Lag zero has correlation one. -/
theorem corr_zero {t : VType} {p rx ry rz az dp sd : ℝ} {v : Variogram}
    (h : Variogram.create t p rx ry rz az dp sd = .ok v)
    (hp : t = .generalExponential → 0 < p) :
    v.corr3 0 0 0 = 1 ∧ v.corr2 0 0 = 1 ∧ v.corr 0 = 1 := by
  have h3 : v.corr3 0 0 0 = 1 := by
    rw [corr3_eq_normDist h]
    have := (create_ok_iff (t := t) (p := p) (rx := rx) (ry := ry) (rz := rz) (az := az)
      (dp := dp) (sd := sd)).1 ⟨v, h⟩
    rw [(normDist_eq_zero_iff this.1 this.2.1 this.2.2 0 0 0).2 ⟨rfl, rfl, rfl⟩]
    exact corr1D_zero hp
  refine ⟨h3, ?_, ?_⟩
  · rw [(corr_arity v 0 0).1]; exact h3
  · rw [(corr_arity v 0 0).2.2]; exact h3

/-- The condition on the power is needed: with power 0 the factory accepts the variogram but the
correlation at lag zero is exp(-3), not 1. -/
theorem corr_zero_power_zero_refuted {rx ry rz az dp sd : ℝ} {v : Variogram}
    (h : Variogram.create .generalExponential 0 rx ry rz az dp sd = .ok v) :
    v.corr 0 = Real.exp (-3) ∧ v.corr 0 ≠ 1 := by
  have h0 : v.corr 0 = Real.exp (-3) := by
    rw [(corr_arity v 0 0).2.2, corr3_eq_normDist h]
    simp [corr1D]
    norm_num
  refine ⟨h0, ?_⟩
  rw [h0]
  have : Real.exp (-3) < Real.exp 0 := Real.exp_lt_exp.2 (by norm_num)
  rw [Real.exp_zero] at this
  exact this.ne

/-- **C23.** Correlations are between 0 and 1. -/
theorem corr_bounds {t : VType} {p rx ry rz az dp sd : ℝ} {v : Variogram}
    (h : Variogram.create t p rx ry rz az dp sd = .ok v) (x y z : ℝ) :
    0 ≤ v.corr3 x y z ∧ v.corr3 x y z ≤ 1 := by
  rw [corr3_eq_normDist h]
  exact ⟨corr1D_nonneg (Real.sqrt_nonneg _), corr1D_le_one (Real.sqrt_nonneg _)⟩

/-- **C24.** Opposite lags have the same correlation. -/
theorem corr_neg (v : Variogram) (x y z : ℝ) :
    v.corr3 (-x) (-y) (-z) = v.corr3 x y z ∧ v.corr2 (-x) (-y) = v.corr2 x y ∧
      v.corr (-x) = v.corr x := by
  simp [corr, corr2, corr3, distance1, distance2, distance3, quad1, quad2, quad3]

/-- **C25.** Correlation does not increase along a ray. -/
theorem corr_antitone_ray {t : VType} {p rx ry rz az dp sd : ℝ} {v : Variogram}
    (h : Variogram.create t p rx ry rz az dp sd = .ok v)
    (hp : t = .generalExponential → 0 < p) (x y z : ℝ) {a b : ℝ} (ha : 0 ≤ a) (hab : a ≤ b) :
    v.corr3 (b * x) (b * y) (b * z) ≤ v.corr3 (a * x) (a * y) (a * z) := by
  obtain ⟨h1, h2, -⟩ := create_fields h
  unfold corr3 distance3
  rw [h1, h2, quad3_smul, quad3_smul]
  apply corr1D_antitone hp (Real.sqrt_nonneg _)
  apply Real.sqrt_le_sqrt
  have := quad3_nonneg h x y z
  have : a ^ 2 ≤ b ^ 2 := by nlinarith
  nlinarith

/-- More generally correlation is ordered by the normalised distance. -/
theorem corr_antitone_dist {t : VType} {p rx ry rz az dp sd : ℝ} {v : Variogram}
    (h : Variogram.create t p rx ry rz az dp sd = .ok v)
    (hp : t = .generalExponential → 0 < p) (x y z x' y' z' : ℝ)
    (hd : normDist rx ry rz az dp ⟨x, y, z⟩ ≤ normDist rx ry rz az dp ⟨x', y', z'⟩) :
    v.corr3 x' y' z' ≤ v.corr3 x y z := by
  rw [corr3_eq_normDist h, corr3_eq_normDist h]
  exact corr1D_antitone hp (Real.sqrt_nonneg _) hd

/-! ### Meaning of the range -/

/-- `s` ranges along each of the three principal axes is at normalised distance `|s|`. -/
theorem normDist_axes {rx ry rz : ℝ} (az dp s : ℝ) (hx : rx ≠ 0) (hy : ry ≠ 0) (hz : rz ≠ 0) :
    (let m := mainAxis az dp
     normDist rx ry rz az dp ⟨s * rx * m.x, s * rx * m.y, s * rx * m.z⟩ = |s|) ∧
    (let m := perpAxis az
     normDist rx ry rz az dp ⟨s * ry * m.x, s * ry * m.y, s * ry * m.z⟩ = |s|) ∧
    (let m := downAxis az dp
     normDist rx ry rz az dp ⟨s * rz * m.x, s * rz * m.y, s * rz * m.z⟩ = |s|) := by
  have dotsmul : ∀ (a b : Vec3) (c : ℝ), a.dot ⟨c * b.x, c * b.y, c * b.z⟩ = c * a.dot b := by
    intro a b c; simp only [Vec3.dot]; ring
  have dotcomm : ∀ a b : Vec3, a.dot b = b.dot a := by
    intro a b; simp only [Vec3.dot]; ring
  obtain ⟨o1, o2, o3, o4, o5, o6⟩ := frame_orthonormal az dp
  refine ⟨?_, ?_, ?_⟩
  · simp only [normDist, dotsmul, o1, dotcomm (perpAxis az) (mainAxis az dp), o4,
      dotcomm (downAxis az dp) (mainAxis az dp), o5]
    rw [← Real.sqrt_sq_eq_abs]
    congr 1
    field_simp
    ring
  · simp only [normDist, dotsmul, o2, o4, dotcomm (downAxis az dp) (perpAxis az), o6]
    rw [← Real.sqrt_sq_eq_abs]
    congr 1
    field_simp
    ring
  · simp only [normDist, dotsmul, o3, o5, o6]
    rw [← Real.sqrt_sq_eq_abs]
    congr 1
    field_simp
    ring

theorem exp_quarter_bounds : ∀ x : ℝ, 0 ≤ x → x ≤ 1 →
    1 + x + x ^ 2 / 2 + x ^ 3 / 6 + x ^ 4 / 24 + x ^ 5 / 120 ≤ Real.exp x ∧
    Real.exp x ≤ 1 + x + x ^ 2 / 2 + x ^ 3 / 6 + x ^ 4 / 24 + x ^ 5 / 120 + x ^ 6 * (7 / 4320) := by
  intro x h0 h1
  constructor
  · have := Real.sum_le_exp_of_nonneg h0 6
    simp only [Finset.sum_range_succ, Finset.sum_range_zero] at this
    norm_num [Nat.factorial] at this
    linarith
  · have := Real.exp_bound' h0 h1 (n := 6) (by norm_num)
    simp only [Finset.sum_range_succ, Finset.sum_range_zero] at this
    norm_num [Nat.factorial] at this
    linarith

/-- **C26** (values). One range along a principal axis: 0, exp(-3), about 0.05, or 1. -/
theorem corr1D_at_range (p : ℝ) :
    corr1D .spherical p 1 = 0 ∧ corr1D .constant p 1 = 1 ∧
    corr1D .exponential p 1 = Real.exp (-3) ∧ corr1D .gaussian p 1 = Real.exp (-3) ∧
    corr1D .generalExponential p 1 = Real.exp (-3) ∧
    |corr1D .matern32 p 1 - 0.05| < 0.001 ∧ |corr1D .matern52 p 1 - 0.05| < 0.001 ∧
    |corr1D .matern72 p 1 - 0.05| < 0.001 ∧ |Real.exp (-3) - 0.05| < 0.001 := by
  -- x = 4 * (x / 4) style bounds through exp(x) = exp(x/8)^8
  have key : ∀ x lo hi : ℝ, 0 ≤ x → x ≤ 8 → 0 < lo →
      lo ≤ (1 + x/8 + (x/8) ^ 2 / 2 + (x/8) ^ 3 / 6 + (x/8) ^ 4 / 24 + (x/8) ^ 5 / 120) ^ 8 →
      (1 + x/8 + (x/8) ^ 2 / 2 + (x/8) ^ 3 / 6 + (x/8) ^ 4 / 24 + (x/8) ^ 5 / 120
        + (x/8) ^ 6 * (7 / 4320)) ^ 8 ≤ hi →
      1 / hi ≤ Real.exp (-x) ∧ Real.exp (-x) ≤ 1 / lo := by
    intro x lo hi h0 h8 hlo hl hu
    obtain ⟨b1, b2⟩ := exp_quarter_bounds (x / 8) (by linarith) (by linarith)
    have e : Real.exp x = Real.exp (x / 8) ^ 8 := by
      rw [← Real.exp_nat_mul]; congr 1; push_cast; ring
    have hb : 0 ≤ 1 + x/8 + (x/8) ^ 2 / 2 + (x/8) ^ 3 / 6 + (x/8) ^ 4 / 24 + (x/8) ^ 5 / 120 := by
      positivity
    have l1 : lo ≤ Real.exp x := by
      rw [e]; exact hl.trans (pow_le_pow_left₀ hb b1 8)
    have l2 : Real.exp x ≤ hi := by
      rw [e]; exact (pow_le_pow_left₀ (Real.exp_nonneg _) b2 8).trans hu
    rw [Real.exp_neg, ← one_div]
    exact ⟨one_div_le_one_div_of_le (Real.exp_pos _) l2, one_div_le_one_div_of_le hlo l1⟩
  have k3 := key 3 20.08 20.09 (by norm_num) (by norm_num) (by norm_num) (by norm_num) (by norm_num)
  have k32 := key 4.744 114.85 114.92 (by norm_num) (by norm_num) (by norm_num) (by norm_num)
    (by norm_num)
  have k52 := key 5.918 371 372 (by norm_num) (by norm_num) (by norm_num) (by norm_num)
    (by norm_num)
  have k72 := key 6.877 967 971 (by norm_num) (by norm_num) (by norm_num) (by norm_num)
    (by norm_num)
  refine ⟨?_, ?_, ?_, ?_, ?_, ?_, ?_, ?_, ?_⟩
  · simp [corr1D]; norm_num
  · simp [corr1D]; norm_num
  · simp [corr1D]; norm_num
  · simp [corr1D]; norm_num
  · simp [corr1D]; norm_num
  · simp only [corr1D, mul_one]
    rw [abs_lt]
    constructor <;> norm_num at k32 ⊢ <;> nlinarith [k32.1, k32.2]
  · simp only [corr1D, mul_one]
    rw [abs_lt]
    constructor <;> norm_num at k52 ⊢ <;> nlinarith [k52.1, k52.2]
  · simp only [corr1D, mul_one]
    rw [abs_lt]
    constructor <;> norm_num at k72 ⊢ <;> nlinarith [k72.1, k72.2]
  · rw [abs_lt]
    constructor <;> norm_num at k3 ⊢ <;> linarith [k3.1, k3.2]

/-- **C26** (along the axes, all angles). The correlation at `s` ranges along each principal
axis is the one-dimensional value at `|s|`; in particular it is the value of
`corr1D_at_range` at one range. -/
theorem corr_along_axes {t : VType} {p rx ry rz az dp sd : ℝ} {v : Variogram}
    (h : Variogram.create t p rx ry rz az dp sd = .ok v) (s : ℝ) :
    (let m := mainAxis az dp
     v.corr3 (s * rx * m.x) (s * rx * m.y) (s * rx * m.z) = corr1D t p |s|) ∧
    (let m := perpAxis az
     v.corr3 (s * ry * m.x) (s * ry * m.y) (s * ry * m.z) = corr1D t p |s|) ∧
    (let m := downAxis az dp
     v.corr3 (s * rz * m.x) (s * rz * m.y) (s * rz * m.z) = corr1D t p |s|) := by
  have hne := (create_ok_iff (t := t) (p := p) (rx := rx) (ry := ry) (rz := rz) (az := az)
      (dp := dp) (sd := sd)).1 ⟨v, h⟩
  obtain ⟨h1, h2, h3⟩ := normDist_axes az dp s hne.1 hne.2.1 hne.2.2
  simp only [corr3_eq_normDist h]
  exact ⟨by rw [h1], by rw [h2], by rw [h3]⟩

/-- **C26** (beyond the range). Spherical is exactly zero at and beyond one range in every
direction; the other types except constant are strictly positive, and strictly below their
value at one range. -/
theorem corr_beyond_range {t : VType} {p rx ry rz az dp sd : ℝ} {v : Variogram}
    (h : Variogram.create t p rx ry rz az dp sd = .ok v) (hp : t = .generalExponential → 0 < p)
    (x y z : ℝ) :
    (t = .spherical → 1 ≤ normDist rx ry rz az dp ⟨x, y, z⟩ → v.corr3 x y z = 0) ∧
    (t = .constant → v.corr3 x y z = 1) ∧
    (t ≠ .spherical → t ≠ .constant → 0 < v.corr3 x y z ∧
      (1 < normDist rx ry rz az dp ⟨x, y, z⟩ → v.corr3 x y z < corr1D t p 1)) := by
  rw [corr3_eq_normDist h]
  have hd : 0 ≤ normDist rx ry rz az dp ⟨x, y, z⟩ := Real.sqrt_nonneg _
  generalize normDist rx ry rz az dp ⟨x, y, z⟩ = d at hd
  refine ⟨?_, ?_, ?_⟩
  · rintro rfl h1
    simp only [corr1D]
    rw [if_neg (by norm_num; linarith)]
    norm_num
  · rintro rfl
    simp [corr1D]
    norm_num
  · intro hs hc
    -- strictness from the exponential factor
    have matern : ∀ (c : ℝ) (q : ℝ → ℝ), 0 < c → (∀ s, 0 ≤ s → 0 < q s) →
        (∀ s, 0 ≤ s → ∀ r, s ≤ r → Real.exp (-r) * q r ≤ Real.exp (-s) * q s) →
        (∀ s r, 0 ≤ s → s < r → q r < Real.exp (r - s) * q s) →
        0 < Real.exp (-(c * d)) * q (c * d) ∧
        (1 < d → Real.exp (-(c * d)) * q (c * d) < Real.exp (-c) * q c) := by
      intro c q hcpos hq _ hlt
      refine ⟨mul_pos (Real.exp_pos _) (hq _ (by positivity)), fun h1 => ?_⟩
      have e : Real.exp (-c) = Real.exp (-(c * d)) * Real.exp (c * d - c) := by
        rw [← Real.exp_add]; congr 1; ring
      rw [e, mul_assoc]
      exact mul_lt_mul_of_pos_left (hlt c (c * d) hcpos.le (by nlinarith)) (Real.exp_pos _)
    have expb : ∀ u : ℝ, 0 ≤ u → 1 + u + u ^ 2 / 2 + u ^ 3 / 6 ≤ Real.exp u :=
      fun u hu => exp_ge_cubic hu
    cases t with
    | spherical => exact absurd rfl hs
    | constant => exact absurd rfl hc
    | exponential =>
      refine ⟨Real.exp_pos _, fun h1 => ?_⟩
      simp only [corr1D]
      apply Real.exp_lt_exp.2
      norm_num; linarith
    | gaussian =>
      refine ⟨Real.exp_pos _, fun h1 => ?_⟩
      simp only [corr1D]
      apply Real.exp_lt_exp.2
      norm_num; nlinarith
    | generalExponential =>
      have hp := hp rfl
      simp only [corr1D]
      rw [if_neg (by rintro ⟨-, h⟩; linarith), if_neg (by rintro ⟨-, h⟩; linarith)]
      refine ⟨Real.exp_pos _, fun h1 => ?_⟩
      apply Real.exp_lt_exp.2
      have := Real.one_lt_rpow h1 hp
      norm_num; linarith
    | matern32 =>
      have := matern 4.744 (fun s => 1 + s) (by norm_num) (fun s hs => by positivity)
        (fun s hs r hr => matern32_antitone hs hr) (fun s r hs hr => by
          have := expb (r - s) (by linarith)
          have h2 : (1 + (r - s) + (r - s) ^ 2 / 2 + (r - s) ^ 3 / 6) * (1 + s)
            ≤ Real.exp (r - s) * (1 + s) := mul_le_mul_of_nonneg_right this (by positivity)
          have h3 : 0 < (r - s) := by linarith
          have h4 : 0 < (r - s) ^ 2 / 2 * (1 + s) := by positivity
          have h5 : 0 ≤ (r - s) ^ 3 / 6 * (1 + s) := by positivity
          nlinarith [mul_nonneg hs h3.le])
      simp only [corr1D]
      norm_num at this ⊢
      exact this
    | matern52 =>
      have := matern 5.918 (fun s => 1 + s + s * s / 3) (by norm_num) (fun s hs => by positivity)
        (fun s hs r hr => matern52_antitone hs hr) (fun s r hs hr => by
          obtain ⟨u, rfl, hu⟩ : ∃ u, r = s + u ∧ 0 < u := ⟨r - s, by ring, by linarith⟩
          have := expb (s + u - s) (by linarith)
          rw [add_sub_cancel_left] at this ⊢
          have h2 : (1 + u + u ^ 2 / 2 + u ^ 3 / 6) * (1 + s + s * s / 3)
            ≤ Real.exp u * (1 + s + s * s / 3) := mul_le_mul_of_nonneg_right this (by positivity)
          have e : (1 + u + u ^ 2 / 2 + u ^ 3 / 6) * (1 + s + s * s / 3)
              - (1 + (s + u) + (s + u) * (s + u) / 3)
              = u * (s / 3 + s * s / 3) + u ^ 2 * (1 / 6 + s / 2 + s * s / 6)
                + u ^ 3 / 6 * (1 + s + s * s / 3) := by ring
          have : 0 < u * (s / 3 + s * s / 3) + u ^ 2 * (1 / 6 + s / 2 + s * s / 6)
                + u ^ 3 / 6 * (1 + s + s * s / 3) := by positivity
          linarith)
      simp only [corr1D]
      norm_num at this ⊢
      exact this
    | matern72 =>
      have := matern 6.877 (fun s => 1 + s + 2 / 5 * s ^ 2 + s ^ 3 / 15) (by norm_num)
        (fun s hs => by positivity)
        (fun s hs r hr => matern72_antitone hs hr) (fun s r hs hr => by
          obtain ⟨u, rfl, hu⟩ : ∃ u, r = s + u ∧ 0 < u := ⟨r - s, by ring, by linarith⟩
          have := expb (s + u - s) (by linarith)
          rw [add_sub_cancel_left] at this ⊢
          have h2 : (1 + u + u ^ 2 / 2 + u ^ 3 / 6) * (1 + s + 2 / 5 * s ^ 2 + s ^ 3 / 15)
            ≤ Real.exp u * (1 + s + 2 / 5 * s ^ 2 + s ^ 3 / 15) :=
            mul_le_mul_of_nonneg_right this (by positivity)
          have e : (1 + u + u ^ 2 / 2 + u ^ 3 / 6) * (1 + s + 2 / 5 * s ^ 2 + s ^ 3 / 15)
              - (1 + (s + u) + 2 / 5 * (s + u) ^ 2 + (s + u) ^ 3 / 15)
              = u * (s / 5 + s ^ 2 / 5 + s ^ 3 / 15)
                + u ^ 2 * (1 / 10 + 3 * s / 10 + s ^ 2 / 5 + s ^ 3 / 30)
                + u ^ 3 * (1 / 10 + s / 6 + s ^ 2 / 15 + s ^ 3 / 90) := by ring
          have : 0 < u * (s / 5 + s ^ 2 / 5 + s ^ 3 / 15)
                + u ^ 2 * (1 / 10 + 3 * s / 10 + s ^ 2 / 5 + s ^ 3 / 30)
                + u ^ 3 * (1 / 10 + s / 6 + s ^ 2 / 15 + s ^ 3 / 90) := by positivity
          linarith)
      simp only [corr1D]
      norm_num at this ⊢
      exact this

/-- A concrete lag beyond the range in a concrete variogram. -/
example : 1 < normDist 1000 500 250 1 0.5 ⟨2000, 0, 0⟩ := by
  have h := Real.sin_sq_add_cos_sq 1
  have h' := Real.sin_sq_add_cos_sq 0.5
  unfold normDist
  rw [Real.lt_sqrt (by norm_num)]
  simp only [mainAxis, perpAxis, downAxis, Vec3.dot]
  have e : ((Real.cos 0.5 * Real.cos 1 * 2000 + Real.cos 0.5 * Real.sin 1 * 0 + Real.sin 0.5 * 0) / 1000) ^ 2
    + ((-Real.sin 1 * 2000 + Real.cos 1 * 0 + 0 * 0) / 500) ^ 2
    + ((-(Real.sin 0.5 * Real.cos 1) * 2000 + -(Real.sin 0.5 * Real.sin 1) * 0 + Real.cos 0.5 * 0) / 250) ^ 2
    = 4 * (Real.cos 0.5 ^ 2 + Real.sin 0.5 ^ 2) * (Real.cos 1 ^ 2 + Real.sin 1 ^ 2) + 12 * Real.sin 1 ^ 2
      - 4 * (Real.cos 0.5 ^ 2 + Real.sin 0.5 ^ 2 - 1) * Real.sin 1 ^ 2
      + 60 * (Real.sin 0.5 * Real.cos 1) ^ 2 := by ring
  rw [e, add_comm (Real.cos 0.5 ^ 2), h', add_comm (Real.cos 1 ^ 2), h]
  nlinarith [sq_nonneg (Real.sin 1), sq_nonneg (Real.sin 0.5 * Real.cos 1)]

/-! ### Rotation invariances -/

/-- **C29.** Turning the azimuth by 180 degrees and reversing the dip changes nothing; with zero
dip the azimuth has period 180 degrees; all angles have period 360 degrees. -/
theorem corr_half_turn {t : VType} {p rx ry rz az dp sd : ℝ} {v w : Variogram}
    (h : Variogram.create t p rx ry rz az dp sd = .ok v)
    (h' : Variogram.create t p rx ry rz (az + Real.pi) (-dp) sd = .ok w) (x y z : ℝ) :
    w.corr3 x y z = v.corr3 x y z := by
  rw [corr3_eq_normDist h, corr3_eq_normDist h']
  congr 1
  simp only [normDist, mainAxis, perpAxis, downAxis, Vec3.dot, Real.cos_add_pi, Real.sin_add_pi,
    Real.cos_neg, Real.sin_neg]
  congr 1
  ring

theorem corr_full_turn {t : VType} {p rx ry rz az dp sd : ℝ} {v w : Variogram} (m n : ℤ)
    (h : Variogram.create t p rx ry rz az dp sd = .ok v)
    (h' : Variogram.create t p rx ry rz (az + m * (2 * Real.pi)) (dp + n * (2 * Real.pi)) sd = .ok w)
    (x y z : ℝ) : w.corr3 x y z = v.corr3 x y z := by
  rw [corr3_eq_normDist h, corr3_eq_normDist h']
  simp only [normDist, mainAxis, perpAxis, downAxis, Vec3.dot, Real.cos_add_int_mul_two_pi,
    Real.sin_add_int_mul_two_pi]

/-- **C29.** With three equal ranges the angles do not matter: the correlation depends on the
Euclidean length of the lag only. -/
theorem corr_isotropic {t : VType} {p r az dp sd : ℝ} {v : Variogram} (hr : 0 < r)
    (h : Variogram.create t p r r r az dp sd = .ok v) (x y z : ℝ) :
    v.corr3 x y z = corr1D t p (√(x ^ 2 + y ^ 2 + z ^ 2) / r) := by
  rw [corr3_eq_normDist h]
  congr 1
  have s1 := Real.sin_sq_add_cos_sq az
  have s2 := Real.sin_sq_add_cos_sq dp
  rw [show √(x ^ 2 + y ^ 2 + z ^ 2) / r = √((x ^ 2 + y ^ 2 + z ^ 2) / r ^ 2) by
    rw [Real.sqrt_div (by positivity), Real.sqrt_sq hr.le]]
  unfold normDist
  congr 1
  simp only [mainAxis, perpAxis, downAxis, Vec3.dot]
  field_simp
  linear_combination (x ^ 2 + y ^ 2) * s1
          + (z ^ 2 + (Real.cos az * x + Real.sin az * y) ^ 2) * s2

/-- **C29.** Rotating lag and azimuth together about the z axis changes nothing. -/
theorem corr_rotation_equivariant {t : VType} {p rx ry rz az dp sd : ℝ} {v w : Variogram} (θ : ℝ)
    (h : Variogram.create t p rx ry rz az dp sd = .ok v)
    (h' : Variogram.create t p rx ry rz (az + θ) dp sd = .ok w) (x y z : ℝ) :
    w.corr3 (Real.cos θ * x - Real.sin θ * y) (Real.sin θ * x + Real.cos θ * y) z
      = v.corr3 x y z := by
  rw [corr3_eq_normDist h, corr3_eq_normDist h']
  have s := Real.sin_sq_add_cos_sq θ
  have e1 : (mainAxis (az + θ) dp).dot
      ⟨Real.cos θ * x - Real.sin θ * y, Real.sin θ * x + Real.cos θ * y, z⟩
      = (mainAxis az dp).dot ⟨x, y, z⟩ := by
    simp only [mainAxis, Vec3.dot, Real.cos_add, Real.sin_add]
    linear_combination (Real.cos dp * Real.cos az * x + Real.cos dp * Real.sin az * y) * s
  have e2 : (perpAxis (az + θ)).dot
      ⟨Real.cos θ * x - Real.sin θ * y, Real.sin θ * x + Real.cos θ * y, z⟩
      = (perpAxis az).dot ⟨x, y, z⟩ := by
    simp only [perpAxis, Vec3.dot, Real.cos_add, Real.sin_add]
    linear_combination (-Real.sin az * x + Real.cos az * y) * s
  have e3 : (downAxis (az + θ) dp).dot
      ⟨Real.cos θ * x - Real.sin θ * y, Real.sin θ * x + Real.cos θ * y, z⟩
      = (downAxis az dp).dot ⟨x, y, z⟩ := by
    simp only [downAxis, Vec3.dot, Real.cos_add, Real.sin_add]
    linear_combination (-(Real.sin dp * Real.cos az * x) - Real.sin dp * Real.sin az * y) * s
  simp only [normDist, e1, e2, e3]

/-! ### Covariance and variogram values -/

/-- **C48.** Covariance and variogram add up to the variance `sd²`, for one, two and three
arguments; the variogram is between 0 and the variance and zero at lag zero. -/
theorem cov_add_variogram {t : VType} {p rx ry rz az dp sd : ℝ} {v : Variogram}
    (h : Variogram.create t p rx ry rz az dp sd = .ok v) (x y z : ℝ) :
    v.cov3 x y z + v.getVariogram3 x y z = sd ^ 2 ∧
    v.cov2 x y + v.getVariogram2 x y = sd ^ 2 ∧
    v.cov1 x + v.getVariogram1 x = sd ^ 2 ∧
    0 ≤ v.getVariogram3 x y z ∧ v.getVariogram3 x y z ≤ sd ^ 2 ∧
    v.covpoint3 0 0 0 x y z = v.cov3 x y z ∧ v.corrpoint3 0 0 0 x y z = v.corr3 x y z ∧
    ((t = .generalExponential → 0 < p) → v.getVariogram3 0 0 0 = 0) := by
  obtain ⟨-, -, -, -, -, -, -, hv⟩ := create_fields h
  obtain ⟨b1, b2⟩ := corr_bounds h x y z
  simp only [cov3, cov2, cov1, getVariogram3, getVariogram2, getVariogram1, covpoint3, corrpoint3,
    hv, sub_zero]
  refine ⟨by ring, by ring, by ring, ?_, ?_, trivial, trivial, ?_⟩
  · exact mul_nonneg (mul_self_nonneg sd) (by linarith)
  · nlinarith [mul_self_nonneg sd]
  · intro hp
    rw [(corr_zero h hp).1]; ring

/-! ### Setters -/

/-- The parameters a user sees. -/
structure Params where
  rx : ℝ
  ry : ℝ
  rz : ℝ
  az : ℝ
  dp : ℝ
  var : ℝ

/-- What each setter is documented to do to the parameters; a non-positive range is rejected
and leaves everything as it was. -/
noncomputable def Params.step (q : Params) : Setter → Params
  | .setAngles a d => { q with az := a, dp := d }
  | .rotateAngles a d => { q with az := q.az + a, dp := q.dp + d }
  | .setStdDev sd => { q with var := sd ^ 2 }
  | .setRanges x y z => if 0 < x ∧ 0 < y ∧ 0 < z then { q with rx := x, ry := y, rz := z } else q
  | .setRangeX r => if 0 < r then { q with rx := r } else q
  | .setRangeY r => if 0 < r then { q with ry := r } else q
  | .setRangeZ r => if 0 < r then { q with rz := r } else q
  | .limitRangeX l => if 0 < l then { q with rx := min q.rx l } else q
  | .limitRangeY l => if 0 < l then { q with ry := min q.ry l } else q
  | .limitRangeZ l => if 0 < l then { q with rz := min q.rz l } else q

/-- `v` is exactly the object that `Create` builds from type, power and `q`. -/
def IsFresh (t : VType) (p : ℝ) (q : Params) (v : Variogram) : Prop :=
  0 < q.rx ∧ 0 < q.ry ∧ 0 < q.rz ∧ 0 ≤ q.var ∧
    Variogram.create t p q.rx q.ry q.rz q.az q.dp (√q.var) = .ok v

theorem reestimate_fresh {t : VType} {p : ℝ} {q : Params} {v : Variogram} (hx : 0 < q.rx)
    (hy : 0 < q.ry) (hz : 0 < q.rz) (hv : 0 ≤ q.var) (e1 : v.type = t) (e2 : v.power = p)
    (e3 : v.rangeX = q.rx) (e4 : v.rangeY = q.ry) (e5 : v.rangeZ = q.rz) (e6 : v.azimuth = q.az)
    (e7 : v.dip = q.dp) (e8 : v.var = q.var) :
    IsFresh t p q (reestimate v).1 ∧ (reestimate v).2 = .ok () := by
  obtain ⟨w, hw⟩ := (create_ok_iff (t := t) (p := p) (rx := q.rx) (ry := q.ry) (rz := q.rz)
    (az := q.az) (dp := q.dp) (sd := √q.var)).2 ⟨hx.ne', hy.ne', hz.ne'⟩
  have : v.estimateFactors = .ok w := by
    rw [← hw]
    unfold Variogram.create estimateFactors
    simp only [e1, e2, e3, e4, e5, e6, e7, e8, Real.mul_self_sqrt hv]
  unfold reestimate
  rw [this]
  exact ⟨⟨hx, hy, hz, hv, hw⟩, rfl⟩

theorem IsFresh.fields {t : VType} {p : ℝ} {q : Params} {v : Variogram} (h : IsFresh t p q v) :
    v.type = t ∧ v.power = p ∧ v.rangeX = q.rx ∧ v.rangeY = q.ry ∧ v.rangeZ = q.rz ∧
      v.azimuth = q.az ∧ v.dip = q.dp ∧ v.var = q.var := by
  have := create_fields h.2.2.2.2
  rwa [Real.mul_self_sqrt h.2.2.2.1] at this

theorem setRangeX_fresh {t : VType} {p : ℝ} {q : Params} {v : Variogram}
    (h : IsFresh t p q v) (r : ℝ) :
    IsFresh t p (if 0 < r then { q with rx := r } else q) (v.setRangeX r).1 ∧
      ((v.setRangeX r).2 = .ok () ∨ ((v.setRangeX r).1 = v ∧
        (v.setRangeX r).2 = .throws "Negative ranges are not allowed.\n")) := by
  obtain ⟨hx, hy, hz, hv, hc⟩ := id h
  obtain ⟨e1, e2, e3, e4, e5, e6, e7, e8⟩ := h.fields
  have z0 : (0.0 : ℝ) = 0 := by norm_num
  by_cases hpos : 0 < r
  · have := reestimate_fresh (q := { q with rx := r }) (v := { v with rangeX := r }) (t := t)
      (p := p) hpos hy hz hv e1 e2 rfl e4 e5 e6 e7 e8
    have hs : v.setRangeX r = reestimate { v with rangeX := r } := by
      simp only [Variogram.setRangeX, z0]
      rw [if_neg (not_le.2 hpos)]
    rw [hs, if_pos hpos]
    exact ⟨this.1, .inl this.2⟩
  · have hs : v.setRangeX r = (v, .throws "Negative ranges are not allowed.\n") := by
      simp only [Variogram.setRangeX, z0]
      rw [if_pos (not_lt.1 hpos)]
    rw [hs, if_neg hpos]
    exact ⟨h, .inr ⟨rfl, rfl⟩⟩

theorem setRangeY_fresh {t : VType} {p : ℝ} {q : Params} {v : Variogram}
    (h : IsFresh t p q v) (r : ℝ) :
    IsFresh t p (if 0 < r then { q with ry := r } else q) (v.setRangeY r).1 ∧
      ((v.setRangeY r).2 = .ok () ∨ ((v.setRangeY r).1 = v ∧
        (v.setRangeY r).2 = .throws "Negative ranges are not allowed.\n")) := by
  obtain ⟨hx, hy, hz, hv, hc⟩ := id h
  obtain ⟨e1, e2, e3, e4, e5, e6, e7, e8⟩ := h.fields
  have z0 : (0.0 : ℝ) = 0 := by norm_num
  by_cases hpos : 0 < r
  · have := reestimate_fresh (q := { q with ry := r }) (v := { v with rangeY := r }) (t := t)
      (p := p) hx hpos hz hv e1 e2 e3 rfl e5 e6 e7 e8
    have hs : v.setRangeY r = reestimate { v with rangeY := r } := by
      simp only [Variogram.setRangeY, z0]
      rw [if_neg (not_le.2 hpos)]
    rw [hs, if_pos hpos]
    exact ⟨this.1, .inl this.2⟩
  · have hs : v.setRangeY r = (v, .throws "Negative ranges are not allowed.\n") := by
      simp only [Variogram.setRangeY, z0]
      rw [if_pos (not_lt.1 hpos)]
    rw [hs, if_neg hpos]
    exact ⟨h, .inr ⟨rfl, rfl⟩⟩

theorem setRangeZ_fresh {t : VType} {p : ℝ} {q : Params} {v : Variogram}
    (h : IsFresh t p q v) (r : ℝ) :
    IsFresh t p (if 0 < r then { q with rz := r } else q) (v.setRangeZ r).1 ∧
      ((v.setRangeZ r).2 = .ok () ∨ ((v.setRangeZ r).1 = v ∧
        (v.setRangeZ r).2 = .throws "Negative ranges are not allowed.\n")) := by
  obtain ⟨hx, hy, hz, hv, hc⟩ := id h
  obtain ⟨e1, e2, e3, e4, e5, e6, e7, e8⟩ := h.fields
  have z0 : (0.0 : ℝ) = 0 := by norm_num
  by_cases hpos : 0 < r
  · have := reestimate_fresh (q := { q with rz := r }) (v := { v with rangeZ := r }) (t := t)
      (p := p) hx hy hpos hv e1 e2 e3 e4 rfl e6 e7 e8
    have hs : v.setRangeZ r = reestimate { v with rangeZ := r } := by
      simp only [Variogram.setRangeZ, z0]
      rw [if_neg (not_le.2 hpos)]
    rw [hs, if_pos hpos]
    exact ⟨this.1, .inl this.2⟩
  · have hs : v.setRangeZ r = (v, .throws "Negative ranges are not allowed.\n") := by
      simp only [Variogram.setRangeZ, z0]
      rw [if_pos (not_lt.1 hpos)]
    rw [hs, if_neg hpos]
    exact ⟨h, .inr ⟨rfl, rfl⟩⟩

theorem step_fresh {t : VType} {p : ℝ} {q : Params} {v : Variogram} (h : IsFresh t p q v)
    (op : Setter) : IsFresh t p (q.step op) (v.step op).1 ∧
      ((v.step op).2 = .ok () ∨ ((v.step op).1 = v ∧
        (v.step op).2 = .throws "Negative ranges are not allowed.\n")) := by
  obtain ⟨hx, hy, hz, hv, hc⟩ := id h
  obtain ⟨e1, e2, e3, e4, e5, e6, e7, e8⟩ := h.fields
  have z0 : (0.0 : ℝ) = 0 := by norm_num
  cases op with
  | setAngles a d =>
    have := reestimate_fresh (q := q.step (.setAngles a d)) (v := { v with azimuth := a, dip := d })
      (t := t) (p := p) hx hy hz hv e1 e2 e3 e4 e5 rfl rfl e8
    exact ⟨this.1, .inl this.2⟩
  | rotateAngles a d =>
    have := reestimate_fresh (q := q.step (.rotateAngles a d))
      (v := { v with azimuth := v.azimuth + a, dip := v.dip + d })
      (t := t) (p := p) hx hy hz hv e1 e2 e3 e4 e5 (by simp [Params.step, e6])
      (by simp [Params.step, e7]) e8
    exact ⟨this.1, .inl this.2⟩
  | setStdDev sd =>
    refine ⟨⟨hx, hy, hz, sq_nonneg sd, ?_⟩, .inl rfl⟩
    obtain ⟨w, hw⟩ := (create_ok_iff (t := t) (p := p) (rx := q.rx) (ry := q.ry) (rz := q.rz)
      (az := q.az) (dp := q.dp) (sd := √(sd ^ 2))).2 ⟨hx.ne', hy.ne', hz.ne'⟩
    simp only [Params.step, Variogram.step]
    rw [hw]
    unfold Variogram.create estimateFactors at hc hw
    simp only [hx.ne', hy.ne', hz.ne', or_self, if_false, Res.ok.injEq] at hc hw
    rw [← hw, ← hc, Real.mul_self_sqrt (sq_nonneg sd), sq]
  | setRanges x y z =>
    by_cases hpos : 0 < x ∧ 0 < y ∧ 0 < z
    · have := reestimate_fresh (q := q.step (.setRanges x y z))
        (v := { v with rangeX := x, rangeY := y, rangeZ := z }) (t := t) (p := p)
        (by simp [Params.step, hpos]) (by simp [Params.step, hpos]) (by simp [Params.step, hpos])
        (by simp [Params.step, hpos, hv]) e1 e2 (by simp [Params.step, hpos])
        (by simp [Params.step, hpos]) (by simp [Params.step, hpos])
        (by simp [Params.step, hpos, e6]) (by simp [Params.step, hpos, e7])
        (by simp [Params.step, hpos, e8])
      have hs : v.step (.setRanges x y z)
          = reestimate { v with rangeX := x, rangeY := y, rangeZ := z } := by
        simp only [Variogram.step, z0]
        rw [if_neg (by simp only [not_or, not_le]; exact hpos)]
      rw [hs]
      exact ⟨this.1, .inl this.2⟩
    · have hs : v.step (.setRanges x y z) = (v, .throws "Negative ranges are not allowed.\n") := by
        simp only [Variogram.step, z0]
        rw [if_pos (by
          by_contra hcon
          simp only [not_or, not_le] at hcon
          exact hpos hcon)]
      rw [hs]
      refine ⟨?_, .inr ⟨rfl, rfl⟩⟩
      simp only [Params.step, if_neg hpos]
      exact h
  | setRangeX r => exact setRangeX_fresh h r
  | setRangeY r => exact setRangeY_fresh h r
  | setRangeZ r => exact setRangeZ_fresh h r
  | limitRangeX l =>
    simp only [Variogram.step, Params.step]
    by_cases hl : v.rangeX > l
    · rw [if_pos hl]
      have := setRangeX_fresh h l
      rw [e3] at hl
      rwa [min_eq_right hl.le]
    · rw [if_neg hl]
      rw [e3, not_lt] at hl
      rw [min_eq_left hl, if_pos (by linarith)]
      exact ⟨h, .inl rfl⟩
  | limitRangeY l =>
    simp only [Variogram.step, Params.step]
    by_cases hl : v.rangeY > l
    · rw [if_pos hl]
      have := setRangeY_fresh h l
      rw [e4] at hl
      rwa [min_eq_right hl.le]
    · rw [if_neg hl]
      rw [e4, not_lt] at hl
      rw [min_eq_left hl, if_pos (by linarith)]
      exact ⟨h, .inl rfl⟩
  | limitRangeZ l =>
    simp only [Variogram.step, Params.step]
    by_cases hl : v.rangeZ > l
    · rw [if_pos hl]
      have := setRangeZ_fresh h l
      rw [e5] at hl
      rwa [min_eq_right hl.le]
    · rw [if_neg hl]
      rw [e5, not_lt] at hl
      rw [min_eq_left hl, if_pos (by linarith)]
      exact ⟨h, .inl rfl⟩

/-- **C47.** After any sequence of setter calls the object is exactly the one that would be
created from the current parameters: positive ranges, no stale cached factor. Rejected calls
throw and leave it unchanged (`step_fresh`). -/
theorem setters_fresh (t : VType) (p rx ry rz az dp sd : ℝ) (v : Variogram) (hx : 0 < rx)
    (hy : 0 < ry) (hz : 0 < rz) (h : Variogram.create t p rx ry rz az dp sd = .ok v)
    (ops : List Setter) :
    IsFresh t p (ops.foldl Params.step ⟨rx, ry, rz, az, dp, sd ^ 2⟩) (v.steps ops) := by
  have h0 : IsFresh t p ⟨rx, ry, rz, az, dp, sd ^ 2⟩ v := by
    refine ⟨hx, hy, hz, sq_nonneg sd, ?_⟩
    rw [← h]
    unfold Variogram.create
    simp only [sq, Real.mul_self_sqrt (mul_self_nonneg sd)]
  clear h
  revert h0
  generalize (⟨rx, ry, rz, az, dp, sd ^ 2⟩ : Params) = q
  intro h0
  unfold Variogram.steps
  induction ops generalizing q v with
  | nil => exact h0
  | cons op ops ih => exact ih _ _ (step_fresh h0 op).1

/-- The premises hold for a concrete object and the setters really change it. -/
example : ∃ v, Variogram.create .spherical 1.5 10 5 2 0 0 1 = .ok v ∧
    (v.steps [.setRangeX 7, .setRangeY (-1), .rotateAngles 1 0]).rangeX = 7 ∧
    (v.steps [.setRangeX 7, .setRangeY (-1), .rotateAngles 1 0]).rangeY = 5 := by
  obtain ⟨v, hv⟩ := (create_ok_iff (t := .spherical) (p := 1.5) (rx := 10) (ry := 5) (rz := 2)
    (az := 0) (dp := 0) (sd := 1)).2 (by norm_num)
  have := (setters_fresh _ _ _ _ _ _ _ _ v (by norm_num) (by norm_num) (by norm_num) hv
    [.setRangeX 7, .setRangeY (-1), .rotateAngles 1 0]).fields
  refine ⟨v, hv, this.2.2.1.trans ?_, this.2.2.2.1.trans ?_⟩ <;>
    norm_num [List.foldl, Params.step]

end Verif
