import Verif.Props.FieldUnclipped

/-!
# C09: default padding removes wrap-around for the spherical variogram
-/

namespace Verif

open Finset Spec Variogram MeasureTheory ProbabilityTheory

/-! ## Helper lemmas -/

/-- Lags between cells of the returned grid: either no wrapping, or beyond the padding both ways. -/
theorem wrapLag_padded {n q t : ℕ} (hn : 0 < n) (ht : n + q ≤ t) {d : ℤ} (h1 : -(n : ℤ) < d)
    (h2 : d < n) :
    (wrapLag t d = d ∧ wrapLag t (-d) = -d) ∨
      ((q : ℤ) + 1 ≤ |d| ∧ (q : ℤ) + 1 ≤ |wrapLag t d| ∧ (q : ℤ) + 1 ≤ |wrapLag t (-d)|) := by
  have ht0 : 0 < t := by omega
  rcases lt_or_ge (2 * |d|) t with h | h
  · left
    have h3 := le_abs_self d
    have h4 := neg_le_abs d
    exact ⟨wrapLag_of_lt ht0 (by omega) (by omega), wrapLag_of_lt ht0 (by omega) (by omega)⟩
  · right
    have key : ∀ d : ℤ, -(n : ℤ) < d → d < n → (t : ℤ) ≤ 2 * |d| → (q : ℤ) + 1 ≤ |wrapLag t d| := by
      intro d h1 h2 h
      obtain ⟨⟨b, hb⟩, h3, h4⟩ := wrapLag_spec ht0 d
      rcases abs_choice d with e | e <;> rw [e] at h
      · -- d large: wrapLag = d - t
        rcases le_or_gt b (-1) with hb1 | hb1
        · have : (t : ℤ) * b ≤ t * (-1) := mul_le_mul_of_nonneg_left hb1 (by omega)
          have h5 : wrapLag t d ≤ d - t := by omega
          rw [abs_of_nonpos (by omega)]
          omega
        · have : (t : ℤ) * 0 ≤ t * b := mul_le_mul_of_nonneg_left (by omega) (by omega)
          omega
      · rcases le_or_gt 1 b with hb1 | hb1
        · have : (t : ℤ) * 1 ≤ t * b := mul_le_mul_of_nonneg_left hb1 (by omega)
          rw [abs_of_nonneg (by omega)]
          omega
        · have : (t : ℤ) * b ≤ t * 0 := mul_le_mul_of_nonneg_left (by omega) (by omega)
          rw [abs_of_nonpos (by omega)]
          omega
    refine ⟨?_, key d h1 h2 h, key (-d) (by omega) (by omega) (by rwa [abs_neg])⟩
    rcases abs_choice d with e | e <;> omega

theorem fftSize_ge {n : ℕ} {ev : Bool} {t : ℕ} (h : FftSize n ev t) : n ≤ t := by
  unfold FftSize at h
  split_ifs at h with h1
  · omega
  · exact h.1.1

/-- A default-padded direction: the padding cells are longer than the range. -/
theorem isTotal_default {v : Variogram} {n : ℕ} {range step : ℝ} {pad : ℤ} {ev : Bool} {t : ℕ}
    (h : IsTotal v n range step pad ev t) (hp : pad < 0) (hk : PadOk v n range step) :
    ∃ q : ℕ, n + q ≤ t ∧ range < q * step := by
  obtain ⟨q, h1, h2⟩ := h
  unfold IsPadding at h1
  rw [if_pos hp] at h1
  exact ⟨q, fftSize_ge h2, (padding_covers hk h1).1⟩

theorem far_of_cells {q : ℕ} {range step : ℝ} (hs : 0 < step) (h : range < q * step) {d : ℤ}
    (hd : (q : ℤ) + 1 ≤ |d|) : range < |(d : ℝ) * step| := by
  rw [abs_mul, abs_of_pos hs]
  have : ((q : ℝ) + 1) ≤ |(d : ℝ)| := by exact_mod_cast hd
  nlinarith

theorem normDist_sq (rx ry rz az dp : ℝ) (h : Vec3) :
    normDist rx ry rz az dp h ^ 2 = ((mainAxis az dp).dot h / rx) ^ 2
      + ((perpAxis az).dot h / ry) ^ 2 + ((downAxis az dp).dot h / rz) ^ 2 := by
  unfold normDist
  rw [Real.sq_sqrt (by positivity)]

theorem normDist_one_le {rx ry rz az dp : ℝ} {h : Vec3}
    (hh : 1 ≤ ((mainAxis az dp).dot h / rx) ^ 2
      + ((perpAxis az).dot h / ry) ^ 2 + ((downAxis az dp).dot h / rz) ^ 2) :
    1 ≤ normDist rx ry rz az dp h := by
  unfold normDist
  exact Real.one_le_sqrt.2 hh

theorem frame_sq (az dp : ℝ) (h : Vec3) :
    (mainAxis az dp).dot h ^ 2 + (perpAxis az).dot h ^ 2 + (downAxis az dp).dot h ^ 2
      = h.x ^ 2 + h.y ^ 2 + h.z ^ 2 := by
  simp only [mainAxis, perpAxis, downAxis, Vec3.dot]
  have h1 := Real.sin_sq_add_cos_sq az
  have h2 := Real.sin_sq_add_cos_sq dp
  generalize Real.sin az = s at *
  generalize Real.cos az = c at *
  generalize Real.sin dp = S at *
  generalize Real.cos dp = C at *
  have e1 : c ^ 2 = 1 - s ^ 2 := by linarith
  have e2 : C ^ 2 = 1 - S ^ 2 := by linarith
  linear_combination (h.x ^ 2 * c ^ 2 + h.y ^ 2 * s ^ 2 + h.z ^ 2
    + 2 * h.x * h.y * c * s) * h2 + (h.x ^ 2 + h.y ^ 2) * h1

theorem div_sq_ge {a r M : ℝ} (hr : 0 < r) (hM : r ≤ M) : a ^ 2 / M ^ 2 ≤ (a / r) ^ 2 := by
  rw [div_pow]
  exact div_le_div_of_nonneg_left (sq_nonneg _) (by positivity) (pow_le_pow_left₀ hr.le hM 2)

theorem one_le_sq_div {x M : ℝ} (hM : 0 < M) (h : M < |x|) : 1 ≤ x ^ 2 / M ^ 2 := by
  rw [one_le_div (by positivity), ← sq_abs x]
  exact pow_le_pow_left₀ hM.le h.le 2

/-- All ranges at most `M`: lags longer than `M` are beyond the range. -/
theorem normDist_far {rx ry rz az dp M : ℝ} (h1 : 0 < rx) (h2 : 0 < ry) (h3 : 0 < rz) (m1 : rx ≤ M)
    (m2 : ry ≤ M) (m3 : rz ≤ M) {h : Vec3} (hM : 1 ≤ (h.x ^ 2 + h.y ^ 2 + h.z ^ 2) / M ^ 2) :
    1 ≤ normDist rx ry rz az dp h := by
  refine normDist_one_le ?_
  have e := frame_sq az dp h
  have a1 := div_sq_ge (a := (mainAxis az dp).dot h) h1 m1
  have a2 := div_sq_ge (a := (perpAxis az).dot h) h2 m2
  have a3 := div_sq_ge (a := (downAxis az dp).dot h) h3 m3
  rw [← e, add_div, add_div] at hM
  linarith

/-- Without dip only the horizontal ranges matter for horizontal distances. -/
theorem normDist_far_xy {rx ry rz az M : ℝ} (h1 : 0 < rx) (h2 : 0 < ry) (m1 : rx ≤ M)
    (m2 : ry ≤ M) {h : Vec3} (hM : 1 ≤ (h.x ^ 2 + h.y ^ 2) / M ^ 2) :
    1 ≤ normDist rx ry rz az 0 h := by
  refine normDist_one_le ?_
  have a1 := div_sq_ge (a := (mainAxis az 0).dot h) h1 m1
  have a2 := div_sq_ge (a := (perpAxis az).dot h) h2 m2
  have a3 := sq_nonneg ((downAxis az 0).dot h / rz)
  have e : (mainAxis az 0).dot h ^ 2 + (perpAxis az).dot h ^ 2 = h.x ^ 2 + h.y ^ 2 := by
    simp only [mainAxis, perpAxis, Vec3.dot, Real.cos_zero, Real.sin_zero]
    have h1 := Real.sin_sq_add_cos_sq az
    linear_combination (h.x ^ 2 + h.y ^ 2) * h1
  rw [← e, add_div] at hM
  linarith

theorem normDist_far_y {rx ry rz dp : ℝ} (h2 : 0 < ry) {h : Vec3} (hM : ry < |h.y|) :
    1 ≤ normDist rx ry rz 0 dp h := by
  refine normDist_one_le ?_
  have a1 := sq_nonneg ((mainAxis 0 dp).dot h / rx)
  have a3 := sq_nonneg ((downAxis 0 dp).dot h / rz)
  have e : (perpAxis 0).dot h = h.y := by simp [perpAxis, Vec3.dot]
  have := one_le_sq_div h2 hM
  rw [← div_pow] at this
  rw [e]
  linarith

theorem normDist_far_z {rx ry rz az : ℝ} (h3 : 0 < rz) {h : Vec3} (hM : rz < |h.z|) :
    1 ≤ normDist rx ry rz az 0 h := by
  refine normDist_one_le ?_
  have a1 := sq_nonneg ((mainAxis az 0).dot h / rx)
  have a2 := sq_nonneg ((perpAxis az).dot h / ry)
  have e : (downAxis az 0).dot h = h.z := by simp [downAxis, Vec3.dot]
  have := one_le_sq_div h3 hM
  rw [← div_pow] at this
  rw [e]
  linarith

theorem HasFieldCov1.congr {F : Fftw} {p : Platform} {v : Variogram} {nx : ℕ} {dx : ℝ} {padx : ℤ}
    {sx : ℝ} {C C' : ℤ → ℝ} (h : HasFieldCov1 F p v nx dx padx sx C)
    (e : ∀ d : ℤ, -(nx : ℤ) < d → d < nx → C d = C' d) : HasFieldCov1 F p v nx dx padx sx C' := by
  intro Ω _ μ _ σ γ newRg norm01 rg glob glob' s w hrg hs
  obtain ⟨X, h1, h2, h3⟩ := h Ω μ σ γ newRg norm01 rg glob glob' s w hrg hs
  refine ⟨X, h1, fun hw => ⟨(h2 hw).1, fun i hi i' hi' => ?_⟩, h3⟩
  rw [(h2 hw).2 i hi i' hi', e _ (by omega) (by omega)]

theorem HasFieldCov2.congr {F : Fftw} {p : Platform} {v : Variogram} {nx ny : ℕ} {dx dy : ℝ}
    {padx pady : ℤ} {sx sy : ℝ} {C C' : ℤ → ℤ → ℝ}
    (h : HasFieldCov2 F p v nx dx ny dy padx pady sx sy C)
    (e : ∀ d f : ℤ, -(nx : ℤ) < d → d < nx → -(ny : ℤ) < f → f < ny → C d f = C' d f) :
    HasFieldCov2 F p v nx dx ny dy padx pady sx sy C' := by
  intro Ω _ μ _ σ γ newRg norm01 rg glob glob' s w K hrg hs
  obtain ⟨X, h1, h2, h3⟩ := h Ω μ σ γ newRg norm01 rg glob glob' s w K hrg hs
  refine ⟨X, h1, fun hw => ⟨(h2 hw).1, fun k hk i hi j hj i' hi' j' hj' => ?_, (h2 hw).2.2⟩, h3⟩
  rw [(h2 hw).2.1 k hk i hi j hj i' hi' j' hj', e _ _ (by omega) (by omega) (by omega) (by omega)]

theorem HasFieldCov3.congr {F : Fftw} {p : Platform} {v : Variogram} {nx ny nz : ℕ} {dx dy dz : ℝ}
    {padx pady padz : ℤ} {sx sy sz : ℝ} {C C' : ℤ → ℤ → ℤ → ℝ}
    (h : HasFieldCov3 F p v nx dx ny dy nz dz padx pady padz sx sy sz C)
    (e : ∀ d f g : ℤ, -(nx : ℤ) < d → d < nx → -(ny : ℤ) < f → f < ny → -(nz : ℤ) < g → g < nz →
      C d f g = C' d f g) :
    HasFieldCov3 F p v nx dx ny dy nz dz padx pady padz sx sy sz C' := by
  intro Ω _ μ _ γ norm01 s w K hs
  obtain ⟨X, h1, h2, h3⟩ := h Ω μ γ norm01 s w K hs
  refine ⟨X, h1, fun hw => ⟨(h2 hw).1, fun k hk i hi j hj l hl i' hi' j' hj' l' hl' => ?_,
    (h2 hw).2.2⟩, h3⟩
  rw [(h2 hw).2.1 k hk i hi j hj l hl i' hi' j' hj' l' hl',
    e _ _ _ (by omega) (by omega) (by omega) (by omega) (by omega) (by omega)]

/-! ## C09 -/

section
variable {F : Fftw} (hF : F.Laws) {p : Platform} {pw rx ry rz az dp sd : ℝ} {v : Variogram}
  (hv : Variogram.create .spherical pw rx ry rz az dp sd = .ok v)
include hF hv

omit hF in
theorem sph_cov_zero {x y z : ℝ} (h : 1 ≤ normDist rx ry rz az dp ⟨x, y, z⟩) :
    v.cov3 x y z = 0 := by
  unfold cov3
  rw [(corr_beyond_range hv (by simp) x y z).1 rfl h, mul_zero]

omit hF in
theorem sph_cov_zero2 {x y : ℝ} (h : 1 ≤ normDist rx ry rz az dp ⟨x, y, 0⟩) : v.cov2 x y = 0 := by
  have := sph_cov_zero hv h
  unfold cov3 at this
  unfold cov2
  rw [(corr_arity v x y).1, this]

omit hF in
theorem sph_cov_zero1 {x : ℝ} (h : 1 ≤ normDist rx ry rz az dp ⟨x, 0, 0⟩) : v.cov1 x = 0 := by
  have := sph_cov_zero hv h
  unfold cov3 at this
  unfold cov1
  rw [(corr_arity v x 0).2.2, this]

/-- **C09, one dimension**, `_partial`: with default padding and a spherical variogram whose main
range is its largest range (or which is not rotated), the covariance of two returned cells is
exactly the requested one at their physical distance, unconditionally. Without the condition on the
ranges this is false: `simulate1D_wrap_refuted`. -/
theorem simulate1D_spherical_partial {nx : ℕ} {dx sx : ℝ} {padx : ℤ}
    (hx : DirOk p v nx v.rangeX dx padx sx) (hs : 0.99999 ≤ sx) (hpad : padx < 0)
    (hr : 0 < ry ∧ ry ≤ rx ∧ 0 < rz ∧ rz ≤ rx ∨ az = 0 ∧ dp = 0) :
    HasFieldCov1 F p v nx dx padx sx fun d => v.cov1 (d * dx) := by
  obtain ⟨-, -, e1, -⟩ := create_fields hv
  obtain ⟨tx, h1, h2, h3⟩ := simulate1D_covariance_convex hv hF (Or.inl rfl) hx hs
  obtain ⟨q, hq, hqr⟩ := isTotal_default h1 hpad hx.padOk
  have hstep := hx.padOk.1
  have hrange := hx.padOk.range_pos
  rw [e1] at hqr hrange
  have hn := hx.size
  have far : ∀ d : ℤ, (q : ℤ) + 1 ≤ |d| → v.cov1 (d * dx) = 0 := by
    intro d hd
    have hf := far_of_cells hstep hqr hd
    refine sph_cov_zero1 hv ?_
    rcases hr with ⟨r1, r2, r3, r4⟩ | ⟨rfl, rfl⟩
    · refine normDist_far hrange r1 r3 le_rfl r2 r4 ?_
      simp only [ne_eq, OfNat.ofNat_ne_zero, not_false_eq_true, zero_pow, add_zero]
      exact one_le_sq_div hrange hf
    · refine normDist_one_le ?_
      have := one_le_sq_div hrange hf
      simp only [mainAxis, Vec3.dot, Real.cos_zero, Real.sin_zero, mul_zero, add_zero, mul_one,
        one_mul]
      rw [div_pow]
      nlinarith [sq_nonneg ((perpAxis 0).dot ⟨(d : ℝ) * dx, 0, 0⟩ / ry),
        sq_nonneg ((downAxis 0 0).dot ⟨(d : ℝ) * dx, 0, 0⟩ / rz)]
  refine h3.congr fun d hd1 hd2 => ?_
  rcases wrapLag_padded hn hq hd1 hd2 with ⟨e, -⟩ | ⟨l1, l2, -⟩
  · rw [e]
  · rw [far _ l1, far _ l2]

/-- **C09, two dimensions.** With default padding and a spherical variogram without dip (or whose
vertical range is at most the larger horizontal one): whenever no frequency is clipped, the
covariance of two returned cells is exactly the requested one at their physical lag. -/
theorem simulate2D_spherical {nx ny : ℕ} {dx dy sx sy : ℝ} {padx pady : ℤ} (hny : 1 < ny)
    (hx : DirOk p v nx (max v.rangeX v.rangeY) dx padx sx)
    (hy : DirOk p v ny (padRangeY v) dy pady sy) (hsx : 0.99999 ≤ sx) (hsy : 0.99999 ≤ sy)
    (hpx : padx < 0) (hpy : pady < 0) (r1 : 0 < rx) (r2 : 0 < ry)
    (hdip : dp = 0 ∨ 0 < rz ∧ rz ≤ max rx ry) :
    ∃ tx ty r, IsTotal v nx (max v.rangeX v.rangeY) dx padx true tx ∧
      IsTotal v ny (padRangeY v) dy pady false ty ∧ IsExtents rx ry rz az dp r ∧
      ((∀ k l, k < tx → l < ty → 0 ≤ spectrum2 tx ty (gridCov2 v r tx dx ty dy sx sy) k l) →
        HasFieldCov2 F p v nx dx ny dy padx pady sx sy fun d e => v.cov2 (d * dx) (e * dy)) := by
  obtain ⟨-, -, e1, e2, e3, e4, -⟩ := create_fields hv
  obtain ⟨tx, ty, r, h1, h2, h3, h3', h5, h4⟩ := simulate2D_covariance hF hv hny hx hy
  refine ⟨tx, ty, r, h1, h2, h5, fun hsp => (h4 hsp).congr fun d e hd1 hd2 he1 he2 => ?_⟩
  obtain ⟨qx, hqx, hqrx⟩ := isTotal_default h1 hpx hx.padOk
  obtain ⟨qy, hqy, hqry⟩ := isTotal_default h2 hpy hy.padOk
  have hstepx := hx.padOk.1
  have hrangex := hx.padOk.range_pos
  have hstepy := hy.padOk.1
  have hrangey := hy.padOk.range_pos
  have hM : 0 < max rx ry := lt_max_of_lt_left r1
  have farM : ∀ x y : ℝ, 1 ≤ (x ^ 2 + y ^ 2) / (max rx ry) ^ 2 → v.cov2 x y = 0 := by
    intro x y h
    refine sph_cov_zero2 hv ?_
    rcases hdip with rfl | ⟨r3, r4⟩
    · exact normDist_far_xy r1 r2 (le_max_left _ _) (le_max_right _ _) h
    · refine normDist_far r1 r2 r3 (le_max_left _ _) (le_max_right _ _) r4 ?_
      simpa using h
  have hle : ∀ a b M : ℝ, 1 ≤ a ^ 2 / M ^ 2 → 1 ≤ (a ^ 2 + b ^ 2) / M ^ 2 := by
    intro a b M h
    rw [add_div]
    have : 0 ≤ b ^ 2 / M ^ 2 := by positivity
    linarith
  have farx : ∀ (d : ℤ) (y : ℝ), (qx : ℤ) + 1 ≤ |d| → v.cov2 (d * dx) y = 0 := by
    intro d y hd
    have hf := far_of_cells hstepx hqrx hd
    rw [e1, e2] at hf
    exact farM _ _ (hle _ _ _ (one_le_sq_div hM hf))
  have fary : ∀ (e : ℤ) (x : ℝ), (qy : ℤ) + 1 ≤ |e| → v.cov2 x (e * dy) = 0 := by
    intro e x he
    have hf := far_of_cells hstepy hqry he
    unfold padRangeY at hf
    rw [e1, e2, e4] at hf
    split_ifs at hf with haz
    · subst haz
      exact sph_cov_zero2 hv (normDist_far_y r2 hf)
    · refine farM _ _ ?_
      rw [add_comm]
      exact hle _ _ _ (one_le_sq_div hM hf)
  have kx := fun x => kernel_off (s := sx) (r := r.1) (h := x) hsx
  have ky := fun x => kernel_off (s := sy) (r := r.2.1) (h := x) hsy
  simp only [wrapCov2, kx, ky, mul_one]
  rcases wrapLag_padded hx.size hqx hd1 hd2 with ⟨a1, a2⟩ | ⟨a1, a2, a3⟩
  · rcases wrapLag_padded hy.size hqy he1 he2 with ⟨b1, b2⟩ | ⟨b1, b2, b3⟩
    · rw [a1, a2, b1, b2]
      push_cast
      rw [neg_mul, neg_mul, cov2_neg]
      ring
    · rw [fary _ _ b1, fary _ _ b2, fary _ _ b3]; norm_num
  · rw [farx _ _ a1, farx _ _ a2, farx _ _ a3]; norm_num

/-- **C09, three dimensions**, `_partial`: as in two dimensions, for variograms without dip. With
dip the padding in the z direction can be too short: `padding3D_dip_refuted`. -/
theorem simulate3D_spherical_partial {nx ny nz : ℕ} {dx dy dz sx sy sz : ℝ} {padx pady padz : ℤ}
    (hny : 1 < ny) (hnz : 1 < nz) (hx : DirOk p v nx (max v.rangeX v.rangeY) dx padx sx)
    (hy : DirOk p v ny (padRangeY v) dy pady sy) (hz : DirOk p v nz v.rangeZ dz padz sz)
    (hsx : 0.99999 ≤ sx) (hsy : 0.99999 ≤ sy) (hsz : 0.99999 ≤ sz)
    (hpx : padx < 0) (hpy : pady < 0) (hpz : padz < 0) (r1 : 0 < rx) (r2 : 0 < ry) (r3 : 0 < rz)
    (hdip : dp = 0) :
    ∃ tx ty tz r, IsTotal v nx (max v.rangeX v.rangeY) dx padx true tx ∧
      IsTotal v ny (padRangeY v) dy pady false ty ∧ IsTotal v nz v.rangeZ dz padz false tz ∧
      IsExtents rx ry rz az dp r ∧
      ((∀ k l o, k < tx → l < ty → o < tz →
          0 ≤ spectrum3 tx ty tz (gridCov3 v r tx dx ty dy tz dz sx sy sz) k l o) →
        HasFieldCov3 F p v nx dx ny dy nz dz padx pady padz sx sy sz fun d e f =>
          v.cov3 (d * dx) (e * dy) (f * dz)) := by
  subst hdip
  obtain ⟨-, -, e1, e2, e3, e4, -⟩ := create_fields hv
  obtain ⟨tx, ty, tz, r, h1, h2, h2', h3, h3', h3'', h5, h4⟩ :=
    simulate3D_covariance hF hv hny hnz hx hy hz
  refine ⟨tx, ty, tz, r, h1, h2, h2', h5,
    fun hsp => (h4 hsp).congr fun d e f hd1 hd2 he1 he2 hf1 hf2 => ?_⟩
  obtain ⟨qx, hqx, hqrx⟩ := isTotal_default h1 hpx hx.padOk
  obtain ⟨qy, hqy, hqry⟩ := isTotal_default h2 hpy hy.padOk
  obtain ⟨qz, hqz, hqrz⟩ := isTotal_default h2' hpz hz.padOk
  have hstepx := hx.padOk.1
  have hrangex := hx.padOk.range_pos
  have hstepy := hy.padOk.1
  have hrangey := hy.padOk.range_pos
  have hstepz := hz.padOk.1
  have hrangez := hz.padOk.range_pos
  have hM : 0 < max rx ry := lt_max_of_lt_left r1
  have farM : ∀ x y z : ℝ, 1 ≤ (x ^ 2 + y ^ 2) / (max rx ry) ^ 2 → v.cov3 x y z = 0 :=
    fun x y z h => sph_cov_zero hv
      (normDist_far_xy r1 r2 (le_max_left _ _) (le_max_right _ _) h)
  have hle : ∀ a b M : ℝ, 1 ≤ a ^ 2 / M ^ 2 → 1 ≤ (a ^ 2 + b ^ 2) / M ^ 2 := by
    intro a b M h
    rw [add_div]
    have : 0 ≤ b ^ 2 / M ^ 2 := by positivity
    linarith
  have farx : ∀ (d : ℤ) (y z : ℝ), (qx : ℤ) + 1 ≤ |d| → v.cov3 (d * dx) y z = 0 := by
    intro d y z hd
    have hf := far_of_cells hstepx hqrx hd
    rw [e1, e2] at hf
    exact farM _ _ _ (hle _ _ _ (one_le_sq_div hM hf))
  have fary : ∀ (e : ℤ) (x z : ℝ), (qy : ℤ) + 1 ≤ |e| → v.cov3 x (e * dy) z = 0 := by
    intro e x z he
    have hf := far_of_cells hstepy hqry he
    unfold padRangeY at hf
    rw [e1, e2, e4] at hf
    split_ifs at hf with haz
    · subst haz
      exact sph_cov_zero hv (normDist_far_y r2 hf)
    · refine farM _ _ _ ?_
      rw [add_comm]
      exact hle _ _ _ (one_le_sq_div hM hf)
  have farz : ∀ (f : ℤ) (x y : ℝ), (qz : ℤ) + 1 ≤ |f| → v.cov3 x y (f * dz) = 0 := by
    intro f x y he
    have hf := far_of_cells hstepz hqrz he
    rw [e3] at hf
    exact sph_cov_zero hv (normDist_far_z r3 hf)
  have kx := fun x => kernel_off (s := sx) (r := r.1) (h := x) hsx
  have ky := fun x => kernel_off (s := sy) (r := r.2.1) (h := x) hsy
  have kz := fun x => kernel_off (s := sz) (r := r.2.2) (h := x) hsz
  simp only [wrapCov3, kx, ky, kz, mul_one]
  rcases wrapLag_padded hx.size hqx hd1 hd2 with ⟨a1, a2⟩ | ⟨a1, a2, a3⟩
  · rcases wrapLag_padded hy.size hqy he1 he2 with ⟨b1, b2⟩ | ⟨b1, b2, b3⟩
    · rcases wrapLag_padded hz.size hqz hf1 hf2 with ⟨c1, c2⟩ | ⟨c1, c2, c3⟩
      · rw [a1, a2, b1, b2, c1, c2]
        push_cast
        rw [neg_mul, neg_mul, neg_mul, cov3_neg]
        ring
      · rw [farz _ _ _ c1, farz _ _ _ c2, farz _ _ _ c3]; norm_num
    · rw [fary _ _ _ b1, fary _ _ _ b2, fary _ _ _ b3]; norm_num
  · rw [farx _ _ _ a1, farx _ _ _ a2, farx _ _ _ a3]; norm_num

end

end Verif
