import Verif.Props.FieldWrap
import Verif.Props.FieldConst
import Verif.Lemmas.FftwRef

/-!
# Concrete cases of C01 - C09, and counterexamples

* The hypotheses of the theorems about simulated fields are met: by the example of the
  documentation, by small two- and three-dimensional grids, with a Gaussian generator and the
  reference transform.
* The covariance of C04 - C06 is unique, so these statements contradict each other if they differ.
* The stronger forms of C04 and C09 are refuted: clipping does happen, and the default padding is
  too short for some rotated variograms.
-/

namespace Verif

open Finset Spec Variogram MeasureTheory ProbabilityTheory

/-! ## A default-padded direction -/

/-- A way to verify `DirOk` for a default-padded direction under the strictest platform. -/
theorem dirOk_default {v : Variogram} {n : ℕ} {range step s : ℝ} (q : ℕ) (hn : 1 ≤ n)
    (h1 : PadOk v n range step) (h2 : range ≤ (q - 1 / 2) * step)
    (h3 : v.rangeToGridRatio * range ≤ (n + q - 1 / 2) * step) (h4 : n + q ≤ 2 ^ 14) (hs : 1e-12 < s) :
    DirOk exactPlatform v n range step (-1) s where
  size := hn
  padOk := h1
  pad_lt := by norm_num
  fits := by
    intro q' h
    unfold IsPadding at h
    rw [if_pos (by norm_num)] at h
    have := isPad_le h1 h h2 h3
    exact ⟨sizeOk_exact (by omega) (by omega), by omega⟩
  scaling := hs

/-- The padding is determined. -/
theorem isPadding_default {v : Variogram} {n : ℕ} {range step : ℝ} {q q' : ℕ} (hk : PadOk v n range step)
    (h1 : (q : ℝ) * step ≤ range) (h2 : range ≤ (q + 1 / 2) * step)
    (h3 : v.rangeToGridRatio * range ≤ (n + q + 1 / 2) * step)
    (h : IsPadding v n range step (-1) q') : q' = q + 1 := by
  unfold IsPadding at h
  rw [if_pos (by norm_num)] at h
  refine le_antisymm (isPad_le hk h ?_ ?_) ?_
  · push_cast
    linarith
  · push_cast
    linarith
  by_contra hlt
  have h4 : q' ≤ q := by omega
  have h5 : (q' : ℝ) ≤ q := by exact_mod_cast h4
  have := (padding_covers hk h).1
  nlinarith [hk.1]

theorem fftSize_self {n : ℕ} {ev : Bool} {t : ℕ} (h : FftSize n ev t) (hn : n ≠ 1)
    (hs : Admissible n ev n) : t = n := by
  unfold FftSize at h
  rw [if_neg (by tauto)] at h
  exact le_antisymm (h.2 hs) h.1.1

/-! ## The example of the documentation -/

/-- The hypotheses about a direction hold for the example of the documentation in one, two and
three dimensions. -/
theorem doc_dirOk : ∃ v, Variogram.create .spherical 2 250 125 125 0 0 1.5 = .ok v ∧
    DirOk exactPlatform v 100 v.rangeX 10 (-1) 1 ∧
    DirOk exactPlatform v 100 (max v.rangeX v.rangeY) 10 (-1) 1 ∧
    DirOk exactPlatform v 100 (padRangeY v) 10 (-1) 1 ∧
    DirOk exactPlatform v 20 v.rangeZ 5 (-1) 0.5 := by
  obtain ⟨v, hv⟩ := (create_ok_iff (t := .spherical) (p := 2) (az := 0) (dp := 0) (sd := 1.5)
    (rx := 250) (ry := 125) (rz := 125)).2 ⟨by norm_num, by norm_num, by norm_num⟩
  obtain ⟨e0, -, e1, e2, e3, e4, -⟩ := create_fields hv
  have em : max v.rangeX v.rangeY = 250 := by rw [e1, e2]; norm_num
  have ep : padRangeY v = 125 := by unfold padRangeY; rw [if_pos e4, e2]
  obtain ⟨er1, er2⟩ := ratio_spherical e0
  refine ⟨v, hv, ?_⟩
  rw [em, ep, e1, e3]
  refine ⟨?_, ?_, ?_, ?_⟩
  · exact dirOk_default 26 (by norm_num) (padOk_of (by linarith) (by linarith) (by norm_num) (by norm_num) (by norm_num) (by norm_num)) (by norm_num)
      (by push_cast; linarith) (by norm_num) (by norm_num)
  · exact dirOk_default 26 (by norm_num) (padOk_of (by linarith) (by linarith) (by norm_num) (by norm_num) (by norm_num) (by norm_num)) (by norm_num)
      (by push_cast; linarith) (by norm_num) (by norm_num)
  · exact dirOk_default 13 (by norm_num) (padOk_of (by linarith) (by linarith) (by norm_num) (by norm_num) (by norm_num) (by norm_num)) (by norm_num)
      (by push_cast; linarith) (by norm_num) (by norm_num)
  · exact dirOk_default 29 (by norm_num) (padOk_of (by linarith) (by linarith) (by norm_num) (by norm_num) (by norm_num) (by norm_num)) (by norm_num)
      (by push_cast; linarith) (by norm_num) (by norm_num)

/-- Explicit paddings (C16) meet the hypotheses as well: 20 padding cells give 120 cells. -/
example : ∃ v, Variogram.create .spherical 2 250 125 125 0 0 1.5 = .ok v ∧
    DirOk exactPlatform v 100 v.rangeX 10 20 1 := by
  obtain ⟨v, hv, h, -⟩ := doc_dirOk
  refine ⟨v, hv, h.size, h.padOk, by norm_num, ?_, h.scaling⟩
  intro q hq
  unfold IsPadding at hq
  rw [if_neg (by norm_num)] at hq
  have : q = 20 := by exact_mod_cast hq
  subst this
  exact ⟨sizeOk_exact (by norm_num) (by norm_num), by norm_num⟩

/-- A generator exists: for the sequence generator every number of draws succeeds. -/
example (s : ℕ → ℝ) (n : ℕ) : UsesGenerator (fun _ : Unit => (.ub "" : Res ((ℕ → ℝ) × Unit)))
    (some s) () s () ∧ draws seqDraw n s = .ok ((List.range n).map s, fun a => s (n + a)) :=
  ⟨Or.inl ⟨rfl, rfl⟩, seqDraw_draws n s⟩

/-! ## Uniqueness of the covariance -/

theorem HasFieldCov1.unique {F : Fftw} {p : Platform} {v : Variogram} {nx : ℕ} {dx : ℝ} {padx : ℤ}
    {sx : ℝ} {C C' : ℤ → ℝ} (h : HasFieldCov1 F p v nx dx padx sx C)
    (h' : HasFieldCov1 F p v nx dx padx sx C') {i i' : ℕ} (hi : i < nx) (hi' : i' < nx) :
    C ((i : ℤ) - i') = C' ((i : ℤ) - i') := by
  obtain ⟨X, h1, h2, -⟩ := h (ℕ → ℝ) seqLaw (ℕ → ℝ) Unit (fun _ => .ub "") seqDraw some
    (fun _ => ()) (fun _ => ()) id (fun a ω => ω a) (fun ω => Or.inl ⟨rfl, rfl⟩)
    fun ω => seqDraw_streams ω
  obtain ⟨X', h1', h2', -⟩ := h' (ℕ → ℝ) seqLaw (ℕ → ℝ) Unit (fun _ => .ub "") seqDraw some
    (fun _ => ()) (fun _ => ()) id (fun a ω => ω a) (fun ω => Or.inl ⟨rfl, rfl⟩)
    fun ω => seqDraw_streams ω
  have e : ∀ i < nx, X i = X' i := by
    intro i hi
    funext ω
    obtain ⟨o, s, a1, -, a2⟩ := h1 ω
    obtain ⟨o', s', b1, -, b2⟩ := h1' ω
    rw [a1] at b1
    obtain ⟨rfl, -⟩ := Prod.mk.inj (Res.ok.inj b1)
    have := (a2 i hi).symm.trans (b2 i hi)
    exact Option.some.inj this
  rw [← (h2 seqLaw_noise.white).2 i hi i' hi', ← (h2' seqLaw_noise.white).2 i hi i' hi', e i hi,
    e i' hi']

theorem HasFieldCov3.unique {F : Fftw} {p : Platform} {v : Variogram} {nx ny nz : ℕ} {dx dy dz : ℝ}
    {padx pady padz : ℤ} {sx sy sz : ℝ} {C C' : ℤ → ℤ → ℤ → ℝ}
    (h : HasFieldCov3 F p v nx dx ny dy nz dz padx pady padz sx sy sz C)
    (h' : HasFieldCov3 F p v nx dx ny dy nz dz padx pady padz sx sy sz C')
    {i i' j j' l l' : ℕ} (hi : i < nx) (hi' : i' < nx) (hj : j < ny) (hj' : j' < ny)
    (hl : l < nz) (hl' : l' < nz) :
    C ((i : ℤ) - i') ((j : ℤ) - j') ((l : ℤ) - l')
      = C' ((i : ℤ) - i') ((j : ℤ) - j') ((l : ℤ) - l') := by
  obtain ⟨X, h1, h2, -⟩ := h (ℕ → ℝ) seqLaw (ℕ → ℝ) seqDraw id (fun a ω => ω a) 1
    fun ω => seqDraw_streams ω
  obtain ⟨X', h1', h2', -⟩ := h' (ℕ → ℝ) seqLaw (ℕ → ℝ) seqDraw id (fun a ω => ω a) 1
    fun ω => seqDraw_streams ω
  have e : ∀ i < nx, ∀ j < ny, ∀ l < nz, X 0 i j l = X' 0 i j l := by
    intro i hi j hj l hl
    funext ω
    obtain ⟨o, s, a1, -, a2⟩ := h1 ω
    obtain ⟨o', s', b1, -, b2⟩ := h1' ω
    rw [a1] at b1
    obtain ⟨rfl, -⟩ := Prod.mk.inj (Res.ok.inj b1)
    obtain ⟨g, c1, -, c2⟩ := a2 0 one_pos
    obtain ⟨g', d1, -, d2⟩ := b2 0 one_pos
    rw [c1] at d1
    obtain rfl := Option.some.inj d1
    have := (c2 i hi j hj l hl).symm.trans (d2 i hi j hj l hl)
    exact Option.some.inj this
  rw [← (h2 seqLaw_noise.white).2.1 0 one_pos i hi j hj l hl i' hi' j' hj' l' hl',
    ← (h2' seqLaw_noise.white).2.1 0 one_pos i hi j hj l hl i' hi' j' hj' l' hl',
    e i hi j hj l hl, e i' hi' j' hj' l' hl']

/-! ## Default padding too short -/

theorem sph_value {x : ℝ} (h : x < 1) :
    corr1D .spherical 2 x = 1 - 1.5 * x + 0.5 * x ^ 3 := by
  unfold corr1D
  dsimp only
  rw [if_pos (by norm_num; linarith)]
  norm_num
  ring

/-- **C09 refuted in one dimension** for rotated variograms: main range 1 and perpendicular range
100 at azimuth 90 degrees, 10 cells of size 1, default padding. The padding is chosen from the main
range, although the perpendicular range acts along the x axis; the first and last cells are
correlated as if they were 3 cells apart instead of 9. -/
theorem simulate1D_wrap_refuted : ∃ v,
    Variogram.create .spherical 2 1 100 100 (Real.pi / 2) 0 1 = .ok v ∧
    DirOk exactPlatform v 10 v.rangeX 1 (-1) 1 ∧
    HasFieldCov1 refFftw exactPlatform v 10 1 (-1) 1 (fun d => v.cov1 (wrapLag 12 d)) ∧
    v.cov1 (wrapLag 12 9) ≠ v.cov1 9 ∧
    ¬ HasFieldCov1 refFftw exactPlatform v 10 1 (-1) 1 (fun d => v.cov1 d) := by
  obtain ⟨v, hv⟩ := (create_ok_iff (t := .spherical) (p := 2) (az := Real.pi / 2) (dp := 0)
    (sd := 1) (rx := 1) (ry := 100) (rz := 100)).2 ⟨by norm_num, by norm_num, by norm_num⟩
  obtain ⟨e0, -, e1, e2, e3, e4, e5, e6⟩ := create_fields hv
  obtain ⟨er1, er2⟩ := ratio_spherical e0
  have hx : DirOk exactPlatform v 10 v.rangeX 1 (-1) 1 := by
    rw [e1]
    exact dirOk_default 2 (by norm_num) (padOk_of (by linarith) (by linarith) (by norm_num) (by norm_num) (by norm_num) (by norm_num)) (by norm_num)
      (by push_cast; linarith) (by norm_num) (by norm_num)
  have hc : ∀ d : ℤ, |(d : ℝ)| < 100 → v.cov1 d
      = 1 - 1.5 * (|(d : ℝ)| / 100) + 0.5 * (|(d : ℝ)| / 100) ^ 3 := by
    intro d hd
    have h1 : normDist 1 100 100 (Real.pi / 2) 0 ⟨d, 0, 0⟩ = |(d : ℝ)| / 100 := by
      unfold normDist
      simp only [mainAxis, perpAxis, downAxis, Vec3.dot, Real.cos_pi_div_two, Real.sin_pi_div_two,
        Real.sin_zero, Real.cos_zero]
      rw [← Real.sqrt_sq (show 0 ≤ |(d : ℝ)| / 100 by positivity)]
      congr 1
      have := sq_abs (d : ℝ)
      linear_combination -(1 / 10000 : ℝ) * this
    unfold cov1
    rw [(corr_arity v d 0).2.2, corr3_eq_normDist hv, h1, e6, sph_value (by linarith)]
    ring
  have w9 : wrapLag 12 9 = -3 := by decide
  have hne : v.cov1 (wrapLag 12 9) ≠ v.cov1 9 := by
    have h3 := hc (-3) (by norm_num)
    have h9 := hc 9 (by norm_num)
    rw [w9, h3]
    norm_num at h9 ⊢
    rw [h9]
    norm_num
  obtain ⟨tx, ht, -, h3⟩ := simulate1D_covariance_convex hv refFftw_laws (Or.inl rfl) hx
    (by norm_num)
  have htx : tx = 12 := by
    obtain ⟨q, hq, hf⟩ := ht
    rw [e1] at hq
    have := isPadding_default (q := 1) (n := 10)
      (padOk_of (by linarith) (by linarith) (by norm_num) (by norm_num) (by norm_num) (by norm_num))
      (by norm_num) (by norm_num) (by push_cast; linarith) hq
    subst this
    exact fftSize_self hf (by norm_num) ⟨le_rfl, by simpa using smooth7_of_exps 2 1 0 0, by simp⟩
  subst htx
  simp only [mul_one] at h3
  refine ⟨v, hv, hx, h3, hne, fun h => hne ?_⟩
  have := h3.unique h (i := 9) (i' := 0) (by norm_num) (by norm_num)
  simpa using this

/-- **C09 refuted in three dimensions** for dipping variograms: main range 4 with dip 90 degrees, so
that it acts along the z axis, other ranges 1; 2 x 2 x 10 cells of size 100 x 100 x 1, default
padding. The padding in z is chosen from the vertical range parameter; the lowest and the highest
layer are correlated as if they were 3 cells apart, although they are 9 cells apart and therefore
beyond the range. -/
theorem padding3D_dip_refuted : ∃ v,
    Variogram.create .spherical 2 4 1 1 0 (Real.pi / 2) 1 = .ok v ∧
    DirOk exactPlatform v 2 (max v.rangeX v.rangeY) 100 (-1) 1 ∧ DirOk exactPlatform v 2 (padRangeY v) 100 (-1) 1 ∧
    DirOk exactPlatform v 10 v.rangeZ 1 (-1) 1 ∧
    v.cov3 0 0 9 = 0 ∧
    ∀ C, HasFieldCov3 refFftw exactPlatform v 2 100 2 100 10 1 (-1) (-1) (-1) 1 1 1 C →
      C 0 0 9 = v.cov3 0 0 3 ∧ 0 < C 0 0 9 := by
  obtain ⟨v, hv⟩ := (create_ok_iff (t := .spherical) (p := 2) (az := 0) (dp := Real.pi / 2)
    (sd := 1) (rx := 4) (ry := 1) (rz := 1)).2 ⟨by norm_num, by norm_num, by norm_num⟩
  obtain ⟨v', hv'⟩ := (create_ok_iff (t := .spherical) (p := 2) (az := 0) (dp := 0)
    (sd := 1) (rx := 4) (ry := 1) (rz := 1)).2 ⟨by norm_num, by norm_num, by norm_num⟩
  obtain ⟨e0, -, e1, e2, e3, e4, e5, e6⟩ := create_fields hv
  obtain ⟨-, -, -, -, -, -, -, e6'⟩ := create_fields hv'
  obtain ⟨er1, er2⟩ := ratio_spherical e0
  have em : max v.rangeX v.rangeY = 4 := by rw [e1, e2]; norm_num
  have ep : padRangeY v = 1 := by unfold padRangeY; rw [if_pos e4, e2]
  have hx : DirOk exactPlatform v 2 (max v.rangeX v.rangeY) 100 (-1) 1 := by
    rw [em]
    exact dirOk_default 1 (by norm_num) (padOk_of (by linarith) (by linarith) (by norm_num) (by norm_num) (by norm_num) (by norm_num)) (by norm_num)
      (by push_cast; linarith) (by norm_num) (by norm_num)
  have hy : DirOk exactPlatform v 2 (padRangeY v) 100 (-1) 1 := by
    rw [ep]
    exact dirOk_default 1 (by norm_num) (padOk_of (by linarith) (by linarith) (by norm_num) (by norm_num) (by norm_num) (by norm_num)) (by norm_num)
      (by push_cast; linarith) (by norm_num) (by norm_num)
  have hz : DirOk exactPlatform v 10 v.rangeZ 1 (-1) 1 := by
    rw [e3]
    exact dirOk_default 2 (by norm_num) (padOk_of (by linarith) (by linarith) (by norm_num) (by norm_num) (by norm_num) (by norm_num)) (by norm_num)
      (by push_cast; linarith) (by norm_num) (by norm_num)
  have hn : ∀ x y z : ℝ, normDist 4 1 1 0 (Real.pi / 2) ⟨x, y, z⟩ ^ 2
      = (z / 4) ^ 2 + y ^ 2 + x ^ 2 := by
    intro x y z
    rw [normDist_sq]
    simp only [mainAxis, perpAxis, downAxis, Vec3.dot, Real.sin_zero, Real.cos_zero,
      Real.cos_pi_div_two, Real.sin_pi_div_two]
    ring
  have hn' : ∀ z : ℝ, normDist 4 1 1 0 (Real.pi / 2) ⟨0, 0, z⟩ = |z| / 4 := by
    intro z
    have h := hn 0 0 z
    rw [← abs_of_nonneg (show 0 ≤ |z| / 4 by positivity),
      ← abs_of_nonneg (show 0 ≤ normDist 4 1 1 0 (Real.pi / 2) ⟨0, 0, z⟩ from Real.sqrt_nonneg _),
      ← sq_eq_sq_iff_abs_eq_abs, h, div_pow, div_pow, sq_abs]
    ring
  have hn1 : ∀ z : ℝ, normDist 4 1 1 0 0 ⟨z, 0, 0⟩ = |z| / 4 := by
    intro z
    have h := normDist_sq 4 1 1 0 0 ⟨z, 0, 0⟩
    rw [← abs_of_nonneg (show 0 ≤ |z| / 4 by positivity),
      ← abs_of_nonneg (show 0 ≤ normDist 4 1 1 0 0 ⟨z, 0, 0⟩ from Real.sqrt_nonneg _),
      ← sq_eq_sq_iff_abs_eq_abs, h, div_pow |z|, sq_abs]
    simp only [mainAxis, perpAxis, downAxis, Vec3.dot, Real.sin_zero, Real.cos_zero]
    ring
  have hzero : ∀ x y z : ℝ, 1 ≤ (z / 4) ^ 2 + y ^ 2 + x ^ 2 → v.cov3 x y z = 0 := by
    intro x y z h
    refine sph_cov_zero hv ?_
    rw [← hn] at h
    exact (one_le_sq_iff₀ (Real.sqrt_nonneg _)).1 h
  have hcov : ∀ z : ℝ, v.cov3 0 0 z = v'.cov1 z := by
    intro z
    unfold cov3 cov1
    rw [(corr_arity v' z 0).2.2, corr3_eq_normDist hv, corr3_eq_normDist hv', hn', hn1, e6, e6']
  obtain ⟨tx, ty, tz, r, h1, h2, h2', h3, h3', h3'', h5, h4⟩ :=
    simulate3D_covariance refFftw_laws hv (by norm_num) (by norm_num) hx hy hz
  have htz : tz = 12 := by
    obtain ⟨q, hq, hf⟩ := h2'
    rw [e3] at hq
    have := isPadding_default (q := 1) (n := 10)
      (padOk_of (by linarith) (by linarith) (by norm_num) (by norm_num) (by norm_num) (by norm_num))
      (by norm_num) (by norm_num) (by push_cast; linarith) hq
    subst this
    exact fftSize_self hf (by norm_num) ⟨le_rfl, by simpa using smooth7_of_exps 2 1 0 0, by simp⟩
  subst htz
  have kx := fun x => kernel_off (s := 1) (r := r.1) (h := x) (by norm_num)
  have ky := fun x => kernel_off (s := 1) (r := r.2.1) (h := x) (by norm_num)
  have kz := fun x => kernel_off (s := 1) (r := r.2.2) (h := x) (by norm_num)
  have lag_ge : ∀ {n a : ℕ}, a < n → a ≠ 0 → (1 : ℝ) ≤ ((lag n a : ℤ) * 100) ^ 2 := by
    intro n a h h0
    have h1 : (lag n a) ≠ 0 := by unfold lag; split_ifs <;> omega
    have h2 : 1 ≤ (lag n a) ^ 2 := by have := sq_nonneg (lag n a); have := pow_ne_zero 2 h1; omega
    have : (1 : ℝ) ≤ ((lag n a : ℤ) : ℝ) ^ 2 := by exact_mod_cast h2
    nlinarith
  have hspec : ∀ k l o, k < tx → l < ty → o < 12 →
      0 ≤ spectrum3 tx ty 12 (gridCov3 v r tx 100 ty 100 12 1 1 1 1) k l o := by
    intro k l o _ _ _
    have hs := spectrum1_nonneg hv' (Or.inl rfl) (tx := 12) (by norm_num) r 1
      (show (0.99999 : ℝ) ≤ 1 by norm_num) o
    have e : spectrum3 tx ty 12 (gridCov3 v r tx 100 ty 100 12 1 1 1 1) k l o
        = spectrum1 12 (gridCov1 v' r 12 1 1) o := by
      unfold spectrum3 spectrum1 gridCov3 gridCov1
      simp only [kx, ky, kz, mul_one]
      rw [Finset.sum_eq_single_of_mem 0 (mem_range.2 (by omega))]
      · rw [Finset.sum_eq_single_of_mem 0 (mem_range.2 (by omega))]
        · refine sum_congr rfl fun z _ => ?_
          rw [lag_zero (by omega), lag_zero (by omega), ← hcov]
          simp [phase1, phase3]
        · intro b hb hb0
          refine sum_eq_zero fun z _ => ?_
          rw [hzero, zero_mul]
          have := lag_ge (mem_range.1 hb) hb0
          nlinarith [sq_nonneg (((lag 12 z : ℤ) : ℝ) / 4), sq_nonneg (((lag tx 0 : ℤ) : ℝ) * 100)]
      · intro a ha ha0
        refine sum_eq_zero fun b _ => sum_eq_zero fun z _ => ?_
        rw [hzero, zero_mul]
        have := lag_ge (mem_range.1 ha) ha0
        nlinarith [sq_nonneg (((lag 12 z : ℤ) : ℝ) / 4), sq_nonneg (((lag ty b : ℤ) : ℝ) * 100)]
    rw [e]; exact hs
  refine ⟨v, hv, hx, hy, hz, hzero _ _ _ (by norm_num), fun C hC => ?_⟩
  have := (h4 hspec).unique hC (i := 0) (i' := 0) (j := 0) (j' := 0) (l := 9) (l' := 0)
    (by norm_num) (by norm_num) (by norm_num) (by norm_num) (by norm_num) (by norm_num)
  have w0 : ∀ n, 0 < n → wrapLag n 0 = 0 := fun n hn => wrapLag_of_lt hn (by omega) (by omega)
  have w9 : wrapLag 12 9 = -3 := by decide
  have w9' : wrapLag 12 (-9) = 3 := by decide
  have e3' : v.cov3 0 0 (-3) = v.cov3 0 0 3 := by
    have := cov3_neg (v := v) 0 0 3
    simpa using this
  have hC9 : C 0 0 9 = v.cov3 0 0 3 := by
    simp only [Nat.cast_zero, sub_zero, Nat.cast_ofNat, wrapCov3, kx, ky, kz, mul_one,
      neg_zero, w0 tx (by omega), w0 ty (by omega), w9, w9', Int.cast_zero, zero_mul] at this
    push_cast at this
    rw [← this, e3']
    ring
  refine ⟨hC9, ?_⟩
  rw [hC9]
  unfold cov3
  rw [corr3_eq_normDist hv, hn', e6, sph_value (by norm_num)]
  norm_num

/-! ## Clipping does occur -/

theorem spectrum1_four (c : ℕ → ℝ) : spectrum1 4 c 2 = c 0 - c 1 + c 2 - c 3 := by
  have h1 : Real.cos (2 * Real.pi * (2 * 1 / 4)) = -1 := by
    rw [show 2 * Real.pi * (2 * 1 / 4) = Real.pi by ring, Real.cos_pi]
  have h2 : Real.cos (2 * Real.pi * (2 * 2 / 4)) = 1 := by
    rw [show 2 * Real.pi * (2 * 2 / 4) = 2 * Real.pi by ring, Real.cos_two_pi]
  have h3 : Real.cos (2 * Real.pi * (2 * 3 / 4)) = -1 := by
    rw [show 2 * Real.pi * (2 * 3 / 4) = Real.pi + 2 * Real.pi by ring, Real.cos_add_two_pi,
      Real.cos_pi]
  simp only [spectrum1, phase1, sum_range_succ, sum_range_zero]
  push_cast
  rw [h1, h2, h3]
  norm_num
  ring

/-- **C05 is strict**: for a Gaussian variogram of range 10 and 4 cells of size 1 without padding,
a frequency is clipped; every cell of the field has a variance larger than requested. -/
theorem simulate1D_clipping_occurs : ∃ v C,
    Variogram.create .gaussian 2 10 10 10 0 0 1 = .ok v ∧ DirOk exactPlatform v 4 v.rangeX 1 0 1 ∧
    HasFieldCov1 refFftw exactPlatform v 4 1 0 1 C ∧ v.var < C 0 := by
  obtain ⟨v, hv⟩ := (create_ok_iff (t := .gaussian) (p := 2) (az := 0) (dp := 0)
    (sd := 1) (rx := 10) (ry := 10) (rz := 10)).2 ⟨by norm_num, by norm_num, by norm_num⟩
  obtain ⟨e0, -, e1, e2, e3, e4, e5, e6⟩ := create_fields hv
  obtain ⟨er1, er2⟩ := ratio_gaussian e0
  have hx : DirOk exactPlatform v 4 v.rangeX 1 0 1 := by
    rw [e1]
    refine ⟨by norm_num, (padOk_of (by linarith) (by linarith) (by norm_num) (by norm_num) (by norm_num) (by norm_num)), by norm_num, ?_, by norm_num⟩
    intro q hq
    unfold IsPadding at hq
    rw [if_neg (by norm_num)] at hq
    have : q = 0 := by exact_mod_cast hq
    subst this
    exact ⟨sizeOk_exact (by norm_num) (by norm_num), by norm_num⟩
  obtain ⟨tx, r, ht, -, -, h3⟩ := simulate1D_law refFftw_laws hv hx
  have htx : tx = 4 := by
    obtain ⟨q, hq, hf⟩ := ht
    unfold IsPadding at hq
    rw [if_neg (by norm_num)] at hq
    have : q = 0 := by exact_mod_cast hq
    subst this
    exact fftSize_self hf (by norm_num) ⟨le_rfl, by simpa using smooth7_of_exps 2 0 0 0, by simp⟩
  subst htx
  refine ⟨v, _, hv, hx, h3, ?_⟩
  obtain ⟨g1, g2⟩ := clipped1_ge (n := 4) (by norm_num) (gridCov1 v r 4 1 1)
  have hk : ∀ h, kernel 1 r.1 h = 1 := fun h => kernel_off (by norm_num)
  have hc : ∀ a, gridCov1 v r 4 1 1 a = Real.exp (-3 * (((lag 4 a : ℤ) : ℝ) / 10) ^ 2) := by
    intro a
    have h1 : normDist 10 10 10 0 0 ⟨(lag 4 a : ℤ) * 1, 0, 0⟩ ^ 2 = (((lag 4 a : ℤ) : ℝ) / 10) ^ 2 := by
      rw [normDist_sq]
      simp only [mainAxis, perpAxis, downAxis, Vec3.dot, Real.sin_zero, Real.cos_zero]
      ring
    unfold gridCov1 cov1
    rw [hk, mul_one, (corr_arity v _ 0).2.2, corr3_eq_normDist hv, e6, ← h1]
    unfold corr1D
    dsimp only
    rw [mul_one, one_mul]
    congr 1
    norm_num
    ring
  set y := Real.exp (-0.03) with hy
  have l0 : lag 4 0 = 0 := by decide
  have l1 : lag 4 1 = 1 := by decide
  have l2 : lag 4 2 = -2 := by decide
  have l3 : lag 4 3 = -1 := by decide
  have c0 : gridCov1 v r 4 1 1 0 = 1 := by rw [hc, l0]; norm_num
  have c1 : gridCov1 v r 4 1 1 1 = y := by rw [hc, l1, hy]; norm_num
  have c2 : gridCov1 v r 4 1 1 2 = y ^ 4 := by rw [hc, l2, hy, ← Real.exp_nat_mul]; norm_num
  have c3 : gridCov1 v r 4 1 1 3 = y := by rw [hc, l3, hy]; norm_num
  have y1 : y < 1 := by rw [hy]; exact Real.exp_lt_one_iff.2 (by norm_num)
  have y2 : 0.97 ≤ y := by
    have := Real.add_one_le_exp (-0.03)
    rw [hy]; linarith
  have hspec : spectrum1 4 (gridCov1 v r 4 1 1) 2 < 0 := by
    rw [spectrum1_four, c0, c1, c2, c3]
    have : (y - 1) * (y ^ 3 + y ^ 2 + y - 1) < 0 := by
      apply mul_neg_of_neg_of_pos (by linarith)
      nlinarith [sq_nonneg y, pow_pos (show 0 < y by linarith) 3]
    nlinarith
  have hvar : v.var = gridCov1 v r 4 1 1 0 := by rw [c0, e6]; norm_num
  rw [hvar]
  refine lt_of_le_of_ne g1 fun h => ?_
  have := g2.1 h.symm 2 (by norm_num)
  linarith

/-! ## Small grids on which nothing is clipped -/

theorem sph_iso {v : Variogram} (hv : Variogram.create .spherical 2 1.2 1.2 1.2 0 0 1 = .ok v)
    (x y z : ℤ) : v.cov3 x y z = if x ^ 2 + y ^ 2 + z ^ 2 = 0 then 1 else
      if x ^ 2 + y ^ 2 + z ^ 2 = 1 then corr1D .spherical 2 (1 / 1.2) else 0 := by
  obtain ⟨e0, -, e1, e2, e3, e4, e5, e6⟩ := create_fields hv
  have hn : normDist 1.2 1.2 1.2 0 0 ⟨x, y, z⟩ = √(((x ^ 2 + y ^ 2 + z ^ 2 : ℤ) : ℝ)) / 1.2 := by
    unfold normDist
    simp only [mainAxis, perpAxis, downAxis, Vec3.dot, Real.sin_zero, Real.cos_zero]
    rw [eq_div_iff (by norm_num)]
    nth_rw 4 [show (1.2 : ℝ) = √(1.2 ^ 2) by rw [Real.sqrt_sq (by norm_num)]]
    rw [← Real.sqrt_mul (by positivity)]
    congr 1
    push_cast
    norm_num
    ring
  unfold cov3
  rw [e6, mul_one, one_mul]
  split_ifs with h1 h2
  · rw [corr3_eq_normDist hv, hn, h1]
    norm_num [corr1D]
  · rw [corr3_eq_normDist hv, hn, h2]
    norm_num
  · refine (corr_beyond_range hv (by simp) _ _ _).1 rfl ?_
    rw [hn, one_le_div (by norm_num)]
    have h3 : 2 ≤ x ^ 2 + y ^ 2 + z ^ 2 := by
      have : 0 ≤ x ^ 2 + y ^ 2 + z ^ 2 := by positivity
      omega
    have h4 : (2 : ℝ) ≤ ((x ^ 2 + y ^ 2 + z ^ 2 : ℤ) : ℝ) := by exact_mod_cast h3
    exact Real.le_sqrt_of_sq_le (le_trans (by norm_num) h4)

theorem sph_iso_bound : 0 ≤ corr1D .spherical 2 (1 / 1.2) ∧ corr1D .spherical 2 (1 / 1.2) ≤ 0.1 := by
  rw [sph_value (by norm_num)]
  norm_num

theorem small_dirOk {v : Variogram} (hv : Variogram.create .spherical 2 1.2 1.2 1.2 0 0 1 = .ok v) :
    (∀ R ∈ [v.rangeX, max v.rangeX v.rangeY, padRangeY v, v.rangeZ], DirOk exactPlatform v 2 R 1 (-1) 1) ∧
    ∀ R ∈ [v.rangeX, max v.rangeX v.rangeY, padRangeY v, v.rangeZ], ∀ ev t,
      IsTotal v 2 R 1 (-1) ev t → t = 4 := by
  obtain ⟨e0, -, e1, e2, e3, e4, e5, e6⟩ := create_fields hv
  obtain ⟨er1, er2⟩ := ratio_spherical e0
  have em : max v.rangeX v.rangeY = 1.2 := by rw [e1, e2]; norm_num
  have ep : padRangeY v = 1.2 := by unfold padRangeY; rw [if_pos e4, e2]
  rw [em, ep, e1, e3]
  constructor
  · intro R hR
    obtain rfl : R = 1.2 := by simpa using hR
    exact dirOk_default 2 (by norm_num) (padOk_of (by linarith) (by linarith) (by norm_num) (by norm_num) (by norm_num) (by norm_num)) (by norm_num)
      (by push_cast; linarith) (by norm_num) (by norm_num)
  · rintro R hR ev t ⟨q, hq, hf⟩
    obtain rfl : R = 1.2 := by simpa using hR
    have := isPadding_default (q := 1) (n := 2)
      (padOk_of (by linarith) (by linarith) (by norm_num) (by norm_num) (by norm_num) (by norm_num))
      (by norm_num) (by norm_num) (by push_cast; linarith) hq
    subst this
    exact fftSize_self hf (by norm_num) ⟨le_rfl, by simpa using smooth7_of_exps 2 0 0 0,
      fun _ => by norm_num⟩

/-- All hypotheses of the two-dimensional theorem of C09 (and of C04), including the absence of
clipping, are met by a 2 × 2 grid with a spherical variogram of range 1.2 cells: it has the
requested covariance. -/
theorem simulate2D_small : ∃ v, Variogram.create .spherical 2 1.2 1.2 1.2 0 0 1 = .ok v ∧
    HasFieldCov2 refFftw exactPlatform v 2 1 2 1 (-1) (-1) 1 1 (fun d e => v.cov2 (d * 1) (e * 1)) ∧
    0 < v.cov2 1 0 := by
  obtain ⟨v, hv⟩ := (create_ok_iff (t := .spherical) (p := 2) (az := 0) (dp := 0)
    (sd := 1) (rx := 1.2) (ry := 1.2) (rz := 1.2)).2 ⟨by norm_num, by norm_num, by norm_num⟩
  obtain ⟨hd, ht⟩ := small_dirOk hv
  obtain ⟨tx, ty, r, h1, h2, h3, h4⟩ := simulate2D_spherical refFftw_laws hv (by norm_num)
    (hd _ (by simp)) (hd _ (by simp)) (by norm_num) (by norm_num) (by norm_num) (by norm_num)
    (by norm_num) (by norm_num) (Or.inl rfl)
  obtain rfl := ht _ (by simp) _ _ h1
  obtain rfl := ht _ (by simp) _ _ h2
  have hc2 : ∀ x y : ℤ, v.cov2 x y = v.cov3 x y ((0 : ℤ) : ℝ) := by
    intro x y
    unfold cov2 cov3
    rw [(corr_arity v x y).1, Int.cast_zero]
  refine ⟨v, hv, h4 fun k l _ _ => ?_, ?_⟩
  · have hg : ∀ a b, gridCov2 v r 4 1 4 1 1 1 a b
        = v.cov3 (lag 4 a : ℤ) (lag 4 b : ℤ) ((0 : ℤ) : ℝ) := by
      intro a b
      unfold gridCov2
      rw [kernel_off (by norm_num), kernel_off (by norm_num), mul_one, mul_one, mul_one, mul_one,
        hc2]
    obtain ⟨b0, b1⟩ := sph_iso_bound
    simp only [spectrum2, hg, sph_iso hv, lag]
    generalize corr1D .spherical 2 (1 / 1.2) = s at b0 b1
    simp only [sum_range_succ, sum_range_zero]
    norm_num
    have hcos : ∀ θ : ℝ, -s ≤ s * Real.cos θ := by
      intro θ
      nlinarith [Real.neg_one_le_cos θ]
    have h00 : Real.cos (phase2 4 4 k l 0 0) = 1 := by simp [phase2]
    rw [h00]
    linarith [hcos (phase2 4 4 k l 0 1), hcos (phase2 4 4 k l 0 3), hcos (phase2 4 4 k l 1 0),
      hcos (phase2 4 4 k l 3 0)]
  · have := hc2 1 0
    push_cast at this
    rw [this]
    have := sph_iso hv 1 0 0
    push_cast at this
    rw [this]
    norm_num [corr1D]

/-- The same in three dimensions. -/
theorem simulate3D_small : ∃ v, Variogram.create .spherical 2 1.2 1.2 1.2 0 0 1 = .ok v ∧
    HasFieldCov3 refFftw exactPlatform v 2 1 2 1 2 1 (-1) (-1) (-1) 1 1 1
      (fun d e f => v.cov3 (d * 1) (e * 1) (f * 1)) := by
  obtain ⟨v, hv⟩ := (create_ok_iff (t := .spherical) (p := 2) (az := 0) (dp := 0)
    (sd := 1) (rx := 1.2) (ry := 1.2) (rz := 1.2)).2 ⟨by norm_num, by norm_num, by norm_num⟩
  obtain ⟨hd, ht⟩ := small_dirOk hv
  obtain ⟨tx, ty, tz, r, h1, h2, h2', h3, h4⟩ := simulate3D_spherical_partial refFftw_laws hv
    (by norm_num) (by norm_num)
    (hd _ (by simp)) (hd _ (by simp)) (hd _ (by simp)) (by norm_num) (by norm_num) (by norm_num)
    (by norm_num) (by norm_num) (by norm_num) (by norm_num) (by norm_num) (by norm_num) rfl
  obtain rfl := ht _ (by simp) _ _ h1
  obtain rfl := ht _ (by simp) _ _ h2
  obtain rfl := ht _ (by simp) _ _ h2'
  refine ⟨v, hv, h4 fun k l o _ _ _ => ?_⟩
  have hg : ∀ a b c, gridCov3 v r 4 1 4 1 4 1 1 1 1 a b c
      = v.cov3 (lag 4 a : ℤ) (lag 4 b : ℤ) (lag 4 c : ℤ) := by
    intro a b c
    unfold gridCov3
    rw [kernel_off (by norm_num), kernel_off (by norm_num), kernel_off (by norm_num)]
    simp only [mul_one]
  obtain ⟨b0, b1⟩ := sph_iso_bound
  simp only [spectrum3, hg, sph_iso hv, lag]
  generalize corr1D .spherical 2 (1 / 1.2) = s at b0 b1
  simp only [sum_range_succ, sum_range_zero]
  norm_num
  have hcos : ∀ θ : ℝ, -s ≤ s * Real.cos θ := by
    intro θ
    nlinarith [Real.neg_one_le_cos θ]
  have h00 : Real.cos (phase3 4 4 4 k l o 0 0 0) = 1 := by simp [phase3]
  rw [h00]
  linarith [hcos (phase3 4 4 4 k l o 0 0 1), hcos (phase3 4 4 4 k l o 0 0 3),
    hcos (phase3 4 4 4 k l o 0 1 0), hcos (phase3 4 4 4 k l o 0 3 0),
    hcos (phase3 4 4 4 k l o 1 0 0), hcos (phase3 4 4 4 k l o 3 0 0)]

end Verif
