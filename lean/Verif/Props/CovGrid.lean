import Verif.Lemmas.CovGrid
import Mathlib.Analysis.SpecialFunctions.Trigonometric.Bounds
import Mathlib.Analysis.SpecialFunctions.Trigonometric.Deriv

/-!
# C30-C33: the periodic covariance grids

The grids are built from a created variogram (see `Props/Variogram`); sizes must fit in an `int`
and smoothing parameters must be above 1e-12 (the source asserts it).
-/

namespace Verif

open Spec Variogram

/-- Every index has exactly the lag that is congruent to it and closest to zero; `-n/2` is chosen
at the half-way index. -/
theorem lag_spec {n i : ℕ} (hi : i < n) :
    (n : ℤ) ∣ lag n i - i ∧ -(n : ℤ) ≤ 2 * lag n i ∧ 2 * lag n i < n := by
  unfold lag
  split
  · refine ⟨by simp, by omega, by omega⟩
  · refine ⟨⟨-1, by ring⟩, by omega, by omega⟩

example : (List.range 6).map (lag 6) = [0, 1, 2, -3, -2, -1] := by decide
example : (List.range 5).map (lag 5) = [0, 1, 2, -2, -1] := by decide

/-- The three numbers are, up to the source's use of 3.14 for pi, the extents of the range
ellipsoid's semi-axes along x, y and z. -/
def IsExtents (rx ry rz az dp : ℝ) (r : ℝ × ℝ × ℝ) : Prop :=
  let m := mainAxis az dp
  let p := perpAxis az
  let d := downAxis az dp
  let tol := 0.0008 * max (max |rx| |ry|) |rz|
  (0 < r.1 ∧ 0 < r.2.1 ∧ 0 < r.2.2) ∧ |r.1 - extent rx ry rz m.x p.x d.x| ≤ tol ∧
    |r.2.1 - extent rx ry rz m.y p.y d.y| ≤ tol ∧ |r.2.2 - extent rx ry rz m.z p.z d.z| ≤ tol

theorem abs_max_sub_max_le (a b c d t : ℝ) (h1 : |a - c| ≤ t) (h2 : |b - d| ≤ t) :
    |max a b - max c d| ≤ t :=
  (abs_max_sub_max_le_max a b c d).trans (max_le h1 h2)

theorem cos_lip (a b : ℝ) : |Real.cos a - Real.cos b| ≤ |a - b| := by
  rw [Real.cos_sub_cos, abs_mul, abs_mul]
  have h1 := Real.abs_sin_le_one ((a + b) / 2)
  have h2 : |Real.sin ((a - b) / 2)| ≤ |(a - b) / 2| := Real.abs_sin_le_abs
  rw [abs_div, abs_two] at h2
  simp only [abs_neg, abs_two]
  nlinarith [abs_nonneg (Real.sin ((a + b) / 2)), abs_nonneg (Real.sin ((a - b) / 2)),
    abs_nonneg (a - b)]

theorem sin_lip (a b : ℝ) : |Real.sin a - Real.sin b| ≤ |a - b| := by
  have := cos_lip (Real.pi / 2 - a) (Real.pi / 2 - b)
  rw [Real.cos_pi_div_two_sub, Real.cos_pi_div_two_sub] at this
  refine this.trans (le_of_eq ?_)
  rw [show Real.pi / 2 - a - (Real.pi / 2 - b) = -(a - b) by ring, abs_neg]

theorem pi_approx (x : ℝ) : |(x + 3.14 / 2.0) - (x + Real.pi / 2)| ≤ 0.0008 := by
  rw [abs_le]
  constructor <;> linarith [Real.pi_gt_d4, Real.pi_lt_d4]

theorem findVariogramRanges_close {t : VType} {p rx ry rz az dp sd : ℝ} {v : Variogram}
    (h : Variogram.create t p rx ry rz az dp sd = .ok v) :
    IsExtents rx ry rz az dp (findVariogramRanges v) := by
  obtain ⟨-, -, e1, e2, e3, e4, e5, -⟩ := create_fields h
  obtain ⟨n1, n2, n3⟩ := create_ok_iff.1 ⟨v, h⟩
  set M := max (max |rx| |ry|) |rz| with hM
  have my : |ry| ≤ M := (le_max_right _ _).trans (le_max_left _ _)
  have mz : |rz| ≤ M := le_max_right _ _
  have m0 : 0 ≤ M := (abs_nonneg _).trans mz
  have cosq : ∀ x, |Real.cos (x + 3.14 / 2.0) - -Real.sin x| ≤ 0.0008 := fun x => by
    rw [← Real.cos_add_pi_div_two]; exact (cos_lip _ _).trans (pi_approx x)
  have sinq : ∀ x, |Real.sin (x + 3.14 / 2.0) - Real.cos x| ≤ 0.0008 := fun x => by
    rw [← Real.sin_add_pi_div_two]; exact (sin_lip _ _).trans (pi_approx x)
  -- a factor times two close numbers, times a number of size at most one
  have key : ∀ (R a b u : ℝ), |R| ≤ M → |u| ≤ 1 → |a - b| ≤ 0.0008 →
      |(|R * a * u| - |R * (b * u)|)| ≤ 0.0008 * M := by
    intro R a b u hR hu hab
    refine (abs_abs_sub_abs_le _ _).trans ?_
    rw [show R * a * u - R * (b * u) = R * ((a - b) * u) by ring, abs_mul, abs_mul]
    have : |a - b| * |u| ≤ 0.0008 := by
      nlinarith [abs_nonneg (a - b), abs_nonneg u]
    calc |R| * (|a - b| * |u|) ≤ M * 0.0008 :=
          mul_le_mul hR this (by positivity) m0
      _ = 0.0008 * M := by ring
  have key1 : ∀ (R a b : ℝ), |R| ≤ M → |a - b| ≤ 0.0008 →
      |(|R * a| - |R * b|)| ≤ 0.0008 * M := by
    intro R a b hR hab
    have := key R a b 1 hR (by simp) hab
    simpa using this
  have zero : ∀ x : ℝ, |x - x| ≤ 0.0008 * M := fun x => by
    rw [sub_self, abs_zero]; positivity
  have hpos := findVariogramRanges_pos v (e1 ▸ n1) (e2 ▸ n2) (e3 ▸ n3)
  have negsin : ∀ a b : ℝ, -(Real.sin a * b) = (-Real.sin a) * b := fun a b => by ring
  refine ⟨hpos, ?_, ?_, ?_⟩
  · simp only [findVariogramRanges, extent, mainAxis, perpAxis, downAxis, e1, e2, e3, e4, e5]
    refine abs_max_sub_max_le _ _ _ _ _ (abs_max_sub_max_le _ _ _ _ _ ?_ ?_) ?_
    · rw [mul_assoc]; exact zero _
    · exact key1 _ _ _ my (cosq _)
    · rw [negsin]; exact key _ _ _ _ mz (Real.abs_cos_le_one _) (cosq _)
  · simp only [findVariogramRanges, extent, mainAxis, perpAxis, downAxis, e1, e2, e3, e4, e5]
    refine abs_max_sub_max_le _ _ _ _ _ (abs_max_sub_max_le _ _ _ _ _ ?_ ?_) ?_
    · rw [mul_assoc]; exact zero _
    · exact key1 _ _ _ my (sinq _)
    · rw [negsin]; exact key _ _ _ _ mz (Real.abs_sin_le_one _) (cosq _)
  · simp only [findVariogramRanges, extent, mainAxis, perpAxis, downAxis, e1, e2, e3, e4, e5]
    refine abs_max_sub_max_le _ _ _ _ _ (abs_max_sub_max_le _ _ _ _ _ (zero _) ?_) ?_
    · norm_num
    · exact key1 _ _ _ mz (sinq _)

/-! ## C32 and C31: every cell -/

/-- **C32 (with C31), one dimension.** Cell `i` holds the covariance at the signed lag of `i`,
times the smoothing kernel at that lag. -/
theorem fftCovGrid1D_value {t : VType} {p rx ry rz az dp sd : ℝ} {v : Variogram}
    (h : Variogram.create t p rx ry rz az dp sd = .ok v) :
    ∃ r, IsExtents rx ry rz az dp r ∧
      ∀ (n : ℕ) (dx s : ℝ), n + 1 < 2 ^ 31 → 1e-12 < s →
        ∃ cov, fftCovGrid1D v n dx s = .ok cov ∧ cov.length = n ∧ ∀ i < n,
          cov[i]? = some (v.cov1 (lag n i * dx) * kernel s r.1 (lag n i * dx)) := by
  obtain ⟨-, -, e1, e2, e3, -⟩ := create_fields h
  obtain ⟨n1, n2, n3⟩ := create_ok_iff.1 ⟨v, h⟩
  refine ⟨_, findVariogramRanges_close h, fun n dx s hn hs => ?_⟩
  exact fftCovGrid1D_sat v (e1 ▸ n1) (e2 ▸ n2) (e3 ▸ n3) n hn dx s hs

/-- **C32 (with C31), two dimensions.** -/
theorem fftCovGrid2D_value {t : VType} {p rx ry rz az dp sd : ℝ} {v : Variogram}
    (h : Variogram.create t p rx ry rz az dp sd = .ok v) :
    ∃ r, IsExtents rx ry rz az dp r ∧
      ∀ (nx : ℕ) (dx : ℝ) (ny : ℕ) (dy sx sy : ℝ), nx + 1 < 2 ^ 31 → ny + 1 < 2 ^ 31 →
        1e-12 < sx → 1e-12 < sy →
        ∃ cov, fftCovGrid2D v nx dx ny dy sx sy = .ok cov ∧ cov.ni = nx ∧ cov.nj = ny ∧
          cov.data.length = nx * ny ∧
          ∀ i j, i < nx → j < ny → cov.get i j =
            .ok (v.cov2 (lag nx i * dx) (lag ny j * dy)
              * kernel sx r.1 (lag nx i * dx) * kernel sy r.2.1 (lag ny j * dy)) := by
  obtain ⟨-, -, e1, e2, e3, -⟩ := create_fields h
  obtain ⟨n1, n2, n3⟩ := create_ok_iff.1 ⟨v, h⟩
  refine ⟨_, findVariogramRanges_close h, fun nx dx ny dy sx sy hnx hny hsx hsy => ?_⟩
  obtain ⟨cov, hc, h1, h2, h3, h4⟩ := fftCovGrid2D_filled v (e1 ▸ n1) (e2 ▸ n2) (e3 ▸ n3)
    nx ny hnx hny dx dy sx sy hsx hsy
  exact ⟨cov, hc, h1, h2, by rw [h3, h1, h2], fun i j hi hj => h4 i j hi hj trivial⟩

/-- **C32 (with C31), three dimensions.** -/
theorem fftCovGrid3D_value {t : VType} {p rx ry rz az dp sd : ℝ} {v : Variogram}
    (h : Variogram.create t p rx ry rz az dp sd = .ok v) :
    ∃ r, IsExtents rx ry rz az dp r ∧
      ∀ (nx : ℕ) (dx : ℝ) (ny : ℕ) (dy : ℝ) (nz : ℕ) (dz sx sy sz : ℝ),
        nx + 1 < 2 ^ 31 → ny + 1 < 2 ^ 31 → nz + 1 < 2 ^ 31 →
        1e-12 < sx → 1e-12 < sy → 1e-12 < sz →
        ∃ cov, fftCovGrid3D v nx dx ny dy nz dz sx sy sz = .ok cov ∧ cov.ni = nx ∧
          cov.nj = ny ∧ cov.nk = nz ∧ cov.data.length = nx * ny * nz ∧
          ∀ i j k, i < nx → j < ny → k < nz → cov.get i j k =
            .ok (v.cov3 (lag nx i * dx) (lag ny j * dy) (lag nz k * dz)
              * kernel sx r.1 (lag nx i * dx) * kernel sy r.2.1 (lag ny j * dy)
              * kernel sz r.2.2 (lag nz k * dz)) := by
  obtain ⟨-, -, e1, e2, e3, -⟩ := create_fields h
  obtain ⟨n1, n2, n3⟩ := create_ok_iff.1 ⟨v, h⟩
  refine ⟨_, findVariogramRanges_close h,
    fun nx dx ny dy nz dz sx sy sz hnx hny hnz hsx hsy hsz => ?_⟩
  obtain ⟨cov, hc, h1, h2, h5, h3, h4⟩ := fftCovGrid3D_filled v (e1 ▸ n1) (e2 ▸ n2) (e3 ▸ n3)
    nx ny nz hnx hny hnz dx dy dz sx sy sz hsx hsy hsz
  exact ⟨cov, hc, h1, h2, h5, by rw [h3, h1, h2, h5],
    fun i j k hi hj hk => h4 i j k hi hj hk trivial⟩

/-- **C31**, the kernel: one at lag zero, `s` at the extent, never above one, decreasing. -/
theorem kernel_spec {s r : ℝ} (hs : 0 < s) (hr : 0 < r) :
    kernel s r 0 = 1 ∧ (s < 0.99999 → kernel s r r = s ∧ kernel s r (-r) = s) ∧
      (∀ h, 0 < kernel s r h ∧ kernel s r h ≤ 1) ∧
      (∀ h h', |h| ≤ |h'| → kernel s r h' ≤ kernel s r h) := by
  refine ⟨?_, ?_, ?_, ?_⟩
  · unfold kernel; split <;> simp
  · intro h
    unfold kernel
    rw [if_pos h, if_pos h, neg_div, neg_sq, div_self hr.ne']
    simp
  · intro h
    unfold kernel
    split
    · rename_i hlt
      exact ⟨Real.rpow_pos_of_pos hs _,
        Real.rpow_le_one hs.le (hlt.le.trans (by norm_num)) (by positivity)⟩
    · norm_num
  · intro h h' hh
    unfold kernel
    split
    · rename_i hlt
      refine Real.rpow_le_rpow_of_exponent_ge hs (hlt.le.trans (by norm_num)) ?_
      rw [div_pow, div_pow]
      exact div_le_div_of_nonneg_right (sq_le_sq.2 hh) (by positivity)
    · exact le_refl _

example : kernel 0.5 2 2 = 0.5 ∧ kernel 0.5 2 0 = 1 :=
  ⟨((kernel_spec (by norm_num) (by norm_num)).2.1 (by norm_num)).1,
    (kernel_spec (by norm_num) (by norm_num)).1⟩

/-! ## C30: smoothing switched off -/

theorem list_eq_of_get {a b : List ℝ} {n : ℕ} {f : ℕ → ℝ} (ha : a.length = n)
    (hb : b.length = n) (h1 : ∀ i < n, a[i]? = some (f i)) (h2 : ∀ i < n, b[i]? = some (f i)) :
    a = b := by
  refine List.ext_getElem? fun i => ?_
  by_cases hi : i < n
  · rw [h1 i hi, h2 i hi]
  · rw [List.getElem?_eq_none (by omega), List.getElem?_eq_none (by omega)]

theorem Grid2D.eq_of_filled {ni nj : ℕ} {f : ℕ → ℕ → ℝ} {g g' : Grid2D ℝ}
    (h : Filled ni nj (fun _ _ => True) f g) (h' : Filled ni nj (fun _ _ => True) f g') :
    g = g' := by
  obtain ⟨a1, a2, a3, a4⟩ := h
  obtain ⟨b1, b2, b3, b4⟩ := h'
  have hd : g.data = g'.data := by
    have hl : g.data.length = ni * nj := by rw [a3, a1, a2]
    have hl' : g'.data.length = ni * nj := by rw [b3, b1, b2]
    refine list_eq_of_get (f := fun n => f (n % ni) (n / ni)) hl hl' ?_ ?_ <;> intro n hn <;>
      have hni : 0 < ni := Nat.pos_of_ne_zero (by rintro rfl; simp at hn)
    all_goals
      have hi : n % ni < ni := Nat.mod_lt _ hni
      have hj : n / ni < nj := Nat.div_lt_of_lt_mul hn
      have hn' : n % ni + n / ni * ni = n := by rw [mul_comm]; exact Nat.mod_add_div n ni
    · have := a4 _ _ hi hj trivial
      rw [get_eq g (a1 ▸ hi) (a2 ▸ hj), a1, hn', rd_eq_ok] at this
      exact this
    · have := b4 _ _ hi hj trivial
      rw [get_eq g' (b1 ▸ hi) (b2 ▸ hj), b1, hn', rd_eq_ok] at this
      exact this
  cases g; cases g'
  simp_all

theorem Grid3D.eq_of_filled {ni nj nk : ℕ} {f : ℕ → ℕ → ℕ → ℝ} {g g' : Grid3D ℝ}
    (h : Filled ni nj nk (fun _ _ _ => True) f g)
    (h' : Filled ni nj nk (fun _ _ _ => True) f g') : g = g' := by
  obtain ⟨a1, a2, a5, a3, a4⟩ := h
  obtain ⟨b1, b2, b5, b3, b4⟩ := h'
  have hd : g.data = g'.data := by
    have hl : g.data.length = ni * nj * nk := by rw [a3, a1, a2, a5]
    have hl' : g'.data.length = ni * nj * nk := by rw [b3, b1, b2, b5]
    refine list_eq_of_get (f := fun n => f (n % ni) (n / ni % nj) (n / ni / nj)) hl hl' ?_ ?_ <;>
      intro n hn <;>
      have hni : 0 < ni := Nat.pos_of_ne_zero (by rintro rfl; simp at hn)
    all_goals
      have hnj : 0 < nj := Nat.pos_of_ne_zero (by rintro rfl; simp at hn)
      have hi : n % ni < ni := Nat.mod_lt _ hni
      have hj : n / ni % nj < nj := Nat.mod_lt _ hnj
      have hk : n / ni / nj < nk :=
        Nat.div_lt_of_lt_mul (Nat.div_lt_of_lt_mul (by rwa [← mul_assoc]))
      have h1 : n % ni + ni * (n / ni) = n := Nat.mod_add_div n ni
      have h2 : n / ni % nj + nj * (n / ni / nj) = n / ni := Nat.mod_add_div _ _
      have hn' : n % ni + n / ni % nj * ni + n / ni / nj * ni * nj = n := by
        rw [idx3_eq, mul_comm (n / ni / nj), h2, mul_comm, h1]
    · have := a4 _ _ _ hi hj hk trivial
      rw [get_eq g (a1 ▸ hi) (a2 ▸ hj) (a5 ▸ hk), a1, a2, hn', rd_eq_ok] at this
      exact this
    · have := b4 _ _ _ hi hj hk trivial
      rw [get_eq g' (b1 ▸ hi) (b2 ▸ hj) (b5 ▸ hk), b1, b2, hn', rd_eq_ok] at this
      exact this
  cases g; cases g'
  simp_all

theorem kernel_off {s r h : ℝ} (hs : 0.99999 ≤ s) : kernel s r h = 1 := by
  unfold kernel; rw [if_neg (not_lt.2 hs)]

/-- Smoothing parameters that mean the same: equal, or both switched off. -/
def SameSmoothing (s s' : ℝ) : Prop := s = s' ∨ (0.99999 ≤ s ∧ 0.99999 ≤ s')

theorem SameSmoothing.kernel {s s' : ℝ} (h : SameSmoothing s s') (r x : ℝ) :
    kernel s r x = kernel s' r x := by
  rcases h with rfl | ⟨h1, h2⟩
  · rfl
  · rw [kernel_off h1, kernel_off h2]

/-- **C30.** A smoothing parameter of at least 0.99999 has no effect, in each direction
separately, in one, two and three dimensions. -/
theorem fftCovGrid_smoothing_off {t : VType} {p rx ry rz az dp sd : ℝ} {v : Variogram}
    (h : Variogram.create t p rx ry rz az dp sd = .ok v)
    (nx : ℕ) (dx : ℝ) (ny : ℕ) (dy : ℝ) (nz : ℕ) (dz sx sy sz sx' sy' sz' : ℝ)
    (hnx : nx + 1 < 2 ^ 31) (hny : ny + 1 < 2 ^ 31) (hnz : nz + 1 < 2 ^ 31)
    (hsx : 1e-12 < sx) (hsy : 1e-12 < sy) (hsz : 1e-12 < sz)
    (ex : SameSmoothing sx sx') (ey : SameSmoothing sy sy') (ez : SameSmoothing sz sz') :
    fftCovGrid1D v nx dx sx = fftCovGrid1D v nx dx sx' ∧
    fftCovGrid2D v nx dx ny dy sx sy = fftCovGrid2D v nx dx ny dy sx' sy' ∧
    fftCovGrid3D v nx dx ny dy nz dz sx sy sz = fftCovGrid3D v nx dx ny dy nz dz sx' sy' sz' := by
  obtain ⟨-, -, e1, e2, e3, -⟩ := create_fields h
  obtain ⟨n1, n2, n3⟩ := create_ok_iff.1 ⟨v, h⟩
  rw [← e1] at n1; rw [← e2] at n2; rw [← e3] at n3
  have tr : ∀ {s s' : ℝ}, 1e-12 < s → SameSmoothing s s' → (1e-12 : ℝ) < s' := by
    rintro s s' hs (rfl | ⟨-, h2⟩)
    · exact hs
    · exact lt_of_lt_of_le (by norm_num) h2
  have hsx' := tr hsx ex
  have hsy' := tr hsy ey
  have hsz' := tr hsz ez
  refine ⟨?_, ?_, ?_⟩
  · obtain ⟨c, hc, h1, h2⟩ := fftCovGrid1D_sat v n1 n2 n3 nx hnx dx sx hsx
    obtain ⟨c', hc', h1', h2'⟩ := fftCovGrid1D_sat v n1 n2 n3 nx hnx dx sx' hsx'
    rw [hc, hc', list_eq_of_get h1 h1' h2 (fun i hi => by rw [h2' i hi, ex.kernel])]
  · obtain ⟨c, hc, h1⟩ := fftCovGrid2D_filled v n1 n2 n3 nx ny hnx hny dx dy sx sy hsx hsy
    obtain ⟨c', hc', h1'⟩ := fftCovGrid2D_filled v n1 n2 n3 nx ny hnx hny dx dy sx' sy' hsx' hsy'
    simp only [ex.kernel, ey.kernel] at h1
    rw [hc, hc', Grid2D.eq_of_filled h1 h1']
  · obtain ⟨c, hc, h1⟩ := fftCovGrid3D_filled v n1 n2 n3 nx ny nz hnx hny hnz dx dy dz
      sx sy sz hsx hsy hsz
    obtain ⟨c', hc', h1'⟩ := fftCovGrid3D_filled v n1 n2 n3 nx ny nz hnx hny hnz dx dy dz
      sx' sy' sz' hsx' hsy' hsz'
    simp only [ex.kernel, ey.kernel, ez.kernel] at h1
    rw [hc, hc', Grid3D.eq_of_filled h1 h1']

example : SameSmoothing 2.5 1 ∧ SameSmoothing 0.3 0.3 ∧ ¬ SameSmoothing 0.99 1 := by
  unfold SameSmoothing
  norm_num

/-! ## C33: point symmetry -/

theorem lag_mirror {n i : ℕ} (hi : i < n) :
    lag n (mirror n i) = -lag n i ∨ (2 * i = n ∧ lag n (mirror n i) = lag n i) := by
  unfold lag mirror
  rcases Nat.eq_zero_or_pos i with rfl | h0
  · left; simp; omega
  · rw [Nat.mod_eq_of_lt (by omega)]
    split <;> split <;> omega

theorem lag_mirror_ne {n i : ℕ} (hi : i < n) (h : 2 * i ≠ n) :
    lag n (mirror n i) = -lag n i :=
  (lag_mirror hi).resolve_right fun h' => h h'.1

theorem mirror_lt {n i : ℕ} (hi : i < n) : mirror n i < n := Nat.mod_lt _ (by omega)

/-- **C33, one dimension**: always symmetric. -/
theorem fftCovGrid1D_symmetric {t : VType} {p rx ry rz az dp sd : ℝ} {v : Variogram}
    (h : Variogram.create t p rx ry rz az dp sd = .ok v) (n : ℕ) (dx s : ℝ)
    (hn : n + 1 < 2 ^ 31) (hs : 1e-12 < s) :
    ∃ cov, fftCovGrid1D v n dx s = .ok cov ∧ ∀ i < n, cov[mirror n i]? = cov[i]? := by
  obtain ⟨r, -, hv⟩ := fftCovGrid1D_value h
  obtain ⟨cov, hc, hl, hval⟩ := hv n dx s hn hs
  refine ⟨cov, hc, fun i hi => ?_⟩
  rw [hval _ (mirror_lt hi), hval i hi]
  rcases lag_mirror hi with e | ⟨-, e⟩
  · rw [e]; push_cast; rw [neg_mul, cov1_neg, kernel_neg]
  · rw [e]

theorem cov2_neg {v : Variogram} (x y : ℝ) : v.cov2 (-x) (-y) = v.cov2 x y := by
  simp [cov2, corr2, distance2, quad2]

theorem cov3_neg {v : Variogram} (x y z : ℝ) : v.cov3 (-x) (-y) (-z) = v.cov3 x y z := by
  simp [cov3, corr3, distance3, quad3]

/-- **C33, two dimensions**, `_partial`: symmetric away from the half-grid lines (in particular
everywhere when both sizes are odd). -/
theorem fftCovGrid2D_symmetric_partial {t : VType} {p rx ry rz az dp sd : ℝ} {v : Variogram}
    (h : Variogram.create t p rx ry rz az dp sd = .ok v) (nx : ℕ) (dx : ℝ) (ny : ℕ)
    (dy sx sy : ℝ) (hnx : nx + 1 < 2 ^ 31) (hny : ny + 1 < 2 ^ 31) (hsx : 1e-12 < sx)
    (hsy : 1e-12 < sy) :
    ∃ cov, fftCovGrid2D v nx dx ny dy sx sy = .ok cov ∧
      ∀ i j, i < nx → j < ny → 2 * i ≠ nx → 2 * j ≠ ny →
        cov.get (mirror nx i) (mirror ny j) = cov.get i j := by
  obtain ⟨r, -, hv⟩ := fftCovGrid2D_value h
  obtain ⟨cov, hc, -, -, -, hval⟩ := hv nx dx ny dy sx sy hnx hny hsx hsy
  refine ⟨cov, hc, fun i j hi hj h1 h2 => ?_⟩
  rw [hval _ _ (mirror_lt hi) (mirror_lt hj), hval i j hi hj, lag_mirror_ne hi h1,
    lag_mirror_ne hj h2]
  push_cast
  rw [neg_mul, neg_mul, cov2_neg, kernel_neg, kernel_neg]

/-- **C33, three dimensions**, `_partial`. -/
theorem fftCovGrid3D_symmetric_partial {t : VType} {p rx ry rz az dp sd : ℝ} {v : Variogram}
    (h : Variogram.create t p rx ry rz az dp sd = .ok v) (nx : ℕ) (dx : ℝ) (ny : ℕ)
    (dy : ℝ) (nz : ℕ) (dz sx sy sz : ℝ) (hnx : nx + 1 < 2 ^ 31) (hny : ny + 1 < 2 ^ 31)
    (hnz : nz + 1 < 2 ^ 31) (hsx : 1e-12 < sx) (hsy : 1e-12 < sy) (hsz : 1e-12 < sz) :
    ∃ cov, fftCovGrid3D v nx dx ny dy nz dz sx sy sz = .ok cov ∧
      ∀ i j k, i < nx → j < ny → k < nz → 2 * i ≠ nx → 2 * j ≠ ny → 2 * k ≠ nz →
        cov.get (mirror nx i) (mirror ny j) (mirror nz k) = cov.get i j k := by
  obtain ⟨r, -, hv⟩ := fftCovGrid3D_value h
  obtain ⟨cov, hc, -, -, -, -, hval⟩ := hv nx dx ny dy nz dz sx sy sz hnx hny hnz hsx hsy hsz
  refine ⟨cov, hc, fun i j k hi hj hk h1 h2 h3 => ?_⟩
  rw [hval _ _ _ (mirror_lt hi) (mirror_lt hj) (mirror_lt hk), hval i j k hi hj hk,
    lag_mirror_ne hi h1, lag_mirror_ne hj h2, lag_mirror_ne hk h3]
  push_cast
  rw [neg_mul, neg_mul, neg_mul, cov3_neg, kernel_neg, kernel_neg, kernel_neg]

theorem lag_mirror_sq {n i : ℕ} (hi : i < n) (d : ℝ) :
    ((lag n (mirror n i) : ℝ) * d = lag n i * d) ∨ ((lag n (mirror n i) : ℝ) * d = -(lag n i * d)) := by
  rcases lag_mirror hi with e | ⟨-, e⟩
  · right; rw [e]; push_cast; ring
  · left; rw [e]

/-- Without azimuth and dip the covariance does not change when the sign of one component of
the lag changes. -/
theorem cov_unrotated {t : VType} {p rx ry rz sd : ℝ} {v : Variogram}
    (h : Variogram.create t p rx ry rz 0 0 sd = .ok v) (x y z x' y' z' : ℝ)
    (hx : x' = x ∨ x' = -x) (hy : y' = y ∨ y' = -y) (hz : z' = z ∨ z' = -z) :
    v.cov3 x' y' z' = v.cov3 x y z ∧ v.cov2 x' y' = v.cov2 x y := by
  obtain ⟨n1, n2, n3⟩ := create_ok_iff.1 ⟨v, h⟩
  have : v.txy = 0 ∧ v.txz = 0 ∧ v.tyz = 0 := by
    unfold Variogram.create estimateFactors at h
    simp only [n1, n2, n3, or_self, if_false] at h
    have h := Res.ok.inj h
    subst h
    simp
  obtain ⟨a, b, c⟩ := this
  constructor
  · simp only [cov3, corr3, distance3, quad3, a, b, c]
    rcases hx with rfl | rfl <;> rcases hy with rfl | rfl <;> rcases hz with rfl | rfl <;>
      congr 4 <;> ring
  · simp only [cov2, corr2, distance2, quad2, a]
    rcases hx with rfl | rfl <;> rcases hy with rfl | rfl <;> congr 4 <;> ring

/-- **C33**: with azimuth and dip zero the 2D and 3D grids are symmetric everywhere. -/
theorem fftCovGrid_symmetric_unrotated {t : VType} {p rx ry rz sd : ℝ} {v : Variogram}
    (h : Variogram.create t p rx ry rz 0 0 sd = .ok v) (nx : ℕ) (dx : ℝ) (ny : ℕ)
    (dy : ℝ) (nz : ℕ) (dz sx sy sz : ℝ) (hnx : nx + 1 < 2 ^ 31) (hny : ny + 1 < 2 ^ 31)
    (hnz : nz + 1 < 2 ^ 31) (hsx : 1e-12 < sx) (hsy : 1e-12 < sy) (hsz : 1e-12 < sz) :
    (∃ cov, fftCovGrid2D v nx dx ny dy sx sy = .ok cov ∧
      ∀ i j, i < nx → j < ny → cov.get (mirror nx i) (mirror ny j) = cov.get i j) ∧
    (∃ cov, fftCovGrid3D v nx dx ny dy nz dz sx sy sz = .ok cov ∧
      ∀ i j k, i < nx → j < ny → k < nz →
        cov.get (mirror nx i) (mirror ny j) (mirror nz k) = cov.get i j k) := by
  have kk : ∀ {s r x x' : ℝ}, (x' = x ∨ x' = -x) → kernel s r x' = kernel s r x := by
    rintro s r x x' (rfl | rfl)
    · rfl
    · exact kernel_neg _ _ _
  constructor
  · obtain ⟨r, -, hv⟩ := fftCovGrid2D_value h
    obtain ⟨cov, hc, -, -, -, hval⟩ := hv nx dx ny dy sx sy hnx hny hsx hsy
    refine ⟨cov, hc, fun i j hi hj => ?_⟩
    rw [hval _ _ (mirror_lt hi) (mirror_lt hj), hval i j hi hj,
      (cov_unrotated h _ _ 0 _ _ 0 (lag_mirror_sq hi dx) (lag_mirror_sq hj dy) (.inl rfl)).2,
      kk (lag_mirror_sq hi dx), kk (lag_mirror_sq hj dy)]
  · obtain ⟨r, -, hv⟩ := fftCovGrid3D_value h
    obtain ⟨cov, hc, -, -, -, -, hval⟩ := hv nx dx ny dy nz dz sx sy sz hnx hny hnz hsx hsy hsz
    refine ⟨cov, hc, fun i j k hi hj hk => ?_⟩
    rw [hval _ _ _ (mirror_lt hi) (mirror_lt hj) (mirror_lt hk), hval i j k hi hj hk,
      (cov_unrotated h _ _ _ _ _ _ (lag_mirror_sq hi dx) (lag_mirror_sq hj dy)
        (lag_mirror_sq hk dz)).1,
      kk (lag_mirror_sq hi dx), kk (lag_mirror_sq hj dy), kk (lag_mirror_sq hk dz)]

/-- **C33 refuted in general.** Exponential variogram, ranges 2 and 1, azimuth 45 degrees, on a
4 x 4 periodic grid: the cells (2,1) and its mirror image (2,3) differ. -/
theorem fftCovGrid2D_symmetric_refuted :
    ∃ v cov, Variogram.create .exponential 1 2 1 1 (Real.pi / 4) 0 1 = .ok v ∧
      fftCovGrid2D v 4 1 4 1 1 1 = .ok cov ∧
      cov.get (mirror 4 2) (mirror 4 1) ≠ cov.get 2 1 := by
  obtain ⟨v, h⟩ := (create_ok_iff (t := .exponential) (p := 1) (rx := 2) (ry := 1) (rz := 1)
    (az := Real.pi / 4) (dp := 0) (sd := 1)).2 (by norm_num)
  obtain ⟨r, -, hv⟩ := fftCovGrid2D_value h
  obtain ⟨cov, hc, -, -, -, hval⟩ := hv 4 1 4 1 1 1 (by norm_num) (by norm_num) (by norm_num)
    (by norm_num)
  refine ⟨v, cov, h, hc, ?_⟩
  rw [hval _ _ (mirror_lt (by norm_num)) (mirror_lt (by norm_num)),
    hval 2 1 (by norm_num) (by norm_num), kernel_off (by norm_num), kernel_off (by norm_num),
    kernel_off (by norm_num), kernel_off (by norm_num)]
  have l1 : lag 4 (mirror 4 2) = -2 := by decide
  have l2 : lag 4 (mirror 4 1) = -1 := by decide
  have l3 : lag 4 2 = -2 := by decide
  have l4 : lag 4 1 = 1 := by decide
  rw [l1, l2, l3, l4]
  have hs : √2 / 2 * (√2 / 2) = (1 / 2 : ℝ) := by
    nlinarith [Real.sq_sqrt (show (0 : ℝ) ≤ 2 by norm_num)]
  have ft : v.txx = 5 / 8 ∧ v.tyy = 5 / 8 ∧ v.txy = -3 / 4 ∧ v.var = 1 ∧ v.type = .exponential := by
    unfold Variogram.create estimateFactors at h
    norm_num at h
    subst h
    refine ⟨?_, ?_, ?_, rfl, rfl⟩ <;> dsimp only <;> rw [hs] <;> norm_num
  obtain ⟨f1, f2, f3, f4, f5⟩ := ft
  simp only [cov2, corr2, distance2, quad2, f1, f2, f3, f4, f5, corr1D]
  intro hcon
  have hcon := Res.ok.inj hcon
  norm_num at hcon

end Verif
