import Verif.Model.CovGrid
import Verif.Spec.Lag
import Verif.Lemmas.Grid
import Verif.Props.Variogram
import Mathlib.Analysis.Real.Pi.Bounds

/-! Helper lemmas for the covariance grids. -/

namespace Verif

open Spec Variogram

theorem sin_157_pos : 0 < Real.sin (3.14 / 2.0) :=
  Real.sin_pos_of_pos_of_lt_pi (by norm_num) (by linarith [Real.pi_gt_three])

/-- The extents are never zero. -/
theorem findVariogramRanges_pos (v : Variogram) (hx : v.rangeX ≠ 0) (hy : v.rangeY ≠ 0)
    (hz : v.rangeZ ≠ 0) :
    0 < (findVariogramRanges v).1 ∧ 0 < (findVariogramRanges v).2.1 ∧
      0 < (findVariogramRanges v).2.2 := by
  have hs := sin_157_pos.ne'
  have ha := Real.sin_sq_add_cos_sq v.azimuth
  have hd := Real.sin_sq_add_cos_sq v.dip
  refine ⟨?_, ?_, ?_⟩
  · simp only [findVariogramRanges, lt_max_iff, abs_pos]
    by_contra hcon
    simp only [not_or, not_not, mul_eq_zero, hx, hy, hz, false_or] at hcon
    obtain ⟨⟨h1, h2⟩, h3⟩ := hcon
    rw [Real.cos_add] at h2 h3
    rcases h1 with h1 | h1
    · -- cos dip = 0
      rw [h1] at h3
      have hsd : Real.sin v.dip ≠ 0 := by intro h; rw [h, h1] at hd; norm_num at hd
      have : Real.cos v.azimuth = 0 := by
        rcases h3 with h3 | h3
        · exfalso
          have : Real.sin v.dip * Real.sin (3.14 / 2.0) = 0 := by linarith
          exact (mul_ne_zero hsd hs) this
        · exact h3
      rw [this] at h2
      have hsa : Real.sin v.azimuth ≠ 0 := by intro h; rw [h, this] at ha; norm_num at ha
      exact (mul_ne_zero hsa hs) (by linarith)
    · rw [h1] at h2
      have hsa : Real.sin v.azimuth ≠ 0 := by intro h; rw [h, h1] at ha; norm_num at ha
      exact (mul_ne_zero hsa hs) (by linarith)
  · simp only [findVariogramRanges, lt_max_iff, abs_pos]
    by_contra hcon
    simp only [not_or, not_not, mul_eq_zero, hx, hy, hz, false_or] at hcon
    obtain ⟨⟨h1, h2⟩, h3⟩ := hcon
    rw [Real.sin_add] at h2
    rw [Real.cos_add] at h3
    have key : Real.sin v.azimuth = 0 → False := by
      intro h
      rw [h] at h2
      have hca : Real.cos v.azimuth ≠ 0 := by intro h'; rw [h, h'] at ha; norm_num at ha
      exact (mul_ne_zero hca hs) (by linarith)
    rcases h1 with h1 | h1
    · rcases h3 with h3 | h3
      · rw [h1] at h3
        have hsd : Real.sin v.dip ≠ 0 := by intro h; rw [h, h1] at hd; norm_num at hd
        exact (mul_ne_zero hsd hs) (by linarith)
      · exact key h3
    · exact key h1
  · simp only [findVariogramRanges, lt_max_iff, abs_pos]
    by_contra hcon
    simp only [not_or, not_not, mul_eq_zero, hx, hz, false_or] at hcon
    obtain ⟨⟨h1, -⟩, h3⟩ := hcon
    rw [Real.sin_add, h1] at h3
    have hcd : Real.cos v.dip ≠ 0 := by intro h; rw [h, h1] at hd; norm_num at hd
    exact (mul_ne_zero hcd hs) (by linarith)

theorem findSmoothingFactors_ok (v : Variogram) (hx : v.rangeX ≠ 0) (hy : v.rangeY ≠ 0)
    (hz : v.rangeZ ≠ 0) {sx sy sz : ℝ} (h1 : 1e-12 < sx) (h2 : 1e-12 < sy) (h3 : 1e-12 < sz) :
    findSmoothingFactors v sx sy sz =
      .ok (sx ^ (1.0 / ((findVariogramRanges v).1 * (findVariogramRanges v).1)),
        sy ^ (1.0 / ((findVariogramRanges v).2.1 * (findVariogramRanges v).2.1)),
        sz ^ (1.0 / ((findVariogramRanges v).2.2 * (findVariogramRanges v).2.2))) := by
  obtain ⟨g1, g2, g3⟩ := findVariogramRanges_pos v hx hy hz
  unfold findSmoothingFactors
  rw [if_pos ⟨h1, h2, h3⟩, if_neg]
  rintro (h | h | h)
  · exact g1.ne' h
  · exact g2.ne' h
  · exact g3.ne' h

/-- What the code multiplies with is the kernel of the specification. -/
theorem smoothingFactor_eq {s r : ℝ} (hs : 0 < s) (_ : r ≠ 0) (h : ℝ) :
    (if s < 0.99999 then smoothingFactor (s ^ (1.0 / (r * r))) h else 1) = kernel s r h := by
  unfold kernel smoothingFactor
  split
  · rw [← Real.rpow_mul hs.le]
    congr 1
    rw [div_mul_eq_mul_div, div_pow]
    norm_num
    ring
  · rfl

theorem kernel_neg (s r h : ℝ) : kernel s r (-h) = kernel s r h := by
  unfold kernel
  rw [neg_div, neg_sq]

theorem lag_of_lt {n i : ℕ} (h : i < (n + 1) / 2) : lag n i = i := by
  unfold lag; rw [if_pos (by omega)]

theorem lag_of_ge {n i : ℕ} (h : (n + 1) / 2 ≤ i) : lag n i = (i : ℤ) - n := by
  unfold lag; rw [if_neg (by omega)]

theorem lag_lo {n i : ℕ} (h : i < (n + 1) / 2) (d : ℝ) : ((lag n i : ℤ) : ℝ) * d = i * d := by
  rw [lag_of_lt h]; simp

theorem lag_hi {n i : ℕ} (h : (n + 1) / 2 ≤ i) (d : ℝ) :
    ((lag n i : ℤ) : ℝ) * d = ((i : ℝ) - n) * d := by
  rw [lag_of_ge h]; simp

theorem cov1_neg {v : Variogram} (x : ℝ) : v.cov1 (-x) = v.cov1 x := by
  simp [cov1, corr, distance1, quad1]

theorem intSize_ok {n : ℕ} (h : n + 1 < 2 ^ 31) : intSize n = .ok () := by
  simp only [intSize, if_pos h]

/-- One dimension. -/
theorem fftCovGrid1D_sat (v : Variogram) (hx : v.rangeX ≠ 0) (hy : v.rangeY ≠ 0)
    (hz : v.rangeZ ≠ 0) (n : ℕ) (hn : n + 1 < 2 ^ 31) (dx s : ℝ) (hs : 1e-12 < s) :
    (fftCovGrid1D v n dx s).Sat fun cov => cov.length = n ∧ ∀ i < n, cov[i]? =
      some (v.cov1 (lag n i * dx) * kernel s (findVariogramRanges v).1 (lag n i * dx)) := by
  set r := (findVariogramRanges v).1 with hr
  have hr0 : r ≠ 0 := (findVariogramRanges_pos v hx hy hz).1.ne'
  have hs0 : 0 < s := lt_trans (by norm_num) hs
  set f : ℕ → ℝ := fun i => v.cov1 (lag n i * dx) * kernel s r (lag n i * dx) with hf
  -- the cell update
  have cell : ∀ (i : ℕ) (h : ℝ) (cov : List ℝ), cov.length = n → i < n →
      v.cov1 h * kernel s r h = f i → (∀ a < i, cov[a]? = some (f a)) →
      ((wr cov i (v.cov1 h)).bind fun cov =>
        if s < 0.99999 then (rd cov i).bind fun c =>
          wr cov i (c * smoothingFactor (s ^ (1.0 / (r * r))) h) else .ok cov).Sat
        fun cov => cov.length = n ∧ ∀ a < i + 1, cov[a]? = some (f a) := by
    intro i h cov hl hi hv hold
    rw [wr_ok (by omega), Res.bind_ok]
    have hk := smoothingFactor_eq hs0 hr0 h
    by_cases hsm : s < 0.99999
    · rw [if_pos hsm] at hk ⊢
      rw [rd_ok (by simpa using (by omega : i < cov.length)), Res.bind_ok,
        wr_ok (by simpa using (by omega : i < cov.length)), Res.sat_ok]
      refine ⟨by simpa using hl, fun a ha => ?_⟩
      simp only [List.getElem_set_self, List.set_set, hk, hv]
      rw [List.getElem?_set]
      split
      · rename_i h'; subst h'; simp; omega
      · exact hold a (by omega)
    · rw [if_neg hsm] at hk ⊢
      rw [Res.sat_ok]
      refine ⟨by simpa using hl, fun a ha => ?_⟩
      rw [← hk, mul_one] at hv
      rw [hv, List.getElem?_set]
      split
      · rename_i h'; subst h'; simp; omega
      · exact hold a (by omega)
  unfold fftCovGrid1D
  rw [intSize_ok hn, findSmoothingFactors_ok v hx hy hz hs (by norm_num) (by norm_num)]
  simp only [Res.monad_bind_eq, Res.bind_ok, ← hr]
  refine Res.Sat.bind (P := fun cov => cov.length = n ∧
    ∀ a < (n + 1) / 2, cov[a]? = some (f a)) ?_ ?_
  · refine forRange_sat (fun i (cov : List ℝ) => cov.length = n ∧ ∀ a < i, cov[a]? = some (f a))
      (Nat.zero_le _) ⟨by simp, by simp⟩ ?_
    rintro i cov - hi ⟨hl, hold⟩
    refine cell i _ cov hl (by omega) ?_ hold
    simp only [hf, lag_lo hi]
  · rintro cov ⟨hl, hold⟩
    refine forRange_sat (fun i (cov : List ℝ) => cov.length = n ∧ ∀ a < i, cov[a]? = some (f a))
      (by omega) ⟨hl, hold⟩ ?_
    rintro i cov hlo hi ⟨hl, hold⟩
    refine cell i _ cov hl hi ?_ hold
    simp only [hf, lag_hi hlo]
    rw [show dx * ((n : ℝ) - i) = -(((i : ℝ) - n) * dx) by ring, cov1_neg, kernel_neg]

/-! ### Two dimensions -/

/-- `g'` is `g` with cell `(i,j)` set to `x`. -/
def Upd2 (g : Grid2D ℝ) (i j : ℕ) (x : ℝ) (g' : Grid2D ℝ) : Prop :=
  g'.ni = g.ni ∧ g'.nj = g.nj ∧ g'.WF ∧
    ∀ a b, a < g.ni → b < g.nj → g'.get a b = if a = i ∧ b = j then .ok x else g.get a b

theorem Upd2.set {g g1 : Grid2D ℝ} {i j : ℕ} {x : ℝ} (h : Upd2 g i j x g1) (hi : i < g.ni)
    (hj : j < g.nj) (y : ℝ) : (g1.set i j y).Sat (Upd2 g i j y) := by
  obtain ⟨h1, h2, h3, h4⟩ := h
  refine (Grid2D.set_sat g1 h3 (h1 ▸ hi) (h2 ▸ hj) y).mono ?_
  rintro g' ⟨e1, e2, e3, e4⟩
  refine ⟨e1.trans h1, e2.trans h2, e3, fun a b ha hb => ?_⟩
  rw [e4 a b (h1 ▸ ha) (h2 ▸ hb), h4 a b ha hb]
  split <;> rfl

theorem Upd2.get {g g1 : Grid2D ℝ} {i j : ℕ} {x : ℝ} (h : Upd2 g i j x g1) (hi : i < g.ni)
    (hj : j < g.nj) : g1.get i j = .ok x := by
  rw [h.2.2.2 i j hi hj]; simp

/-- Multiply-in-place of a just written cell. -/
theorem Upd2.mul {g g1 : Grid2D ℝ} {i j : ℕ} {x : ℝ} (h : Upd2 g i j x g1) (hi : i < g.ni)
    (hj : j < g.nj) (c : Prop) [Decidable c] (y : ℝ) :
    (scaleIf2 c i j y g1).Sat (Upd2 g i j (x * if c then y else 1)) := by
  unfold scaleIf2
  split
  · rw [h.get hi hj, Res.monad_bind_eq, Res.bind_ok]; exact h.set hi hj _
  · rw [Res.sat_ok, mul_one]; exact h

theorem covCell2_sat (v : Variogram) {S : ℕ → ℕ → Prop} {f : ℕ → ℕ → ℝ} {ni nj i j : ℕ}
    {g : Grid2D ℝ} (hg : Grid2D.Filled ni nj S f g) (hi : i < ni) (hj : j < nj)
    (cx cy sx sy ddx ddy : ℝ)
    (hf : f i j = v.cov2 ddx ddy * (if cx < 0.99999 then smoothingFactor sx ddx else 1)
      * (if cy < 0.99999 then smoothingFactor sy ddy else 1)) :
    (covCell2 v cx cy sx sy i j ddx ddy g).Sat
      (Grid2D.Filled ni nj (fun a b => S a b ∨ (a = i ∧ b = j)) f) := by
  obtain ⟨h1, h2, h3, h4⟩ := hg
  subst h1 h2
  unfold covCell2
  simp only [Res.monad_bind_eq]
  refine Res.Sat.bind (P := Upd2 g i j (v.cov2 ddx ddy)) (Grid2D.set_sat g h3 hi hj _) ?_
  intro g1 hg1
  refine Res.Sat.bind (hg1.mul hi hj (cx < 0.99999) (smoothingFactor sx ddx)) ?_
  intro g2 hg2
  refine (hg2.mul hi hj (cy < 0.99999) (smoothingFactor sy ddy)).mono ?_
  rintro g' ⟨e1, e2, e3, e4⟩
  refine ⟨e1, e2, e3, fun a b ha hb hab => ?_⟩
  rw [e4 a b ha hb]
  split
  · rename_i hc; rw [hc.1, hc.2, hf]
  · rename_i hc; exact h4 a b ha hb (hab.resolve_right hc)

/-- The loops fill the grid if the body fills its cell. -/
theorem covLoops2_filled {nx ny : ℕ} {dx dy : ℝ} {cell : ℕ → ℕ → ℝ → ℝ → Grid2D ℝ → Res (Grid2D ℝ)}
    {f : ℕ → ℕ → ℝ} (hc : ∀ S g i j, i < nx → j < ny → Grid2D.Filled nx ny S f g →
      (cell i j (lag nx i * dx) (lag ny j * dy) g).Sat
        (Grid2D.Filled nx ny (fun a b => S a b ∨ (a = i ∧ b = j)) f)) :
    (covLoops2 nx dx ny dy cell (Grid2D.mk' nx ny 0)).Sat
      (Grid2D.Filled nx ny (fun _ _ => True) f) := by
  unfold covLoops2
  simp only [Res.monad_bind_eq]
  -- one row, lower / upper part
  have rowLo : ∀ (j : ℕ) (ddy : ℝ) (S : ℕ → ℕ → Prop) (g : Grid2D ℝ), j < ny →
      (lag ny j : ℝ) * dy = ddy → Grid2D.Filled nx ny S f g →
      (forRange 0 ((nx + 1) / 2) (fun i cov => cell i j (i * dx) ddy cov) g).Sat
        (Grid2D.Filled nx ny (fun a b => S a b ∨ (a < (nx + 1) / 2 ∧ b = j)) f) := by
    intro j ddy S g hj hd hg
    refine forRange_sat (fun i => Grid2D.Filled nx ny (fun a b => S a b ∨ (a < i ∧ b = j)) f)
      (Nat.zero_le _) (hg.mono fun a b _ _ h => h.resolve_right (by omega)) ?_
    rintro i g - hi hg
    have hcs := hc _ g i j (by omega) hj hg
    rw [lag_lo hi, hd] at hcs
    refine hcs.mono ?_
    · intro g' hg'
      exact hg'.mono fun a b _ _ h => by
        rcases h with h | ⟨h1, h2⟩
        · exact .inl (.inl h)
        · by_cases ha : a = i
          · exact .inr ⟨ha, h2⟩
          · exact .inl (.inr ⟨by omega, h2⟩)
  have rowHi : ∀ (j : ℕ) (ddy : ℝ) (S : ℕ → ℕ → Prop) (g : Grid2D ℝ), j < ny →
      (lag ny j : ℝ) * dy = ddy → Grid2D.Filled nx ny S f g →
      (forRange ((nx + 1) / 2) nx (fun i cov => cell i j (((i : ℝ) - nx) * dx) ddy cov) g).Sat
        (Grid2D.Filled nx ny (fun a b => S a b ∨ ((nx + 1) / 2 ≤ a ∧ a < nx ∧ b = j)) f) := by
    intro j ddy S g hj hd hg
    refine forRange_sat
      (fun i => Grid2D.Filled nx ny (fun a b => S a b ∨ ((nx + 1) / 2 ≤ a ∧ a < i ∧ b = j)) f)
      (by omega) (hg.mono fun a b _ _ h => h.resolve_right (by omega)) ?_
    intro i g hlo hi hg
    have hcs := hc _ g i j hi hj hg
    rw [lag_hi hlo, hd] at hcs
    refine hcs.mono ?_
    · intro g' hg'
      exact hg'.mono fun a b _ _ h => by
        rcases h with h | ⟨h1, h2, h3⟩
        · exact .inl (.inl h)
        · by_cases ha : a = i
          · exact .inr ⟨ha, h3⟩
          · exact .inl (.inr ⟨h1, by omega, h3⟩)
  refine Res.Sat.bind (P := Grid2D.Filled nx ny (fun _ b => b < (ny + 1) / 2) f) ?_ ?_
  · refine forRange_sat (fun j => Grid2D.Filled nx ny (fun _ b => b < j) f) (Nat.zero_le _)
      ((Grid2D.filled_mk' nx ny 0 f).mono fun _ _ _ _ h => by omega) ?_
    rintro j g - hj hg
    refine (rowLo j _ _ g (by omega) (lag_lo hj dy) hg).bind fun g1 hg1 => ?_
    refine (rowHi j _ _ g1 (by omega) (lag_lo hj dy) hg1).mono fun g2 hg2 => ?_
    exact hg2.mono fun a b ha hb h => by
      by_cases hbj : b = j
      · by_cases hlo : a < (nx + 1) / 2
        · exact .inl (.inr ⟨hlo, hbj⟩)
        · exact .inr ⟨by omega, ha, hbj⟩
      · exact .inl (.inl (by omega))
  · intro g hg
    refine (forRange_sat (fun j => Grid2D.Filled nx ny (fun _ b => b < j) f) (by omega)
      hg ?_).mono fun g' hg' => hg'.mono fun _ b _ hb _ => hb
    intro j g hlo hj hg
    refine (rowHi j _ _ g hj (lag_hi hlo dy) hg).bind fun g1 hg1 => ?_
    refine (rowLo j _ _ g1 hj (lag_hi hlo dy) hg1).mono fun g2 hg2 => ?_
    exact hg2.mono fun a b ha hb h => by
      by_cases hbj : b = j
      · by_cases hlo : a < (nx + 1) / 2
        · exact .inr ⟨hlo, hbj⟩
        · exact .inl (.inr ⟨by omega, ha, hbj⟩)
      · exact .inl (.inl (by omega))

theorem fftCovGrid2D_filled (v : Variogram) (hx : v.rangeX ≠ 0) (hy : v.rangeY ≠ 0)
    (hz : v.rangeZ ≠ 0) (nx ny : ℕ) (hnx : nx + 1 < 2 ^ 31) (hny : ny + 1 < 2 ^ 31)
    (dx dy cx cy : ℝ) (hcx : 1e-12 < cx) (hcy : 1e-12 < cy) :
    (fftCovGrid2D v nx dx ny dy cx cy).Sat (Grid2D.Filled nx ny (fun _ _ => True) fun i j =>
      v.cov2 (lag nx i * dx) (lag ny j * dy)
        * kernel cx (findVariogramRanges v).1 (lag nx i * dx)
        * kernel cy (findVariogramRanges v).2.1 (lag ny j * dy)) := by
  obtain ⟨p1, p2, -⟩ := findVariogramRanges_pos v hx hy hz
  set r1 := (findVariogramRanges v).1 with hr1
  set r2 := (findVariogramRanges v).2.1 with hr2
  set f : ℕ → ℕ → ℝ := fun i j => v.cov2 (lag nx i * dx) (lag ny j * dy)
    * kernel cx r1 (lag nx i * dx) * kernel cy r2 (lag ny j * dy) with hf
  have kx := smoothingFactor_eq (s := cx) (lt_trans (by norm_num) hcx) p1.ne'
  have ky := smoothingFactor_eq (s := cy) (lt_trans (by norm_num) hcy) p2.ne'
  unfold fftCovGrid2D
  rw [intSize_ok hnx, intSize_ok hny, findSmoothingFactors_ok v hx hy hz hcx hcy (by norm_num)]
  simp only [Res.monad_bind_eq, Res.bind_ok, ← hr1, ← hr2]
  refine covLoops2_filled fun S g i j hi hj hg => covCell2_sat v hg hi hj cx cy _ _ _ _ ?_
  simp only [hf, kx, ky]

/-! ### Three dimensions -/

/-- `g'` is `g` with cell `(i,j,k)` set to `x`. -/
def Upd3 (g : Grid3D ℝ) (i j k : ℕ) (x : ℝ) (g' : Grid3D ℝ) : Prop :=
  g'.ni = g.ni ∧ g'.nj = g.nj ∧ g'.nk = g.nk ∧ g'.WF ∧
    ∀ a b c, a < g.ni → b < g.nj → c < g.nk →
      g'.get a b c = if a = i ∧ b = j ∧ c = k then .ok x else g.get a b c

theorem Upd3.set {g g1 : Grid3D ℝ} {i j k : ℕ} {x : ℝ} (h : Upd3 g i j k x g1) (hi : i < g.ni)
    (hj : j < g.nj) (hk : k < g.nk) (y : ℝ) : (g1.set i j k y).Sat (Upd3 g i j k y) := by
  obtain ⟨h1, h2, h5, h3, h4⟩ := h
  refine (Grid3D.set_sat g1 h3 (h1 ▸ hi) (h2 ▸ hj) (h5 ▸ hk) y).mono ?_
  rintro g' ⟨e1, e2, e5, e3, e4⟩
  refine ⟨e1.trans h1, e2.trans h2, e5.trans h5, e3, fun a b c ha hb hc => ?_⟩
  rw [e4 a b c (h1 ▸ ha) (h2 ▸ hb) (h5 ▸ hc), h4 a b c ha hb hc]
  split <;> rfl

theorem Upd3.get {g g1 : Grid3D ℝ} {i j k : ℕ} {x : ℝ} (h : Upd3 g i j k x g1) (hi : i < g.ni)
    (hj : j < g.nj) (hk : k < g.nk) : g1.get i j k = .ok x := by
  rw [h.2.2.2.2 i j k hi hj hk]; simp

/-- Multiply-in-place of a just written cell. -/
theorem Upd3.mul {g g1 : Grid3D ℝ} {i j k : ℕ} {x : ℝ} (h : Upd3 g i j k x g1) (hi : i < g.ni)
    (hj : j < g.nj) (hk : k < g.nk) (c : Prop) [Decidable c] (y : ℝ) :
    (scaleIf3 c i j k y g1).Sat (Upd3 g i j k (x * if c then y else 1)) := by
  unfold scaleIf3
  split
  · rw [h.get hi hj hk, Res.monad_bind_eq, Res.bind_ok]; exact h.set hi hj hk _
  · rw [Res.sat_ok, mul_one]; exact h

theorem covCell3_sat (v : Variogram) {S : ℕ → ℕ → ℕ → Prop} {f : ℕ → ℕ → ℕ → ℝ}
    {ni nj nk i j k : ℕ} {g : Grid3D ℝ} (hg : Grid3D.Filled ni nj nk S f g) (hi : i < ni)
    (hj : j < nj) (hk : k < nk) (cx cy cz sx sy sz ddx ddy ddz : ℝ)
    (hf : f i j k = v.cov3 ddx ddy ddz * (if cx < 0.99999 then smoothingFactor sx ddx else 1)
      * (if cy < 0.99999 then smoothingFactor sy ddy else 1)
      * (if cz < 0.99999 then smoothingFactor sz ddz else 1)) :
    (covCell3 v cx cy cz sx sy sz i j k ddx ddy ddz g).Sat
      (Grid3D.Filled ni nj nk (fun a b c => S a b c ∨ (a = i ∧ b = j ∧ c = k)) f) := by
  obtain ⟨h1, h2, h5, h3, h4⟩ := hg
  subst h1 h2 h5
  unfold covCell3
  simp only [Res.monad_bind_eq]
  refine Res.Sat.bind (P := Upd3 g i j k (v.cov3 ddx ddy ddz))
    (Grid3D.set_sat g h3 hi hj hk _) ?_
  intro g1 hg1
  refine Res.Sat.bind (hg1.mul hi hj hk (cx < 0.99999) (smoothingFactor sx ddx)) ?_
  intro g2 hg2
  refine Res.Sat.bind (hg2.mul hi hj hk (cy < 0.99999) (smoothingFactor sy ddy)) ?_
  intro g3 hg3
  refine (hg3.mul hi hj hk (cz < 0.99999) (smoothingFactor sz ddz)).mono ?_
  rintro g' ⟨e1, e2, e5, e3, e4⟩
  refine ⟨e1, e2, e5, e3, fun a b c ha hb hc hab => ?_⟩
  rw [e4 a b c ha hb hc]
  split
  · rename_i hq; rw [hq.1, hq.2.1, hq.2.2, hf]
  · rename_i hq; exact h4 a b c ha hb hc (hab.resolve_right hq)

/-- A loop nest over `k` and `j` whose body fills the row `(·,j,k)` fills the block. -/
theorem block_sat {nx ny nz klo khi jlo jhi : ℕ} {f : ℕ → ℕ → ℕ → ℝ}
    {row : ℕ → ℕ → Grid3D ℝ → Res (Grid3D ℝ)} (hk : klo ≤ khi) (hj : jlo ≤ jhi)
    (hrow : ∀ k j S g, klo ≤ k → k < khi → jlo ≤ j → j < jhi → Grid3D.Filled nx ny nz S f g →
      (row k j g).Sat (Grid3D.Filled nx ny nz (fun a b c => S a b c ∨ (b = j ∧ c = k)) f))
    {S : ℕ → ℕ → ℕ → Prop} {g : Grid3D ℝ} (hg : Grid3D.Filled nx ny nz S f g) :
    (forRange klo khi (fun k => forRange jlo jhi (fun j => row k j)) g).Sat
      (Grid3D.Filled nx ny nz
        (fun a b c => S a b c ∨ (jlo ≤ b ∧ b < jhi ∧ klo ≤ c ∧ c < khi)) f) := by
  refine forRange_sat (fun k => Grid3D.Filled nx ny nz
    (fun a b c => S a b c ∨ (jlo ≤ b ∧ b < jhi ∧ klo ≤ c ∧ c < k)) f) hk
    (hg.mono fun a b c _ _ _ h => h.resolve_right (by omega)) ?_
  intro k g hk1 hk2 hg
  refine (forRange_sat (fun j => Grid3D.Filled nx ny nz
    (fun a b c => (S a b c ∨ (jlo ≤ b ∧ b < jhi ∧ klo ≤ c ∧ c < k)) ∨
      (jlo ≤ b ∧ b < j ∧ c = k)) f) hj
    (hg.mono fun a b c _ _ _ h => h.resolve_right (by omega)) ?_).mono ?_
  · intro j g hj1 hj2 hg
    refine (hrow k j _ g hk1 hk2 hj1 hj2 hg).mono fun g' hg' => hg'.mono ?_
    intro a b c _ _ _ h
    rcases h with h | ⟨h1, h2, h3⟩
    · exact .inl (.inl h)
    · by_cases hb : b = j
      · exact .inr ⟨hb, h3⟩
      · exact .inl (.inr ⟨h1, by omega, h3⟩)
  · intro g' hg'
    refine hg'.mono ?_
    intro a b c _ _ _ h
    rcases h with h | ⟨h1, h2, h3, h4⟩
    · exact .inl (.inl h)
    · by_cases hc : c = k
      · exact .inr ⟨h1, h2, hc⟩
      · exact .inl (.inr ⟨h1, h2, h3, by omega⟩)

/-- The loops fill the grid if the body fills its cell. -/
theorem covLoops3_filled {nx ny nz : ℕ} {dx dy dz : ℝ}
    {cell : ℕ → ℕ → ℕ → ℝ → ℝ → ℝ → Grid3D ℝ → Res (Grid3D ℝ)}
    {f : ℕ → ℕ → ℕ → ℝ} (hc : ∀ S g i j k, i < nx → j < ny → k < nz → Grid3D.Filled nx ny nz S f g →
      (cell i j k (lag nx i * dx) (lag ny j * dy) (lag nz k * dz) g).Sat
        (Grid3D.Filled nx ny nz (fun a b c => S a b c ∨ (a = i ∧ b = j ∧ c = k)) f)) :
    (covLoops3 nx dx ny dy nz dz cell (Grid3D.mk' nx ny nz 0)).Sat
      (Grid3D.Filled nx ny nz (fun _ _ _ => True) f) := by
  unfold covLoops3
  simp only [Res.monad_bind_eq]
  have rowLo : ∀ (j k : ℕ) (ddy ddz : ℝ) (S : ℕ → ℕ → ℕ → Prop) (g : Grid3D ℝ), j < ny →
      k < nz → (lag ny j : ℝ) * dy = ddy → (lag nz k : ℝ) * dz = ddz →
      Grid3D.Filled nx ny nz S f g →
      (forRange 0 ((nx + 1) / 2) (fun i cov => cell i j k (i * dx) ddy ddz cov) g).Sat
        (Grid3D.Filled nx ny nz
          (fun a b c => S a b c ∨ (a < (nx + 1) / 2 ∧ b = j ∧ c = k)) f) := by
    intro j k ddy ddz S g hj hk hd he hg
    refine forRange_sat
      (fun i => Grid3D.Filled nx ny nz (fun a b c => S a b c ∨ (a < i ∧ b = j ∧ c = k)) f)
      (Nat.zero_le _) (hg.mono fun a b c _ _ _ h => h.resolve_right (by omega)) ?_
    rintro i g - hi hg
    have hcs := hc _ g i j k (by omega) hj hk hg
    rw [lag_lo hi, hd, he] at hcs
    refine hcs.mono ?_
    · intro g' hg'
      exact hg'.mono fun a b c _ _ _ h => by
        rcases h with h | ⟨h1, h2⟩
        · exact .inl (.inl h)
        · by_cases ha : a = i
          · exact .inr ⟨ha, h2⟩
          · exact .inl (.inr ⟨by omega, h2⟩)
  have rowHi : ∀ (j k : ℕ) (ddy ddz : ℝ) (S : ℕ → ℕ → ℕ → Prop) (g : Grid3D ℝ), j < ny →
      k < nz → (lag ny j : ℝ) * dy = ddy → (lag nz k : ℝ) * dz = ddz →
      Grid3D.Filled nx ny nz S f g →
      (forRange ((nx + 1) / 2) nx
        (fun i cov => cell i j k (((i : ℝ) - nx) * dx) ddy ddz cov) g).Sat
        (Grid3D.Filled nx ny nz
          (fun a b c => S a b c ∨ ((nx + 1) / 2 ≤ a ∧ a < nx ∧ b = j ∧ c = k)) f) := by
    intro j k ddy ddz S g hj hk hd he hg
    refine forRange_sat
      (fun i => Grid3D.Filled nx ny nz
        (fun a b c => S a b c ∨ ((nx + 1) / 2 ≤ a ∧ a < i ∧ b = j ∧ c = k)) f)
      (by omega) (hg.mono fun a b c _ _ _ h => h.resolve_right (by omega)) ?_
    intro i g hlo hi hg
    have hcs := hc _ g i j k hi hj hk hg
    rw [lag_hi hlo, hd, he] at hcs
    refine hcs.mono ?_
    · intro g' hg'
      exact hg'.mono fun a b c _ _ _ h => by
        rcases h with h | ⟨h1, h2, h3⟩
        · exact .inl (.inl h)
        · by_cases ha : a = i
          · exact .inr ⟨ha, h3⟩
          · exact .inl (.inr ⟨h1, by omega, h3⟩)
  have lohi : ∀ (j k : ℕ) (ddy ddz : ℝ) (S : ℕ → ℕ → ℕ → Prop) (g : Grid3D ℝ), j < ny →
      k < nz → (lag ny j : ℝ) * dy = ddy → (lag nz k : ℝ) * dz = ddz →
      Grid3D.Filled nx ny nz S f g →
      ((forRange 0 ((nx + 1) / 2) (fun i cov => cell i j k (i * dx) ddy ddz cov) g).bind
        fun cov => forRange ((nx + 1) / 2) nx
          (fun i cov => cell i j k (((i : ℝ) - nx) * dx) ddy ddz cov) cov).Sat
        (Grid3D.Filled nx ny nz (fun a b c => S a b c ∨ (b = j ∧ c = k)) f) := by
    intro j k ddy ddz S g hj hk hd he hg
    refine (rowLo j k ddy ddz _ g hj hk hd he hg).bind fun g1 hg1 => ?_
    refine (rowHi j k ddy ddz _ g1 hj hk hd he hg1).mono fun g2 hg2 => hg2.mono ?_
    intro a b c ha _ _ h
    rcases h with h | h
    · exact .inl (.inl h)
    · by_cases hlo : a < (nx + 1) / 2
      · exact .inl (.inr ⟨hlo, h⟩)
      · exact .inr ⟨by omega, ha, h⟩
  have hilo : ∀ (j k : ℕ) (ddy ddz : ℝ) (S : ℕ → ℕ → ℕ → Prop) (g : Grid3D ℝ), j < ny →
      k < nz → (lag ny j : ℝ) * dy = ddy → (lag nz k : ℝ) * dz = ddz →
      Grid3D.Filled nx ny nz S f g →
      ((forRange ((nx + 1) / 2) nx
          (fun i cov => cell i j k (((i : ℝ) - nx) * dx) ddy ddz cov) g).bind
        fun cov => forRange 0 ((nx + 1) / 2)
          (fun i cov => cell i j k (i * dx) ddy ddz cov) cov).Sat
        (Grid3D.Filled nx ny nz (fun a b c => S a b c ∨ (b = j ∧ c = k)) f) := by
    intro j k ddy ddz S g hj hk hd he hg
    refine (rowHi j k ddy ddz _ g hj hk hd he hg).bind fun g1 hg1 => ?_
    refine (rowLo j k ddy ddz _ g1 hj hk hd he hg1).mono fun g2 hg2 => hg2.mono ?_
    intro a b c ha _ _ h
    rcases h with h | h
    · exact .inl (.inl h)
    · by_cases hlo : a < (nx + 1) / 2
      · exact .inr ⟨hlo, h⟩
      · exact .inl (.inr ⟨by omega, ha, h⟩)
  refine (block_sat (Nat.zero_le _) (Nat.zero_le _) (fun k j S g _ hk _ hj hg =>
    lohi j k _ _ S g (by omega) (by omega) (lag_lo hj dy) (lag_lo hk dz) hg)
    (Grid3D.filled_mk' nx ny nz 0 f)).bind fun g1 hg1 => ?_
  refine (block_sat (Nat.zero_le _) (by omega) (fun k j S g _ hk hj hj2 hg =>
    hilo j k _ _ S g hj2 (by omega) (lag_hi hj dy) (lag_lo hk dz) hg) hg1).bind fun g2 hg2 => ?_
  refine (block_sat (by omega) (Nat.zero_le _) (fun k j S g hk hk2 _ hj hg =>
    lohi j k _ _ S g (by omega) hk2 (lag_lo hj dy) (lag_hi hk dz) hg) hg2).bind fun g3 hg3 => ?_
  refine (block_sat (by omega) (by omega) (fun k j S g hk hk2 hj hj2 hg =>
    lohi j k _ _ S g hj2 hk2 (lag_hi hj dy) (lag_hi hk dz) hg) hg3).mono fun g4 hg4 => ?_
  refine hg4.mono ?_
  intro a b c ha hb hc _
  by_cases h1 : b < (ny + 1) / 2 <;> by_cases h2 : c < (nz + 1) / 2
  · exact .inl (.inl (.inl (.inr ⟨Nat.zero_le _, h1, Nat.zero_le _, h2⟩)))
  · exact .inl (.inr ⟨Nat.zero_le _, h1, by omega, hc⟩)
  · exact .inl (.inl (.inr ⟨by omega, hb, Nat.zero_le _, h2⟩))
  · exact .inr ⟨by omega, hb, by omega, hc⟩

theorem fftCovGrid3D_filled (v : Variogram) (hx : v.rangeX ≠ 0) (hy : v.rangeY ≠ 0)
    (hz : v.rangeZ ≠ 0) (nx ny nz : ℕ) (hnx : nx + 1 < 2 ^ 31) (hny : ny + 1 < 2 ^ 31)
    (hnz : nz + 1 < 2 ^ 31) (dx dy dz cx cy cz : ℝ) (hcx : 1e-12 < cx) (hcy : 1e-12 < cy)
    (hcz : 1e-12 < cz) :
    (fftCovGrid3D v nx dx ny dy nz dz cx cy cz).Sat
      (Grid3D.Filled nx ny nz (fun _ _ _ => True) fun i j k =>
      v.cov3 (lag nx i * dx) (lag ny j * dy) (lag nz k * dz)
        * kernel cx (findVariogramRanges v).1 (lag nx i * dx)
        * kernel cy (findVariogramRanges v).2.1 (lag ny j * dy)
        * kernel cz (findVariogramRanges v).2.2 (lag nz k * dz)) := by
  obtain ⟨p1, p2, p3⟩ := findVariogramRanges_pos v hx hy hz
  set r1 := (findVariogramRanges v).1 with hr1
  set r2 := (findVariogramRanges v).2.1 with hr2
  set r3 := (findVariogramRanges v).2.2 with hr3
  set f : ℕ → ℕ → ℕ → ℝ := fun i j k =>
    v.cov3 (lag nx i * dx) (lag ny j * dy) (lag nz k * dz)
    * kernel cx r1 (lag nx i * dx) * kernel cy r2 (lag ny j * dy)
    * kernel cz r3 (lag nz k * dz) with hf
  have kx := smoothingFactor_eq (s := cx) (lt_trans (by norm_num) hcx) p1.ne'
  have ky := smoothingFactor_eq (s := cy) (lt_trans (by norm_num) hcy) p2.ne'
  have kz := smoothingFactor_eq (s := cz) (lt_trans (by norm_num) hcz) p3.ne'
  unfold fftCovGrid3D
  rw [intSize_ok hnx, intSize_ok hny, intSize_ok hnz,
    findSmoothingFactors_ok v hx hy hz hcx hcy hcz]
  simp only [Res.monad_bind_eq, Res.bind_ok, ← hr1, ← hr2, ← hr3]
  refine covLoops3_filled fun S g i j k hi hj hk hg =>
    covCell3_sat v hg hi hj hk cx cy cz _ _ _ _ _ _ ?_
  simp only [hf, kx, ky, kz]

end Verif
