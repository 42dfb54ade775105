import Verif.Lemmas.CovLookup
import Verif.Props.Variogram

/-!
# Precomputed 2D covariance

C49: what `CovGrid2D` answers for a lag, which lags it can answer, and the ranges it reports.
-/

namespace Verif

open CovTable

/-- **C49.** The table answers every lag between two cells of an `nx` by `ny` grid, with the
variogram's correlation of that lag. -/
theorem covTable_lookup (v : Variogram) {nx ny : ℤ} (dx dy : ℝ) (hx : 0 < nx) (hy : 0 < ny)
    (hb : 2 * nx * ny < 2 ^ 31) :
    ∃ g, create v nx ny dx dy = .ok g ∧
      ∀ di dj : ℤ, |di| < nx → |dj| < ny → g.getCov di dj = .ok (v.corr2 (di * dx) (dj * dy)) := by
  obtain ⟨N, rfl⟩ := Int.eq_ofNat_of_zero_le hx.le
  obtain ⟨M, rfl⟩ := Int.eq_ofNat_of_zero_le hy.le
  have hM : 0 < M := by omega
  have hb' : N * (2 * M) < 2 ^ 31 := by
    have : ((N * (2 * M) : ℕ) : ℤ) < 2 ^ 31 := by push_cast; linarith
    exact_mod_cast this
  obtain ⟨g, hg, hnx, hny, -, -, hh⟩ := create_ok v dx dy hM hb'
  refine ⟨g, hg, ?_⟩
  have hN2 : N ≤ N * (2 * M) := Nat.le_mul_of_pos_right _ (by omega)
  have hM2 : 2 * M ≤ N * (2 * M) := Nat.le_mul_of_pos_left _ (by omega)
  have key : ∀ (a : ℕ) (b : ℤ), a < N → |b| < M →
      g.lookup a b = .ok (v.corr2 (a * dx) (b * dy)) := by
    intro a b ha hb2
    rw [abs_lt] at hb2
    have hlt := cell_lt (k := (b + M).toNat) ha (by omega : (b + M).toNat < 2 * M)
    have hl := hh.len
    rw [lookup_ok hM hny (by omega) (by omega) (by omega) (by omega) (by omega), rd_eq_ok,
      show ((a * (2 * M) : ℕ) + b + M : ℤ).toNat = a * (2 * M) + (b + M).toNat by omega,
      hh.val a _ ha (by omega), show ((b + M).toNat : ℤ) - M = b by omega]
  intro di dj hdi hdj
  unfold getCov
  have hdi' := abs_lt.1 hdi
  have hdj' := abs_lt.1 hdj
  split_ifs with h
  · obtain ⟨a, ha⟩ := Int.eq_ofNat_of_zero_le (show 0 ≤ -di by omega)
    simp only [Res.monad_bind_eq]
    rw [int32_ok (by omega) (by omega), Res.bind_ok, int32_ok (by omega) (by omega), Res.bind_ok, ha,
      key a (-dj) (by omega) (by rwa [abs_neg])]
    have e : (a : ℝ) = -(di : ℝ) := by exact_mod_cast ha.symm
    rw [e, ← (corr_neg v (di * dx) (dj * dy) 0).2.1]
    push_cast
    ring_nf
  · obtain ⟨a, rfl⟩ := Int.eq_ofNat_of_zero_le (show 0 ≤ di by omega)
    exact key a dj (by omega) hdj

/-- **C49.** Opposite lags get the same answer. -/
theorem covTable_symm (v : Variogram) {nx ny : ℤ} (dx dy : ℝ) (hx : 0 < nx) (hy : 0 < ny)
    (hb : 2 * nx * ny < 2 ^ 31) {g : CovTable} (hg : create v nx ny dx dy = .ok g)
    {di dj : ℤ} (hi : |di| < nx) (hj : |dj| < ny) : g.getCov (-di) (-dj) = g.getCov di dj := by
  obtain ⟨g', hg', h⟩ := covTable_lookup v dx dy hx hy hb
  obtain rfl : g' = g := by rw [hg] at hg'; exact (Res.ok.inj hg').symm
  rw [h di dj hi hj, h (-di) (-dj) (by rwa [abs_neg]) (by rwa [abs_neg]),
    ← (corr_neg v (di * dx) (dj * dy) 0).2.1]
  push_cast
  ring_nf

/-- The lags of cells of a 3 by 2 grid are such lags. -/
example : ∃ di dj : ℤ, |di| < 3 ∧ |dj| < 2 ∧ di < 0 ∧ 0 < dj ∧ (2 : ℤ) * 3 * 2 < 2 ^ 31 :=
  ⟨-2, 1, by decide, by decide, by decide, by decide, by decide⟩

/-- **C49, boundary.** At the lag `ny` the table answers with the correlation of another lag: the
next column, at `-ny`. In the last column it reads past the table. -/
theorem covTable_edge (v : Variogram) {nx ny : ℤ} (dx dy : ℝ) (hx : 0 < nx) (hy : 0 < ny)
    (hb : 2 * nx * ny < 2 ^ 31) {g : CovTable} (hg : create v nx ny dx dy = .ok g) :
    (∀ di : ℤ, 0 ≤ di → di < nx - 1 →
      g.getCov di ny = .ok (v.corr2 ((di + 1) * dx) (-ny * dy))) ∧
    (∃ m, g.getCov (nx - 1) ny = .ub m) := by
  obtain ⟨N, rfl⟩ := Int.eq_ofNat_of_zero_le hx.le
  obtain ⟨M, rfl⟩ := Int.eq_ofNat_of_zero_le hy.le
  have hM : 0 < M := by omega
  have hb' : N * (2 * M) < 2 ^ 31 := by
    have : ((N * (2 * M) : ℕ) : ℤ) < 2 ^ 31 := by push_cast; linarith
    exact_mod_cast this
  obtain ⟨g', hg', hnx, hny, -, -, hh⟩ := create_ok v dx dy hM hb'
  obtain rfl : g' = g := by rw [hg] at hg'; exact (Res.ok.inj hg').symm
  have hl := hh.len
  constructor
  · intro di h0 h1
    obtain ⟨a, rfl⟩ := Int.eq_ofNat_of_zero_le h0
    unfold getCov
    rw [if_neg (by omega)]
    have e : (a + 1) * (2 * M) = a * (2 * M) + 2 * M := by ring
    have hlt := cell_lt (i := a + 1) (k := 0) (by omega : a + 1 < N) (by omega : 0 < 2 * M)
    rw [lookup_ok hM hny (by omega) (by omega) (by omega) (by omega) (by omega), rd_eq_ok,
      show ((a * (2 * M) : ℕ) + (M : ℤ) + M : ℤ).toNat = (a + 1) * (2 * M) + 0 by omega,
      hh.val (a + 1) 0 (by omega) (by omega)]
    push_cast
    ring_nf
  · obtain ⟨a, ha⟩ := Int.eq_ofNat_of_zero_le (show (0 : ℤ) ≤ N - 1 by omega)
    have hN : N = a + 1 := by omega
    subst hN
    have e : (a + 1) * (2 * M) = a * (2 * M) + 2 * M := by ring
    have e1 : (a : ℤ) * 2 * M = ((a * (2 * M) : ℕ) : ℤ) := by push_cast; ring
    have ha2 : a * 2 ≤ a * (2 * M) := Nat.mul_le_mul_left _ (by omega)
    refine ⟨"read out of range", ?_⟩
    unfold getCov
    rw [if_neg (by omega), ha]
    unfold lookup
    simp only [Res.monad_bind_eq]
    rw [int32_ok (by omega) (by omega), Res.bind_ok, hny, e1, int32_ok (by omega) (by omega),
      Res.bind_ok, int32_ok (by omega) (by omega), Res.bind_ok, int32_ok (by omega) (by omega),
      Res.bind_ok]
    simp only [rdInt]
    rw [if_neg (by omega)]
    unfold rd
    rw [List.getElem?_eq_none (by omega)]

private theorem sph_far {p d : ℝ} (h : 1 ≤ d) : Variogram.corr1D .spherical p d = 0 := by
  simp only [Variogram.corr1D]
  rw [if_neg (by norm_num; exact h)]
  norm_num

private theorem sph_near {p d : ℝ} (h : d < 1) :
    Variogram.corr1D .spherical p d = 1 - d * (3 / 2 - 1 / 2 * d * d) := by
  simp only [Variogram.corr1D]
  rw [if_pos (by norm_num; exact h)]
  norm_num

/-- Consequence: with range 1.2 on a 2 by 1 grid of unit cells, the answer at (0, 1) is 0 although
the correlation there is positive. -/
theorem covTable_edge_refuted :
    ∃ v g, Variogram.create .spherical 1 (6 / 5) (6 / 5) (6 / 5) 0 0 1 = .ok v ∧
      create v 2 1 1 1 = .ok g ∧ g.getCov 0 1 = .ok 0 ∧ 0 < v.corr2 0 1 := by
  obtain ⟨v, hv⟩ : ∃ v, Variogram.create .spherical 1 (6 / 5) (6 / 5) (6 / 5) 0 0 1 = .ok v := by
    unfold Variogram.create Variogram.estimateFactors
    simp only
    rw [if_neg (by norm_num)]
    exact ⟨_, rfl⟩
  obtain ⟨g, hg, -⟩ := covTable_lookup v (nx := 2) (ny := 1) 1 1 (by norm_num) (by norm_num)
    (by norm_num)
  have hq : ∀ x y, v.corr2 x y = Variogram.corr1D .spherical 1 (√(25 / 36 * (x ^ 2 + y ^ 2))) := by
    intro x y
    unfold Variogram.create Variogram.estimateFactors at hv
    simp only at hv
    rw [if_neg (by norm_num)] at hv
    obtain rfl := Res.ok.inj hv
    simp only [Variogram.corr2, Variogram.distance2, Variogram.quad2, Real.cos_zero, Real.sin_zero]
    congr 2
    norm_num
    ring
  refine ⟨v, g, hv, hg, ?_, ?_⟩
  · rw [(covTable_edge v 1 1 (by norm_num) (by norm_num) (by norm_num) hg).1 0 (le_refl _)
      (by norm_num), hq]
    rw [sph_far]
    rw [Real.one_le_sqrt]
    norm_num
  · rw [hq, show (25 / 36 * ((0 : ℝ) ^ 2 + 1 ^ 2)) = (5 / 6) ^ 2 by norm_num,
      Real.sqrt_sq (by norm_num), sph_near (by norm_num)]
    norm_num

/-- **C49.** The x range is the largest `i*dx` over the lags of the table, both signs of the second
lag included, whose correlation is at least 0.05; 0 if there is none above 0. -/
theorem covTable_rangeX (v : Variogram) {nx ny : ℤ} (dx dy : ℝ) (hx : 0 < nx) (hy : 0 < ny)
    (hb : 2 * nx * ny < 2 ^ 31) {g : CovTable} (hg : create v nx ny dx dy = .ok g) :
    ∃ r, g.getRangeX = .ok r ∧
      IsGreatest ({0} ∪ {x | ∃ i j : ℤ, 0 ≤ i ∧ i < nx ∧ -ny ≤ j ∧ j < ny ∧
        v.corr2 (i * dx) (j * dy) ≥ 0.05 ∧ x = i * dx}) r := by
  obtain ⟨N, rfl⟩ := Int.eq_ofNat_of_zero_le hx.le
  obtain ⟨M, rfl⟩ := Int.eq_ofNat_of_zero_le hy.le
  have hM : 0 < M := by omega
  have hb' : N * (2 * M) < 2 ^ 31 := by
    have : ((N * (2 * M) : ℕ) : ℤ) < 2 ^ 31 := by push_cast; linarith
    exact_mod_cast this
  obtain ⟨g', hg', hnx, hny, hdx, -, hh⟩ := create_ok v dx dy hM hb'
  obtain rfl : g' = g := by rw [hg] at hg'; exact (Res.ok.inj hg').symm
  obtain ⟨r, hr, h⟩ := largest_sat N (2 * M)
    (fun i k => v.corr2 (i * dx) (((k : ℤ) - M : ℤ) * dy) ≥ 0.05) (fun i _ => i * dx)
    (fun i k r => g'.rangeXCell i (k - M) r) (by
      intro i k r hi hk
      refine ⟨_, ?_, keep_cases _ _ _⟩
      unfold rangeXCell
      rw [hny, index_ok hi hk hb']
      simp only [Res.monad_bind_eq, Res.bind_ok]
      rw [rdInt_nat, rd_eq_ok.2 (hh.val i k hi hk), Res.bind_ok, hdx]
      rfl)
  refine ⟨r, ?_, ?_⟩
  · unfold getRangeX
    rw [hnx, hny, Int.toNat_natCast, show (2 * (M : ℤ)).toNat = 2 * M by omega]
    exact hr
  · convert h using 3
    ext x
    constructor
    · rintro ⟨i, j, h1, h2, h3, h4, h5, rfl⟩
      obtain ⟨a, rfl⟩ := Int.eq_ofNat_of_zero_le h1
      refine ⟨a, (j + M).toNat, by omega, by omega, ?_, rfl⟩
      rw [show ((j + M).toNat : ℤ) - M = j by omega]
      exact h5
    · rintro ⟨i, k, h1, h2, h3, rfl⟩
      exact ⟨i, (k : ℤ) - M, by omega, by omega, by omega, by omega, h3, rfl⟩

/-- **C49.** The y range is the largest `j*dy` over the same lags. -/
theorem covTable_rangeY (v : Variogram) {nx ny : ℤ} (dx dy : ℝ) (hx : 0 < nx) (hy : 0 < ny)
    (hb : 2 * nx * ny < 2 ^ 31) {g : CovTable} (hg : create v nx ny dx dy = .ok g) :
    ∃ r, g.getRangeY = .ok r ∧
      IsGreatest ({0} ∪ {y | ∃ i j : ℤ, 0 ≤ i ∧ i < nx ∧ -ny ≤ j ∧ j < ny ∧
        v.corr2 (i * dx) (j * dy) ≥ 0.05 ∧ y = j * dy}) r := by
  obtain ⟨N, rfl⟩ := Int.eq_ofNat_of_zero_le hx.le
  obtain ⟨M, rfl⟩ := Int.eq_ofNat_of_zero_le hy.le
  have hM : 0 < M := by omega
  have hb' : N * (2 * M) < 2 ^ 31 := by
    have : ((N * (2 * M) : ℕ) : ℤ) < 2 ^ 31 := by push_cast; linarith
    exact_mod_cast this
  obtain ⟨g', hg', hnx, hny, -, hdy, hh⟩ := create_ok v dx dy hM hb'
  obtain rfl : g' = g := by rw [hg] at hg'; exact (Res.ok.inj hg').symm
  obtain ⟨r, hr, h⟩ := largest_sat N (2 * M)
    (fun i k => v.corr2 (i * dx) (((k : ℤ) - M : ℤ) * dy) ≥ 0.05)
    (fun _ k => ((k : ℤ) - M : ℤ) * dy)
    (fun i k r => g'.rangeYCell i (k - M) r) (by
      intro i k r hi hk
      refine ⟨_, ?_, keep_cases _ _ _⟩
      unfold rangeYCell
      rw [hny, index_ok hi hk hb']
      simp only [Res.monad_bind_eq, Res.bind_ok]
      rw [rdInt_nat, rd_eq_ok.2 (hh.val i k hi hk), Res.bind_ok, hdy]
      )
  refine ⟨r, ?_, ?_⟩
  · unfold getRangeY
    rw [hnx, hny, Int.toNat_natCast, show (2 * (M : ℤ)).toNat = 2 * M by omega]
    exact hr
  · convert h using 3
    ext x
    constructor
    · rintro ⟨i, j, h1, h2, h3, h4, h5, rfl⟩
      obtain ⟨a, rfl⟩ := Int.eq_ofNat_of_zero_le h1
      refine ⟨a, (j + M).toNat, by omega, by omega, ?_, ?_⟩
      · rw [show ((j + M).toNat : ℤ) - M = j by omega]
        exact h5
      · rw [show ((j + M).toNat : ℤ) - M = j by omega]
    · rintro ⟨i, k, h1, h2, h3, rfl⟩
      exact ⟨i, (k : ℤ) - M, by omega, by omega, by omega, by omega, h3, rfl⟩

/-- **C49.** No lag between cells with correlation at least 0.05 is longer in x than the x range. -/
theorem covTable_rangeX_bound (v : Variogram) {nx ny : ℤ} {dx : ℝ} (dy : ℝ) (hx : 0 < nx)
    (hy : 0 < ny) (hb : 2 * nx * ny < 2 ^ 31) {g : CovTable}
    (hg : create v nx ny dx dy = .ok g) {r : ℝ} (hr : g.getRangeX = .ok r)
    {di dj : ℤ} (hi : |di| < nx) (hj : |dj| < ny) (hc : v.corr2 (di * dx) (dj * dy) ≥ 0.05) :
    |di| * dx ≤ r := by
  obtain ⟨r', hr', h⟩ := covTable_rangeX v dx dy hx hy hb hg
  obtain rfl : r' = r := by rw [hr] at hr'; exact (Res.ok.inj hr').symm
  have hi' := abs_lt.1 hi
  have hj' := abs_lt.1 hj
  rcases le_total 0 di with h0 | h0
  · refine h.2 (.inr ⟨di, dj, h0, by omega, by omega, by omega, hc, ?_⟩)
    rw [abs_of_nonneg (by exact_mod_cast h0)]
  · refine h.2 (.inr ⟨-di, -dj, by omega, by omega, by omega, by omega, ?_, ?_⟩)
    · rw [← (corr_neg v (di * dx) (dj * dy) 0).2.1] at hc
      push_cast
      simpa using hc
    · rw [abs_of_nonpos (by exact_mod_cast h0)]

/-- **C49, refuted for y.** The y range forgets the lags whose x and y parts have different signs:
with range 10 along the direction (1, -1) and 0.5 across it, the y range of a 3 by 3 grid of unit
cells is 0 although the cells at lag (-2, 2) have correlation at least 0.05. -/
theorem covTable_rangeY_bound_refuted :
    ∃ v g, Variogram.create .spherical 1 10 (1 / 2) 1 (-(Real.pi / 4)) 0 1 = .ok v ∧
      create v 3 3 1 1 = .ok g ∧ g.getRangeY = .ok 0 ∧ v.corr2 (-2) 2 ≥ 0.05 := by
  obtain ⟨v, hv⟩ : ∃ v,
      Variogram.create .spherical 1 10 (1 / 2) 1 (-(Real.pi / 4)) 0 1 = .ok v := by
    unfold Variogram.create Variogram.estimateFactors
    simp only
    rw [if_neg (by norm_num)]
    exact ⟨_, rfl⟩
  obtain ⟨g, hg, -⟩ := covTable_lookup v (nx := 3) (ny := 3) 1 1 (by norm_num) (by norm_num)
    (by norm_num)
  have hq : ∀ x y, v.corr2 x y = Variogram.corr1D .spherical 1
      (√(401 / 200 * (x ^ 2 + y ^ 2) + 399 / 100 * (x * y))) := by
    intro x y
    unfold Variogram.create Variogram.estimateFactors at hv
    simp only at hv
    rw [if_neg (by norm_num)] at hv
    obtain rfl := Res.ok.inj hv
    simp only [Variogram.corr2, Variogram.distance2, Variogram.quad2, Real.cos_zero, Real.sin_zero,
      Real.cos_neg, Real.sin_neg, Real.cos_pi_div_four, Real.sin_pi_div_four]
    have h2 : (√2 : ℝ) * √2 = 2 := Real.mul_self_sqrt (by norm_num)
    have e : ∀ s : ℝ, s * s = 2 → s / 2 * (s / 2) = 1 / 2 := by intro s h; linarith
    have e2 := e _ h2
    congr 2
    generalize (√2 / 2 : ℝ) = s at e2
    norm_num
    have e3 : s * s = 1 / 2 := e2
    ring_nf
    rw [show s ^ 2 = 1 / 2 by rw [sq]; exact e3]
    ring
  refine ⟨v, g, hv, hg, ?_, ?_⟩
  · obtain ⟨r, hr, h⟩ := covTable_rangeY v 1 1 (by norm_num) (by norm_num) (by norm_num) hg
    suffices hz : r = 0 by rw [hr, hz]
    have h0 : 0 ≤ r := h.2 (.inl rfl)
    rcases h.1 with h1 | ⟨i, j, hi, -, -, -, hc, rfl⟩
    · exact h1
    · by_contra hne
      have hj : 0 < j := by
        have : (0 : ℝ) < j := by
          rcases lt_or_eq_of_le h0 with h | h
          · linarith
          · exact absurd h.symm hne
        exact_mod_cast this
      rw [hq] at hc
      have hi' : (0 : ℝ) ≤ i := by exact_mod_cast hi
      have hj' : (1 : ℝ) ≤ j := by exact_mod_cast hj
      have : 1 ≤ √(401 / 200 * (((i : ℝ) * 1) ^ 2 + ((j : ℝ) * 1) ^ 2)
          + 399 / 100 * ((i : ℝ) * 1 * ((j : ℝ) * 1))) := by
        rw [Real.one_le_sqrt]
        nlinarith [mul_nonneg hi' (by linarith : (0 : ℝ) ≤ j)]
      rw [sph_far this] at hc
      norm_num at hc
  · rw [hq, show (401 / 200 * ((-2 : ℝ) ^ 2 + 2 ^ 2) + 399 / 100 * (-2 * 2)) = 2 / 25 by norm_num]
    have h1 : √(2 / 25 : ℝ) ≤ 3 / 10 := by
      rw [Real.sqrt_le_left (by norm_num)]; norm_num
    have h0 := Real.sqrt_nonneg (2 / 25 : ℝ)
    rw [sph_near (by linarith)]
    generalize √(2 / 25 : ℝ) = d at h0 h1
    rw [ge_iff_le, show (0.05 : ℝ) = 1 / 20 by norm_num]
    nlinarith [mul_nonneg h0 h0, mul_nonneg (mul_nonneg h0 h0) h0]

/-- **C49.** The file has the correlations of all lags between cells, row after row. -/
theorem covTable_written (v : Variogram) {nx ny : ℕ} (dx dy : ℝ) (hx : 0 < nx) (hy : 0 < ny)
    (hb : 2 * (nx : ℤ) * ny < 2 ^ 31) {g : CovTable} (hg : create v nx ny dx dy = .ok g) :
    ∃ w, g.writeToFile = .ok w ∧ w.ni = 2 * nx - 1 ∧ w.nj = 2 * ny - 1 ∧
      w.values = (List.range (2 * ny - 1)).flatMap fun (l : ℕ) => (List.range (2 * nx - 1)).map
        fun (k : ℕ) =>
        v.corr2 (((k : ℝ) - (nx - 1)) * dx) (((l : ℝ) - (ny - 1)) * dy) := by
  obtain ⟨g', hg', h⟩ := covTable_lookup v dx dy (nx := nx) (ny := ny) (by omega) (by omega) hb
  obtain rfl : g' = g := by rw [hg] at hg'; exact (Res.ok.inj hg').symm
  have hb' : nx * (2 * ny) < 2 ^ 31 := by
    have : ((nx * (2 * ny) : ℕ) : ℤ) < 2 ^ 31 := by push_cast; linarith
    exact_mod_cast this
  obtain ⟨g2, hg2, hnx, hny, -⟩ := create_ok v dx dy hy hb'
  obtain rfl : g2 = g' := by rw [hg] at hg2; exact (Res.ok.inj hg2).symm
  obtain ⟨out, ho, hv⟩ := append_sat (2 * ny - 1) (2 * nx - 1)
    (fun l k => v.corr2 (((k : ℝ) - (nx - 1)) * dx) (((l : ℝ) - (ny - 1)) * dy))
    (fun l k out => do
      let c ← g2.getCov ((k : ℤ) + 1 - nx) ((l : ℤ) + 1 - ny)
      .ok (out ++ [c])) (by
      intro l k out hl hk
      simp only [Res.monad_bind_eq]
      rw [h _ _ (by rw [abs_lt]; omega) (by rw [abs_lt]; omega), Res.bind_ok]
      push_cast
      ring_nf)
  refine ⟨⟨2 * nx - 1, 2 * ny - 1, g2.dx, g2.dy, -g2.dx * (nx : ℤ), g2.dx * (nx : ℤ),
    -g2.dy * (ny : ℤ), g2.dy * (ny : ℤ), out⟩, ?_, ?_, ?_, ?_⟩
  · unfold writeToFile
    rw [hnx, hny, show (2 * (ny : ℤ) - 1).toNat = 2 * ny - 1 by omega,
      show (2 * (nx : ℤ) - 1).toNat = 2 * nx - 1 by omega]
    simp only [Res.monad_bind_eq] at ho ⊢
    rw [ho, Res.bind_ok]
  · rfl
  · rfl
  · exact hv

/-- **C49, refuted for the file.** The corners written are two cells too far apart for the number
of values and the increment written. -/
theorem covTable_written_corners_refuted {g : CovTable} {w : Written} (hw : g.writeToFile = .ok w)
    (hdx : w.dx ≠ 0) :
    w.xmax - w.xmin = (w.ni - 1) * w.dx + 2 * w.dx ∧ w.xmax - w.xmin ≠ (w.ni - 1) * w.dx := by
  unfold writeToFile at hw
  simp only [Res.monad_bind_eq] at hw
  obtain ⟨out, -, h⟩ := Res.bind_eq_ok.1 hw
  obtain rfl := Res.ok.inj h
  have e : g.dx * g.nx - -g.dx * g.nx = ((2 * g.nx - 1 : ℤ) - 1 : ℝ) * g.dx + 2 * g.dx := by
    push_cast; ring
  refine ⟨e, fun h => hdx ?_⟩
  simp only at h ⊢
  rw [e] at h
  linarith

end Verif
