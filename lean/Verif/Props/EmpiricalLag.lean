import Verif.Props.Empirical
import Verif.Props.Variogram
import Mathlib.MeasureTheory.Measure.Dirac
import Mathlib.Probability.Moments.Covariance
import Mathlib.MeasureTheory.Integral.DominatedConvergence

/-!
# Properties of the empirical variogram: distances, reference points; names of the package
-/

namespace Verif.Py

open Variogram Spec Finset MeasureTheory

/-! ## One-dimensional grids -/

theorem cellDist_line {dx dy dz : ℝ} (hdx : 0 < dx) (i : ℕ) :
    cellDist dx dy dz (i, 0, 0) (0, 0, 0) = i * dx := by
  unfold cellDist
  simp only [Nat.cast_zero, sub_zero, mul_zero, ne_eq, OfNat.ofNat_ne_zero, not_false_eq_true,
    zero_pow, add_zero]
  rw [Real.sqrt_sq (by positivity), mul_comm]

theorem mem_line {nx : ℕ} {c : ℕ × ℕ × ℕ} : c ∈ cells nx 1 1 ↔ ∃ i < nx, c = (i, 0, 0) := by
  obtain ⟨i, j, k⟩ := c
  simp only [cells, Finset.mem_product, Finset.mem_range, Nat.lt_one_iff, Prod.mk.injEq]
  constructor
  · rintro ⟨h, rfl, rfl⟩
    exact ⟨i, h, rfl, rfl, rfl⟩
  · rintro ⟨i', h, rfl, rfl, rfl⟩
    exact ⟨h, rfl, rfl⟩

theorem mem_binCells {nx ny nz : ℕ} {dx dy dz M : ℝ} {r c : ℕ × ℕ × ℕ} {K b : ℕ} :
    c ∈ binCells nx ny nz dx dy dz r K M b
      ↔ c ∈ cells nx ny nz ∧ InBin K M b (cellDist dx dy dz c r) := by
  simp [binCells]

theorem numBins_mul {K : ℕ} {w : ℝ} (hw : 0 < w) : numBins (K * w) w = K := by
  unfold numBins
  rw [mul_div_cancel_right₀ _ hw.ne', Nat.floor_natCast]

theorem binCells_line {nx K : ℕ} {dx dy dz : ℝ} (hdx : 0 < dx) (hK : nx = K + 1) {b : ℕ}
    (hb : b + 1 < K) :
    binCells nx 1 1 dx dy dz (0, 0, 0) K (K * dx) b = {(b, 0, 0)} := by
  have hK0 : (K : ℝ) ≠ 0 := by
    rw [Nat.cast_ne_zero]
    omega
  ext c
  rw [mem_binCells, Finset.mem_singleton, InBin]
  rw [mul_div_cancel_left₀ _ hK0, mem_line]
  constructor
  · rintro ⟨⟨i, hi, rfl⟩, h1, h2⟩
    rw [cellDist_line hdx] at h1 h2
    rcases h2 with h2 | h2
    · have g1 : (b : ℝ) ≤ i := le_of_mul_le_mul_right h1 hdx
      have g2 : (i : ℝ) < b + 1 := lt_of_mul_lt_mul_right h2 hdx.le
      have g1' : b ≤ i := by exact_mod_cast g1
      have g2' : i < b + 1 := by exact_mod_cast g2
      rw [show i = b by omega]
    · omega
  · rintro rfl
    refine ⟨⟨b, by omega, rfl⟩, ?_⟩
    rw [cellDist_line hdx]
    exact ⟨le_rfl, Or.inl (by nlinarith)⟩

/-! ## C60: the distances that are reported -/

/-- **C60, what is reported.** The distance reported with bin `b` (of the bins of the corner cell) is
the upper end of the bin, whatever the arguments. -/
theorem midpoints_upper {E : Ev} (hd : E.ny = 1 → E.nz = 1) {res M : ℝ} (h0 : 0 < res) {grid : Arr3}
    {X : ℕ × ℕ × ℕ → ℝ} (h : Holds E grid X)
    (hz : ((0, 0, 0) : ℕ × ℕ × ℕ) ∈ cells E.nx E.ny E.nz)
    (hM : IsFarthest E.nx E.ny E.nz E.dx E.dy E.dz (0, 0, 0) M) (h1 : res ≤ M) :
    ∃ mid, E.midpoints res grid = .ok mid ∧ mid.length = ⌊M / res⌋₊ ∧
      ∀ b < ⌊M / res⌋₊, mid[b]? = some ((b + 1) * (M / ⌊M / res⌋₊)) := by
  choose! F hF using fun (r : ℕ × ℕ × ℕ) (hr : r ∈ cells E.nx E.ny E.nz) =>
    exists_farthest (dx := E.dx) (dy := E.dy) (dz := E.dz) hr
  obtain rfl : F (0, 0, 0) = M := (hF _ hz).unique hM
  refine ⟨_, midpoints_eq hd h0 hF h hz h1, by simp [numBins], fun b hb => ?_⟩
  have hb' : b < numBins (F (0, 0, 0)) res := hb
  rw [List.getElem?_map, List.getElem?_range hb']
  rfl

/-- **C60, refuted.** The reported distances are called midpoints but none of them is the middle of
its bin. -/
theorem midpoints_refuted {E : Ev} (hd : E.ny = 1 → E.nz = 1) {res M : ℝ} (h0 : 0 < res)
    {grid : Arr3} {X : ℕ × ℕ × ℕ → ℝ} (h : Holds E grid X)
    (hz : ((0, 0, 0) : ℕ × ℕ × ℕ) ∈ cells E.nx E.ny E.nz)
    (hM : IsFarthest E.nx E.ny E.nz E.dx E.dy E.dz (0, 0, 0) M) (h1 : res ≤ M) :
    ∃ mid means edges, E.midpoints res grid = .ok mid ∧
      E.binnedStatistics res grid none = .ok (means, edges) ∧ 0 < mid.length ∧
      ∀ b < mid.length, ∃ lo hi m, edges[b]? = some lo ∧ edges[b + 1]? = some hi ∧
        mid[b]? = some m ∧ m ≠ (lo + hi) / 2 := by
  obtain ⟨mid, e1, e2, e3⟩ := midpoints_upper hd h0 h hz hM h1
  obtain ⟨means, edges, e4, e5, e6, e7, -⟩ := binned_spec h hd hz hM h0 h1
  have e4' : E.binnedStatistics res grid none = .ok (means, edges) := by
    rw [← e4]
    unfold Ev.binnedStatistics Ev.calculateDeltas
    rfl
  have hK : 0 < ⌊M / res⌋₊ := numBins_pos h0 h1
  refine ⟨mid, means, edges, e1, e4', by omega, fun b hb => ?_⟩
  rw [e2] at hb
  refine ⟨_, _, _, e7 b hb.le, e7 (b + 1) hb, e3 b hb, ?_⟩
  have hM0 : 0 < M := by linarith
  have hK' : (0 : ℝ) < ⌊M / res⌋₊ := by exact_mod_cast hK
  have hw : 0 < M / ⌊M / res⌋₊ := by positivity
  push_cast
  intro hh
  nlinarith

/-- **C60, consequence in one dimension.** With a resolution of one cell, bin `b` (but the last) holds
the one cell at distance `b * dx`: the estimate has the expectation `ρ` at `b * dx`, but is returned
with the distance `(b + 1) * dx`. -/
theorem estimate_lag {E : Ev} (hy : E.ny = 1) (hz : E.nz = 1) {K : ℕ} (hnx : E.nx = K + 1)
    (hK : 0 < K) (hdx : 0 < E.dx)
    {Ω : Type} [MeasurableSpace Ω] {μ : Measure Ω} [IsProbabilityMeasure μ] {n : ℕ} (hn : 0 < n)
    (X : ℕ → ℕ → Ω → ℝ) (ρ : ℕ → ℝ)
    (hX : ∀ k < n, ∀ i < E.nx,
      Integrable (fun ω => (X k i ω - X k 0 ω) ^ 2) μ ∧
      ∫ ω, (X k i ω - X k 0 ω) ^ 2 ∂μ = 2 * (1 - ρ i))
    (first : Ω → Arr3) (hfirst : ∀ ω, ∃ Y, Holds E (first ω) Y) (grids : ℕ → Ω → Arr3)
    (hgrids : ∀ k < n, ∀ ω, Holds E (grids k ω) fun c => X k c.1 ω) :
    ∃ (mid : List ℝ) (est : Ω → List (Option ℝ)),
      (∀ ω, E.estimate E.dx [(0, 0, 0)] (first ω) ((List.range n).map fun k => grids k ω)
        = .ok (mid, est ω)) ∧
      mid.length = K ∧
      ∀ b, b + 1 < K → mid[b]? = some ((b + 1) * E.dx) ∧
        ∃ Y : Ω → ℝ, (∀ ω, (est ω)[b]? = some (some (Y ω))) ∧ Integrable Y μ ∧
          ∫ ω, Y ω ∂μ = ρ b := by
  choose! F hF using fun (r : ℕ × ℕ × ℕ) (hr : r ∈ cells E.nx E.ny E.nz) =>
    exists_farthest (dx := E.dx) (dy := E.dy) (dz := E.dz) hr
  have h0 : ((0, 0, 0) : ℕ × ℕ × ℕ) ∈ cells E.nx E.ny E.nz := by
    rw [hy, hz, mem_line]
    exact ⟨0, by omega, rfl⟩
  have hF0 : F (0, 0, 0) = K * E.dx := by
    have := farthest_corner (nx := E.nx) (ny := E.ny) (nz := E.nz) (dx := E.dx) (dy := E.dy)
      (dz := E.dz) (by omega) (by omega) (by omega)
    rw [(hF _ h0).unique this, hy, hz, hnx]
    exact cellDist_line hdx K
  have hres : E.dx ≤ F (0, 0, 0) := by
    rw [hF0]
    have : (1 : ℝ) ≤ K := by exact_mod_cast hK
    nlinarith
  have hcell : ∀ c ∈ cells E.nx E.ny E.nz, c.1 < E.nx := by
    intro c hc
    simp only [cells, Finset.mem_product, Finset.mem_range] at hc
    exact hc.1
  obtain ⟨mid, est, h1, h2, h3⟩ := estimate_expectation (E := E) (fun _ => hz) hdx hF
    (refs := [(0, 0, 0)]) (fun r hr => by
      rw [List.mem_singleton] at hr
      subst hr
      exact ⟨h0, hres⟩) h0 hres (μ := μ) hn (fun k c => X k c.1) (fun c _ => ρ c.1)
    (fun k hk c hc r hr => by
      rw [List.mem_singleton] at hr
      subst hr
      exact hX k hk c.1 (hcell c hc)) first hfirst grids hgrids
  have hfl : ⌊F (0, 0, 0) / E.dx⌋₊ = K := by
    rw [hF0]
    exact numBins_mul hdx
  have hK0 : (K : ℝ) ≠ 0 := by
    rw [Nat.cast_ne_zero]
    omega
  refine ⟨mid, est, h1, by rw [h2, hfl], fun b hb => ?_⟩
  obtain ⟨h4, h5⟩ := h3 b (by rw [hfl]; omega)
  have hbin : binCells E.nx E.ny E.nz E.dx E.dy E.dz (0, 0, 0) ⌊F (0, 0, 0) / E.dx⌋₊ (F (0, 0, 0)) b
      = {(b, 0, 0)} := by
    rw [hfl, hF0, hy, hz]
    exact binCells_line hdx hnx hb
  have hbK : b < ⌊F (0, 0, 0) / E.dx⌋₊ := by rw [hfl]; omega
  refine ⟨?_, ?_⟩
  · rw [h4, hfl, hF0, mul_div_cancel_left₀ _ hK0]
  · obtain ⟨Y, y1, y2, y3⟩ := h5 (by simp [hbK]) (fun r hr _ => by
      rw [List.mem_singleton] at hr
      subst hr
      rw [hbin]
      simp)
    refine ⟨Y, y1, y2, ?_⟩
    rw [y3]
    simp only [List.filter_cons, hbK, decide_true, if_true, List.filter_nil, List.map_cons,
      List.map_nil, List.sum_cons, List.sum_nil, List.length_cons, List.length_nil]
    rw [hbin]
    simp [avg]

open ProbabilityTheory in
/-- Squared differences of random variables with mean 0. -/
theorem sq_diff_of_cov {Ω : Type} [MeasurableSpace Ω] {μ : Measure Ω} [IsProbabilityMeasure μ]
    {X Y : Ω → ℝ} (hX : MemLp X 2 μ) (hY : MemLp Y 2 μ) (mX : ∫ ω, X ω ∂μ = 0)
    (mY : ∫ ω, Y ω ∂μ = 0) : Integrable (fun ω => (X ω - Y ω) ^ 2) μ ∧
      ∫ ω, (X ω - Y ω) ^ 2 ∂μ = cov[X, X; μ] + cov[Y, Y; μ] - 2 * cov[X, Y; μ] := by
  have iXX := hX.integrable_mul hX
  have iYY := hY.integrable_mul hY
  have iXY := hX.integrable_mul hY
  have e : (fun ω => (X ω - Y ω) ^ 2)
      = fun ω => ((X * X) ω + (Y * Y) ω) - 2 * (X * Y) ω := by
    funext ω
    simp only [Pi.mul_apply]
    ring
  rw [e]
  refine ⟨(iXX.add iYY).sub (iXY.const_mul 2), ?_⟩
  have h1 : (∫ ω, ((X * X) ω + (Y * Y) ω) - 2 * (X * Y) ω ∂μ)
      = (∫ ω, (X * X + Y * Y) ω ∂μ) - ∫ ω, 2 * (X * Y) ω ∂μ :=
    integral_sub (iXX.add iYY) (iXY.const_mul 2)
  have h2 : (∫ ω, (X * X + Y * Y) ω ∂μ) = (∫ ω, (X * X) ω ∂μ) + ∫ ω, (Y * Y) ω ∂μ :=
    integral_add iXX iYY
  rw [h1, h2, integral_const_mul]
  simp only [covariance, mX, mY, sub_zero, Pi.mul_apply]

open ProbabilityTheory in
/-- **C59 and C60 for simulated fields.** Fields on a line with mean 0 and covariance `C` at every lag,
variance 1 (as C04, C08 and C09 prove of `simulate` for the types they name): the estimate returned
with the distance `(b + 1) * dx` has the expectation `C b`. -/
theorem estimate_lag_of_cov {E : Ev} (hy : E.ny = 1) (hz : E.nz = 1) {K : ℕ} (hnx : E.nx = K + 1)
    (hK : 0 < K) (hdx : 0 < E.dx)
    {Ω : Type} [MeasurableSpace Ω] {μ : Measure Ω} [IsProbabilityMeasure μ] {n : ℕ} (hn : 0 < n)
    (X : ℕ → ℕ → Ω → ℝ) (C : ℤ → ℝ) (hC : C 0 = 1)
    (hX : ∀ k < n, ∀ i < E.nx, MemLp (X k i) 2 μ ∧ ∫ ω, X k i ω ∂μ = 0)
    (hcov : ∀ k < n, ∀ i < E.nx, ∀ i' < E.nx, cov[X k i, X k i'; μ] = C ((i : ℤ) - i'))
    (first : Ω → Arr3) (hfirst : ∀ ω, ∃ Y, Holds E (first ω) Y) (grids : ℕ → Ω → Arr3)
    (hgrids : ∀ k < n, ∀ ω, Holds E (grids k ω) fun c => X k c.1 ω) :
    ∃ (mid : List ℝ) (est : Ω → List (Option ℝ)),
      (∀ ω, E.estimate E.dx [(0, 0, 0)] (first ω) ((List.range n).map fun k => grids k ω)
        = .ok (mid, est ω)) ∧
      mid.length = K ∧
      ∀ b, b + 1 < K → mid[b]? = some ((b + 1) * E.dx) ∧
        ∃ Y : Ω → ℝ, (∀ ω, (est ω)[b]? = some (some (Y ω))) ∧ Integrable Y μ ∧
          ∫ ω, Y ω ∂μ = C b := by
  refine estimate_lag hy hz hnx hK hdx hn X (fun i => C i) (fun k hk i hi => ?_) first hfirst grids
    hgrids
  have h0 : 0 < E.nx := by omega
  obtain ⟨a1, a2⟩ := hX k hk i hi
  obtain ⟨b1, b2⟩ := hX k hk 0 h0
  obtain ⟨c1, c2⟩ := sq_diff_of_cov a1 b1 a2 b2
  refine ⟨c1, ?_⟩
  rw [c2, hcov k hk i hi i hi, hcov k hk 0 h0 0 h0, hcov k hk i hi 0 h0]
  simp only [sub_self, hC, Nat.cast_zero, sub_zero]
  ring

/-- The array of `dummy_sim` in one dimension. -/
theorem dummySim_holds {E : Ev} (hy : E.ny = 1) (hz : E.nz = 1) (hdx : 0 < E.dx) :
    Holds E E.dummySim fun c => Real.sqrt ((1 - E.v.corr (c.1 * E.dx)) * 2) := by
  refine ⟨rfl, rfl, rfl, by simp [Ev.dummySim], ?_⟩
  intro c hc
  rw [hy, hz, mem_line] at hc
  obtain ⟨i, hi, rfl⟩ := hc
  have hi' : i < E.nx * E.ny * E.nz := by simpa [hy, hz] using hi
  simp only [Ev.dummySim, List.getElem?_map, mul_zero, add_zero, List.getElem?_range hi',
    Option.map_some, cdist_gridPoint]
  rw [Nat.mod_eq_of_lt hi, Nat.div_eq_of_lt hi, Nat.zero_mod, Nat.zero_div, cellDist_line hdx]

/-- **C60, refuted, for every variogram.** With the test data of the class, made so that the estimate
is exact ("no variance, but exact variogram generation"), the number returned with distance
`(b + 1) * dx` is the correlation at `b * dx`. -/
theorem dummy_estimate_refuted {E : Ev} (hy : E.ny = 1) (hz : E.nz = 1) {K : ℕ} (hnx : E.nx = K + 1)
    (hK : 0 < K) (hdx : 0 < E.dx) {t : VType} {p rx ry rz az dp sd : ℝ}
    (hv : Variogram.create t p rx ry rz az dp sd = .ok E.v)
    (hp : t = .generalExponential → 0 < p) {n : ℕ} (hn : 0 < n) :
    ∃ mid est, E.estimate E.dx [(0, 0, 0)] E.dummySim (List.replicate n E.dummySim)
        = .ok (mid, est) ∧
      ∀ b, b + 1 < K → mid[b]? = some ((b + 1) * E.dx) ∧ est[b]? = some (some (E.v.corr (b * E.dx))) := by
  have h0 : E.v.corr 0 = 1 := (corr_zero hv hp).2.2
  have hle : ∀ x, E.v.corr x ≤ 1 := fun x => by
    rw [(corr_arity E.v x 0).2.2]
    exact (corr_bounds hv x 0 0).2
  have hsq : ∀ i : ℕ, (Real.sqrt ((1 - E.v.corr (i * E.dx)) * 2)
      - Real.sqrt ((1 - E.v.corr (((0 : ℕ) : ℝ) * E.dx)) * 2)) ^ 2 = 2 * (1 - E.v.corr (i * E.dx)) := by
    intro i
    rw [Nat.cast_zero, zero_mul, h0, sub_self, zero_mul, Real.sqrt_zero, sub_zero, Real.sq_sqrt]
    · ring
    · have := hle (i * E.dx)
      linarith
  obtain ⟨mid, est, e1, -, e3⟩ := estimate_lag hy hz hnx hK hdx (μ := Measure.dirac ()) hn
    (fun _ i _ => Real.sqrt ((1 - E.v.corr (i * E.dx)) * 2)) (fun i => E.v.corr (i * E.dx))
    (fun k _ i _ => by
      refine ⟨integrable_const _, ?_⟩
      rw [integral_const, hsq]
      simp) (fun _ => E.dummySim) (fun _ => ⟨_, dummySim_holds hy hz hdx⟩) (fun _ _ => E.dummySim)
    (fun _ _ _ => dummySim_holds hy hz hdx)
  refine ⟨mid, est (), ?_, fun b hb => ?_⟩
  · have := e1 ()
    rwa [List.map_const', List.length_range] at this
  · obtain ⟨m, Y, y1, -, y3⟩ := e3 b hb
    refine ⟨m, ?_⟩
    rw [y1 (), ← y3]
    simp

/-- The numbers differ: spherical variogram of range 2, four cells of size 1. The correlation at
distance 2 is 0, the number returned with distance 2 is 5/16. -/
theorem dummy_estimate_witness : ∃ v, Variogram.create .spherical 1 2 2 2 0 0 1 = .ok v ∧
    ∃ mid est, (⟨v, 4, 1, 1, 0, 1, 0, -1, -1, -1⟩ : Ev).estimate 1 [(0, 0, 0)]
        (⟨v, 4, 1, 1, 0, 1, 0, -1, -1, -1⟩ : Ev).dummySim
        [(⟨v, 4, 1, 1, 0, 1, 0, -1, -1, -1⟩ : Ev).dummySim] = .ok (mid, est) ∧
      mid[1]? = some 2 ∧ est[1]? = some (some (5 / 16)) ∧ v.corr 2 = 0 := by
  obtain ⟨v, hv⟩ : ∃ v, Variogram.create .spherical 1 2 2 2 0 0 1 = .ok v := by
    unfold Variogram.create Variogram.estimateFactors
    simp only
    rw [if_neg (by norm_num)]
    exact ⟨_, rfl⟩
  have hc : ∀ x : ℝ, 0 ≤ x → v.corr x = Variogram.corr1D .spherical 1 (x / 2) := by
    intro x hx
    rw [(corr_arity v x 0).2.2, corr_isotropic (by norm_num) hv]
    congr 2
    rw [show x ^ 2 + 0 ^ 2 + 0 ^ 2 = x ^ 2 by ring, Real.sqrt_sq hx]
  refine ⟨v, hv, ?_⟩
  obtain ⟨mid, est, e1, e2⟩ := dummy_estimate_refuted (E := ⟨v, 4, 1, 1, 0, 1, 0, -1, -1, -1⟩) rfl rfl
    (K := 3) rfl (by norm_num) (by norm_num) hv (by simp) (n := 1) one_pos
  obtain ⟨m, s⟩ := e2 1 (by norm_num)
  refine ⟨mid, est, e1, ?_, ?_, ?_⟩
  · rw [m]
    norm_num
  · rw [s]
    simp only [Nat.cast_one, mul_one]
    rw [hc 1 (by norm_num)]
    simp only [Variogram.corr1D]
    rw [if_pos (by norm_num)]
    norm_num
  · rw [hc 2 (by norm_num)]
    simp only [Variogram.corr1D]
    rw [if_neg (by norm_num)]
    norm_num

/-- **C60, partial.** What is true: if the farthest distances of the reference point and of the corner
are multiples of the resolution, the pairs in bin `b` have distances from `b` to `b + 1` times the
resolution, and the reported distance is the upper end. -/
theorem bins_aligned_partial {nx ny nz : ℕ} {dx dy dz res : ℝ} {r c : ℕ × ℕ × ℕ} {K b : ℕ}
    (h0 : 0 < res) (hK : 0 < K)
    (hc : c ∈ binCells nx ny nz dx dy dz r ⌊K * res / res⌋₊ (K * res) b) :
    b * res ≤ cellDist dx dy dz c r ∧ cellDist dx dy dz c r ≤ (b + 1) * res := by
  have hfl : ⌊K * res / res⌋₊ = K := numBins_mul h0
  have hK0 : (K : ℝ) ≠ 0 := by
    rw [Nat.cast_ne_zero]
    omega
  rw [mem_binCells, hfl, InBin, mul_div_cancel_left₀ res hK0] at hc
  obtain ⟨-, h1, h2 | ⟨h2, h3⟩⟩ := hc
  · exact ⟨h1, h2.le⟩
  · refine ⟨h1, ?_⟩
    rw [h3, ← h2]
    push_cast
    exact le_rfl

/-- **C60, refuted.** Without that condition, pairs farther apart than the reported distance are
averaged: a line of 11 cells, resolution 3, reference cell 5. The field is zero but in cell 0, at
distance 5; the number returned with distance 10/3 sees it. -/
theorem bins_aligned_refuted (v : Variogram) :
    ∃ mid est, (⟨v, 11, 1, 1, 0, 1, 0, -1, -1, -1⟩ : Ev).estimate 3 [(5, 0, 0)]
        ⟨11, 1, 1, 1 :: List.replicate 10 0⟩ [⟨11, 1, 1, 1 :: List.replicate 10 0⟩] = .ok (mid, est) ∧
      mid[0]? = some (10 / 3) ∧ est[0]? = some (some (21 / 22)) ∧
      (10 / 3 : ℝ) < cellDist 1 0 0 (0, 0, 0) (5, 0, 0) := by
  set E : Ev := ⟨v, 11, 1, 1, 0, 1, 0, -1, -1, -1⟩ with hE
  have hX : Holds E ⟨11, 1, 1, 1 :: List.replicate 10 0⟩ fun c => if c.1 = 0 then 1 else 0 := by
    refine ⟨rfl, rfl, rfl, by simp [hE], ?_⟩
    intro c hc
    obtain ⟨i, hi, rfl⟩ := mem_line.1 hc
    cases i with
    | zero => rfl
    | succ i =>
      have : i < 10 := by
        have : i + 1 < 11 := hi
        omega
      show (1 :: List.replicate 10 (0 : ℝ))[i + 1 + 11 * (0 + 1 * 0)]? = _
      rw [show i + 1 + 11 * (0 + 1 * 0) = i + 1 by omega, List.getElem?_cons_succ,
        List.getElem?_replicate, if_pos this]
      simp
  choose! F hF using fun (r : ℕ × ℕ × ℕ) (hr : r ∈ cells E.nx E.ny E.nz) =>
    exists_farthest (dx := E.dx) (dy := E.dy) (dz := E.dz) hr
  have hm0 : ((0, 0, 0) : ℕ × ℕ × ℕ) ∈ cells E.nx E.ny E.nz := mem_line.2 ⟨0, by norm_num [hE], rfl⟩
  have hm5 : ((5, 0, 0) : ℕ × ℕ × ℕ) ∈ cells E.nx E.ny E.nz := mem_line.2 ⟨5, by norm_num [hE], rfl⟩
  have hd5 : ∀ i : ℕ, cellDist 1 0 0 (i, 0, 0) (5, 0, 0) = |(i : ℝ) - 5| := by
    intro i
    unfold cellDist
    simp only [one_mul, zero_mul, ne_eq, OfNat.ofNat_ne_zero, not_false_eq_true, zero_pow, add_zero]
    rw [Real.sqrt_sq_eq_abs]
    norm_num
  have hle5 : ∀ i : ℕ, i < 11 → |(i : ℝ) - 5| ≤ 5 := by
    intro i hi
    have : (i : ℝ) ≤ 10 := by exact_mod_cast Nat.le_of_lt_succ hi
    have h0 : (0 : ℝ) ≤ i := Nat.cast_nonneg _
    rw [abs_le]
    constructor <;> linarith
  have hF0 : F (0, 0, 0) = 10 := by
    have := farthest_corner (nx := E.nx) (ny := E.ny) (nz := E.nz) (dx := E.dx) (dy := E.dy)
      (dz := E.dz) (by norm_num [hE]) (by norm_num [hE]) (by norm_num [hE])
    rw [(hF _ hm0).unique this]
    have := cellDist_line (dx := 1) (dy := 0) (dz := 0) one_pos 10
    rw [show ((E.nx - 1, E.ny - 1, E.nz - 1) : ℕ × ℕ × ℕ) = (10, 0, 0) from rfl]
    rw [show E.dx = 1 from rfl, show E.dy = 0 from rfl, show E.dz = 0 from rfl, this]
    norm_num
  have hF5 : F (5, 0, 0) = 5 := by
    refine (hF _ hm5).unique ⟨⟨(0, 0, 0), hm0, ?_⟩, ?_⟩
    · show cellDist 1 0 0 (0, 0, 0) (5, 0, 0) = 5
      rw [hd5]
      norm_num
    · rintro _ ⟨c, hc, rfl⟩
      obtain ⟨i, hi, rfl⟩ := mem_line.1 hc
      show cellDist 1 0 0 (i, 0, 0) (5, 0, 0) ≤ 5
      rw [hd5]
      exact hle5 i hi
  have n0 : ⌊F (0, 0, 0) / 3⌋₊ = 3 := by
    rw [hF0]
    norm_num [Nat.floor_eq_iff]
  have n5 : ⌊F (5, 0, 0) / 3⌋₊ = 1 := by
    rw [hF5]
    norm_num [Nat.floor_eq_iff]
  have hbin : binCells E.nx E.ny E.nz E.dx E.dy E.dz (5, 0, 0) 1 5 0 = cells E.nx E.ny E.nz := by
    ext c
    rw [mem_binCells]
    refine ⟨fun h => h.1, fun hc => ⟨hc, ?_⟩⟩
    obtain ⟨i, hi, rfl⟩ := mem_line.1 hc
    have h := hle5 i hi
    show InBin 1 5 0 (cellDist 1 0 0 (i, 0, 0) (5, 0, 0))
    rw [hd5]
    unfold InBin
    refine ⟨by simp, ?_⟩
    rcases eq_or_lt_of_le h with h | h
    · exact Or.inr ⟨rfl, h⟩
    · exact Or.inl (by simpa using h)
  obtain ⟨mid, est, e1, -, e3⟩ := estimate_expectation (E := E) (fun _ => rfl) (res := 3) (by norm_num)
    hF (refs := [(5, 0, 0)]) (fun r hr => by
      rw [List.mem_singleton] at hr
      subst hr
      exact ⟨hm5, by rw [hF5]; norm_num⟩) hm0 (by rw [hF0]; norm_num) (μ := Measure.dirac ())
    (n := 1) one_pos (fun _ c _ => if c.1 = 0 then 1 else 0)
    (fun c _ => if c.1 = 0 then 1 / 2 else 1) (fun k _ c _ r hr => by
      rw [List.mem_singleton] at hr
      subst hr
      refine ⟨integrable_const _, ?_⟩
      rw [integral_const]
      by_cases hc : c.1 = 0 <;> norm_num [hc]) (fun _ => ⟨11, 1, 1, 1 :: List.replicate 10 0⟩)
    (fun _ => ⟨_, hX⟩) (fun _ _ => ⟨11, 1, 1, 1 :: List.replicate 10 0⟩) (fun _ _ _ => hX)
  obtain ⟨h4, h5⟩ := e3 0 (by rw [n0]; norm_num)
  obtain ⟨Y, y1, -, y3⟩ := h5 (by simp [n5]) (fun r hr _ => by
    rw [List.mem_singleton] at hr
    subst hr
    rw [n5, hF5, hbin]
    exact Finset.ne_empty_of_mem hm5)
  refine ⟨mid, est (), by simpa using e1 (), ?_, ?_, ?_⟩
  · rw [h4, n0, hF0]
    norm_num
  · rw [y1 ()]
    have : Y () = ∫ ω, Y ω ∂(Measure.dirac ()) := by simp
    rw [this, y3]
    simp only [List.filter_cons, n5, List.filter_nil]
    simp only [Nat.lt_one_iff, decide_true, if_true, List.map_cons, List.map_nil, List.sum_cons,
      List.sum_nil, List.length_cons, List.length_nil, add_zero, zero_add, Nat.cast_one, div_one]
    rw [n5, hF5, hbin]
    rw [show cells E.nx E.ny E.nz = cells 11 1 1 from rfl]
    unfold avg cells
    rw [Finset.sum_product]
    simp only [Finset.card_product, Finset.card_range, Finset.sum_const, Finset.sum_range_succ,
      Finset.sum_range_zero]
    norm_num
  · have := hd5 0
    rw [this]
    norm_num

/-! ## C61: reference points -/

theorem everyNth_get {α : Type} {step : ℕ} (hs : 0 < step) (l : List α) (n i : ℕ) :
    (everyNth step n l)[i]? = l[n + i * step]? := by
  induction l generalizing n i with
  | nil => simp [everyNth]
  | cons x l ih =>
    cases n with
    | zero =>
      rw [everyNth]
      cases i with
      | zero => simp
      | succ i =>
        rw [List.getElem?_cons_succ, ih]
        have : 0 + (i + 1) * step = (step - 1 + i * step) + 1 := by
          rw [Nat.add_mul]
          omega
        rw [this, List.getElem?_cons_succ]
    | succ n =>
      rw [everyNth, ih]
      have : n + 1 + i * step = (n + i * step) + 1 := by omega
      rw [this, List.getElem?_cons_succ]

theorem everyNth_length {α : Type} {step : ℕ} (hs : 0 < step) (l : List α) (i : ℕ) :
    i < (everyNth step 0 l).length ↔ i * step < l.length := by
  have := everyNth_get hs l 0 i
  rw [zero_add] at this
  constructor
  · intro h
    by_contra hn
    rw [List.getElem?_eq_none (by omega : l.length ≤ i * step), List.getElem?_eq_getElem h] at this
    exact absurd this (by simp)
  · intro h
    by_contra hn
    rw [List.getElem?_eq_none (by omega : (everyNth step 0 l).length ≤ i),
      List.getElem?_eq_getElem h] at this
    exact absurd this.symm (by simp)

/-- **C61, all cells.** The strategy `all` lists every cell of the grid exactly once. -/
theorem pick_all (E : Ev) : ∃ l, E.pickReferencePoints .all = .ok l ∧ l.Nodup ∧
    (∀ c, c ∈ l ↔ c.1 < E.nx ∧ c.2.1 < E.ny ∧ c.2.2 < E.nz) ∧ l.length = E.nx * E.ny * E.nz := by
  refine ⟨_, rfl, nodup_gridIndexes _ _ _, fun c => ?_, length_gridIndexes _ _ _⟩
  rw [mem_gridIndexes]
  simp [cells]

/-- **C61, one cell.** `origo` and `center` give one cell of the grid. -/
theorem pick_one (E : Ev) (hx : 0 < E.nx) (hy : 0 < E.ny) (hz : 0 < E.nz) :
    (∃ c ∈ cells E.nx E.ny E.nz, E.pickReferencePoints .origo = .ok [c]) ∧
    ∃ c ∈ cells E.nx E.ny E.nz, E.pickReferencePoints .center = .ok [c] ∧
      E.nx = 2 * c.1 + E.nx % 2 ∧ E.ny = 2 * c.2.1 + E.ny % 2 ∧ E.nz = 2 * c.2.2 + E.nz % 2 := by
  refine ⟨⟨_, ?_, rfl⟩, _, ?_, rfl, ?_⟩
  · simp [cells, hx, hy, hz]
  · simp only [cells, Finset.mem_product, Finset.mem_range]
    omega
  · simp only
    omega

/-- **C61, regular.** With `1 ≤ n ≤` number of cells, `regular` gives distinct cells of the grid, at
least `n` and less than `2 n` of them. -/
theorem pick_regular (E : Ev) {n : ℕ} (hn : 0 < n) (hle : n ≤ E.nx * E.ny * E.nz) :
    ∃ l, E.pickReferencePoints (.regular n 0) = .ok l ∧ l.Nodup ∧
      (∀ c ∈ l, c ∈ cells E.nx E.ny E.nz) ∧ n ≤ l.length ∧ l.length < 2 * n := by
  set L := E.nx * E.ny * E.nz with hL
  have hstep : 0 < L / n := Nat.div_pos hle hn
  have hlen : (gridIndexes E.nx E.ny E.nz).length = L := length_gridIndexes _ _ _
  refine ⟨everyNth (L / n) 0 (gridIndexes E.nx E.ny E.nz), ?_, ?_, ?_, ?_, ?_⟩
  · simp only [Ev.pickReferencePoints, if_neg hn.ne', slice, hlen, if_neg hstep.ne', List.drop_zero]
  · rw [List.nodup_iff_injective_getElem]
    intro a b hab
    have ha := everyNth_get hstep (gridIndexes E.nx E.ny E.nz) 0 a
    have hb := everyNth_get hstep (gridIndexes E.nx E.ny E.nz) 0 b
    have ha' := (everyNth_length hstep _ _).1 a.2
    have hb' := (everyNth_length hstep _ _).1 b.2
    simp only [zero_add] at ha hb
    rw [List.getElem?_eq_getElem a.2, List.getElem?_eq_getElem ha'] at ha
    rw [List.getElem?_eq_getElem b.2, List.getElem?_eq_getElem hb'] at hb
    have hh : (gridIndexes E.nx E.ny E.nz)[(a : ℕ) * (L / n)] = (gridIndexes E.nx E.ny E.nz)[(b : ℕ) * (L / n)] := by
      rw [← Option.some.inj ha, ← Option.some.inj hb]
      exact hab
    have := (nodup_gridIndexes E.nx E.ny E.nz).getElem_inj_iff.1 hh
    exact Fin.ext (Nat.eq_of_mul_eq_mul_right hstep this)
  · intro c hc
    obtain ⟨i, hi⟩ := List.mem_iff_getElem?.1 hc
    rw [everyNth_get hstep] at hi
    exact mem_gridIndexes.1 (List.mem_of_getElem? hi)
  · have : n - 1 < (everyNth (L / n) 0 (gridIndexes E.nx E.ny E.nz)).length := by
      rw [everyNth_length hstep, hlen]
      calc (n - 1) * (L / n) < n * (L / n) := Nat.mul_lt_mul_of_pos_right (by omega) hstep
        _ ≤ L := Nat.mul_div_le L n
    omega
  · by_contra hcon
    have h : 2 * n - 1 < (everyNth (L / n) 0 (gridIndexes E.nx E.ny E.nz)).length := by omega
    rw [everyNth_length hstep, hlen] at h
    have h1 : L < n * (L / n) + n := by
      have := Nat.div_add_mod L n
      have := Nat.mod_lt L hn
      omega
    have h2 : (n - 1) * 1 ≤ (n - 1) * (L / n) := Nat.mul_le_mul_left _ hstep
    have h3 : (2 * n - 1) * (L / n) = n * (L / n) + (n - 1) * (L / n) := by
      rw [← Nat.add_mul]
      congr 1
      omega
    omega

/-- **C61, too many.** Asking for more points than there are cells is an error, not an approximation. -/
theorem pick_regular_many (E : Ev) {n : ℕ} (h : E.nx * E.ny * E.nz < n) (offset : ℕ) :
    E.pickReferencePoints (.regular n offset) = .throws "ValueError" := by
  simp only [Ev.pickReferencePoints, if_neg (by omega : n ≠ 0), slice, length_gridIndexes,
    Nat.div_eq_of_lt h, if_true]

/-- The hypotheses of `pick_regular` are met: 60 of 100 cells gives 100 of them. -/
example (v : Variogram) : ∃ l, (⟨v, 10, 1, 10, 1, 1, 0, -1, -1, -1⟩ : Ev).pickReferencePoints
    (.regular 60 0) = .ok l ∧ l.length = 100 := by
  refine ⟨everyNth 1 0 (gridIndexes 10 10 1), ?_, by decide +kernel⟩
  simp [Ev.pickReferencePoints, slice, length_gridIndexes]

/-! ## C62: names -/

/-- **C62.** Every member of `VariogramType` is accepted and selects its own type: the same object as
its name as a string, and no two members give the same type. -/
theorem variogram_members (m : VariogramType) (rx ry rz az dp p : ℝ) :
    variogram (.member m) rx ry rz az dp p = variogram (.str m.value) rx ry rz az dp p ∧
    ∀ v, variogram (.member m) rx ry rz az dp p = .ok v → v.type = (match m with
      | .GAUSSIAN => .gaussian
      | .EXPONENTIAL => .exponential
      | .GENERAL_EXPONENTIAL => .generalExponential
      | .SPHERICAL => .spherical
      | .MATERN_32 => .matern32
      | .MATERN_52 => .matern52
      | .MATERN_72 => .matern72
      | .CONSTANT => .constant) := by
  refine ⟨rfl, fun v hv => ?_⟩
  have hs : IsAscii m.value.toList := by
    cases m <;> (unfold IsAscii; decide +kernel)
  rw [createVariogram_type hs hv]
  cases m <;> decide +kernel

/-- **C62, refuted.** `from gaussianfft import *` fails: `__all__` names classes that do not exist. -/
theorem starImport_refuted : starImport = .throws "AttributeError" ∧
    ∀ n ∈ exported, n ∉ packageNames → n ∉ submodules → n = "SizeTVector" ∨ n = "DoubleVector" := by
  exact ⟨rfl, by decide +kernel⟩

end Verif.Py
