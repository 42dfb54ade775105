import Verif.Props.PadAnalyzer
import Verif.Props.ApiRun

/-!
# C75 in one dimension: what the deviations mean
-/

namespace Verif.Py

open Spec MeasureTheory ProbabilityTheory

/-- **C75, the rows in one dimension.** With one dimension and resolution factor 1 (the defaults) and
`n = K + 1` cells of size `d`, entry `b` of a row (but the last) compares the estimate for the lag
`b * d` with the correlation at `(b + 1) * d`. The first entry is `1 - corr(d)` in every row, whatever
the padding, the seed and the number of fields. -/
theorem padAnalyzer_line_partial {S : Setup} {e : ℕ → ℕ → Env} {a : PadArgs} {s s' : Random}
    {q : PadResult} (h : padAnalyzer S e a s = .ok (q, s')) (hdim : a.dims = 1) (hf : a.factor = 1)
    (hL : 0 < a.length) {K : ℕ} (hn : a.cells = K + 1) (hK : 2 ≤ K) {i j : ℕ} {r : ℝ} {p : ℤ}
    (hi : a.ranges[i]? = some r) (hj : a.outputPadding[j]? = some p) :
    ∃ (v : Variogram) (row : List (Option ℝ)) (fields : List (ℕ → ℝ)),
      variogram a.vtype (r * a.length) (-1.0) (-1.0) 0.0 0.0 1.5 = .ok v ∧
      q.deltas[j * a.ranges.length + i]? = some row ∧ row.length = K ∧
      (fields.length : ℤ) = 10 * ((a.fields - 1) / 10) + 1 ∧
      (∀ X ∈ fields, ∃ e t out t', advancedSimulate S e v a.cells a.d 1 0 1 0 p p p 1 1 1 t
        = .ok (out, t') ∧ ∀ i < a.cells, X i = out.getD i 0) ∧
      (∀ b : ℕ, b + 1 < K → row[b]? = some (some
        ((fields.map fun X => 1 - (X b - X 0) ^ 2 / 2).sum / (fields.length : ℝ)
          - v.corr ((b + 1) * a.d)))) ∧
      row[0]? = some (some (1 - v.corr a.d)) := by
  obtain ⟨-, -, -, w, -, -, H⟩ := padAnalyzer_entries h
  obtain ⟨E, first, grids, mid, est, row, c1, c2, c3, c4, c5, c6, c7, c8⟩ := H i r j p hi hj
  rcases createVariograms_grid c1 with ⟨-, hv, hE⟩ | ⟨h2, -, -⟩
  swap
  · omega
  have hc0 : (0 : ℝ) < a.cells := by
    rw [hn]
    positivity
  have hd : 0 < a.d := by
    unfold PadArgs.d
    positivity
  have hdr : a.dr = a.d := by
    unfold PadArgs.dr
    rw [hf, one_mul]
  have ex : E.dx = a.d := by rw [hE]
  have enx : E.nx = a.cells := by rw [hE]
  have eny : E.ny = 1 := by rw [hE]
  have enz : E.nz = 1 := by rw [hE]
  have edy : E.dy = 0 := by rw [hE]
  have edz : E.dz = 0 := by rw [hE]
  have epx : E.px = p := by rw [hE]
  have epy : E.py = p := by rw [hE]
  have epz : E.pz = p := by rw [hE]
  have hh : ∀ g ∈ first :: grids, ∃ X : ℕ → ℝ, Holds E g (fun c => X c.1) ∧
      ∃ e t out t', advancedSimulate S e E.v a.cells a.d 1 0 1 0 p p p 1 1 1 t = .ok (out, t') ∧
        ∀ i < a.cells, X i = out.getD i 0 := by
    intro g hg
    obtain ⟨e, t, t', hs⟩ := c2 g hg
    obtain ⟨out, h1, h2⟩ := evSimulate_holds hs
    rw [enx, ex, eny, enz, edy, edz, epx, epy, epz] at h1
    refine ⟨fun i => out.getD i 0, ?_, e, t, out, t', h1, fun i _ => rfl⟩
    obtain ⟨k1, k2, k3, k4, k5⟩ := h2
    refine ⟨k1, k2, k3, k4, fun c hc => ?_⟩
    rw [k5 c hc]
    rw [eny, enz] at hc
    obtain ⟨i, -, rfl⟩ := mem_line.1 hc
    simp
  choose! X hX1 hX2 using hh
  set used := grids.take (10 * ((grids.length - 1) / 10) + 1) with hused
  have hN : 0 < grids.length := by
    by_contra hc
    have : grids = [] := List.length_eq_zero_iff.1 (by omega)
    rw [this] at c3
    have := pyOr_ne a.nmax (d := (600 : ℤ)) (by norm_num)
    exact this c3.symm
  have hul : used.length = 10 * ((grids.length - 1) / 10) + 1 := by
    rw [hused, List.length_take]
    omega
  have hmem : ∀ g ∈ used, g ∈ first :: grids := fun g hg =>
    List.mem_cons_of_mem _ (List.mem_of_mem_take hg)
  obtain ⟨mid', est', y1, y2, y3, y4⟩ := estimate_line (E := E) eny enz (K := K) (by rw [enx, hn])
    (by omega) (by rw [ex]; exact hd) (hX1 first (by simp)) (grids := used)
    (by
      intro h0
      rw [h0] at hul
      simp at hul)
    (X := fun g c => X g c.1) (fun g hg => hX1 g (hmem g hg))
  rw [ex, ← hdr, c4] at y1
  simp only [Res.ok.injEq, Prod.mk.injEq] at y1
  obtain ⟨rfl, rfl⟩ := y1
  have hb : ∀ b : ℕ, b + 1 < K → row[b]? = some (some
      (((used.map X).map fun X => 1 - (X b - X 0) ^ 2 / 2).sum / ((used.map X).length : ℝ)
          - E.v.corr ((b + 1) * a.d))) := by
    intro b hb
    obtain ⟨y, z1, z2⟩ := c8 b _ (y3 b (by omega))
    rw [y4 b hb] at z1
    simp only [Option.some.injEq] at z1
    rw [z2, ← z1, List.map_map, List.length_map, ex]
    rfl
  refine ⟨E.v, row, used.map X, hv, c5, c6.trans (c7.symm.trans y2), ?_, ?_, hb, ?_⟩
  · rw [List.length_map, hul, ← c3]
    omega
  · intro Y hY
    obtain ⟨g, hg, rfl⟩ := List.mem_map.1 hY
    exact hX2 g (hmem g hg)
  · rw [hb 0 (by omega)]
    have hz : ((used.map X).map fun X => 1 - (X 0 - X 0) ^ 2 / 2).sum = ((used.map X).length : ℝ) := by
      have : (fun X : ℕ → ℝ => 1 - (X 0 - X 0) ^ 2 / 2) = fun _ => 1 := by
        funext X
        simp
      rw [this, List.map_const', List.sum_replicate]
      simp
    have hl0 : ((used.map X).length : ℝ) ≠ 0 := by
      rw [List.length_map, hul]
      positivity
    rw [hz, div_self hl0]
    simp

/-- **C75, the grid in one dimension.** The attribute `grid` holds `K` equally spaced numbers from 0 to
`K * d`; none of them but the last is the distance `(b + 1) * d` of the estimate in column `b`. -/
theorem padAnalyzer_grid_refuted {S : Setup} {e : ℕ → ℕ → Env} {a : PadArgs} {s s' : Random}
    {q : PadResult} (h : padAnalyzer S e a s = .ok (q, s')) (hdim : a.dims = 1) (hf : a.factor = 1)
    (hL : 0 < a.length) {K : ℕ} (hn : a.cells = K + 1) (hK : 2 ≤ K) (hr : a.ranges ≠ [])
    (hp : a.paddings ≠ []) :
    q.grid.length = K ∧ ∀ b : ℕ, b + 1 < K → ∃ x, q.grid[b]? = some x ∧
      x = b * (K * a.d / (K - 1)) ∧ x ≠ (b + 1) * a.d := by
  obtain ⟨-, -, -, w, g1, g2, H⟩ := padAnalyzer_entries h
  obtain ⟨r, hi⟩ : ∃ r, a.ranges[0]? = some r := by
    cases hh : a.ranges with
    | nil => exact absurd hh hr
    | cons x l => exact ⟨x, rfl⟩
  obtain ⟨p, hj⟩ : ∃ p, a.outputPadding[0]? = some p := by
    unfold PadArgs.outputPadding
    cases hh : a.paddings with
    | nil => exact absurd hh hp
    | cons x l => exact ⟨_, rfl⟩
  obtain ⟨E, first, grids, mid, est, row, -, -, -, -, c5, c6, -⟩ := H 0 r 0 p hi hj
  obtain ⟨v, row', fields, -, d2, d3, -⟩ := padAnalyzer_line_partial h hdim hf hL hn hK hi hj
  rw [c5] at d2
  simp only [Option.some.injEq] at d2
  subst d2
  have hw : w = K := c6.symm.trans d3
  subst hw
  refine ⟨g1, fun b hb => ⟨_, g2 b (by omega), ?_, ?_⟩⟩
  · rw [Nat.cast_sub (by omega)]
    simp
  · have hc0 : (0 : ℝ) < a.cells := by
      rw [hn]
      positivity
    have hd : 0 < a.d := by
      unfold PadArgs.d
      positivity
    rw [Nat.cast_sub (by omega)]
    have hw1 : (0 : ℝ) < (w : ℝ) - 1 := by
      have : (2 : ℝ) ≤ w := by exact_mod_cast hK
      linarith
    have hbw : (b : ℝ) + 1 < w := by exact_mod_cast hb
    intro hx
    rw [Nat.cast_one, mul_div_assoc', div_eq_iff hw1.ne'] at hx
    have h2 : (b : ℝ) * w = (b + 1) * (w - 1) := by
      have : (b : ℝ) * w * a.d = (b + 1) * (w - 1) * a.d := by linarith
      exact mul_right_cancel₀ hd.ne' this
    nlinarith

/-- **C75, expectation of the differences.** For fields on a line with mean 0, variance 1 and covariance
`C`, difference `m` at the distance `(b + 1) * dx` has the expectation `C(b) - corr((b + 1) dx)`; it
would be 0 for fields with the right covariance only if neighbouring lags had the same correlation. -/
theorem convergence_expectation_partial {E : Ev} (hy : E.ny = 1) (hz : E.nz = 1) {K : ℕ}
    (hnx : E.nx = K + 1) (hK : 0 < K) (hdx : 0 < E.dx)
    {Ω : Type} [MeasurableSpace Ω] {μ : Measure Ω} [IsProbabilityMeasure μ] {N t : ℕ} (hN : 0 < N)
    (ht : 0 < t) (X : ℕ → ℕ → Ω → ℝ) (C : ℤ → ℝ) (hC : C 0 = 1)
    (hX : ∀ k < N, ∀ i < E.nx, MemLp (X k i) 2 μ ∧ ∫ ω, X k i ω ∂μ = 0)
    (hcov : ∀ k < N, ∀ i < E.nx, ∀ i' < E.nx, cov[X k i, X k i'; μ] = C ((i : ℤ) - i'))
    (first second : Ω → Arr3) (hfirst : ∀ ω, ∃ Y, Holds E (first ω) Y)
    (hsecond : ∀ ω, ∃ Y, Holds E (second ω) Y) (grids : ℕ → Ω → Arr3)
    (hgrids : ∀ k < N, ∀ ω, Holds E (grids k ω) fun c => X k c.1 ω) :
    ∃ r : Ω → Estimated,
      (∀ ω, E.estimateConv E.dx [(0, 0, 0)] t (first ω) (second ω)
        ((List.range N).map fun k => grids k ω) = .ok (r ω)) ∧
      (∀ ω, (r ω).deltas.length = (N + t - 1) / t) ∧
      ∀ m b : ℕ, m * t < N → b + 1 < K → ∃ Y : Ω → ℝ,
        (∀ ω, (r ω).mid[b]? = some ((b + 1) * E.dx) ∧
          ∃ row, (r ω).deltas[m]? = some row ∧ row[b]? = some (some (Y ω))) ∧
        Integrable Y μ ∧ ∫ ω, Y ω ∂μ = C b - E.v.corr ((b + 1) * E.dx) := by
  obtain ⟨mid, est, h1, h2, -⟩ := estimate_lag_of_cov hy hz hnx hK hdx hN X C hC hX hcov first hfirst
    grids hgrids
  have h0 : ((0, 0, 0) : ℕ × ℕ × ℕ) ∈ cells E.nx E.ny E.nz := by
    rw [hy, hz, mem_line]
    exact ⟨0, by omega, rfl⟩
  have hfar := farthest_corner (nx := E.nx) (ny := E.ny) (nz := E.nz) (dx := E.dx) (dy := E.dy)
      (dz := E.dz) (by omega) (by omega) (by omega)
  have hM : cellDist E.dx E.dy E.dz (E.nx - 1, E.ny - 1, E.nz - 1) (0, 0, 0) = K * E.dx := by
    rw [hy, hz, hnx]
    exact cellDist_line hdx K
  rw [hM] at hfar
  have hres : E.dx ≤ K * E.dx := by
    have : (1 : ℝ) ≤ K := by exact_mod_cast hK
    nlinarith
  have hr : ∀ ω, ∃ r, E.estimateConv E.dx [(0, 0, 0)] t (first ω) (second ω)
      ((List.range N).map fun k => grids k ω) = .ok r ∧ r.mid = mid ∧ r.est = est ω := by
    intro ω
    obtain ⟨Y, hY⟩ := hsecond ω
    obtain ⟨mid', e1, -⟩ := midpoints_upper (E := E) (fun _ => hz) hdx hY h0 hfar hres
    exact convergence_ok (h1 ω) e1 t
  choose r hr1 hr2 hr3 using hr
  refine ⟨r, hr1, fun ω => ?_, fun m b hm hb => ?_⟩
  · obtain ⟨-, k2, -⟩ := convergence_deltas ht (hr1 ω)
    simpa using k2
  · obtain ⟨midm, estm, k1, k2, k3⟩ := estimate_lag_of_cov (n := m * t + 1) hy hz hnx hK hdx (by omega)
      X C hC (fun k hk => hX k (by omega)) (fun k hk => hcov k (by omega)) first hfirst grids
      (fun k hk => hgrids k (by omega))
    obtain ⟨k4, Y, k5, k6, k7⟩ := k3 b hb
    refine ⟨fun ω => Y ω - E.v.corr ((b + 1) * E.dx), fun ω => ?_, k6.sub (integrable_const _), ?_⟩
    · obtain ⟨-, -, d3⟩ := convergence_deltas ht (hr1 ω)
      obtain ⟨es, row, d4, d5, d6, d7⟩ := d3 m (by simpa using hm)
      have htake : ((List.range N).map fun k => grids k ω).take (m * t + 1)
          = (List.range (m * t + 1)).map fun k => grids k ω := by
        rw [← List.map_take, List.take_range, min_eq_left (by omega)]
      rw [htake, k1 ω] at d4
      simp only [Res.ok.injEq, Prod.mk.injEq] at d4
      obtain ⟨d41, d42⟩ := d4
      rw [d41] at k4
      obtain ⟨y, d8, d9⟩ := d7 b _ k4
      rw [← d42, k5 ω] at d8
      simp only [Option.some.injEq] at d8
      refine ⟨k4, row, d5, ?_⟩
      rw [d9, ← d8]
      rfl
    · rw [integral_sub k6 (integrable_const _), k7]
      simp

end Verif.Py
