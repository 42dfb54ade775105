import Verif.Lemmas.PadAnalyzer
import Verif.Props.EmpiricalLag
import Verif.Props.ApiSeed

/-!
# C75: convergence of the estimate and the analysis of paddings
-/

namespace Verif.Py

open Spec MeasureTheory
open Spec.Mt (seedState)

/-! ## The convergence analysis -/

/-- **C75, convergence analysis.** With `analyze_convergence = t > 0`, entry `m` of the differences is
what the estimate from the first `m * t + 1` fields alone would be, minus the correlation at the
distances that are returned. There are `⌈N / t⌉` entries for `N` fields, and the estimate is the one
without the analysis. -/
theorem convergence_deltas {E : Ev} {res : ℝ} {refs : List (ℕ × ℕ × ℕ)} {t : ℕ} (ht : 0 < t)
    {first second : Arr3} {grids : List Arr3} {r : Estimated}
    (h : E.estimateConv res refs t first second grids = .ok r) :
    E.estimate res refs first grids = .ok (r.mid, r.est) ∧
    r.deltas.length = (grids.length + t - 1) / t ∧
    ∀ m, m * t < grids.length → ∃ est row,
      E.estimate res refs first (grids.take (m * t + 1)) = .ok (r.mid, est) ∧
      r.deltas[m]? = some row ∧ row.length = r.mid.length ∧
      ∀ (b : ℕ) (x : ℝ), r.mid[b]? = some x → ∃ a : Option ℝ, est[b]? = some a ∧
        row[b]? = some (a.map fun y => y - E.v.corr x) := by
  unfold Ev.estimateConv at h
  simp only [Res.monad_bind_eq] at h
  obtain ⟨mid, e1, h⟩ := Res.bind_eq_ok.1 h
  obtain ⟨mid', e2, h⟩ := Res.bind_eq_ok.1 h
  have := midpoints_unique e1 e2
  subst this
  obtain ⟨⟨sum, n, ds⟩, e3, h⟩ := Res.bind_eq_ok.1 h
  simp only [Res.ok.injEq] at h
  subst h
  obtain ⟨P, hP, hd⟩ := convLoop_deltas e3
  have hfilt : ((List.range grids.length).filter fun k =>
        decide (0 < (t : ℤ) ∧ ((0 + k : ℕ) : ℤ) % (t : ℤ) = 0))
      = (List.range ((grids.length + t - 1) / t)).map fun m => m * t := by
    rw [← filter_multiples ht]
    refine List.filter_congr fun k _ => ?_
    have : (0 : ℤ) < t := by exact_mod_cast ht
    simp only [this, true_and, zero_add]
    congr 1
    rw [eq_iff_iff]
    norm_cast
  rw [hfilt, List.nil_append, List.map_map] at hd
  refine ⟨?_, by simp [hd], fun m hm => ?_⟩
  · have := convLoop_fst E res refs t (mid.map E.v.corr) 0 grids (mid.map fun _ => some 0)
      (mid.map fun _ => 0) []
    rw [e3, Res.bind_ok] at this
    unfold Ev.estimate
    simp only [Res.monad_bind_eq, e1, Res.bind_ok, ← this]
  · obtain ⟨nk, ek⟩ := hP (m * t + 1) hm
    have hm' : m < (grids.length + t - 1) / t := by
      rw [Nat.lt_div_iff_mul_lt ht]
      omega
    have hl : (grids.take (m * t + 1)).length = m * t + 1 := by
      rw [List.length_take]
      omega
    have hlen : (P (m * t + 1)).length = mid.length := by
      rw [simLoop_length ek, List.length_map]
    refine ⟨(P (m * t + 1)).map fun a => nanDiv a (m * t + 1),
      feedDelta ((P (m * t + 1)).map fun a => nanDiv a (m * t + 1)) (mid.map E.v.corr), ?_, ?_, ?_,
      fun b x hb => ?_⟩
    · unfold Ev.estimate
      simp only [Res.monad_bind_eq, e1, Res.bind_ok, ek, hl]
    · simp only [hd, List.getElem?_map, List.getElem?_range hm', Option.map_some, Function.comp,
        zero_add]
    · simp [feedDelta, hlen]
    · obtain ⟨hb1, -⟩ := List.getElem?_eq_some_iff.1 hb
      have hb2 : b < (P (m * t + 1)).length := by rw [hlen]; exact hb1
      refine ⟨nanDiv ((P (m * t + 1))[b]) (m * t + 1), ?_, ?_⟩
      · simp [List.getElem?_eq_getElem hb2]
      · simp only [feedDelta, List.getElem?_zipWith, List.getElem?_map, hb, Option.map_some,
          List.getElem?_eq_getElem hb2]

/-- **C75, convergence analysis off.** If `analyze_convergence` is not positive, nothing is fed. -/
theorem convergence_off {E : Ev} {res : ℝ} {refs : List (ℕ × ℕ × ℕ)} {t : ℤ} (ht : t ≤ 0)
    {first second : Arr3} {grids : List Arr3} {r : Estimated}
    (h : E.estimateConv res refs t first second grids = .ok r) :
    E.estimate res refs first grids = .ok (r.mid, r.est) ∧ r.deltas = [] := by
  unfold Ev.estimateConv at h
  simp only [Res.monad_bind_eq] at h
  obtain ⟨mid, e1, h⟩ := Res.bind_eq_ok.1 h
  obtain ⟨mid', e2, h⟩ := Res.bind_eq_ok.1 h
  obtain ⟨⟨sum, n, ds⟩, e3, h⟩ := Res.bind_eq_ok.1 h
  simp only [Res.ok.injEq] at h
  subst h
  obtain ⟨P, -, hd⟩ := convLoop_deltas e3
  refine ⟨?_, ?_⟩
  · have := convLoop_fst E res refs t (mid'.map E.v.corr) 0 grids (mid.map fun _ => some 0)
      (mid.map fun _ => 0) []
    rw [e3, Res.bind_ok] at this
    unfold Ev.estimate
    simp only [Res.monad_bind_eq, e1, Res.bind_ok, ← this]
  · rw [hd, List.nil_append, List.filter_eq_nil_iff.2, List.map_nil]
    intro k _
    simp only [decide_eq_true_eq, not_and]
    intro h
    omega

/-- The analysis does not make an estimate fail. -/
theorem convergence_ok {E : Ev} {res : ℝ} {refs : List (ℕ × ℕ × ℕ)} {first second : Arr3}
    {grids : List Arr3} {mid mid' : List ℝ} {est : List (Option ℝ)}
    (h : E.estimate res refs first grids = .ok (mid, est)) (h2 : E.midpoints res second = .ok mid')
    (t : ℤ) : ∃ r, E.estimateConv res refs t first second grids = .ok r ∧ r.mid = mid ∧
      r.est = est := by
  unfold Ev.estimate at h
  simp only [Res.monad_bind_eq] at h
  obtain ⟨m, e1, h⟩ := Res.bind_eq_ok.1 h
  obtain ⟨⟨sum, n⟩, e3, h⟩ := Res.bind_eq_ok.1 h
  simp only [Res.ok.injEq, Prod.mk.injEq] at h
  obtain ⟨rfl, rfl⟩ := h
  rw [← convLoop_fst E res refs t (mid'.map E.v.corr) 0 grids (m.map fun _ => some 0)
      (m.map fun _ => 0) []] at e3
  obtain ⟨⟨s', n', ds⟩, e4, e5⟩ := Res.bind_eq_ok.1 e3
  simp only [Res.ok.injEq, Prod.mk.injEq] at e5
  unfold Ev.estimateConv
  simp only [Res.monad_bind_eq, e1, h2, Res.bind_ok, e4]
  exact ⟨_, rfl, rfl, by rw [e5.1]⟩

/-! ## Estimates on a line, field by field -/

/-- With a resolution of one cell and the first cell as reference point, the estimate of `N` fields on
a line is the mean of `1 - (X(b) - X(0))² / 2`, for all bins but the last, returned with the distance
`(b + 1) * dx`. -/
theorem estimate_line {E : Ev} (hy : E.ny = 1) (hz : E.nz = 1) {K : ℕ} (hnx : E.nx = K + 1)
    (hK : 0 < K) (hdx : 0 < E.dx) {first : Arr3} {Y : ℕ × ℕ × ℕ → ℝ} (hfirst : Holds E first Y)
    {grids : List Arr3} (hne : grids ≠ []) {X : Arr3 → ℕ × ℕ × ℕ → ℝ}
    (hX : ∀ g ∈ grids, Holds E g (X g)) :
    ∃ mid est, E.estimate E.dx [(0, 0, 0)] first grids = .ok (mid, est) ∧ mid.length = K ∧
      (∀ b < K, mid[b]? = some ((b + 1) * E.dx)) ∧
      ∀ b, b + 1 < K → est[b]? = some (some
        ((grids.map fun g => 1 - (X g (b, 0, 0) - X g (0, 0, 0)) ^ 2 / 2).sum
          / (grids.length : ℝ))) := by
  choose! F hF using fun (r : ℕ × ℕ × ℕ) (hr : r ∈ cells E.nx E.ny E.nz) =>
    exists_farthest (dx := E.dx) (dy := E.dy) (dz := E.dz) hr
  have h0 : ((0, 0, 0) : ℕ × ℕ × ℕ) ∈ cells E.nx E.ny E.nz := by
    rw [hy, hz, mem_line]
    exact ⟨0, by omega, rfl⟩
  have hF0 : F (0, 0, 0) = K * E.dx := by
    have := farthest_corner (nx := E.nx) (ny := E.ny) (nz := E.nz) (dx := E.dx) (dy := E.dy)
      (dz := E.dz) (by omega) (by omega) (by omega)
    rw [(hF _ h0).unique this, hy, hz, hnx]
    exact cellDist_line hdx K
  have hres : E.dx ≤ F (0, 0, 0) := by
    rw [hF0]
    have : (1 : ℝ) ≤ K := by exact_mod_cast hK
    nlinarith
  have hfl : numBins (F (0, 0, 0)) E.dx = K := by
    rw [hF0]
    exact numBins_mul hdx
  have hK0 : (K : ℝ) ≠ 0 := by
    rw [Nat.cast_ne_zero]
    omega
  have em := midpoints_eq (E := E) (fun _ => hz) hdx hF hfirst h0 hres
  obtain ⟨g', es⟩ := simLoop_eq (E := E) (fun _ => hz) hdx hF (fun g => g) X (ks := grids) hX
    (refs := [(0, 0, 0)]) (fun r hr => by
      rw [List.mem_singleton] at hr
      subst hr
      exact ⟨h0, hres⟩) (fun _ => some 0) (fun _ => 0)
  rw [hfl] at em es
  have hN : grids.length ≠ 0 := by simpa using hne
  unfold Ev.estimate
  rw [em]
  simp only [Res.monad_bind_eq, Res.bind_ok, List.map_map, Function.comp_def]
  rw [List.map_id'] at es
  rw [es, Res.bind_ok]
  refine ⟨_, _, rfl, by simp, fun b hb => ?_, fun b hb => ?_⟩
  · simp only [List.getElem?_map, List.getElem?_range hb, Option.map_some]
    rw [hF0, mul_div_cancel_left₀ _ hK0]
  · have hbK : b < K := by omega
    have hbin : binCells E.nx E.ny E.nz E.dx E.dy E.dz (0, 0, 0) K (F (0, 0, 0)) b = {(b, 0, 0)} := by
      rw [hF0, hy, hz]
      exact binCells_line hdx hnx hb
    have hc : ∀ g : Arr3, contrib E E.dx F (X g) (0, 0, 0) b
        = some (1 - (X g (b, 0, 0) - X g (0, 0, 0)) ^ 2 / 2) := by
      intro g
      unfold contrib
      rw [hfl, if_pos hbK, hbin, if_neg (by simp)]
      simp [avg]
    have hk : ∀ g : Arr3, nanDiv (nanSum (some 0) ([((0, 0, 0) : ℕ × ℕ × ℕ)].map fun r =>
          contrib E E.dx F (X g) r b))
            ([((0, 0, 0) : ℕ × ℕ × ℕ)].filter fun r => decide (b < numBins (F r) E.dx)).length
        = some (1 - (X g (b, 0, 0) - X g (0, 0, 0)) ^ 2 / 2) := by
      intro g
      simp only [List.map_cons, List.map_nil, hc, List.filter_cons, hfl, hbK, decide_true, if_true,
        List.filter_nil, List.length_cons, List.length_nil]
      simp [nanSum, nanAdd, nanDiv]
    simp only [List.getElem?_map, List.map_map, List.getElem?_range hbK, Option.map_some,
      Function.comp_def, hk]
    rw [nanSum_some (ks := grids) (y := fun g => 1 - (X g (b, 0, 0) - X g (0, 0, 0)) ^ 2 / 2) 0 rfl]
    simp [nanDiv, hN]

/-! ## The padding analyzer -/

/-- **C75, paddings.** Paddings are given as a fraction of the side: `p` becomes `p * n` cells, cut
off at the decimal point, whatever the length. -/
theorem padAnalyzer_paddings (a : PadArgs) : a.outputPadding = a.paddings.map fun p : ℝ =>
    if 0 ≤ p * (a.cells : ℝ) then ⌊p * (a.cells : ℝ)⌋ else ⌈p * (a.cells : ℝ)⌉ := by
  unfold PadArgs.outputPadding pyInt
  refine List.map_congr_left fun p _ => ?_
  have h1 := a.length_ne
  have h2 : (a.cells : ℝ) ≠ 0 := by exact_mod_cast a.cells_ne
  have : p * a.length / a.d = p * a.cells := by
    unfold PadArgs.d
    field_simp
  rw [this]

/-- **C75, what the padding analyzer returns.** The row of range `i` and padding `j` is the estimate
from fields simulated with this range and this padding minus the correlation at the distances of the
estimate; but of the `N` fields that are simulated only the first `10 ⌊(N - 1) / 10⌋ + 1` are used. -/
theorem padAnalyzer_entries {S : Setup} {e : ℕ → ℕ → Env} {a : PadArgs} {s s' : Random}
    {q : PadResult} (h : padAnalyzer S e a s = .ok (q, s')) :
    q.range = a.ranges ∧ q.deltas.length = a.paddings.length * a.ranges.length ∧
    q.paddingF = a.outputPadding.map (fun p => (p : ℝ) / a.cells) ∧
    ∃ w : ℕ, q.grid.length = w ∧ (∀ b < w, q.grid[b]? = some (b * (w * a.d / ((w - 1 : ℕ) : ℝ)))) ∧
    ∀ i r j p, a.ranges[i]? = some r → a.outputPadding[j]? = some p →
      ∃ E first grids mid est row,
        createVariograms r p a.dims a.d a.cells a.length a.vtype = .ok E ∧
        (∀ g ∈ first :: grids, ∃ e t t', E.simulate S e t = .ok (g, t')) ∧
        (grids.length : ℤ) = a.fields ∧
        E.estimate a.dr [(0, 0, 0)] first (grids.take (10 * ((grids.length - 1) / 10) + 1))
          = .ok (mid, est) ∧
        q.deltas[j * a.ranges.length + i]? = some row ∧ row.length = w ∧ mid.length = w ∧
        ∀ (b : ℕ) (x : ℝ), mid[b]? = some x → ∃ y : Option ℝ, est[b]? = some y ∧
          row[b]? = some (y.map fun z => z - E.v.corr x) := by
  unfold padAnalyzer at h
  simp only [Res.monad_bind_eq] at h
  obtain ⟨s1, -, h⟩ := Res.bind_eq_ok.1 h
  obtain ⟨r0, -, h⟩ := Res.bind_eq_ok.1 h
  obtain ⟨p0, -, h⟩ := Res.bind_eq_ok.1 h
  obtain ⟨⟨est0, s2⟩, e0, h⟩ := Res.bind_eq_ok.1 h
  obtain ⟨row0, er0, h⟩ := Res.bind_eq_ok.1 h
  obtain ⟨⟨rows, s3⟩, el, h⟩ := Res.bind_eq_ok.1 h
  simp only [Res.ok.injEq, Prod.mk.injEq] at h
  obtain ⟨rfl, -⟩ := h
  obtain ⟨l1, -, l3⟩ := loop_spec (jobs_nodup _ _) el
  -- the first estimate
  obtain ⟨E0, f0, g0, gs0, c0, -, n0, ec0⟩ := analyze_spec e0
  obtain ⟨x1, x2, x3⟩ := convergence_deltas (by norm_num) ec0
  have hd0 : est0.deltas[0]? = some row0 := by
    unfold pyFirst at er0
    rw [List.head?_eq_getElem?] at er0
    split at er0
    · simp at er0
    · rename_i z hz
      simp only [Res.ok.injEq] at er0
      rw [hz, er0]
  have hN : 0 < a.fields.toNat := by
    by_contra hc
    have : est0.deltas.length = 0 := by
      rw [x2, n0, show a.fields.toNat = 0 by omega]
    rw [List.length_eq_zero_iff.1 this] at hd0
    simp at hd0
  have hmid0 : ∃ m0, E0.midpoints a.dr f0 = .ok m0 ∧ row0.length = m0.length := by
    obtain ⟨est, row, y1, y2, y3, -⟩ := x3 0 (by omega)
    rw [y2] at hd0
    simp only [Option.some.injEq] at hd0
    refine ⟨est0.mid, ?_, by rw [← hd0, y3]⟩
    unfold Ev.estimate at y1
    simp only [Res.monad_bind_eq] at y1
    obtain ⟨m, z1, y1⟩ := Res.bind_eq_ok.1 y1
    obtain ⟨_, -, y1⟩ := Res.bind_eq_ok.1 y1
    simp only [Res.ok.injEq, Prod.mk.injEq] at y1
    rw [z1, y1.1]
  obtain ⟨m0, hm0, hw0⟩ := hmid0
  refine ⟨rfl, ?_, rfl, row0.length, by simp [linspacePoints], fun b hb => ?_, ?_⟩
  · rw [l1, List.length_replicate]
    simp [PadArgs.outputPadding]
  · simp [linspacePoints, List.getElem?_range hb]
  intro i r j p hi hj
  obtain ⟨k, t, t', est, last, v1, v2, v3⟩ := l3 ((r, i), (p, j)) (mem_jobs.2 ⟨hi, hj⟩)
  obtain ⟨E, first, second, grids, c1, c2, c3, c4⟩ := analyze_spec v1
  obtain ⟨w1, w2, w3⟩ := convergence_deltas (by norm_num) c4
  have hlast : est.deltas[(grids.length - 1) / 10]? = some last := by
    rw [List.getLast?_eq_getElem?, w2] at v2
    rw [← v2]
    congr 1
    omega
  obtain ⟨es, row, y1, y2, y3, y4⟩ := w3 ((grids.length - 1) / 10) (by omega)
  rw [hlast] at y2
  simp only [Option.some.injEq] at y2
  subst y2
  have hw : last.length = row0.length := by
    rw [y3, hw0]
    unfold Ev.estimate at y1
    simp only [Res.monad_bind_eq] at y1
    obtain ⟨m, z1, y1⟩ := Res.bind_eq_ok.1 y1
    obtain ⟨_, -, y1⟩ := Res.bind_eq_ok.1 y1
    simp only [Res.ok.injEq, Prod.mk.injEq] at y1
    rw [← y1.1, midpoints_same (createVariograms_same c0 c1) hm0 z1]
  refine ⟨E, first, grids, est.mid, es, last, c1, fun g hg => ?_, ?_, ?_, v3 hw, hw,
    y3.symm.trans hw, y4⟩
  · obtain ⟨i, t, t', h⟩ := c2 g (by
      rcases List.mem_cons.1 hg with rfl | hg
      · simp
      · simp [hg])
    exact ⟨_, t, t', h⟩
  · rw [c3]
    omega
  · rw [mul_comm 10]
    exact y1

/-- With the default of 600 fields, 9 fields are simulated for each row and not used. -/
example : 10 * ((600 - 1) / 10) + 1 = 591 := rfl

/-! ### Reproducibility -/

theorem evSimulate_alike (E : Ev) (S : Setup) (e e' : Env) {s s' : Random} (h : Alike strip s s') :
    Sim false (fun r r' => r.1 = r'.1 ∧ Alike strip r.2 r'.2) (E.simulate S e s)
      (E.simulate S e' s') := by
  unfold Ev.simulate
  simp only [Res.monad_bind_eq]
  refine (advancedSimulate_alike strip_overlay S e e' E.v E.nx E.dx E.ny E.dy E.nz E.dz E.px E.py
    E.pz 1.0 1.0 1.0 h).bind fun r r' hr => ?_
  rw [hr.1]
  exact Sim.bind_same _ fun g => .ok ⟨rfl, hr.2⟩

theorem simulateMany_alike (E : Ev) (S : Setup) (e e' : ℕ → Env) (k n : ℕ) {s s' : Random}
    (h : Alike strip s s') :
    Sim false (fun r r' => r.1 = r'.1 ∧ Alike strip r.2 r'.2) (E.simulateMany S e k n s)
      (E.simulateMany S e' k n s') := by
  induction n generalizing k s s' with
  | zero => exact .ok ⟨rfl, h⟩
  | succ n ih =>
    rw [Ev.simulateMany, Ev.simulateMany]
    simp only [Res.monad_bind_eq]
    refine (evSimulate_alike E S _ _ h).bind fun r r' hr => ?_
    refine (ih (k + 1) hr.2).bind fun q q' hq => .ok ⟨?_, hq.2⟩
    simp only [hr.1, hq.1]

theorem analyze_alike (a : PadArgs) (S : Setup) (e e' : ℕ → Env) (r : ℝ) (p : ℤ) {s s' : Random}
    (h : Alike strip s s') :
    Sim false (fun r r' => r.1 = r'.1 ∧ Alike strip r.2 r'.2) (a.analyze S e r p s)
      (a.analyze S e' r p s') := by
  unfold PadArgs.analyze
  simp only [Res.monad_bind_eq]
  refine Sim.bind_same _ fun E => Sim.bind_same _ fun refs => ?_
  unfold Ev.estimateWith
  simp only [Res.monad_bind_eq]
  refine (evSimulate_alike E S _ _ h).bind fun q q' hq => ?_
  refine (evSimulate_alike E S _ _ hq.2).bind fun u u' hu => ?_
  refine (simulateMany_alike E S _ _ 2 _ hu.2).bind fun v v' hv => ?_
  rw [hq.1, hu.1, hv.1]
  exact Sim.bind_same _ fun g => .ok ⟨rfl, hv.2⟩

theorem padLoop_alike (a : PadArgs) (S : Setup) (e e' : ℕ → ℕ → Env) (w k : ℕ)
    (js : List ((ℝ × ℕ) × (ℤ × ℕ))) (rows : List (List (Option ℝ))) {s s' : Random}
    (h : Alike strip s s') :
    Sim false (fun r r' => r.1 = r'.1 ∧ Alike strip r.2 r'.2) (a.loop S e w k js rows s)
      (a.loop S e' w k js rows s') := by
  induction js generalizing k rows s s' with
  | nil => exact .ok ⟨rfl, h⟩
  | cons x js ih =>
    obtain ⟨⟨r, i⟩, ⟨p, j⟩⟩ := x
    rw [PadArgs.loop, PadArgs.loop]
    simp only [Res.monad_bind_eq]
    refine (analyze_alike a S _ _ r p h).bind fun q q' hq => ?_
    rw [hq.1]
    exact Sim.bind_same _ fun l => Sim.bind_same _ fun rs => ih _ _ hq.2

/-- **C75, reproducibility.** The analyzer seeds the generator: its results depend on its arguments
only, not on the generator's state, the time or the contents of memory. -/
theorem padAnalyzer_reproducible (S : Setup) (e e' : ℕ → ℕ → Env) (a : PadArgs) {s s' t : Random}
    (hs : s.dsfmt.status.length = 192) (hs' : s'.dsfmt.status.length = 192) {q : PadResult}
    (h : padAnalyzer S e a s = .ok (q, t)) : ∃ t', padAnalyzer S e' a s' = .ok (q, t') := by
  have key : Sim false (fun r r' => r.1 = r'.1 ∧ Alike strip r.2 r'.2) (padAnalyzer S e a s)
      (padAnalyzer S e' a s') := by
    unfold padAnalyzer
    generalize a.theSeed = n
    simp only [Res.monad_bind_eq, initializeSeed_eq _ hs, initializeSeed_eq _ hs', Res.bind_ok]
    have h0 : Alike strip
        { s with startSeed := n, isInitialized := true, dsfmt := ⟨seedState (n.setWidth 32), 382⟩ }
        { s' with startSeed := n, isInitialized := true, dsfmt := ⟨seedState (n.setWidth 32), 382⟩ } :=
      ⟨rfl, rfl, rfl, Dsfmt.seed_admissible _, Dsfmt.seed_admissible _⟩
    refine Sim.bind_same _ fun r0 => Sim.bind_same _ fun p0 => ?_
    refine (analyze_alike a S (e 0) (e' 0) r0 p0 h0).bind fun u u' hu => ?_
    rw [hu.1]
    refine Sim.bind_same _ fun row => ?_
    refine (padLoop_alike a S e e' _ 1 _ _ hu.2).bind fun v v' hv => .ok ⟨?_, hv.2⟩
    rw [hv.1]
  rw [h] at key
  generalize hy : padAnalyzer S e' a s' = y at key
  cases key with
  | ok hr =>
    rename_i b
    obtain ⟨q', t'⟩ := b
    exact ⟨t', by rw [show q = q' from hr.1]⟩

theorem padAnalyzer_theSeed (S : Setup) (e : ℕ → ℕ → Env) (a : PadArgs) (s : Random)
    {x y : Option (BitVec 64)}
    (h : ({ a with seed := x } : PadArgs).theSeed = ({ a with seed := y } : PadArgs).theSeed) :
    padAnalyzer S e { a with seed := x } s = padAnalyzer S e { a with seed := y } s := by
  have ha : ∀ (e : ℕ → Env) (r : ℝ) (p : ℤ) (s : Random),
      ({ a with seed := x } : PadArgs).analyze S e r p s
        = ({ a with seed := y } : PadArgs).analyze S e r p s := fun _ _ _ _ => rfl
  have hl : ∀ (w k : ℕ) (js : List ((ℝ × ℕ) × (ℤ × ℕ))) (rows : List (List (Option ℝ)))
      (s : Random), ({ a with seed := x } : PadArgs).loop S e w k js rows s
        = ({ a with seed := y } : PadArgs).loop S e w k js rows s := by
    intro w k js
    induction js generalizing k with
    | nil => intros; rfl
    | cons z js ih =>
      obtain ⟨⟨r, i⟩, ⟨p, j⟩⟩ := z
      intro rows s
      rw [PadArgs.loop, PadArgs.loop]
      simp only [ih, ha]
  have ho : ({ a with seed := x } : PadArgs).outputPadding
      = ({ a with seed := y } : PadArgs).outputPadding := rfl
  have hc : ({ a with seed := x } : PadArgs).cells = ({ a with seed := y } : PadArgs).cells := rfl
  have hd : ({ a with seed := x } : PadArgs).d = ({ a with seed := y } : PadArgs).d := rfl
  unfold padAnalyzer
  simp only [h, hl, ha, ho, hc, hd]

/-- **C75, seed 0.** A seed of 0 is not used: the result is that of the default seed 12313. -/
theorem padAnalyzer_seed_zero_refuted (S : Setup) (e : ℕ → ℕ → Env) (a : PadArgs) (s : Random) :
    padAnalyzer S e { a with seed := some 0 } s = padAnalyzer S e { a with seed := some 12313 } s ∧
    padAnalyzer S e { a with seed := none } s = padAnalyzer S e { a with seed := some 12313 } s := by
  have h12313 : (12313 : BitVec 64) ≠ 0 := by decide
  have h1 : ({ a with seed := some 0 } : PadArgs).theSeed = 12313 := if_pos rfl
  have h2 : ({ a with seed := some 12313 } : PadArgs).theSeed = 12313 := if_neg h12313
  have h3 : ({ a with seed := none } : PadArgs).theSeed = 12313 := by
    simp only [PadArgs.theSeed, pyOr]
  exact ⟨padAnalyzer_theSeed S e a s (h1.trans h2.symm), padAnalyzer_theSeed S e a s (h3.trans h2.symm)⟩

end Verif.Py
