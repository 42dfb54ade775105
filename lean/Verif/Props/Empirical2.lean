import Verif.Lemmas.Empirical2
import Verif.Props.EmpiricalLag
import Verif.Spec.Lag
import Mathlib.Probability.ProbabilityMassFunction.Integrals
import Mathlib.Probability.Distributions.Uniform

/-!
# Properties of `EmpiricalVariogram2` (C73)
-/

namespace Verif.Py

open Variogram Spec Finset MeasureTheory

/-- The cells that are sampled at a distance: a step of zero takes all of them. -/
def sampleCells (nx ny nz step : ℕ) : Finset (ℕ × ℕ × ℕ) :=
  if step = 0 then cells nx ny nz else stepCells nx ny nz step

theorem ev2Deltas_eq {E : Ev2} {grid : Arr3} {X : ℕ × ℕ × ℕ → ℝ} (h : Holds E.ev grid X)
    (hd : E.ev.ny = 1 → E.ev.nz = 1) (hz : ((0, 0, 0) : ℕ × ℕ × ℕ) ∈ cells E.ev.nx E.ev.ny E.ev.nz) :
    E.deltas grid = .ok ((gridIndexes E.ev.nx E.ev.ny E.ev.nz).map fun c => X c - X (0, 0, 0)) := by
  unfold Ev2.deltas
  simp only [reshape_eq h hd, Res.monad_bind_eq, Res.bind_ok, get_eq h hz]
  exact deltasAt_eq h _ fun c hc => mem_gridIndexes.1 hc

/-- The classes of a selection. -/
noncomputable def selBins (L : List (ℕ × ℕ × ℕ)) (p : ℕ × ℕ × ℕ → Bool) : Bins :=
  open Classical in
  ⟨(values (0, 0, 0) (L.filter p) cornerDist).map fun x =>
    (List.range (L.filter p).length).filter fun j => cornerDist ((L.filter p).getD j (0, 0, 0)) = x,
   values (0, 0, 0) (L.filter p) cornerDist⟩

open Classical in
theorem ev2_create {v : Variogram} {nx ny nz : ℕ} {px py pz : ℤ} {cr : ℝ} {step : ℕ} (hx : 0 < nx)
    (hy : 0 < ny) (hz : 0 < nz) (hs : nx ^ 2 + ny ^ 2 + nz ^ 2 ≤ 25 * 10 ^ 18) (hcr : 0 < cr) :
    Ev2.create v nx ny nz px py pz cr step = .ok ⟨⟨v, nx, 1.0, ny, 1.0, nz, 1.0, px, py, pz⟩,
      (gridIndexes nx ny nz).map fun c => decide (cornerDist c < cr),
      (gridIndexes nx ny nz).map fun c => decide (c ∈ sampleCells nx ny nz step),
      selBins (gridIndexes nx ny nz) fun c => decide (cornerDist c < cr),
      selBins (gridIndexes nx ny nz) fun c => decide (c ∈ sampleCells nx ny nz step)⟩ := by
  have h0 : ((0, 0, 0) : ℕ × ℕ × ℕ) ∈ cells nx ny nz := by simp [cells, hx, hy, hz]
  have hmem := mem_gridIndexes.2 h0
  have hc0 : cornerDist (0, 0, 0) = 0 := by simp [cornerDist]
  obtain ⟨i, hi⟩ : ∃ i, (gridIndexes nx ny nz).idxOf? (0, 0, 0) = some i := by
    rw [← Option.isSome_iff_exists, List.isSome_idxOf?]
    exact hmem
  have hget : (gridIndexes nx ny nz)[i]? = some (0, 0, 0) := by
    have hi' := hi
    rw [List.idxOf?_eq_some_iff] at hi'
    obtain ⟨h1, h2, -⟩ := hi'
    rw [List.getElem?_eq_getElem h1, h2]
  have hp : rd (gridPoints nx 1.0 ny 1.0 nz 1.0) i = .ok (gridPoint 1.0 1.0 1.0 (0, 0, 0)) := by
    rw [rd, gridPoints, List.getElem?_map, hget]
    rfl
  have hd : (gridPoints nx 1.0 ny 1.0 nz 1.0).map (cdist (gridPoint 1.0 1.0 1.0 (0, 0, 0)))
      = (gridIndexes nx ny nz).map cornerDist := by
    rw [gridPoints, List.map_map]
    refine List.map_congr_left fun c _ => ?_
    rw [← cornerDist_eq]
    exact cdist_gridPoint _ _ _ _ _
  have hm : (gridIndexes nx ny nz).map (fun i =>
      npMod i.1 step == 0 && npMod i.2.1 step == 0 && npMod i.2.2 step == 0)
      = (gridIndexes nx ny nz).map fun c => decide (c ∈ sampleCells nx ny nz step) := by
    refine List.map_congr_left fun c hc => ?_
    rw [mem_gridIndexes] at hc
    unfold npMod sampleCells
    by_cases h : step = 0
    · simp [h, hc]
    · simp only [if_neg h, stepCells, Finset.mem_filter, hc, true_and, Nat.dvd_iff_mod_eq_zero]
      rw [Bool.eq_iff_iff]
      simp [and_assoc]
  have hgap : ∀ a ∈ gridIndexes nx ny nz, ∀ b ∈ gridIndexes nx ny nz,
      |cornerDist a - cornerDist b| < 1e-10 → cornerDist a = cornerDist b := fun a ha b hb h =>
    cornerDist_gap hs (mem_gridIndexes.1 ha) (mem_gridIndexes.1 hb) h
  unfold Ev2.create
  simp only [hi]
  rw [hp]
  simp only [Res.monad_bind_eq, Res.bind_ok]
  rw [hd, hm, List.map_map]
  simp only [Function.comp_def]
  rw [findDistanceBins_eq (0, 0, 0) cornerDist _ _ ?_ hgap, Res.bind_ok,
    findDistanceBins_eq (0, 0, 0) cornerDist _ _ ?_ hgap, Res.bind_ok]
  · rfl
  · refine List.ne_nil_of_mem (a := (0, 0, 0)) (List.mem_filter.2 ⟨hmem, ?_⟩)
    simp only [decide_eq_true_eq]
    unfold sampleCells
    split
    · exact h0
    · simp [stepCells, h0]
  · refine List.ne_nil_of_mem (a := (0, 0, 0)) (List.mem_filter.2 ⟨hmem, ?_⟩)
    simpa [hc0] using hcr

theorem selRow_eq (nx ny nz : ℕ) (p : ℕ × ℕ × ℕ → Bool) (X : ℕ × ℕ × ℕ → ℝ) :
    binRow (compress ((gridIndexes nx ny nz).map p)
      (((gridIndexes nx ny nz).map fun c => X c - X (0, 0, 0)).map fun x => x ^ 2))
      (selBins (gridIndexes nx ny nz) p).groups
      = .ok ((selBins (gridIndexes nx ny nz) p).dists.map fun x =>
        some (meanSq ((cells nx ny nz).filter fun c => p c) X x)) := by
  classical
  rw [List.map_map, compress_map]
  unfold selBins
  simp only
  rw [binRow_classes (0, 0, 0) _ cornerDist ((nodup_gridIndexes nx ny nz).filter _) _ _
    fun x hx => (mem_values _ _ _).1 hx]
  congr 1
  refine List.map_congr_left fun x _ => ?_
  have hs : ((gridIndexes nx ny nz).filter p).toFinset = (cells nx ny nz).filter fun c => p c := by
    rw [List.toFinset_filter, toFinset_gridIndexes]
  unfold meanSq avg distClass
  rw [hs]
  rfl

theorem ev2Data_eq {E : Ev2} {nx ny nz : ℕ} {p q : ℕ × ℕ × ℕ → Bool}
    (hE : E.ev.nx = nx ∧ E.ev.ny = ny ∧ E.ev.nz = nz)
    (h1 : E.ixShort = (gridIndexes nx ny nz).map p) (h2 : E.ixSample = (gridIndexes nx ny nz).map q)
    (h3 : E.shortBins = selBins (gridIndexes nx ny nz) p)
    (h4 : E.sampleBins = selBins (gridIndexes nx ny nz) q)
    (hd : ny = 1 → nz = 1) (hz : ((0, 0, 0) : ℕ × ℕ × ℕ) ∈ cells nx ny nz) (grids : ℕ → Arr3)
    (X : ℕ → ℕ × ℕ × ℕ → ℝ) (ks : List ℕ) (hX : ∀ k ∈ ks, Holds E.ev (grids k) (X k)) :
    E.data (ks.map grids) = .ok
      (ks.map fun k => E.shortBins.dists.map fun x =>
        some (meanSq ((cells nx ny nz).filter fun c => p c) (X k) x),
       ks.map fun k => E.sampleBins.dists.map fun x =>
        some (meanSq ((cells nx ny nz).filter fun c => q c) (X k) x)) := by
  obtain ⟨rfl, rfl, rfl⟩ := hE
  induction ks with
  | nil => rfl
  | cons k ks ih =>
    rw [List.map_cons, Ev2.data, ev2Deltas_eq (hX k (by simp)) hd hz]
    simp only [Res.monad_bind_eq, Res.bind_ok]
    rw [h1, h2, h3, h4, selRow_eq, Res.bind_ok, selRow_eq, Res.bind_ok,
      ih fun k hk => hX k (by simp [hk]), Res.bind_ok, h3, h4]
    rfl

theorem summary_spec {nx ny nz n : ℕ} (hn : 0 < n) (p : ℕ × ℕ × ℕ → Bool)
    (X : ℕ → ℕ × ℕ × ℕ → ℝ) {sel : Finset (ℕ × ℕ × ℕ)}
    (hsel : sel = (cells nx ny nz).filter fun c => p c) :
    IsSummary sel n X (summary (selBins (gridIndexes nx ny nz) p)
      ((List.range n).map fun k => (selBins (gridIndexes nx ny nz) p).dists.map fun x =>
        some (meanSq ((cells nx ny nz).filter fun c => p c) (X k) x))) := by
  subst hsel
  set xs := values (0, 0, 0) ((gridIndexes nx ny nz).filter p) cornerDist with hxs
  have hlen : (selBins (gridIndexes nx ny nz) p).groups.length = xs.length := by
    simp [selBins, hxs]
  have hdist : (selBins (gridIndexes nx ny nz) p).dists = xs := rfl
  unfold summary
  rw [hlen, hdist]
  refine ⟨nodup_values _ _ _, fun x => ?_, by simp, by simp, fun j x hj => ?_⟩
  · show x ∈ xs ↔ _
    rw [hxs, mem_values]
    simp only [List.mem_filter, Finset.mem_filter, mem_gridIndexes]
  · have hlt : j < xs.length := (List.getElem?_eq_some_iff.1 hj).1
    simp only [List.getElem?_map, List.getElem?_range hlt, Option.map_some]
    exact ⟨congrArg some (colMean_eq hn _ hj), congrArg some (colStd_eq hn _ hj)⟩

/-- **C73, estimates.** For a grid with a diagonal of at most 5e9 cells, at least one cell in every
direction (and not one cell in y with several in z) and a positive close range, the constructor
returns; and for any `n > 0` fields, `estimate_variogram` gives, for the cells nearer to the first
cell than the close range and for the cells on multiples of the step: the distances that occur, each
one once, and with each of them mean and standard deviation over the fields of the mean of the squared
differences from the first cell over exactly the cells at that distance. -/
theorem ev2_estimate_spec {v : Variogram} {nx ny nz : ℕ} {px py pz : ℤ} {cr : ℝ} {step : ℕ}
    (hx : 0 < nx) (hy : 0 < ny) (hz : 0 < nz) (hd : ny = 1 → nz = 1)
    (hs : nx ^ 2 + ny ^ 2 + nz ^ 2 ≤ 25 * 10 ^ 18) (hcr : 0 < cr) :
    ∃ E, Ev2.create v nx ny nz px py pz cr step = .ok E ∧
      E.ev = ⟨v, nx, 1, ny, 1, nz, 1, px, py, pz⟩ ∧
      ∀ n, 0 < n → ∀ (grids : ℕ → Arr3) (X : ℕ → ℕ × ℕ × ℕ → ℝ),
        (∀ k < n, Holds E.ev (grids k) (X k)) →
        ∃ short sample, E.estimate ((List.range n).map grids) = .ok (short, sample) ∧
          IsSummary (nearCells nx ny nz cr) n X short ∧
          IsSummary (sampleCells nx ny nz step) n X sample := by
  classical
  refine ⟨_, ev2_create hx hy hz hs hcr, by norm_num, fun n hn grids X hX => ?_⟩
  have h0 : ((0, 0, 0) : ℕ × ℕ × ℕ) ∈ cells nx ny nz := by simp [cells, hx, hy, hz]
  refine ⟨_, _, ?_, summary_spec (nx := nx) (ny := ny) (nz := nz) hn
      (fun c => decide (cornerDist c < cr)) X ?_,
    summary_spec (nx := nx) (ny := ny) (nz := nz) hn
      (fun c => decide (c ∈ sampleCells nx ny nz step)) X ?_⟩
  · unfold Ev2.estimate
    rw [ev2Data_eq (nx := nx) (ny := ny) (nz := nz) ⟨rfl, rfl, rfl⟩ rfl rfl rfl rfl hd h0 grids X
      (List.range n) fun k hk => hX k (List.mem_range.1 hk)]
    rfl
  · unfold nearCells
    ext c
    simp
  · ext c
    simp only [Finset.mem_filter, decide_eq_true_eq]
    refine ⟨fun h => ⟨?_, h⟩, fun h => h.2⟩
    unfold sampleCells at h
    split at h
    · exact h
    · exact (Finset.mem_filter.1 h).1

/-- The hypotheses of `ev2_estimate_spec` are met: the grid of the example program. -/
example (v : Variogram) : ∃ E, Ev2.create v 100 100 1 300 300 0 30 5 = .ok E :=
  (ev2_estimate_spec (by norm_num) (by norm_num) (by norm_num) (by norm_num) (by norm_num)
    (by norm_num)).imp fun _ h => h.1

/-- **C73, errors.** With a close range that is not positive no point is close, and the constructor
fails. -/
theorem ev2_no_close {v : Variogram} {nx ny nz : ℕ} {px py pz : ℤ} {cr : ℝ} {step : ℕ}
    (hx : 0 < nx) (hy : 0 < ny) (hz : 0 < nz) (hcr : cr ≤ 0) :
    Ev2.create v nx ny nz px py pz cr step = .throws "IndexError" := by
  classical
  have hmem : ((0, 0, 0) : ℕ × ℕ × ℕ) ∈ gridIndexes nx ny nz :=
    mem_gridIndexes.2 (by simp [cells, hx, hy, hz])
  obtain ⟨i, hi⟩ : ∃ i, (gridIndexes nx ny nz).idxOf? (0, 0, 0) = some i := by
    rw [← Option.isSome_iff_exists, List.isSome_idxOf?]
    exact hmem
  have hget : (gridIndexes nx ny nz)[i]? = some (0, 0, 0) := by
    have hi' := hi
    rw [List.idxOf?_eq_some_iff] at hi'
    obtain ⟨h1, h2, -⟩ := hi'
    rw [List.getElem?_eq_getElem h1, h2]
  have hp : rd (gridPoints nx 1.0 ny 1.0 nz 1.0) i = .ok (gridPoint 1.0 1.0 1.0 (0, 0, 0)) := by
    rw [rd, gridPoints, List.getElem?_map, hget]
    rfl
  unfold Ev2.create
  simp only [hi]
  rw [hp]
  simp only [Res.monad_bind_eq, Res.bind_ok]
  have hf : findDistanceBins ((gridPoints nx 1.0 ny 1.0 nz 1.0).map
      (cdist (gridPoint 1.0 1.0 1.0 (0, 0, 0))))
      (((gridPoints nx 1.0 ny 1.0 nz 1.0).map (cdist (gridPoint 1.0 1.0 1.0 (0, 0, 0)))).map
        fun d => decide (d < cr)) = .throws "IndexError" := by
    unfold findDistanceBins
    rw [List.map_map, compress_map]
    rw [List.filter_eq_nil_iff.2 fun a _ => by
      simp only [Function.comp, decide_eq_true_eq, not_lt]
      exact hcr.trans (Real.sqrt_nonneg _)]
    simp
  rw [hf]
  rfl

/-- **C73, fields.** If the simulation of an `EmpiricalVariogram2` returns, cell (i, j, k) of the array
is the element at the Fortran position of the result of `advanced.simulate` with smoothing 1e-5. -/
theorem ev2Simulate_holds {E : Ev2} {S : Setup} {e : Env} {s s' : Random} {grid : Arr3}
    (h : E.simulate S e s = .ok (grid, s')) :
    ∃ out, advancedSimulate S e E.ev.v E.ev.nx E.ev.dx E.ev.ny E.ev.dy E.ev.nz E.ev.dz E.ev.px
        E.ev.py E.ev.pz 1e-5 1e-5 1e-5 s = .ok (out, s') ∧
      out.length = E.ev.nx * E.ev.ny * E.ev.nz ∧
      Holds E.ev grid fun c => out.getD (c.1 + E.ev.nx * (c.2.1 + E.ev.ny * c.2.2)) 0 := by
  have h1 : smoothing = 1e-5 := by norm_num [smoothing]
  unfold Ev2.simulate at h
  rw [h1, Res.monad_bind_eq] at h
  obtain ⟨⟨out, s1⟩, e1, h⟩ := Res.bind_eq_ok.1 h
  obtain ⟨a, e2, h⟩ := Res.bind_eq_ok.1 h
  simp only [Res.ok.injEq, Prod.mk.injEq] at h
  obtain ⟨rfl, rfl⟩ := h
  unfold reshapeF at e2
  split_ifs at e2 with hl
  obtain rfl := Res.ok.inj e2
  refine ⟨out, e1, hl, rfl, rfl, rfl, hl, ?_⟩
  rintro ⟨i, j, k⟩ hc
  simp only [cells, Finset.mem_product, Finset.mem_range] at hc
  obtain ⟨hi, hj, hk⟩ := hc
  have hlt : i + E.ev.nx * (j + E.ev.ny * k) < out.length := by
    rw [hl]
    have a1 : j + E.ev.ny * k + 1 ≤ E.ev.ny * E.ev.nz := by
      calc j + E.ev.ny * k + 1 ≤ E.ev.ny + E.ev.ny * k := by omega
        _ = E.ev.ny * (k + 1) := by ring
        _ ≤ E.ev.ny * E.ev.nz := Nat.mul_le_mul_left _ hk
    calc i + E.ev.nx * (j + E.ev.ny * k) < E.ev.nx + E.ev.nx * (j + E.ev.ny * k) := by omega
      _ = E.ev.nx * (j + E.ev.ny * k + 1) := by ring
      _ ≤ E.ev.nx * (E.ev.ny * E.ev.nz) := Nat.mul_le_mul_left _ a1
      _ = E.ev.nx * E.ev.ny * E.ev.nz := by ring
  show out[i + E.ev.nx * (j + E.ev.ny * k)]? = some (out.getD (i + E.ev.nx * (j + E.ev.ny * k)) 0)
  rw [List.getD_eq_getElem?_getD, List.getElem?_eq_getElem hlt]
  rfl

/-- **C73, dimensions.** With one cell in y and several in z the simulation never returns. -/
theorem ev2Simulate_flat_refuted {E : Ev2} {S : Setup} {e : Env} {s : Random} (hx : 0 < E.ev.nx)
    (hy : E.ev.ny = 1) (hz : 2 ≤ E.ev.nz) (r : Arr3 × Random) : E.simulate S e s ≠ .ok r := by
  obtain ⟨grid, s'⟩ := r
  intro h
  obtain ⟨out, h1, hlen, -⟩ := ev2Simulate_holds h
  have hl := simulate_length S e E.ev.v E.ev.nx E.ev.dx E.ev.ny E.ev.dy E.ev.nz E.ev.dz E.ev.px
    E.ev.py E.ev.pz _ _ _ h1
  rw [if_pos (Or.inl hy.le)] at hl
  rw [hl, hy, mul_one] at hlen
  have : E.ev.nx * 2 ≤ E.ev.nx * E.ev.nz := Nat.mul_le_mul_left _ hz
  omega

/-- The integral of the mean squared difference. -/
theorem meanSq_expectation {sel : Finset (ℕ × ℕ × ℕ)} {x : ℝ} (hne : (distClass sel x).Nonempty)
    {Ω : Type} [MeasurableSpace Ω] {μ : Measure Ω} [IsProbabilityMeasure μ]
    (X : ℕ × ℕ × ℕ → Ω → ℝ) (ρ : ℕ × ℕ × ℕ → ℝ)
    (hX : ∀ c ∈ sel, Integrable (fun ω => (X c ω - X (0, 0, 0) ω) ^ 2) μ ∧
      ∫ ω, (X c ω - X (0, 0, 0) ω) ^ 2 ∂μ = 2 * (1 - ρ c)) :
    Integrable (fun ω => meanSq sel (fun c => X c ω) x) μ ∧
      ∫ ω, meanSq sel (fun c => X c ω) x ∂μ = 2 * (1 - avg (distClass sel x) ρ) := by
  have hsub : ∀ c ∈ distClass sel x, c ∈ sel := fun c hc => (Finset.mem_filter.1 hc).1
  have hcard : ((distClass sel x).card : ℝ) ≠ 0 := by
    rw [Nat.cast_ne_zero]
    exact Finset.card_ne_zero.2 hne
  unfold meanSq avg
  refine ⟨(integrable_finsetSum _ fun c hc => (hX c (hsub c hc)).1).div_const _, ?_⟩
  rw [integral_div, integral_finsetSum _ fun c hc => (hX c (hsub c hc)).1,
    Finset.sum_congr rfl fun c hc => (hX c (hsub c hc)).2, ← Finset.mul_sum, Finset.sum_sub_distrib]
  simp only [Finset.sum_const, nsmul_eq_mul, mul_one]
  field_simp

theorem summary_expectation {sel : Finset (ℕ × ℕ × ℕ)} {Ω : Type} [MeasurableSpace Ω] {μ : Measure Ω}
    [IsProbabilityMeasure μ] {n : ℕ} (hn : 0 < n) (X : ℕ → ℕ × ℕ × ℕ → Ω → ℝ) (ρ : ℕ × ℕ × ℕ → ℝ)
    (hX : ∀ k < n, ∀ c ∈ sel, Integrable (fun ω => (X k c ω - X k (0, 0, 0) ω) ^ 2) μ ∧
      ∫ ω, (X k c ω - X k (0, 0, 0) ω) ^ 2 ∂μ = 2 * (1 - ρ c))
    (r : Ω → List ℝ × List (Option ℝ) × List (Option ℝ))
    (hr : ∀ ω, IsSummary sel n (fun k c => X k c ω) (r ω)) {xs : List ℝ} (hxs : ∀ ω, (r ω).1 = xs)
    (ω₀ : Ω) (j : ℕ) (x : ℝ) (hj : xs[j]? = some x) :
    ∃ Y : Ω → ℝ, (∀ ω, (r ω).2.1[j]? = some (some (Y ω))) ∧ Integrable Y μ ∧
      ∫ ω, Y ω ∂μ = 2 * (1 - avg (distClass sel x) ρ) := by
  have hne : (distClass sel x).Nonempty := by
    obtain ⟨-, h2, -⟩ := hr ω₀
    obtain ⟨c, hc, h⟩ := (h2 x).1 (by rw [hxs]; exact List.mem_of_getElem? hj)
    exact ⟨c, Finset.mem_filter.2 ⟨hc, h⟩⟩
  have hn0 : (n : ℝ) ≠ 0 := by positivity
  have key := fun k (hk : k ∈ Finset.range n) =>
    meanSq_expectation hne (X k) ρ (hX k (Finset.mem_range.1 hk))
  refine ⟨fun ω => (∑ k ∈ Finset.range n, meanSq sel (fun c => X k c ω) x) / n, fun ω => ?_, ?_, ?_⟩
  · obtain ⟨-, -, -, -, h⟩ := hr ω
    exact (h j x (by rw [hxs]; exact hj)).1
  · exact (integrable_finsetSum _ fun k hk => (key k hk).1).div_const _
  · rw [integral_div, integral_finsetSum _ fun k hk => (key k hk).1,
      Finset.sum_congr rfl fun k hk => (key k hk).2, Finset.sum_const, Finset.card_range,
      nsmul_eq_mul, mul_div_cancel_left₀ _ hn0]

/-- **C73, expectation.** If squared differences from the first cell have the expectation
`2 (1 - ρ)`, the number returned with distance `x` has the expectation `2 (1 - m)`, `m` the average of
`ρ` over the selected cells at distance `x`: half of it is an unbiased estimate of the variogram at
`x`; whatever the dependence between the fields. -/
theorem ev2_expectation {v : Variogram} {nx ny nz : ℕ} {px py pz : ℤ} {cr : ℝ} {step : ℕ}
    (hx : 0 < nx) (hy : 0 < ny) (hz : 0 < nz) (hd : ny = 1 → nz = 1)
    (hs : nx ^ 2 + ny ^ 2 + nz ^ 2 ≤ 25 * 10 ^ 18) (hcr : 0 < cr)
    {Ω : Type} [MeasurableSpace Ω] {μ : Measure Ω} [IsProbabilityMeasure μ] {n : ℕ} (hn : 0 < n)
    (X : ℕ → ℕ × ℕ × ℕ → Ω → ℝ) (ρ : ℕ × ℕ × ℕ → ℝ)
    (hX : ∀ k < n, ∀ c ∈ cells nx ny nz,
      Integrable (fun ω => (X k c ω - X k (0, 0, 0) ω) ^ 2) μ ∧
      ∫ ω, (X k c ω - X k (0, 0, 0) ω) ^ 2 ∂μ = 2 * (1 - ρ c))
    (grids : ℕ → Ω → Arr3)
    (hgrids : ∀ k < n, ∀ ω,
      Holds ⟨v, nx, 1, ny, 1, nz, 1, px, py, pz⟩ (grids k ω) fun c => X k c ω) :
    ∃ E, Ev2.create v nx ny nz px py pz cr step = .ok E ∧
      ∃ (xs xt : List ℝ) (ys yt es et : Ω → List (Option ℝ)),
        (∀ ω, E.estimate ((List.range n).map fun k => grids k ω)
          = .ok ((xs, ys ω, es ω), (xt, yt ω, et ω))) ∧
        (∀ x, x ∈ xs ↔ ∃ c ∈ nearCells nx ny nz cr, cornerDist c = x) ∧
        (∀ x, x ∈ xt ↔ ∃ c ∈ sampleCells nx ny nz step, cornerDist c = x) ∧
        (∀ (j : ℕ) (x : ℝ), xs[j]? = some x → ∃ Y : Ω → ℝ, (∀ ω, (ys ω)[j]? = some (some (Y ω))) ∧
          Integrable Y μ ∧
          ∫ ω, Y ω ∂μ = 2 * (1 - avg (distClass (nearCells nx ny nz cr) x) ρ)) ∧
        ∀ (j : ℕ) (x : ℝ), xt[j]? = some x → ∃ Y : Ω → ℝ, (∀ ω, (yt ω)[j]? = some (some (Y ω))) ∧
          Integrable Y μ ∧
          ∫ ω, Y ω ∂μ = 2 * (1 - avg (distClass (sampleCells nx ny nz step) x) ρ) := by
  obtain ⟨E, e1, e2, e3⟩ := ev2_estimate_spec (v := v) (px := px) (py := py) (pz := pz)
    (step := step) hx hy hz hd hs hcr
  have hfst : ∀ {grids r}, E.estimate grids = .ok r →
      r.1.1 = E.shortBins.dists ∧ r.2.1 = E.sampleBins.dists := by
    intro grids r h
    unfold Ev2.estimate at h
    rw [Res.monad_bind_eq] at h
    obtain ⟨d, -, h⟩ := Res.bind_eq_ok.1 h
    obtain rfl := Res.ok.inj h
    exact ⟨rfl, rfl⟩
  choose short sample h1 h2 h3 using fun ω => e3 n hn (fun k => grids k ω) (fun k c => X k c ω)
    fun k hk => by rw [e2]; exact hgrids k hk ω
  have hxs : ∀ ω, (short ω).1 = E.shortBins.dists := fun ω => (hfst (h1 ω)).1
  have hxt : ∀ ω, (sample ω).1 = E.sampleBins.dists := fun ω => (hfst (h1 ω)).2
  obtain ⟨ω₀⟩ : Nonempty Ω := nonempty_of_isProbabilityMeasure μ
  have sub1 : ∀ c ∈ nearCells nx ny nz cr, c ∈ cells nx ny nz := fun c hc =>
    (Finset.mem_filter.1 hc).1
  have sub2 : ∀ c ∈ sampleCells nx ny nz step, c ∈ cells nx ny nz := by
    intro c hc
    unfold sampleCells at hc
    split at hc
    · exact hc
    · exact (Finset.mem_filter.1 hc).1
  refine ⟨E, e1, E.shortBins.dists, E.sampleBins.dists, fun ω => (short ω).2.1,
    fun ω => (sample ω).2.1, fun ω => (short ω).2.2, fun ω => (sample ω).2.2, fun ω => ?_, ?_, ?_,
    fun j x hj => ?_, fun j x hj => ?_⟩
  · rw [h1 ω, ← hxs ω, ← hxt ω]
  · rw [← hxs ω₀]
    exact (h2 ω₀).2.1
  · rw [← hxt ω₀]
    exact (h3 ω₀).2.1
  · exact summary_expectation hn X ρ (fun k hk c hc => hX k hk c (sub1 c hc)) short h2 hxs ω₀ j x hj
  · exact summary_expectation hn X ρ (fun k hk c hc => hX k hk c (sub2 c hc)) sample h3 hxt ω₀ j x hj

/-- The average of a function of the distance over the cells at a distance. -/
theorem avg_distClass {sel : Finset (ℕ × ℕ × ℕ)} {x : ℝ} (hne : ∃ c ∈ sel, cornerDist c = x)
    (g : ℝ → ℝ) : avg (distClass sel x) (fun c => g (cornerDist c)) = g x := by
  obtain ⟨c, hc, h⟩ := hne
  have hcard : ((distClass sel x).card : ℝ) ≠ 0 := by
    rw [Nat.cast_ne_zero]
    exact Finset.card_ne_zero.2 ⟨c, Finset.mem_filter.2 ⟨hc, h⟩⟩
  unfold avg
  have hs : ∑ c ∈ distClass sel x, g (cornerDist c) = ∑ _c ∈ distClass sel x, g x :=
    Finset.sum_congr rfl fun c hc => congrArg g (Finset.mem_filter.1 hc).2
  rw [hs, Finset.sum_const, nsmul_eq_mul, mul_div_cancel_left₀ _ hcard]

open ProbabilityTheory in
/-- **C73 for simulated fields.** Fields with mean 0 whose covariance at every lag is the correlation
of an isotropic variogram times the three smoothing kernels of the simulation, as C04 and C31 prove
where neither wrap-around nor clipping interferes: the number returned with distance `x` has the
expectation `2 (1 - corr(x) * 1e-5 ^ ((x / r) ^ 2))`, twice the smoothed curve of the example program;
not the variogram `1 - corr(x)`. -/
theorem ev2_isotropic {t : VType} {p r az dp sd : ℝ} {v : Variogram} (hr : 0 < r)
    (hv : Variogram.create t p r r r az dp sd = .ok v) (hp : t = .generalExponential → 0 < p)
    {nx ny nz : ℕ} {px py pz : ℤ}
    {cr : ℝ} {step : ℕ} (hx : 0 < nx) (hy : 0 < ny) (hz : 0 < nz) (hd : ny = 1 → nz = 1)
    (hs : nx ^ 2 + ny ^ 2 + nz ^ 2 ≤ 25 * 10 ^ 18) (hcr : 0 < cr)
    {Ω : Type} [MeasurableSpace Ω] {μ : Measure Ω} [IsProbabilityMeasure μ] {n : ℕ} (hn : 0 < n)
    (X : ℕ → ℕ × ℕ × ℕ → Ω → ℝ)
    (hX : ∀ k < n, ∀ c ∈ cells nx ny nz, MemLp (X k c) 2 μ ∧ ∫ ω, X k c ω ∂μ = 0)
    (hcov : ∀ k < n, ∀ c ∈ cells nx ny nz, ∀ c' ∈ cells nx ny nz, cov[X k c, X k c'; μ]
      = v.corr3 ((c.1 : ℝ) - c'.1) ((c.2.1 : ℝ) - c'.2.1) ((c.2.2 : ℝ) - c'.2.2)
        * kernel 1e-5 r ((c.1 : ℝ) - c'.1) * kernel 1e-5 r ((c.2.1 : ℝ) - c'.2.1)
        * kernel 1e-5 r ((c.2.2 : ℝ) - c'.2.2))
    (grids : ℕ → Ω → Arr3)
    (hgrids : ∀ k < n, ∀ ω,
      Holds ⟨v, nx, 1, ny, 1, nz, 1, px, py, pz⟩ (grids k ω) fun c => X k c ω) :
    ∃ E, Ev2.create v nx ny nz px py pz cr step = .ok E ∧
      ∃ (xs xt : List ℝ) (ys yt es et : Ω → List (Option ℝ)),
        (∀ ω, E.estimate ((List.range n).map fun k => grids k ω)
          = .ok ((xs, ys ω, es ω), (xt, yt ω, et ω))) ∧
        (∀ (j : ℕ) (x : ℝ), xs[j]? = some x → ∃ Y : Ω → ℝ, (∀ ω, (ys ω)[j]? = some (some (Y ω))) ∧
          Integrable Y μ ∧ ∫ ω, Y ω ∂μ = 2 * (1 - v.corr x * 1e-5 ^ ((x / r) ^ 2))) ∧
        ∀ (j : ℕ) (x : ℝ), xt[j]? = some x → ∃ Y : Ω → ℝ, (∀ ω, (yt ω)[j]? = some (some (Y ω))) ∧
          Integrable Y μ ∧ ∫ ω, Y ω ∂μ = 2 * (1 - v.corr x * 1e-5 ^ ((x / r) ^ 2)) := by
  have h0 : ((0, 0, 0) : ℕ × ℕ × ℕ) ∈ cells nx ny nz := by simp [cells, hx, hy, hz]
  have hk : ∀ h : ℝ, kernel 1e-5 r h = (1e-5 : ℝ) ^ ((h / r) ^ 2) := fun h => by
    unfold kernel
    rw [if_pos (by norm_num)]
  let g : ℝ → ℝ := fun x => v.corr x * 1e-5 ^ ((x / r) ^ 2)
  have hself : ∀ k < n, ∀ c ∈ cells nx ny nz, cov[X k c, X k c; μ] = 1 := by
    intro k hk' c hc
    rw [hcov k hk' c hc c hc]
    simp only [sub_self, hk, zero_div, ne_eq, OfNat.ofNat_ne_zero, not_false_eq_true, zero_pow,
      Real.rpow_zero, mul_one]
    exact (corr_zero hv hp).1
  have hcross : ∀ k < n, ∀ c ∈ cells nx ny nz, cov[X k c, X k (0, 0, 0); μ] = g (cornerDist c) := by
    intro k hk' c hc
    rw [hcov k hk' c hc _ h0]
    simp only [hk, Nat.cast_zero, sub_zero, g]
    rw [(corr_arity v (cornerDist c) 0).2.2, corr_isotropic hr hv, corr_isotropic hr hv]
    have hsq : cornerDist c ^ 2 = (c.1 : ℝ) ^ 2 + (c.2.1 : ℝ) ^ 2 + (c.2.2 : ℝ) ^ 2 :=
      Real.sq_sqrt (by positivity)
    have e1 : cornerDist c ^ 2 + 0 ^ 2 + 0 ^ 2
        = (c.1 : ℝ) ^ 2 + (c.2.1 : ℝ) ^ 2 + (c.2.2 : ℝ) ^ 2 := by
      rw [hsq]
      ring
    have e2 : (cornerDist c / r) ^ 2
        = ((c.1 : ℝ) / r) ^ 2 + ((c.2.1 : ℝ) / r) ^ 2 + ((c.2.2 : ℝ) / r) ^ 2 := by
      rw [div_pow, hsq]
      ring
    rw [e1, e2, Real.rpow_add (by norm_num), Real.rpow_add (by norm_num)]
    ring
  obtain ⟨E, e1, xs, xt, ys, yt, es, et, h1, h2, h3, h4, h5⟩ := ev2_expectation (v := v) (px := px)
    (py := py) (pz := pz) (step := step) hx hy hz hd hs hcr (μ := μ) hn X (fun c => g (cornerDist c))
    (fun k hk' c hc => by
      obtain ⟨a1, a2⟩ := hX k hk' c hc
      obtain ⟨b1, b2⟩ := hX k hk' _ h0
      obtain ⟨c1, c2⟩ := sq_diff_of_cov a1 b1 a2 b2
      refine ⟨c1, ?_⟩
      rw [c2, hself k hk' c hc, hself k hk' _ h0, hcross k hk' c hc]
      ring) grids hgrids
  refine ⟨E, e1, xs, xt, ys, yt, es, et, h1, fun j x hj => ?_, fun j x hj => ?_⟩
  · obtain ⟨Y, y1, y2, y3⟩ := h4 j x hj
    exact ⟨Y, y1, y2, by rw [y3, avg_distClass ((h2 x).1 (List.mem_of_getElem? hj))]⟩
  · obtain ⟨Y, y1, y2, y3⟩ := h5 j x hj
    exact ⟨Y, y1, y2, by rw [y3, avg_distClass ((h3 x).1 (List.mem_of_getElem? hj))]⟩

open ProbabilityTheory in
/-- The hypotheses of `ev2_isotropic` are met: two cells, a spherical variogram of range 1, independent
signs. -/
example : ∃ v, Variogram.create .spherical 1 1 1 1 0 0 1 = .ok v ∧
    ∃ (X : ℕ × ℕ × ℕ → Bool × Bool → ℝ) (grid : Bool × Bool → Arr3),
      (∀ c ∈ cells 2 1 1, MemLp (X c) 2 (PMF.uniformOfFintype (Bool × Bool)).toMeasure ∧
        ∫ ω, X c ω ∂(PMF.uniformOfFintype (Bool × Bool)).toMeasure = 0) ∧
      (∀ c ∈ cells 2 1 1, ∀ c' ∈ cells 2 1 1,
        cov[X c, X c'; (PMF.uniformOfFintype (Bool × Bool)).toMeasure]
        = v.corr3 ((c.1 : ℝ) - c'.1) ((c.2.1 : ℝ) - c'.2.1) ((c.2.2 : ℝ) - c'.2.2)
        * kernel 1e-5 1 ((c.1 : ℝ) - c'.1) * kernel 1e-5 1 ((c.2.1 : ℝ) - c'.2.1)
        * kernel 1e-5 1 ((c.2.2 : ℝ) - c'.2.2)) ∧
      ∀ ω, Holds ⟨v, 2, 1, 1, 1, 1, 1, 0, 0, 0⟩ (grid ω) fun c => X c ω := by
  obtain ⟨v, hv⟩ : ∃ v, Variogram.create .spherical 1 1 1 1 0 0 1 = .ok v := by
    unfold Variogram.create Variogram.estimateFactors
    simp only
    rw [if_neg (by norm_num)]
    exact ⟨_, rfl⟩
  let sgn : Bool → ℝ := fun b => if b then 1 else -1
  let X : ℕ × ℕ × ℕ → Bool × Bool → ℝ := fun c ω => if c.1 = 0 then sgn ω.1 else sgn ω.2
  have hint : ∀ f : Bool × Bool → ℝ, ∫ ω, f ω ∂(PMF.uniformOfFintype (Bool × Bool)).toMeasure
      = (f (true, true) + f (true, false) + f (false, true) + f (false, false)) / 4 := by
    intro f
    rw [PMF.integral_eq_sum]
    simp only [PMF.uniformOfFintype_apply, Fintype.sum_prod_type, Fintype.sum_bool,
      Fintype.card_prod, Fintype.card_bool]
    norm_num
    ring
  have hmean : ∀ c, ∫ ω, X c ω ∂(PMF.uniformOfFintype (Bool × Bool)).toMeasure = 0 := by
    intro c
    rw [hint]
    by_cases h : c.1 = 0 <;> simp [X, sgn, h]
  refine ⟨v, hv, X, fun ω => ⟨2, 1, 1, [sgn ω.1, sgn ω.2]⟩, fun c _ => ⟨MemLp.of_discrete, hmean c⟩,
    ?_, ?_⟩
  · intro c hc c' hc'
    obtain ⟨i, hi, rfl⟩ := mem_line.1 hc
    obtain ⟨i', hi', rfl⟩ := mem_line.1 hc'
    have h1 : ∀ x : ℝ, x ^ 2 = 1 → v.corr3 x 0 0 = 0 := by
      intro x hx
      rw [corr_isotropic one_pos hv, hx]
      norm_num [corr1D]
    have h0 : v.corr3 0 0 0 = 1 := (corr_zero hv (by simp)).1
    have hk : ∀ s : ℝ, kernel s 1 0 = 1 := by
      intro s
      unfold kernel
      simp
    unfold covariance
    simp only [hmean, sub_zero]
    rw [hint]
    interval_cases i <;> interval_cases i' <;> norm_num [X, sgn, h0, h1, hk]
  · intro ω
    refine ⟨rfl, rfl, rfl, rfl, fun c hc => ?_⟩
    obtain ⟨i, hi, rfl⟩ := mem_line.1 hc
    have hi : i < 2 := hi
    interval_cases i <;> simp [X]

end Verif.Py
