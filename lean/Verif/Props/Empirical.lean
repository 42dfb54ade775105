import Verif.Lemmas.EmpiricalSum
import Verif.Props.Api
import Verif.Props.Factory

/-!
# Properties of the Python layer (C58 to C62)
-/

namespace Verif.Py

open Spec Finset MeasureTheory

/-! ## C58: what is averaged -/

/-- **C58, fields.** If the simulation of an `EmpiricalVariogram` returns, cell (i, j, k) of the array
is the element of the result of `advanced.simulate` at the Fortran position. -/
theorem evSimulate_holds {E : Ev} {S : Setup} {e : Env} {s s' : Random} {grid : Arr3}
    (h : E.simulate S e s = .ok (grid, s')) :
    ∃ out, advancedSimulate S e E.v E.nx E.dx E.ny E.dy E.nz E.dz E.px E.py E.pz 1 1 1 s
        = .ok (out, s') ∧
      Holds E grid fun c => out.getD (c.1 + E.nx * (c.2.1 + E.ny * c.2.2)) 0 := by
  have h1 : (1.0 : ℝ) = 1 := by norm_num
  unfold Ev.simulate at h
  rw [h1, Res.monad_bind_eq] at h
  obtain ⟨⟨out, s1⟩, e1, h⟩ := Res.bind_eq_ok.1 h
  obtain ⟨a, e2, h⟩ := Res.bind_eq_ok.1 h
  simp only [Res.ok.injEq, Prod.mk.injEq] at h
  obtain ⟨rfl, rfl⟩ := h
  unfold reshapeF at e2
  split_ifs at e2 with hl
  obtain rfl := Res.ok.inj e2
  refine ⟨out, e1, rfl, rfl, rfl, hl, ?_⟩
  rintro ⟨i, j, k⟩ hc
  simp only [cells, Finset.mem_product, Finset.mem_range] at hc
  obtain ⟨hi, hj, hk⟩ := hc
  have hlt : i + E.nx * (j + E.ny * k) < out.length := by
    rw [hl]
    have a1 : j + E.ny * k + 1 ≤ E.ny * E.nz := by
      calc j + E.ny * k + 1 ≤ E.ny + E.ny * k := by omega
        _ = E.ny * (k + 1) := by ring
        _ ≤ E.ny * E.nz := Nat.mul_le_mul_left _ hk
    calc i + E.nx * (j + E.ny * k) < E.nx + E.nx * (j + E.ny * k) := by omega
      _ = E.nx * (j + E.ny * k + 1) := by ring
      _ ≤ E.nx * (E.ny * E.nz) := Nat.mul_le_mul_left _ a1
      _ = E.nx * E.ny * E.nz := by ring
  show out[i + E.nx * (j + E.ny * k)]? = some (out.getD (i + E.nx * (j + E.ny * k)) 0)
  rw [List.getD_eq_getElem?_getD, List.getElem?_eq_getElem hlt]
  rfl

/-- **C58, dimensions.** With one cell in y and several in z the simulation never returns (the
generator makes a one-dimensional field, which does not fill the array). -/
theorem evSimulate_flat_refuted {E : Ev} {S : Setup} {e : Env} {s : Random} (hx : 0 < E.nx)
    (hy : E.ny = 1) (hz : 2 ≤ E.nz) (r : Arr3 × Random) : E.simulate S e s ≠ .ok r := by
  obtain ⟨grid, s'⟩ := r
  intro h
  obtain ⟨out, h1, h2⟩ := evSimulate_holds h
  have hl := simulate_length S e E.v E.nx E.dx E.ny E.dy E.nz E.dz E.px E.py E.pz 1 1 1 h1
  rw [if_pos (Or.inl hy.le)] at hl
  unfold Ev.simulate at h
  have h11 : (1.0 : ℝ) = 1 := by norm_num
  rw [h11, Res.monad_bind_eq, h1, Res.bind_ok] at h
  obtain ⟨a, e2, h⟩ := Res.bind_eq_ok.1 h
  unfold reshapeF at e2
  split_ifs at e2 with hlen
  rw [hl, hy, mul_one] at hlen
  have : E.nx * 2 ≤ E.nx * E.nz := Nat.mul_le_mul_left _ hz
  omega

/-- **C58.** For a field `X` and a reference cell `r` whose farthest cell is at distance `M`, the bins
are `K = ⌊M / resolution⌋` intervals of equal width from 0 to `M`; entry `b` of the result is the
average of the squared differences from `r` over exactly the cells whose distance from `r` is in the
interval, and nan if there is none. -/
theorem binned_spec {E : Ev} {grid : Arr3} {X : ℕ × ℕ × ℕ → ℝ} (h : Holds E grid X)
    (hd : E.ny = 1 → E.nz = 1) {r : ℕ × ℕ × ℕ} (hr : r ∈ cells E.nx E.ny E.nz) {M res : ℝ}
    (hM : IsFarthest E.nx E.ny E.nz E.dx E.dy E.dz r M) (h0 : 0 < res) (h1 : res ≤ M) :
    ∃ means edges, E.binnedStatistics res grid (some r) = .ok (means, edges) ∧
      means.length = ⌊M / res⌋₊ ∧ edges.length = ⌊M / res⌋₊ + 1 ∧
      (∀ b ≤ ⌊M / res⌋₊, edges[b]? = some (b * (M / ⌊M / res⌋₊))) ∧
      ∀ b < ⌊M / res⌋₊,
        (binCells E.nx E.ny E.nz E.dx E.dy E.dz r ⌊M / res⌋₊ M b = ∅ → means[b]? = some none) ∧
        (binCells E.nx E.ny E.nz E.dx E.dy E.dz r ⌊M / res⌋₊ M b ≠ ∅ → means[b]? = some (some
          (avg (binCells E.nx E.ny E.nz E.dx E.dy E.dz r ⌊M / res⌋₊ M b)
            fun c => (X c - X r) ^ 2))) := by
  refine ⟨_, _, binnedStatistics_eq h hd hr rfl hM h0 h1, by simp [numBins], by simp [linspace, numBins],
    ?_, ?_⟩
  · intro b hb
    have : b < ⌊M / res⌋₊ + 1 := by omega
    simp [linspace, numBins, List.getElem?_range this]
  · intro b hb
    refine ⟨fun he => ?_, fun he => ?_⟩
    · simp only [numBins, List.getElem?_map, List.getElem?_range hb, Option.map_some]
      exact congrArg some (if_pos he)
    · simp only [numBins, List.getElem?_map, List.getElem?_range hb, Option.map_some]
      exact congrArg some (if_neg he)

/-- **C58, all cells.** Every cell is in exactly one bin. -/
theorem bins_partition {nx ny nz : ℕ} {dx dy dz : ℝ} {r c : ℕ × ℕ × ℕ} {M : ℝ} {K : ℕ}
    (hK : 0 < K) (hM0 : 0 < M) (hM : IsFarthest nx ny nz dx dy dz r M) (hc : c ∈ cells nx ny nz) :
    ∃! b, b < K ∧ c ∈ binCells nx ny nz dx dy dz r K M b := by
  have hK' : (0 : ℝ) < K := by exact_mod_cast hK
  have hw : 0 < M / K := by positivity
  have hKw : K * (M / K) = M := by field_simp
  have h0 := cellDist_nonneg dx dy dz c r
  have h1 : cellDist dx dy dz c r ≤ M := hM.2 ⟨c, hc, rfl⟩
  have key : ∀ b, b < K ∧ c ∈ binCells nx ny nz dx dy dz r K M b
      ↔ b < K ∧ binNumber (linspace 0 M K) (cellDist dx dy dz c r) = b + 1 := by
    intro b
    refine and_congr_right fun hb => ?_
    rw [binNumber_linspace hM0 hK h0 h1 hb]
    simp [binCells, hc]
  simp only [key]
  suffices H : ∃ b < K, InBin K M b (cellDist dx dy dz c r) by
    obtain ⟨b, hb, hi⟩ := H
    refine ⟨b, ⟨hb, (binNumber_linspace hM0 hK h0 h1 hb).2 hi⟩, ?_⟩
    rintro b' ⟨hb', e⟩
    rw [(binNumber_linspace hM0 hK h0 h1 hb).2 hi] at e
    omega
  rcases eq_or_lt_of_le h1 with he | hlt
  · refine ⟨K - 1, by omega, ?_, Or.inr ⟨by omega, he⟩⟩
    rw [he]
    have : ((K - 1 : ℕ) : ℝ) ≤ K := by exact_mod_cast Nat.sub_le K 1
    calc ((K - 1 : ℕ) : ℝ) * (M / K) ≤ K * (M / K) := by gcongr
      _ = M := hKw
  · refine ⟨⌊cellDist dx dy dz c r / (M / K)⌋₊, ?_, ?_, Or.inl ?_⟩
    · rw [Nat.floor_lt (by positivity), div_lt_iff₀ hw, hKw]
      exact hlt
    · rw [← le_div_iff₀ hw]
      exact Nat.floor_le (by positivity)
    · rw [← div_lt_iff₀ hw]
      exact Nat.lt_floor_add_one _

/-! ## C59: expectation of the estimate -/

/-- **C59.** If squared differences of the fields have expectation `2 (1 - ρ)`, the expectation of
the estimate in a bin is the average over the reference points that have the bin of the averages of
`ρ` over the pairs in the bin; whatever the dependence between the fields. -/
theorem estimate_expectation {E : Ev} (hd : E.ny = 1 → E.nz = 1) {res : ℝ} (h0 : 0 < res)
    {M : ℕ × ℕ × ℕ → ℝ}
    (hM : ∀ r ∈ cells E.nx E.ny E.nz, IsFarthest E.nx E.ny E.nz E.dx E.dy E.dz r (M r))
    {refs : List (ℕ × ℕ × ℕ)} (hr : ∀ r ∈ refs, r ∈ cells E.nx E.ny E.nz ∧ res ≤ M r)
    (hz : ((0, 0, 0) : ℕ × ℕ × ℕ) ∈ cells E.nx E.ny E.nz) (hres : res ≤ M (0, 0, 0))
    {Ω : Type} [MeasurableSpace Ω] {μ : Measure Ω} [IsProbabilityMeasure μ] {n : ℕ} (hn : 0 < n)
    (X : ℕ → ℕ × ℕ × ℕ → Ω → ℝ) (ρ : ℕ × ℕ × ℕ → ℕ × ℕ × ℕ → ℝ)
    (hX : ∀ k < n, ∀ c ∈ cells E.nx E.ny E.nz, ∀ r ∈ refs,
      Integrable (fun ω => (X k c ω - X k r ω) ^ 2) μ ∧
      ∫ ω, (X k c ω - X k r ω) ^ 2 ∂μ = 2 * (1 - ρ c r))
    (first : Ω → Arr3) (hfirst : ∀ ω, ∃ Y, Holds E (first ω) Y) (grids : ℕ → Ω → Arr3)
    (hgrids : ∀ k < n, ∀ ω, Holds E (grids k ω) fun c => X k c ω) :
    ∃ (mid : List ℝ) (est : Ω → List (Option ℝ)),
      (∀ ω, E.estimate res refs (first ω) ((List.range n).map fun k => grids k ω)
        = .ok (mid, est ω)) ∧
      mid.length = ⌊M (0, 0, 0) / res⌋₊ ∧
      ∀ b < ⌊M (0, 0, 0) / res⌋₊,
        mid[b]? = some ((b + 1) * (M (0, 0, 0) / ⌊M (0, 0, 0) / res⌋₊)) ∧
        ((refs.filter fun r => b < ⌊M r / res⌋₊) ≠ [] →
        (∀ r ∈ refs, b < ⌊M r / res⌋₊ →
          binCells E.nx E.ny E.nz E.dx E.dy E.dz r ⌊M r / res⌋₊ (M r) b ≠ ∅) →
        ∃ Y : Ω → ℝ, (∀ ω, (est ω)[b]? = some (some (Y ω))) ∧ Integrable Y μ ∧
          ∫ ω, Y ω ∂μ = ((refs.filter fun r => b < ⌊M r / res⌋₊).map fun r =>
              avg (binCells E.nx E.ny E.nz E.dx E.dy E.dz r ⌊M r / res⌋₊ (M r) b) fun c => ρ c r).sum
            / (refs.filter fun r => b < ⌊M r / res⌋₊).length) := by
  have nb : ∀ x : ℝ, ⌊x / res⌋₊ = numBins x res := fun _ => rfl
  simp only [nb]
  set K := numBins (M (0, 0, 0)) res with hKdef
  refine ⟨(List.range K).map fun b : ℕ => ((b : ℝ) + 1) * (M (0, 0, 0) / K), fun ω =>
    (List.range K).map fun b => nanDiv (nanSum (some 0) ((List.range n).map fun k => nanDiv
      (nanSum (some 0) (refs.map fun r => contrib E res M (fun c => X k c ω) r b))
      (refs.filter fun r => b < numBins (M r) res).length)) n, ?_, by simp, ?_⟩
  · intro ω
    obtain ⟨Y, hY⟩ := hfirst ω
    unfold Ev.estimate
    rw [midpoints_eq hd h0 hM hY hz hres]
    simp only [Res.monad_bind_eq, Res.bind_ok, List.map_map]
    obtain ⟨g', e⟩ := simLoop_eq hd h0 hM (fun k => grids k ω) (fun k c => X k c ω)
      (ks := List.range n) (fun k hk => hgrids k (List.mem_range.1 hk) ω) hr (fun _ => some 0)
      (fun _ => 0)
    simp only [Function.comp_def]
    rw [e, Res.bind_ok]
    simp [List.map_map, Function.comp_def, hKdef]
  · intro b hb
    refine ⟨by simp [List.getElem?_range hb], fun hne hbins => ?_⟩
    set cnt := (refs.filter fun r => b < numBins (M r) res).length with hcnt
    have hcnt0 : cnt ≠ 0 := by
      rw [hcnt, Ne, List.length_eq_zero_iff]
      exact hne
    set B := fun r => binCells E.nx E.ny E.nz E.dx E.dy E.dz r (numBins (M r) res) (M r) b with hB
    -- the contribution of a reference point
    let y : ℕ → Ω → ℕ × ℕ × ℕ → ℝ := fun k ω r =>
      if decide (b < numBins (M r) res) then 1 - avg (B r) (fun c => (X k c ω - X k r ω) ^ 2) / 2 else 0
    have hcontrib : ∀ k ω, (refs.map fun r => contrib E res M (fun c => X k c ω) r b)
        = refs.map fun r => some (y k ω r) := by
      intro k ω
      refine List.map_congr_left fun r hrr => ?_
      unfold contrib
      simp only [y, decide_eq_true_eq]
      by_cases hbr : b < numBins (M r) res
      · rw [if_pos hbr, if_neg (hbins r hrr hbr), if_pos hbr]
      · rw [if_neg hbr, if_neg hbr]
    have hrow : ∀ k ω, nanDiv (nanSum (some 0) (refs.map fun r =>
        contrib E res M (fun c => X k c ω) r b)) cnt
        = some (((refs.filter fun r => b < numBins (M r) res).map fun r =>
          1 - avg (B r) (fun c => (X k c ω - X k r ω) ^ 2) / 2).sum / cnt) := by
      intro k ω
      rw [nanSum_some 0 (hcontrib k ω), nanDiv, if_neg hcnt0, Option.map_some, zero_add]
      simp only [y]
      rw [sum_filter_map]
    have hint : ∀ k < n, ∀ r ∈ refs.filter (fun r => b < numBins (M r) res),
        Integrable (fun ω => 1 - avg (B r) (fun c => (X k c ω - X k r ω) ^ 2) / 2) μ ∧
        ∫ ω, (1 - avg (B r) (fun c => (X k c ω - X k r ω) ^ 2) / 2) ∂μ = avg (B r) fun c => ρ c r := by
      intro k hk r hrr
      rw [List.mem_filter] at hrr
      obtain ⟨hrr, hbr⟩ := hrr
      have hBne := hbins r hrr (by simpa using hbr)
      have hcard : ((B r).card : ℝ) ≠ 0 := by
        rw [Nat.cast_ne_zero]
        exact Finset.card_ne_zero.2 (Finset.nonempty_iff_ne_empty.2 hBne)
      have hsub : ∀ c ∈ B r, c ∈ cells E.nx E.ny E.nz := fun c hc => by
        simp only [hB, binCells, Finset.mem_filter] at hc
        exact hc.1
      have hi : Integrable (fun ω => ∑ c ∈ B r, (X k c ω - X k r ω) ^ 2) μ :=
        integrable_finsetSum _ fun c hc => (hX k hk c (hsub c hc) r hrr).1
      have hi2 : Integrable (fun ω => avg (B r) (fun c => (X k c ω - X k r ω) ^ 2) / 2) μ :=
        (hi.div_const _).div_const _
      refine ⟨(integrable_const 1).sub hi2, ?_⟩
      rw [integral_sub (integrable_const 1) hi2]
      unfold avg
      rw [integral_div, integral_div, integral_finsetSum _ fun c hc =>
        (hX k hk c (hsub c hc) r hrr).1, Finset.sum_congr rfl fun c hc =>
        (hX k hk c (hsub c hc) r hrr).2, ← Finset.mul_sum, Finset.sum_sub_distrib]
      simp only [integral_const, probReal_univ, smul_eq_mul, mul_one, Finset.sum_const,
        nsmul_eq_mul]
      field_simp
      ring
    let Z : ℕ → Ω → ℝ := fun k ω => ((refs.filter fun r => b < numBins (M r) res).map fun r =>
          1 - avg (B r) (fun c => (X k c ω - X k r ω) ^ 2) / 2).sum / cnt
    have hZ : ∀ k < n, Integrable (Z k) μ ∧ ∫ ω, Z k ω ∂μ
        = ((refs.filter fun r => b < numBins (M r) res).map fun r => avg (B r) fun c => ρ c r).sum
          / cnt := by
      intro k hk
      obtain ⟨h1, h2⟩ := integrable_list_sum (μ := μ)
        (y := fun r ω => 1 - avg (B r) (fun c => (X k c ω - X k r ω) ^ 2) / 2)
        fun r hrr => (hint k hk r hrr).1
      refine ⟨h1.div_const _, ?_⟩
      simp only [Z]
      rw [integral_div, h2]
      congr 2
      exact List.map_congr_left fun r hrr => (hint k hk r hrr).2
    obtain ⟨h1, h2⟩ := integrable_list_sum (μ := μ) (ks := List.range n) (y := Z)
      fun k hk => (hZ k (List.mem_range.1 hk)).1
    refine ⟨fun ω => ((List.range n).map fun k => Z k ω).sum / n, ?_, h1.div_const _, ?_⟩
    · intro ω
      simp only [List.getElem?_map, List.getElem?_range hb, Option.map_some]
      congr 1
      rw [nanSum_some 0 (List.map_congr_left fun k _ => hrow k ω), nanDiv, if_neg hn.ne',
        Option.map_some, zero_add]
    · rw [integral_div, h2]
      have : ((List.range n).map fun k => ∫ ω, Z k ω ∂μ)
          = (List.range n).map fun _ => ((refs.filter fun r => b < numBins (M r) res).map fun r =>
            avg (B r) fun c => ρ c r).sum / cnt :=
        List.map_congr_left fun k hk => (hZ k (List.mem_range.1 hk)).2
      rw [this, List.map_const', List.sum_replicate, List.length_range, nsmul_eq_mul]
      have : (n : ℝ) ≠ 0 := by positivity
      exact mul_div_cancel_left₀ _ this

end Verif.Py
