import Verif.Lemmas.Kriging
import Verif.Lemmas.BestLinear
import Verif.Props.Variogram
import Mathlib.Probability.ProbabilityMassFunction.Integrals
import Mathlib.Probability.Distributions.Uniform
import Mathlib.Tactic.IntervalCases

/-!
# C91: kriging in one dimension

Beside the inputs the theorems speak of `knownCells`, the indices of the known cells in increasing order, and of
the correlation matrix of these cells.
-/

namespace Verif

open MeasureTheory

/-- The known cells in increasing order. -/
def knownCells (is_known : List Bool) : List ℕ :=
  (List.range is_known.length).filter fun i => is_known.getD i false

/-- The correlation matrix of `n` cells of a list. -/
noncomputable def cellCorr (cells : List ℕ) (dx : ℝ) (v : Variogram) (n : ℕ) : Matrix (Fin n) (Fin n) ℝ :=
  Matrix.of fun a b => v.corr (((cells.getD a 0 : ℕ) - (cells.getD b 0 : ℕ) : ℝ) * dx)

theorem corr_abs (v : Variogram) (x : ℝ) : v.corr (-x) = v.corr x := (corr_neg v x 0 0).2.2

section
variable {field obs : List ℝ} {is_known : List Bool} {dx : ℝ} {v : Variogram}

/-- The outcome of `Krig1D` as a whole. -/
theorem krig1D_eq (hl : field.length = is_known.length) {m : ℕ} (hm : obs.length = m)
    (ho : obs.length = (knownCells is_known).length)
    (h0 : obs ≠ []) :
    (¬ (cellCorr (knownCells is_known) dx v m).PosDef →
        krig1D field is_known obs dx v = .throws "Error in Cholesky inversion") ∧
      ((cellCorr (knownCells is_known) dx v m).PosDef →
        ∃ out, krig1D field is_known obs dx v = .ok out ∧ out.length = field.length ∧
          ∀ k < field.length,
            (is_known.getD k false = true → out.getD k 0
              = obs.getD ((List.range k).filter fun i => is_known.getD i false).length 0) ∧
            (is_known.getD k false = false → out.getD k 0 = field.getD k 0
              + ∑ a : Fin m, v.corr (((knownCells is_known).getD a 0 - k : ℝ) * dx) *
                ((cellCorr (knownCells is_known) dx v m)⁻¹.mulVec
                  fun a => obs.getD a 0 - field.getD ((knownCells is_known).getD a 0) 0) a)) := by
  subst hm
  obtain ⟨r, hr, hrl, hrv⟩ := residual_ok hl ho
  have hlen0 : obs.length ≠ 0 := fun h => h0 (List.length_eq_zero_iff.1 h)
  have hle : obs.length ≤ field.length := by
    rw [ho, hl]
    refine (List.length_filter_le _ _).trans ?_
    rw [List.length_range]
  have hcell : ∀ a < obs.length, (knownCells is_known)[a]? = some ((knownCells is_known).getD a 0) := by
    intro a ha
    rw [List.getD_eq_getElem?_getD, List.getElem?_eq_getElem (by omega)]
    rfl
  obtain ⟨K, hK, hKv⟩ := fillSymm_ok (n := obs.length)
    (f := fun i j => (rd ((knownCells is_known).map fun i : ℕ => (i : ℝ) * dx) i).bind fun a =>
      (rd ((knownCells is_known).map fun i : ℕ => (i : ℝ) * dx) j).bind fun b => .ok (v.corr (a - b)))
    (g := fun i j => v.corr ((knownCells is_known).getD i 0 * dx - (knownCells is_known).getD j 0 * dx)) (by
      intro i hi j hj
      rw [getD_map_mul dx (hcell i hi), Res.bind_ok, getD_map_mul dx (hcell j (by omega)), Res.bind_ok])
  have hM : K.toMatrix obs.length = cellCorr (knownCells is_known) dx v obs.length := by
    refine toMatrix_congr fun a b => ?_
    rw [hKv a a.2 b b.2]
    show _ = v.corr _
    rcases le_total (a : ℕ) b with h | h
    · rw [max_eq_right h, min_eq_left h, ← corr_abs]
      congr 1
      ring
    · rw [max_eq_left h, min_eq_right h]
      congr 1
      ring
  have hres : toVec obs.length r
      = fun a : Fin obs.length => obs.getD a 0 - field.getD ((knownCells is_known).getD a 0) 0 := by
    funext a
    exact hrv a _ (hcell a a.2)
  have hstart : krig1D field is_known obs dx v = (choleskyInvertMul obs.length K r).bind fun K_res =>
      (forRange 0 field.length (Krig1.cellStep v is_known obs ((knownCells is_known).map fun i : ℕ => (i : ℝ) * dx)
        (((List.range is_known.length).filter fun i => !is_known.getD i false).map (fun i : ℕ => (i : ℝ) * dx)) K_res)
        (field, 0, 0)).bind fun st => .ok st.1 := by
    unfold krig1D
    rw [if_neg (by rw [not_not]; exact ⟨hl, hle⟩)]
    simp only [Res.monad_bind_eq]
    have hsp : forRange 0 is_known.length (Krig1.splitStep is_known dx) ([], [])
        = .ok ((knownCells is_known).map (fun i : ℕ => (i : ℝ) * dx),
          ((List.range is_known.length).filter fun i => !is_known.getD i false).map (fun i : ℕ => (i : ℝ) * dx)) :=
      split_ok
    rw [hr, Res.bind_ok, hsp, Res.bind_ok]
    dsimp only
    rw [hK, Res.bind_ok]
  rw [hstart]
  unfold choleskyInvertMul
  rw [if_neg hlen0, hM, hres]
  constructor
  · intro h
    rw [if_neg h]
    rfl
  · intro h
    rw [if_pos h, Res.bind_ok]
    have key := forRange_sat (lo := 0) (hi := field.length)
      (body := Krig1.cellStep v is_known obs ((knownCells is_known).map fun i : ℕ => (i : ℝ) * dx)
        (((List.range is_known.length).filter fun i => !is_known.getD i false).map (fun i : ℕ => (i : ℝ) * dx))
        (List.ofFn ((cellCorr (knownCells is_known) dx v obs.length)⁻¹.mulVec
          fun a : Fin obs.length => obs.getD a 0 - field.getD ((knownCells is_known).getD a 0) 0)))
      (s := (field, 0, 0))
      (fun n st => st.1.length = field.length ∧
        st.2.1 = ((List.range n).filter fun i => !is_known.getD i false).length ∧
        st.2.2 = ((List.range n).filter fun i => is_known.getD i false).length ∧
        (∀ k, n ≤ k → st.1.getD k 0 = field.getD k 0) ∧
        ∀ k < n,
          (is_known.getD k false = true → st.1.getD k 0
            = obs.getD ((List.range k).filter fun i => is_known.getD i false).length 0) ∧
          (is_known.getD k false = false → st.1.getD k 0 = field.getD k 0
            + ∑ a : Fin obs.length, v.corr (((knownCells is_known).getD a 0 - k : ℝ) * dx) *
              ((cellCorr (knownCells is_known) dx v obs.length)⁻¹.mulVec
                fun a => obs.getD a 0 - field.getD ((knownCells is_known).getD a 0) 0) a)) (Nat.zero_le _)
      ⟨rfl, rfl, rfl, fun _ _ => rfl, by intro k hk; omega⟩ ?_
    · obtain ⟨st, hst, h1, -, -, -, h5⟩ := key
      rw [hst, Res.bind_ok]
      exact ⟨st.1, rfl, h1, h5⟩
    · intro n st _ hn ⟨h1, h2, h3, h4, h5⟩
      unfold Krig1.cellStep
      rw [rd_known (by omega)]
      simp only [Res.monad_bind_eq, Res.bind_ok]
      have hset : ∀ (l : List ℝ) (y : ℝ), n < l.length → (l.set n y).getD n 0 = y := by
        intro l y hy
        rw [List.getD_eq_getElem?_getD, List.getElem?_set_self hy]
        rfl
      have hset' : ∀ (l : List ℝ) (y : ℝ) (k : ℕ), k ≠ n → (l.set n y).getD k 0 = l.getD k 0 := by
        intro l y k hk
        rw [List.getD_eq_getElem?_getD, List.getElem?_set_ne (fun e => hk e.symm), List.getD_eq_getElem?_getD]
      rw [range_filter_succ, range_filter_succ]
      cases hkn : is_known.getD n false
      · have hxu : (((List.range is_known.length).filter fun i => !is_known.getD i false))[st.2.1]? = some n := by
          rw [h2]
          exact range_filter_rank _ (by omega) (by rw [hkn]; rfl)
        rw [if_pos rfl, fillVec_ok (g := fun i => v.corr ((knownCells is_known).getD i 0 * dx - n * dx)) (by
          intro i hi
          rw [getD_map_mul dx (hcell i hi), Res.bind_ok, getD_map_mul dx hxu, Res.bind_ok]), Res.bind_ok,
          rd_getD (by omega), Res.bind_ok, wr, if_pos (by omega), Res.bind_ok, Res.sat_ok, dotList_ofFn]
        refine ⟨by simp [h1], by simp [h2], by simp [h3], ?_, ?_⟩
        · intro k hk
          rw [hset' _ _ _ (by omega)]
          exact h4 k (by omega)
        · intro k hk
          by_cases hkn' : k = n
          · subst hkn'
            refine ⟨fun h => absurd h (by rw [hkn]; decide), fun _ => ?_⟩
            rw [hset _ _ (by omega), h4 k (le_refl _)]
            congr 1
            refine Finset.sum_congr rfl fun a _ => ?_
            congr 2
            ring
          · rw [hset' _ _ _ hkn']
            exact h5 k (by omega)
      · have hlt : st.2.2 < obs.length := by
          have := range_filter_length_le (fun i => is_known.getD i false) (show n + 1 ≤ is_known.length by omega)
          rw [range_filter_succ, if_pos hkn, List.length_append, ← h3] at this
          rw [ho, knownCells]
          simpa using this
        rw [if_neg (by decide), rd_getD hlt, Res.bind_ok, wr, if_pos (by omega), Res.bind_ok, Res.sat_ok]
        refine ⟨by simp [h1], by simp [h2], by simp [h3], ?_, ?_⟩
        · intro k hk
          rw [hset' _ _ _ (by omega)]
          exact h4 k (by omega)
        · intro k hk
          by_cases hkn' : k = n
          · subst hkn'
            refine ⟨fun _ => ?_, fun h => absurd h (by rw [hkn]; decide)⟩
            rw [hset _ _ (by omega), h3]
          · rw [hset' _ _ _ hkn']
            exact h5 k (by omega)

/-- **C91.** The known cells get the observations, in their order; every other cell gets its value in the field
plus the weighted residuals of the known cells, with the weights that solve the kriging system. -/
theorem krig1D_spec (hl : field.length = is_known.length) (ho : obs.length = (knownCells is_known).length)
    (h0 : obs ≠ []) (hK : (cellCorr (knownCells is_known) dx v (knownCells is_known).length).PosDef) :
    ∃ out, krig1D field is_known obs dx v = .ok out ∧ out.length = field.length ∧
      (∀ a k, (knownCells is_known)[a]? = some k → out.getD k 0 = obs.getD a 0) ∧
      ∀ k < field.length, k ∉ knownCells is_known → ∀ w : Fin (knownCells is_known).length → ℝ,
        (∀ a : Fin (knownCells is_known).length, ∑ b : Fin (knownCells is_known).length, v.corr (((knownCells is_known).getD a 0 - (knownCells is_known).getD b 0 : ℝ) * dx) * w b
          = v.corr (((knownCells is_known).getD a 0 - k : ℝ) * dx)) →
        out.getD k 0 = field.getD k 0
          + ∑ a, w a * (obs.getD a 0 - field.getD ((knownCells is_known).getD a 0) 0) := by
  obtain ⟨out, h1, h2, h3⟩ := (krig1D_eq (dx := dx) (v := v) hl ho ho h0).2 hK
  refine ⟨out, h1, h2, ?_, ?_⟩
  · intro a k hak
    obtain ⟨hk1, hk2, hk3⟩ := range_filter_rank_inv _ hak
    rw [(h3 k (by omega)).1 hk2, hk3]
  · intro k hk hnk w hw
    have hkn : is_known.getD k false = false := by
      by_contra hc
      exact hnk (List.mem_filter.2 ⟨List.mem_range.2 (by omega), by simpa using hc⟩)
    rw [(h3 k hk).2 hkn]
    congr 1
    exact dot_inv_mulVec hK (w := w) (k := fun a => v.corr (((knownCells is_known).getD a 0 - k : ℝ) * dx))
      (funext hw) _

/-- **C91.** The number of observations must be the number of known cells: if not, the behaviour is undefined. -/
theorem krig1D_count (hl : field.length = is_known.length) (ho : obs.length ≠ (knownCells is_known).length) :
    ∃ why, krig1D field is_known obs dx v = .ub why := by
  unfold krig1D
  by_cases hle : obs.length ≤ field.length
  swap
  · rw [if_pos (by rw [not_and]; exact fun _ => hle)]
    exact ⟨_, rfl⟩
  rw [if_neg (by rw [not_not]; exact ⟨hl, hle⟩)]
  simp only [Res.monad_bind_eq]
  have hloop := forRange_sat_or_ub (lo := 0) (hi := is_known.length)
    (body := Krig1.residualStep field obs is_known) (s := (List.replicate obs.length 0, 0))
    (fun k st => st.1.length = obs.length ∧ st.2 ≤ obs.length ∧
      st.2 = ((List.range k).filter fun i => is_known.getD i false).length) (Nat.zero_le _)
    ⟨by simp, Nat.zero_le _, by simp⟩ (by
      intro k st _ hk ⟨h1, h2, h3⟩
      unfold Krig1.residualStep
      rw [rd_known hk]
      simp only [Res.monad_bind_eq, Res.bind_ok]
      rw [range_filter_succ]
      by_cases hkn : is_known.getD k false = true
      · rw [if_pos hkn, if_pos hkn]
        by_cases hlt : st.2 < obs.length
        · left
          rw [rd_getD hlt, Res.bind_ok, rd_getD (by omega), Res.bind_ok, wr, if_pos (by omega), Res.bind_ok, Res.sat_ok]
          exact ⟨by simp [h1], hlt, by simp [h3]⟩
        · right
          rw [show rd obs st.2 = .ub "read out of range" by unfold rd; rw [List.getElem?_eq_none (by omega)]]
          exact ⟨_, rfl⟩
      · left
        rw [if_neg hkn, if_neg hkn, Res.sat_ok, List.append_nil]
        exact ⟨h1, h2, h3⟩)
  rcases hloop with ⟨st, hst, h1, h2, h3⟩ | ⟨w, hw⟩
  swap
  · rw [hw]
    exact ⟨w, rfl⟩
  have hlt : (knownCells is_known).length < obs.length :=
    lt_of_le_of_ne (by rw [knownCells, ← h3]; exact h2) fun h => ho h.symm
  have hsp : forRange 0 is_known.length (Krig1.splitStep is_known dx) ([], [])
      = .ok ((knownCells is_known).map (fun i : ℕ => (i : ℝ) * dx),
        ((List.range is_known.length).filter fun i => !is_known.getD i false).map (fun i : ℕ => (i : ℝ) * dx)) :=
    split_ok
  rw [hst, Res.bind_ok, hsp, Res.bind_ok]
  dsimp only
  have hfill : ∃ w, (fillSymm obs.length fun i j =>
      (rd ((knownCells is_known).map fun i : ℕ => (i : ℝ) * dx) i).bind fun a =>
        (rd ((knownCells is_known).map fun i : ℕ => (i : ℝ) * dx) j).bind fun b => .ok (v.corr (a - b))) = .ub w := by
    unfold fillSymm
    refine (forRange_sat_or_ub (lo := 0) (hi := obs.length) (fun i _ => i ≤ (knownCells is_known).length) (Nat.zero_le _)
      (Nat.zero_le _) ?_).resolve_left ?_
    · intro i K _ hi hI
      have hcell : ∀ a < (knownCells is_known).length,
          (knownCells is_known)[a]? = some ((knownCells is_known).getD a 0) := by
        intro a ha
        rw [List.getD_eq_getElem?_getD, List.getElem?_eq_getElem ha]
        rfl
      by_cases hc : i < (knownCells is_known).length
      · left
        refine (forRange_inv (fun _ => True) trivial ?_).mono fun _ _ => hc
        intro j K' _ hj _
        beta_reduce
        rw [getD_map_mul dx (hcell i hc), Res.bind_ok, getD_map_mul dx (hcell j (by omega)), Res.bind_ok, Res.bind_ok,
          Res.sat_ok]
        trivial
      · right
        refine ⟨"read out of range", ?_⟩
        unfold forRange
        rw [Nat.sub_zero, forN]
        beta_reduce
        rw [show rd ((knownCells is_known).map fun i : ℕ => (i : ℝ) * dx) i
          = .ub "read out of range" by unfold rd; rw [List.getElem?_eq_none (by simp; omega)]]
        rfl
    · rintro ⟨K, -, hK⟩
      omega
  obtain ⟨w, hw⟩ := hfill
  rw [hw]
  exact ⟨w, rfl⟩

/-- **C91.** The function throws exactly if the correlation matrix of the known cells is not positive
definite. -/
theorem krig1D_throws (hl : field.length = is_known.length) (ho : obs.length = (knownCells is_known).length)
    (h0 : obs ≠ []) :
    (∃ msg, krig1D field is_known obs dx v = .throws msg) ↔
      ¬ (cellCorr (knownCells is_known) dx v (knownCells is_known).length).PosDef := by
  obtain ⟨h1, h2⟩ := krig1D_eq (dx := dx) (v := v) hl ho ho h0
  constructor
  · rintro ⟨msg, hm⟩ hK
    obtain ⟨out, ho, -⟩ := h2 hK
    rw [ho] at hm
    cases hm
  · intro h
    exact ⟨_, h1 h⟩

/-- **C91.** Kriging is the best linear prediction. Let `Z` be random fields with the given field as their mean
and with the correlations of the variogram. From the values at the known cells, the function computes in each
cell the predictor with the least mean squared error among all affine functions of these values. -/
theorem krig1D_best {Ω : Type} [MeasurableSpace Ω] {μ : Measure Ω} [IsProbabilityMeasure μ] {Z : ℕ → Ω → ℝ}
    {s : ℝ} (hl : field.length = is_known.length) (h0 : knownCells is_known ≠ [])
    (hK : (cellCorr (knownCells is_known) dx v (knownCells is_known).length).PosDef)
    (hZ : ∀ i < field.length, MemLp (Z i) 2 μ) (hm : ∀ i < field.length, ∫ ω, Z i ω ∂μ = field.getD i 0)
    (hc : ∀ i < field.length, ∀ j < field.length,
      ∫ ω, (Z i ω - field.getD i 0) * (Z j ω - field.getD j 0) ∂μ = s ^ 2 * v.corr ((i - j : ℝ) * dx)) :
    ∃ out : Ω → List ℝ,
      (∀ ω, krig1D field is_known ((knownCells is_known).map (Z · ω)) dx v = .ok (out ω)) ∧
      ∀ k < field.length, ∀ (c : ℝ) (u : ℕ → ℝ),
        ∫ ω, (Z k ω - (out ω).getD k 0) ^ 2 ∂μ
          ≤ ∫ ω, (Z k ω - (c + ((knownCells is_known).map fun i => u i * Z i ω).sum)) ^ 2 ∂μ := by
  have key : ∀ ω, ∃ out, krig1D field is_known ((knownCells is_known).map (Z · ω)) dx v = .ok out ∧ _ := fun ω =>
    krig1D_spec (obs := (knownCells is_known).map (Z · ω)) hl (by simp) (by simpa using h0) hK
  choose out h1 _ h3 h4 using key
  refine ⟨out, h1, ?_⟩
  have hobs : ∀ ω a i, (knownCells is_known)[a]? = some i → ((knownCells is_known).map (Z · ω)).getD a 0 = Z i ω := by
    intro ω a i h
    rw [List.getD_eq_getElem?_getD, List.getElem?_map, h]
    rfl
  have hcell : ∀ a : Fin (knownCells is_known).length,
      (knownCells is_known)[(a : ℕ)]? = some ((knownCells is_known).getD a 0) := by
    intro a
    rw [List.getD_eq_getElem?_getD, List.getElem?_eq_getElem a.2]
    rfl
  have hcl : ∀ a : Fin (knownCells is_known).length, (knownCells is_known).getD a 0 < field.length := by
    intro a
    rw [hl]
    exact (range_filter_rank_inv _ (hcell a)).1
  intro k hk c u
  by_cases hkn : k ∈ knownCells is_known
  · obtain ⟨a, ha⟩ := List.getElem?_of_mem hkn
    have : ∀ ω, (Z k ω - (out ω).getD k 0) ^ 2 = 0 := by
      intro ω
      rw [h3 ω a k ha, hobs ω a k ha, sub_self]
      norm_num
    simp only [this, integral_zero]
    exact integral_nonneg fun ω => sq_nonneg _
  · have hw := weights_exist hK fun a => v.corr (((knownCells is_known).getD a 0 - k : ℝ) * dx)
    generalize ((cellCorr (knownCells is_known) dx v (knownCells is_known).length)⁻¹.mulVec
      fun a => v.corr (((knownCells is_known).getD a 0 - k : ℝ) * dx)) = w at hw
    have e1 : ∀ ω, (out ω).getD k 0 = field.getD k 0 + ∑ a, w a *
        (Z ((knownCells is_known).getD a 0) ω - field.getD ((knownCells is_known).getD a 0) 0) := by
      intro ω
      rw [h4 ω k hk hkn w (fun a => congrFun hw a)]
      congr 1
      refine Finset.sum_congr rfl fun a _ => ?_
      rw [hobs ω a _ (hcell a)]
    have e2 : ∀ ω, ((knownCells is_known).map fun i => u i * Z i ω).sum
        = ∑ a : Fin (knownCells is_known).length, u ((knownCells is_known).getD a 0)
          * Z ((knownCells is_known).getD a 0) ω := by
      intro ω
      rw [← List.sum_ofFn]
      congr 1
      refine List.ext_getElem (by simp) fun i h1 h2 => ?_
      simp only [List.getElem_map, List.getElem_ofFn]
      rw [List.getD_eq_getElem?_getD, List.getElem?_eq_getElem (by simpa using h1)]
      rfl
    simp only [e1, e2]
    exact best_linear (s := s ^ 2) (X := fun a => Z ((knownCells is_known).getD a 0))
      (K := cellCorr (knownCells is_known) dx v (knownCells is_known).length)
      (k := fun a => v.corr (((knownCells is_known).getD a 0 - k : ℝ) * dx)) (fun a => hZ _ (hcl a)) (hZ k hk)
      (fun a => hm _ (hcl a)) (hm k hk) (fun a b => hc _ (hcl a) _ (hcl b)) (fun a => hc _ (hcl a) _ hk) hw c _

theorem cellCorr_posDef (hdx : dx ≠ 0) (hv : 0 < v.txx) (ht : v.type = .exponential ∨ v.type = .gaussian) :
    (cellCorr (knownCells is_known) dx v (knownCells is_known).length).PosDef := by
  have hmono : StrictMono fun a : Fin (knownCells is_known).length => ((knownCells is_known).getD a 0 : ℝ) := by
    intro a b hab
    have hs : (knownCells is_known).Pairwise (· < ·) := List.pairwise_lt_range.filter _
    rw [List.pairwise_iff_getElem] at hs
    have := hs a b a.2 b.2 hab
    dsimp only
    rw [List.getD_eq_getElem?_getD, List.getD_eq_getElem?_getD, List.getElem?_eq_getElem a.2,
      List.getElem?_eq_getElem b.2, Option.getD_some, Option.getD_some]
    exact_mod_cast this
  have hq : ∀ x : ℝ, v.distance1 (x * dx) = √v.txx * |dx| * |x| := by
    intro x
    unfold Variogram.distance1 Variogram.quad1
    rw [show v.txx * (x * dx) * (x * dx) = v.txx * (x * dx) ^ 2 by ring, Real.sqrt_mul hv.le, Real.sqrt_sq_eq_abs,
      abs_mul]
    ring
  have hpos : 0 < √v.txx * |dx| := mul_pos (Real.sqrt_pos.2 hv) (abs_pos.2 hdx)
  rcases ht with ht | ht
  · have e : cellCorr (knownCells is_known) dx v (knownCells is_known).length = Matrix.of fun a b : Fin (knownCells is_known).length =>
        Real.exp (-(3 * (√v.txx * |dx|)) * |((knownCells is_known).getD a 0 : ℝ) - ((knownCells is_known).getD b 0 : ℝ)|) := by
      ext a b
      show Variogram.corr1D _ _ _ = _
      rw [hq, ht]
      show Real.exp _ = Real.exp _
      congr 1
      norm_num
      ring
    rw [e]
    exact exp_posDef (by linarith) hmono
  · have e : cellCorr (knownCells is_known) dx v (knownCells is_known).length = Matrix.of fun a b : Fin (knownCells is_known).length =>
        Real.exp (-(3 * (√v.txx * |dx|) ^ 2) * (((knownCells is_known).getD a 0 : ℝ) - ((knownCells is_known).getD b 0 : ℝ)) ^ 2) := by
      ext a b
      show Variogram.corr1D _ _ _ = _
      rw [hq, ht]
      show Real.exp _ = Real.exp _
      congr 1
      rw [← sq_abs (((knownCells is_known).getD a 0 : ℝ) - ((knownCells is_known).getD b 0 : ℝ)),
        show (-3.0 : ℝ) = -3 by norm_num]
      ring
    rw [e]
    exact gauss_posDef (by positivity) hmono.injective

/-- **C91.** With the exponential or the Gaussian variogram the function never throws. -/
theorem krig1D_smooth (hl : field.length = is_known.length) (ho : obs.length = (knownCells is_known).length)
    (h0 : obs ≠ []) (hdx : dx ≠ 0) (hv : 0 < v.txx) (ht : v.type = .exponential ∨ v.type = .gaussian) :
    ∃ out, krig1D field is_known obs dx v = .ok out := by
  obtain ⟨out, h, -⟩ := krig1D_spec (dx := dx) (v := v) hl ho h0 (cellCorr_posDef hdx hv ht)
  exact ⟨out, h⟩

/-- **C91.** With the constant variogram two known cells are too many: the function always throws. -/
theorem krig1D_constant (hl : field.length = is_known.length) (ho : obs.length = (knownCells is_known).length)
    (h2 : 2 ≤ obs.length) (ht : v.type = .constant) : ∃ msg, krig1D field is_known obs dx v = .throws msg := by
  refine (krig1D_throws hl ho (by rintro rfl; simp at h2)).2 fun hK => ?_
  have hdet := hK.det_pos
  have h01 : (⟨0, by omega⟩ : Fin (knownCells is_known).length) ≠ ⟨1, by omega⟩ := by
    intro h
    have := congrArg Fin.val h
    simp at this
  refine hdet.ne' (Matrix.det_zero_of_row_eq h01 ?_)
  funext b
  show Variogram.corr1D _ _ _ = Variogram.corr1D _ _ _
  rw [ht]
  rfl

end

/-- An exponential variogram. -/
noncomputable def expVario : Variogram :=
  { type := .exponential, power := 0, rangeX := 1, rangeY := 1, rangeZ := 1, azimuth := 0, dip := 0, var := 1,
    txx := 1, tyy := 1, tzz := 1, txy := 0, txz := 0, tyz := 0 }

/-- Four cells, two of them known. -/
example : ∃ out, krig1D [0, 0, 0, 0] [false, true, false, true] [5, 7] 2 expVario = .ok out :=
  krig1D_smooth rfl rfl (by simp) (by norm_num) (by norm_num [expVario]) (Or.inl rfl)

/-- Two known cells and one observation. -/
example : ∃ why, krig1D [0, 0, 0, 0] [false, true, false, true] [5] 2 expVario = .ub why :=
  krig1D_count rfl (by decide)

/-- Two cells with mean 0 and unit variance whose correlation is that of the variogram, made from two independent
signs. -/
noncomputable def twoCells (i : ℕ) (ω : Bool × Bool) : ℝ :=
  if i = 0 then (if ω.1 then 1 else -1)
  else expVario.corr 1 * (if ω.1 then 1 else -1) + √(1 - expVario.corr 1 ^ 2) * (if ω.2 then 1 else -1)

/-- The theorem on prediction for these two cells, the first of them known. -/
example : ∃ out : Bool × Bool → List ℝ,
    (∀ ω, krig1D [0, 0] [true, false] ((knownCells [true, false]).map (twoCells · ω)) 1 expVario = .ok (out ω)) ∧
      ∀ k < 2, ∀ (c : ℝ) (u : ℕ → ℝ),
        ∫ ω, (twoCells k ω - (out ω).getD k 0) ^ 2 ∂(PMF.uniformOfFintype (Bool × Bool)).toMeasure
          ≤ ∫ ω, (twoCells k ω - (c + ((knownCells [true, false]).map fun i => u i * twoCells i ω).sum)) ^ 2
            ∂(PMF.uniformOfFintype (Bool × Bool)).toMeasure := by
  have hc0 : expVario.corr 0 = 1 := by
    show Real.exp (-3.0 * √(1 * 0 * 0)) = 1
    simp
  have hc1 : 0 ≤ expVario.corr 1 ∧ expVario.corr 1 ≤ 1 := by
    constructor
    · exact (Real.exp_pos _).le
    · show Real.exp (-3.0 * √(1 * 1 * 1)) ≤ 1
      rw [Real.exp_le_one_iff]
      norm_num
  have hs : √(1 - expVario.corr 1 ^ 2) * √(1 - expVario.corr 1 ^ 2) = 1 - expVario.corr 1 ^ 2 :=
    Real.mul_self_sqrt (by nlinarith)
  refine krig1D_best (field := [0, 0]) (s := 1) rfl (by decide)
    (cellCorr_posDef (by norm_num) (by norm_num [expVario]) (Or.inl rfl)) ?_ ?_ ?_
  · intro i _
    exact MemLp.of_discrete
  · intro i hi
    have hi : i < 2 := hi
    rw [PMF.integral_eq_sum, Fintype.sum_prod_type, Fintype.sum_bool, Fintype.sum_bool, Fintype.sum_bool]
    interval_cases i
    · simp [twoCells, PMF.uniformOfFintype_apply]
    · simp [twoCells, PMF.uniformOfFintype_apply]
      ring
  · intro i hi j hj
    have hi : i < 2 := hi
    have hj : j < 2 := hj
    rw [PMF.integral_eq_sum, Fintype.sum_prod_type, Fintype.sum_bool, Fintype.sum_bool, Fintype.sum_bool]
    have hcm : expVario.corr (-1) = expVario.corr 1 := corr_abs _ _
    generalize hr : √(1 - expVario.corr 1 ^ 2) = r at hs
    interval_cases i <;> interval_cases j <;> simp [twoCells, PMF.uniformOfFintype_apply, hc0, hcm, hr] <;>
      nlinarith

end Verif
