import Verif.Model.Empirical
import Verif.Spec.Empirical
import Verif.Lemmas.Outcome
import Mathlib.Data.List.Basic
import Mathlib.Data.List.Nodup
import Mathlib.Algebra.BigOperators.Group.Finset.Basic
import Mathlib.Tactic.Ring
import Mathlib.Tactic.Linarith
import Mathlib.Tactic.FieldSimp
import Mathlib.Tactic.Positivity

namespace Verif.Py

open Spec Finset

theorem mem_gridIndexes {nx ny nz : ℕ} {c : ℕ × ℕ × ℕ} :
    c ∈ gridIndexes nx ny nz ↔ c ∈ cells nx ny nz := by
  obtain ⟨i, j, k⟩ := c
  simp only [gridIndexes, cells, List.mem_flatMap, List.mem_range, List.mem_map, Prod.mk.injEq,
    Finset.mem_product, Finset.mem_range]
  constructor
  · rintro ⟨a, ha, b, hb, d, hd, rfl, rfl, rfl⟩
    exact ⟨ha, hb, hd⟩
  · rintro ⟨ha, hb, hd⟩
    exact ⟨i, ha, j, hb, k, hd, rfl, rfl, rfl⟩

theorem nodup_gridIndexes (nx ny nz : ℕ) : (gridIndexes nx ny nz).Nodup := by
  unfold gridIndexes
  rw [List.nodup_flatMap]
  refine ⟨fun i _ => ?_, ?_⟩
  · rw [List.nodup_flatMap]
    refine ⟨fun j _ => List.nodup_range.map fun a b h => by simpa using h, ?_⟩
    refine List.nodup_range.imp ?_
    intro a b hab
    simp only [Function.onFun, List.disjoint_left, List.mem_map, List.mem_range]
    rintro _ ⟨k, hk, rfl⟩ ⟨k', hk', h⟩
    simp only [Prod.mk.injEq] at h
    exact hab h.2.1.symm
  · refine List.nodup_range.imp ?_
    intro a b hab
    simp only [Function.onFun, List.disjoint_left, List.mem_flatMap, List.mem_map, List.mem_range]
    rintro _ ⟨j, hj, k, hk, rfl⟩ ⟨j', hj', k', hk', h⟩
    simp only [Prod.mk.injEq] at h
    exact hab h.1.symm

theorem toFinset_gridIndexes (nx ny nz : ℕ) : (gridIndexes nx ny nz).toFinset = cells nx ny nz := by
  ext c
  rw [List.mem_toFinset, mem_gridIndexes]

theorem length_gridIndexes (nx ny nz : ℕ) : (gridIndexes nx ny nz).length = nx * ny * nz := by
  rw [← List.toFinset_card_of_nodup (nodup_gridIndexes nx ny nz), toFinset_gridIndexes]
  simp [cells, mul_assoc]

theorem cdist_gridPoint (dx dy dz : ℝ) (r c : ℕ × ℕ × ℕ) :
    cdist (gridPoint dx dy dz r) (gridPoint dx dy dz c) = cellDist dx dy dz c r := by
  unfold cdist gridPoint cellDist
  congr 1
  ring

theorem cellDist_nonneg (dx dy dz : ℝ) (c r : ℕ × ℕ × ℕ) : 0 ≤ cellDist dx dy dz c r :=
  Real.sqrt_nonneg _

theorem cellDist_self (dx dy dz : ℝ) (r : ℕ × ℕ × ℕ) : cellDist dx dy dz r r = 0 := by
  simp [cellDist]

/-! ### Minimum and maximum -/

theorem foldl_max_greatest (l : List ℝ) (x : ℝ) :
    IsGreatest {y | y ∈ x :: l} (l.foldl max x) := by
  induction l generalizing x with
  | nil => simp [IsGreatest, upperBounds]
  | cons a l ih =>
    obtain ⟨h1, h2⟩ := ih (max x a)
    rw [List.foldl_cons]
    have hm : max x a ≤ l.foldl max (max x a) := h2 (by simp)
    refine ⟨?_, ?_⟩
    · simp only [Set.mem_ofPred_eq, List.mem_cons] at h1 ⊢
      rcases h1 with h1 | h1
      · rw [h1]
        rcases max_choice x a with h | h <;> rw [h] <;> simp
      · exact Or.inr (Or.inr h1)
    · intro y hy
      simp only [Set.mem_ofPred_eq, List.mem_cons] at hy
      rcases hy with rfl | rfl | hy
      · exact (le_max_left _ _).trans hm
      · exact (le_max_right _ _).trans hm
      · exact h2 (by simp [hy])

theorem foldl_min_least (l : List ℝ) (x : ℝ) :
    IsLeast {y | y ∈ x :: l} (l.foldl min x) := by
  induction l generalizing x with
  | nil => simp [IsLeast, lowerBounds]
  | cons a l ih =>
    obtain ⟨h1, h2⟩ := ih (min x a)
    rw [List.foldl_cons]
    have hm : l.foldl min (min x a) ≤ min x a := h2 (by simp)
    refine ⟨?_, ?_⟩
    · simp only [Set.mem_ofPred_eq, List.mem_cons] at h1 ⊢
      rcases h1 with h1 | h1
      · rw [h1]
        rcases min_choice x a with h | h <;> rw [h] <;> simp
      · exact Or.inr (Or.inr h1)
    · intro y hy
      simp only [Set.mem_ofPred_eq, List.mem_cons] at hy
      rcases hy with rfl | rfl | hy
      · exact hm.trans (min_le_left _ _)
      · exact hm.trans (min_le_right _ _)
      · exact h2 (by simp [hy])

theorem npMax_eq {l : List ℝ} {M : ℝ} (h : IsGreatest {y | y ∈ l} M) : npMax l = .ok M := by
  cases l with
  | nil => exact absurd h.1 (by simp)
  | cons x l => rw [npMax, (foldl_max_greatest l x).unique h]

theorem npMin_eq {l : List ℝ} {m : ℝ} (h : IsLeast {y | y ∈ l} m) : npMin l = .ok m := by
  cases l with
  | nil => exact absurd h.1 (by simp)
  | cons x l => rw [npMin, (foldl_min_least l x).unique h]

/-! ### Bins -/

theorem count_le_range (n : ℕ) {t : ℝ} (ht : 0 ≤ t) :
    ((List.range n).filter fun b : ℕ => decide ((b : ℝ) ≤ t)).length = min n (⌊t⌋₊ + 1) := by
  induction n with
  | zero => simp
  | succ n ih =>
    rw [List.range_succ, List.filter_append, List.length_append, ih]
    by_cases h : (n : ℝ) ≤ t
    · have : n ≤ ⌊t⌋₊ := Nat.le_floor h
      simp only [List.filter_cons, h, decide_true, if_true, List.filter_nil, List.length_cons,
        List.length_nil]
      omega
    · have : ⌊t⌋₊ < n := (Nat.floor_lt ht).2 (not_le.1 h)
      simp only [List.filter_cons, h, decide_false, List.filter_nil]
      simp
      omega

theorem getLast?_linspace (M : ℝ) {K : ℕ} (hK : 0 < K) : (linspace 0 M K).getLast? = some M := by
  have hK' : (K : ℝ) ≠ 0 := by positivity
  rw [linspace, List.range_succ, List.map_append, List.map_singleton, List.getLast?_concat]
  congr 1
  field_simp
  ring

theorem binNumber_linspace {M : ℝ} (hM : 0 < M) {K : ℕ} (hK : 0 < K) {x : ℝ} (h0 : 0 ≤ x)
    (hx : x ≤ M) {b : ℕ} (hb : b < K) : binNumber (linspace 0 M K) x = b + 1 ↔ InBin K M b x := by
  have hK' : (0 : ℝ) < K := by exact_mod_cast hK
  have hw : 0 < M / K := by positivity
  have hKw : K * (M / K) = M := by field_simp
  have hlen : ((linspace 0 M K).filter fun e => @decide (e ≤ x) (Classical.propDecidable _)).length
      = min (K + 1) (⌊x / (M / K)⌋₊ + 1) := by
    rw [← count_le_range _ (by positivity), linspace, List.filter_map, List.length_map]
    congr 1
    refine List.filter_congr fun e _ => ?_
    simp only [Function.comp, zero_add, sub_zero]
    congr 1
    rw [le_div_iff₀ hw]
  unfold binNumber
  rw [hlen, getLast?_linspace M hK]
  have ht : 0 ≤ x / (M / K) := by positivity
  rcases eq_or_lt_of_le hx with rfl | hlt
  · have : ⌊x / (x / K)⌋₊ = K := by
      rw [show x / (x / K) = (K : ℝ) by field_simp]
      exact Nat.floor_natCast K
    rw [this]
    simp only [if_true, min_self, Nat.add_sub_cancel]
    unfold InBin
    constructor
    · intro h
      refine ⟨?_, Or.inr ⟨h.symm, rfl⟩⟩
      have : ((b : ℝ)) ≤ K := by exact_mod_cast hb.le
      calc (b : ℝ) * (x / K) ≤ K * (x / K) := by gcongr
        _ = x := hKw
    · rintro ⟨h1, h2 | h2⟩
      · have : (b : ℝ) + 1 ≤ K := by exact_mod_cast hb
        have : ((b : ℝ) + 1) * (x / K) ≤ K * (x / K) := by gcongr
        linarith
      · exact h2.1.symm
  · have hne : ¬ (some M = some x) := by simpa using hlt.ne'
    have hfl : ⌊x / (M / K)⌋₊ < K := by
      rw [Nat.floor_lt ht, div_lt_iff₀ hw, hKw]
      exact hlt
    rw [if_neg hne, Nat.sub_zero, min_eq_right (by omega), Nat.add_right_cancel_iff,
      Nat.floor_eq_iff ht, le_div_iff₀ hw, div_lt_iff₀ hw]
    unfold InBin
    refine and_congr_right fun _ => ?_
    constructor
    · exact Or.inl
    · rintro (h | h)
      · exact h
      · exact absurd h.2 hlt.ne

open Classical in
theorem binMean_map {ι : Type} [DecidableEq ι] {l : List ι} (hl : l.Nodup) (number : ι → ℕ) (f : ι → ℝ)
    (b : ℕ) :
    binMean (l.map number) (l.map f) b
      = if (l.toFinset.filter fun c => number c = b) = ∅ then none
        else some ((∑ c ∈ l.toFinset.filter fun c => number c = b, f c)
          / (l.toFinset.filter fun c => number c = b).card) := by
  have hz : (((l.map number).zip (l.map f)).filter fun p => decide (p.1 = b)).map Prod.snd
      = (l.filter fun c => decide (number c = b)).map f := by
    rw [List.zip_map']
    rw [List.filter_map, List.map_map]
    rfl
  have hs : (l.filter fun c => decide (number c = b)).toFinset
      = l.toFinset.filter fun c => number c = b := by
    ext c
    simp
  unfold binMean
  simp only [hz, List.isEmpty_iff, List.map_eq_nil_iff, List.length_map]
  rw [← hs, List.toFinset_card_of_nodup (hl.filter _), List.sum_toFinset _ (hl.filter _)]
  simp only [List.toFinset_eq_empty_iff]

/-! ### Fields -/

/-- The array holds the field `X`. -/
def Holds (E : Ev) (grid : Arr3) (X : ℕ × ℕ × ℕ → ℝ) : Prop :=
  grid.n0 = E.nx ∧ grid.n1 = E.ny ∧ grid.n2 = E.nz ∧ grid.data.length = E.nx * E.ny * E.nz ∧
    ∀ c ∈ cells E.nx E.ny E.nz, grid.data[c.1 + E.nx * (c.2.1 + E.ny * c.2.2)]? = some (X c)

theorem reshape_eq {E : Ev} {grid : Arr3} {X : ℕ × ℕ × ℕ → ℝ} (h : Holds E grid X)
    (hd : E.ny = 1 → E.nz = 1) : E.reshape grid = .ok grid := by
  obtain ⟨h0, h1, h2, h3, -⟩ := h
  obtain ⟨n0, n1, n2, data⟩ := grid
  simp only at h0 h1 h2 h3
  subst h0 h1 h2
  unfold Ev.reshape
  by_cases hy : E.ny = 1
  · have hz := hd hy
    rw [if_pos hy, if_pos (by simp [h3, hy, hz])]
    simp [hy, hz]
  · rw [if_neg hy]
    by_cases hz : E.nz = 1
    · rw [if_pos hz, if_pos (by simp [h3, hz])]
      simp [hz]
    · rw [if_neg hz]

theorem get_eq {E : Ev} {grid : Arr3} {X : ℕ × ℕ × ℕ → ℝ} (h : Holds E grid X) {c : ℕ × ℕ × ℕ}
    (hc : c ∈ cells E.nx E.ny E.nz) : grid.get c = .ok (X c) := by
  obtain ⟨h0, h1, h2, h3, h4⟩ := h
  have := h4 c hc
  simp only [cells, Finset.mem_product, Finset.mem_range] at hc
  unfold Arr3.get
  rw [h0, h1, h2, if_pos hc, rd, this]

theorem deltasAt_eq {E : Ev} {grid : Arr3} {X : ℕ × ℕ × ℕ → ℝ} (h : Holds E grid X) (g : ℝ)
    {l : List (ℕ × ℕ × ℕ)} (hl : ∀ c ∈ l, c ∈ cells E.nx E.ny E.nz) :
    deltasAt grid g l = .ok (l.map fun c => X c - g) := by
  induction l with
  | nil => rfl
  | cons c l ih =>
    rw [deltasAt, get_eq h (hl c (by simp)), ih fun c hc => hl c (by simp [hc])]
    rfl

theorem calculateDeltas_eq {E : Ev} {grid : Arr3} {X : ℕ × ℕ × ℕ → ℝ} (h : Holds E grid X)
    (hd : E.ny = 1 → E.nz = 1) {r : ℕ × ℕ × ℕ} (hr : r ∈ cells E.nx E.ny E.nz)
    {ref : Option (ℕ × ℕ × ℕ)} (href : ref.getD (0, 0, 0) = r) :
    E.calculateDeltas grid ref
      = .ok ((gridIndexes E.nx E.ny E.nz).map fun c => cellDist E.dx E.dy E.dz c r,
          (gridIndexes E.nx E.ny E.nz).map fun c => X c - X r) := by
  unfold Ev.calculateDeltas
  simp only [href, reshape_eq h hd, Res.monad_bind_eq, Res.bind_ok]
  have hmem := mem_gridIndexes.2 hr
  obtain ⟨i, hi⟩ : ∃ i, (gridIndexes E.nx E.ny E.nz).idxOf? r = some i := by
    rw [← Option.isSome_iff_exists, List.isSome_idxOf?]
    exact hmem
  have hget : (gridIndexes E.nx E.ny E.nz)[i]? = some r := by
    rw [List.idxOf?_eq_some_iff] at hi
    obtain ⟨h1, h2, -⟩ := hi
    rw [List.getElem?_eq_getElem h1, h2]
  simp only [hi]
  have hp : rd (gridPoints E.nx E.dx E.ny E.dy E.nz E.dz) i = .ok (gridPoint E.dx E.dy E.dz r) := by
    rw [rd, gridPoints, List.getElem?_map, hget]
    rfl
  rw [hp]
  simp only [Res.bind_ok]
  rw [get_eq h hr, Res.bind_ok, deltasAt_eq h _ fun c hc => mem_gridIndexes.1 hc, Res.bind_ok,
    gridPoints, List.map_map]
  congr 2
  refine List.map_congr_left fun c _ => ?_
  exact cdist_gridPoint _ _ _ _ _

theorem farthest_list {E : Ev} {r : ℕ × ℕ × ℕ} {M : ℝ}
    (hM : IsFarthest E.nx E.ny E.nz E.dx E.dy E.dz r M) :
    IsGreatest {y | y ∈ (gridIndexes E.nx E.ny E.nz).map fun c => cellDist E.dx E.dy E.dz c r} M := by
  have : {y | y ∈ (gridIndexes E.nx E.ny E.nz).map fun c => cellDist E.dx E.dy E.dz c r}
      = (fun c => cellDist E.dx E.dy E.dz c r) '' (cells E.nx E.ny E.nz : Set (ℕ × ℕ × ℕ)) := by
    ext y
    simp only [List.mem_map, Set.mem_ofPred_eq, Set.mem_image, Finset.mem_coe, mem_gridIndexes]
  rw [this]
  exact hM

theorem nearest_list {E : Ev} {r : ℕ × ℕ × ℕ} (hr : r ∈ cells E.nx E.ny E.nz) :
    IsLeast {y | y ∈ (gridIndexes E.nx E.ny E.nz).map fun c => cellDist E.dx E.dy E.dz c r} 0 := by
  refine ⟨?_, ?_⟩
  · simp only [List.mem_map, Set.mem_ofPred_eq]
    exact ⟨r, mem_gridIndexes.2 hr, cellDist_self _ _ _ _⟩
  · rintro y hy
    simp only [List.mem_map, Set.mem_ofPred_eq] at hy
    obtain ⟨c, -, rfl⟩ := hy
    exact cellDist_nonneg _ _ _ _ _

/-- The number of bins. -/
noncomputable def numBins (M res : ℝ) : ℕ := ⌊M / res⌋₊

theorem numBins_pos {M res : ℝ} (hr : 0 < res) (h : res ≤ M) : 0 < numBins M res := by
  unfold numBins
  rw [Nat.floor_pos, le_div_iff₀ hr]
  linarith

open Classical in
theorem binnedStatistics_eq {E : Ev} {grid : Arr3} {X : ℕ × ℕ × ℕ → ℝ} (h : Holds E grid X)
    (hd : E.ny = 1 → E.nz = 1) {r : ℕ × ℕ × ℕ} (hr : r ∈ cells E.nx E.ny E.nz)
    {ref : Option (ℕ × ℕ × ℕ)} (href : ref.getD (0, 0, 0) = r) {M res : ℝ}
    (hM : IsFarthest E.nx E.ny E.nz E.dx E.dy E.dz r M) (h0 : 0 < res) (h1 : res ≤ M) :
    E.binnedStatistics res grid ref
      = .ok ((List.range (numBins M res)).map fun b =>
            if binCells E.nx E.ny E.nz E.dx E.dy E.dz r (numBins M res) M b = ∅ then none
            else some (avg (binCells E.nx E.ny E.nz E.dx E.dy E.dz r (numBins M res) M b)
              fun c => (X c - X r) ^ 2),
          linspace 0 M (numBins M res)) := by
  have hK := numBins_pos h0 h1
  have hM0 : 0 < M := by linarith
  have hmax := npMax_eq (farthest_list hM)
  have hmin := npMin_eq (nearest_list (E := E) hr)
  have hfl : ⌊M / res⌋ = (numBins M res : ℤ) := by
    unfold numBins
    rw [Int.natCast_floor_eq_floor (by positivity)]
  unfold Ev.binnedStatistics
  rw [calculateDeltas_eq h hd hr href]
  simp only [Res.monad_bind_eq, Res.bind_ok, hmax]
  rw [if_neg h0.ne', if_pos (by positivity), hfl]
  unfold binnedMean
  rw [if_neg (by omega)]
  simp only [Res.monad_bind_eq, Res.bind_ok, hmax, hmin, Int.toNat_natCast, List.map_map]
  congr 2
  refine List.map_congr_left fun b hb => ?_
  rw [List.mem_range] at hb
  rw [binMean_map (nodup_gridIndexes _ _ _)]
  have : ((gridIndexes E.nx E.ny E.nz).toFinset.filter fun c =>
      (binNumber (linspace 0 M (numBins M res)) ∘ fun c => cellDist E.dx E.dy E.dz c r) c = b + 1)
      = binCells E.nx E.ny E.nz E.dx E.dy E.dz r (numBins M res) M b := by
    rw [toFinset_gridIndexes]
    unfold binCells
    refine Finset.filter_congr fun c hc => ?_
    exact binNumber_linspace hM0 hK (cellDist_nonneg _ _ _ _ _) (hM.2 ⟨c, hc, rfl⟩) hb
  rw [this]
  rfl

end Verif.Py
