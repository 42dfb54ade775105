import Verif.Lemmas.Empirical
import Mathlib.MeasureTheory.Integral.Bochner.Basic
import Mathlib.MeasureTheory.Function.L1Space.Integrable
import Mathlib.Tactic.NormNum

namespace Verif.Py

open Spec Finset MeasureTheory

theorem cellDist_le_corner {nx ny nz : ℕ} {dx dy dz : ℝ} {r c : ℕ × ℕ × ℕ}
    (hr : r ∈ cells nx ny nz) (hc : c ∈ cells nx ny nz) :
    cellDist dx dy dz c r ≤ cellDist dx dy dz (nx - 1, ny - 1, nz - 1) (0, 0, 0) := by
  obtain ⟨i, j, k⟩ := c
  obtain ⟨a, b, d⟩ := r
  simp only [cells, Finset.mem_product, Finset.mem_range] at hr hc
  have key : ∀ {n p q : ℕ} (s : ℝ), p < n → q < n →
      (s * ((p : ℝ) - q)) ^ 2 ≤ (s * (((n - 1 : ℕ) : ℝ) - ((0 : ℕ) : ℝ))) ^ 2 := by
    intro n p q s hp hq
    have h1 : (p : ℝ) ≤ ((n - 1 : ℕ) : ℝ) := by exact_mod_cast Nat.le_sub_one_of_lt hp
    have h2 : (q : ℝ) ≤ ((n - 1 : ℕ) : ℝ) := by exact_mod_cast Nat.le_sub_one_of_lt hq
    have h3 : (0 : ℝ) ≤ p := Nat.cast_nonneg _
    have h4 : (0 : ℝ) ≤ q := Nat.cast_nonneg _
    rw [mul_pow, mul_pow]
    refine mul_le_mul_of_nonneg_left ?_ (sq_nonneg s)
    rw [Nat.cast_zero, sub_zero]
    exact sq_le_sq' (by linarith) (by linarith)
  unfold cellDist
  refine Real.sqrt_le_sqrt ?_
  exact add_le_add (add_le_add (key dx hc.1 hr.1) (key dy hc.2.1 hr.2.1)) (key dz hc.2.2 hr.2.2)

theorem farthest_corner {nx ny nz : ℕ} {dx dy dz : ℝ} (hx : 0 < nx) (hy : 0 < ny) (hz : 0 < nz) :
    IsFarthest nx ny nz dx dy dz (0, 0, 0)
      (cellDist dx dy dz (nx - 1, ny - 1, nz - 1) (0, 0, 0)) := by
  have h0 : ((0, 0, 0) : ℕ × ℕ × ℕ) ∈ cells nx ny nz := by simp [cells, hx, hy, hz]
  refine ⟨⟨(nx - 1, ny - 1, nz - 1), ?_, rfl⟩, ?_⟩
  · simp only [Finset.mem_coe, cells, Finset.mem_product, Finset.mem_range]
    omega
  · rintro _ ⟨c, hc, rfl⟩
    exact cellDist_le_corner h0 hc

theorem farthest_le {nx ny nz : ℕ} {dx dy dz : ℝ} {r : ℕ × ℕ × ℕ} {M M0 : ℝ}
    (hr : r ∈ cells nx ny nz) (hM : IsFarthest nx ny nz dx dy dz r M)
    (h0 : IsFarthest nx ny nz dx dy dz (0, 0, 0) M0) : M ≤ M0 := by
  obtain ⟨c, hc, rfl⟩ := hM.1
  have hr' := hr
  simp only [cells, Finset.mem_product, Finset.mem_range] at hr'
  have := farthest_corner (dx := dx) (dy := dy) (dz := dz) (Nat.zero_lt_of_lt hr'.1)
    (Nat.zero_lt_of_lt hr'.2.1) (Nat.zero_lt_of_lt hr'.2.2)
  rw [h0.unique this]
  exact cellDist_le_corner hr hc

theorem exists_farthest {nx ny nz : ℕ} {dx dy dz : ℝ} {r : ℕ × ℕ × ℕ} (hr : r ∈ cells nx ny nz) :
    ∃ M, IsFarthest nx ny nz dx dy dz r M := by
  have hne : (cells nx ny nz).Nonempty := ⟨r, hr⟩
  obtain ⟨c, hc, h⟩ := Finset.exists_max_image (cells nx ny nz) (fun c => cellDist dx dy dz c r) hne
  refine ⟨cellDist dx dy dz c r, ⟨c, hc, rfl⟩, ?_⟩
  rintro _ ⟨c', hc', rfl⟩
  exact h c' hc'

theorem numBins_le {M M0 res : ℝ} (h0 : 0 < res) (h : M ≤ M0) : numBins M res ≤ numBins M0 res :=
  Nat.floor_le_floor (div_le_div_of_nonneg_right h h0.le)

/-! ### The loops -/

open Classical in
/-- What reference point `r` adds to bin `b`. -/
noncomputable def contrib (E : Ev) (res : ℝ) (M : ℕ × ℕ × ℕ → ℝ) (X : ℕ × ℕ × ℕ → ℝ)
    (r : ℕ × ℕ × ℕ) (b : ℕ) : Option ℝ :=
  if b < numBins (M r) res then
    if binCells E.nx E.ny E.nz E.dx E.dy E.dz r (numBins (M r) res) (M r) b = ∅ then none
    else some (1 - avg (binCells E.nx E.ny E.nz E.dx E.dy E.dz r (numBins (M r) res) (M r) b)
      (fun c => (X c - X r) ^ 2) / 2)
  else some 0

theorem pad_range {α : Type} (z : α) {K n : ℕ} (h : K ≤ n) (f : ℕ → α) :
    padZero z n ((List.range K).map f) = .ok ((List.range n).map fun b => if b < K then f b else z) := by
  unfold padZero
  rw [if_pos (by simpa using h)]
  congr 1
  refine List.ext_getElem? fun i => ?_
  simp only [List.length_map, List.length_range]
  rw [List.getElem?_append]
  simp only [List.length_map, List.length_range, List.getElem?_map,
    List.getElem?_replicate]
  by_cases h1 : i < K
  · have h2 : i < n := by omega
    simp [h1, h2]
  · by_cases h2 : i < n
    · have : i - K < n - K := by omega
      simp [h1, h2, this]
    · have : ¬ (i - K < n - K) := by omega
      have h3 : (List.range n)[i]? = none := by simp; omega
      simp [h1, this, h3]

theorem zipWith_maps {ι α β γ : Type} (h : α → β → γ) (f : ι → α) (g : ι → β) (l : List ι) :
    List.zipWith h (l.map f) (l.map g) = l.map fun b => h (f b) (g b) := by
  rw [List.zipWith_map_left, List.zipWith_map_right, List.zipWith_self]

/-- Sum of numbers that may be nan. -/
noncomputable def nanSum (a : Option ℝ) (l : List (Option ℝ)) : Option ℝ := l.foldl nanAdd a

variable {E : Ev} {res : ℝ} (hd : E.ny = 1 → E.nz = 1) (h0 : 0 < res)
  {M : ℕ × ℕ × ℕ → ℝ}
  (hM : ∀ r ∈ cells E.nx E.ny E.nz, IsFarthest E.nx E.ny E.nz E.dx E.dy E.dz r (M r))

include hd h0 hM

theorem refLoop_eq {grid : Arr3} {X : ℕ × ℕ × ℕ → ℝ} (h : Holds E grid X)
    {refs : List (ℕ × ℕ × ℕ)} (hr : ∀ r ∈ refs, r ∈ cells E.nx E.ny E.nz ∧ res ≤ M r)
    (f : ℕ → Option ℝ) (g : ℕ → ℕ) :
    E.refLoop res grid refs ((List.range (numBins (M (0, 0, 0)) res)).map f)
        ((List.range (numBins (M (0, 0, 0)) res)).map g)
      = .ok ((List.range (numBins (M (0, 0, 0)) res)).map fun b =>
            nanSum (f b) (refs.map fun r => contrib E res M X r b),
          (List.range (numBins (M (0, 0, 0)) res)).map fun b =>
            g b + (refs.filter fun r => b < numBins (M r) res).length) := by
  induction refs generalizing f g with
  | nil => simp [Ev.refLoop, nanSum]
  | cons r refs ih =>
    obtain ⟨hr1, hr2⟩ := hr r (by simp)
    have hz : ((0, 0, 0) : ℕ × ℕ × ℕ) ∈ cells E.nx E.ny E.nz := by
      simp only [cells, Finset.mem_product, Finset.mem_range] at hr1 ⊢
      omega
    have hK : numBins (M r) res ≤ numBins (M (0, 0, 0)) res :=
      numBins_le h0 (farthest_le hr1 (hM r hr1) (hM _ hz))
    rw [Ev.refLoop, binnedStatistics_eq h hd hr1 (ref := some r) rfl (hM r hr1) h0 hr2]
    simp only [Res.monad_bind_eq, Res.bind_ok, List.map_map, List.length_map, List.length_range]
    rw [pad_range _ hK, Res.bind_ok, pad_range _ hK, Res.bind_ok, zipWith_maps, zipWith_maps,
      ih fun r' hr' => hr r' (by simp [hr'])]
    congr 2
    · refine List.map_congr_left fun b _ => ?_
      rw [List.map_cons, nanSum, nanSum, List.foldl_cons]
      congr 2
      unfold contrib
      by_cases hb : b < numBins (M r) res
      · simp only [hb, if_true, Function.comp]
        split_ifs
        · rfl
        · simp only [Option.map_some]
          norm_num
      · simp only [hb, if_false]
    · refine List.map_congr_left fun b _ => ?_
      by_cases hb : b < numBins (M r) res
      · simp only [hb, if_true, Function.comp, List.filter_cons, decide_true, List.length_cons]
        omega
      · simp only [hb, if_false, List.filter_cons, decide_false]
        simp

theorem simLoop_eq {ι : Type} (grids : ι → Arr3) (X : ι → ℕ × ℕ × ℕ → ℝ) {ks : List ι}
    (h : ∀ k ∈ ks, Holds E (grids k) (X k))
    {refs : List (ℕ × ℕ × ℕ)} (hr : ∀ r ∈ refs, r ∈ cells E.nx E.ny E.nz ∧ res ≤ M r)
    (f : ℕ → Option ℝ) (g : ℕ → ℕ) :
    ∃ g' : ℕ → ℕ,
    E.simLoop res refs (ks.map grids) ((List.range (numBins (M (0, 0, 0)) res)).map f)
        ((List.range (numBins (M (0, 0, 0)) res)).map g)
      = .ok ((List.range (numBins (M (0, 0, 0)) res)).map fun b =>
            nanSum (f b) (ks.map fun k => nanDiv
              (nanSum (some 0) (refs.map fun r => contrib E res M (X k) r b))
              (refs.filter fun r => b < numBins (M r) res).length),
          (List.range (numBins (M (0, 0, 0)) res)).map g') := by
  induction ks generalizing f g with
  | nil => exact ⟨g, by simp [Ev.simLoop, nanSum]⟩
  | cons k ks ih =>
    rw [List.map_cons, Ev.simLoop, List.map_map, List.map_map]
    simp only [Function.comp_def]
    rw [refLoop_eq hd h0 hM (h k (by simp)) hr]
    simp only [Res.monad_bind_eq, Res.bind_ok]
    simp only [zipWith_maps]
    obtain ⟨g', e⟩ := ih (fun k' hk' => h k' (by simp [hk'])) _ _
    refine ⟨g', e.trans ?_⟩
    congr 2
    refine List.map_congr_left fun b _ => ?_
    simp only [List.map_cons, nanSum, List.foldl_cons, zero_add]

theorem midpoints_eq {grid : Arr3} {X : ℕ × ℕ × ℕ → ℝ} (h : Holds E grid X)
    (hz : ((0, 0, 0) : ℕ × ℕ × ℕ) ∈ cells E.nx E.ny E.nz) (h1 : res ≤ M (0, 0, 0)) :
    E.midpoints res grid = .ok ((List.range (numBins (M (0, 0, 0)) res)).map fun b : ℕ =>
      ((b : ℝ) + 1) * (M (0, 0, 0) / numBins (M (0, 0, 0)) res)) := by
  have hK := numBins_pos h0 h1
  unfold Ev.midpoints
  rw [binnedStatistics_eq h hd hz (ref := none) rfl (hM _ hz) h0 h1]
  simp only [Res.monad_bind_eq, Res.bind_ok]
  generalize numBins (M (0, 0, 0)) res = K at hK ⊢
  have e0 : rd (linspace 0 (M (0, 0, 0)) K) 0 = .ok 0 := by
    simp [rd, linspace]
  have e1 : rd (linspace 0 (M (0, 0, 0)) K) 1 = .ok (M (0, 0, 0) / K) := by
    have : (1 : ℕ) < K + 1 := by omega
    simp [rd, linspace, List.getElem?_range this]
  unfold midpointsOf
  rw [e0, e1]
  simp only [Res.monad_bind_eq, Res.bind_ok]
  rw [linspace, List.range_succ, List.map_append, List.map_singleton, List.dropLast_concat,
    List.map_map]
  congr 1
  refine List.map_congr_left fun b _ => ?_
  simp only [Function.comp]
  ring

omit hd h0 hM

theorem nanSum_some {l : List (Option ℝ)} {ι : Type} {ks : List ι} {y : ι → ℝ} (a : ℝ)
    (h : l = ks.map fun k => some (y k)) : nanSum (some a) l = some (a + (ks.map y).sum) := by
  subst h
  induction ks generalizing a with
  | nil => simp [nanSum]
  | cons k ks ih =>
    rw [List.map_cons, nanSum, List.foldl_cons]
    have := ih (a + y k)
    unfold nanSum at this
    rw [nanAdd, this, List.map_cons, List.sum_cons, add_assoc]

theorem integrable_list_sum {Ω ι : Type} [MeasurableSpace Ω] {μ : Measure Ω} {ks : List ι}
    {y : ι → Ω → ℝ} (h : ∀ k ∈ ks, Integrable (y k) μ) :
    Integrable (fun ω => (ks.map fun k => y k ω).sum) μ ∧
      ∫ ω, (ks.map fun k => y k ω).sum ∂μ = (ks.map fun k => ∫ ω, y k ω ∂μ).sum := by
  induction ks with
  | nil => simp
  | cons k ks ih =>
    obtain ⟨h1, h2⟩ := ih fun k' hk' => h k' (by simp [hk'])
    simp only [List.map_cons, List.sum_cons]
    refine ⟨(h k (by simp)).add h1, ?_⟩
    rw [integral_add (h k (by simp)) h1, h2]

/-- Sums in which some terms are zero. -/
theorem sum_filter_map {ι : Type} (l : List ι) (p : ι → Bool) (y : ι → ℝ) :
    (l.map fun r => if p r then y r else 0).sum = ((l.filter p).map y).sum := by
  induction l with
  | nil => rfl
  | cons a l ih =>
    by_cases h : p a <;> simp [h, ih]

end Verif.Py
