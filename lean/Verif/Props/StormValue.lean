import Verif.Props.StormGrid
import Mathlib.Algebra.BigOperators.Group.Finset.Basic
import Mathlib.Algebra.BigOperators.Intervals

/-!
# C131: values between the layers of grids in volumes
-/

namespace Verif

/-- The column of cells `(i, j)` holds the values `v`. -/
def StormGrid.Column (g : StormGrid) (i j : ℕ) (v : ℕ → ℝ) : Prop :=
  ∀ k, k < g.grid.nk → g.grid.get i j k = .ok (v k)

theorem column_rd {g : StormGrid} {i j k : ℕ} {v : ℕ → ℝ} (hv : g.Column i j v)
    (hi : i < g.grid.ni) (hj : j < g.grid.nj) (hk : k < g.grid.nk) :
    ∃ n, g.grid.getIndex i j k = .ok n ∧ rd g.grid.data n = .ok (v k) := by
  have e : g.grid.getIndex i j k = .ok (i + j * g.grid.ni + k * g.grid.ni * g.grid.nj) :=
    if_pos ⟨hi, hj, hk⟩
  refine ⟨_, e, ?_⟩
  have := hv k hk
  unfold Grid3D.get at this
  rwa [e, Res.bind_ok] at this

/-- **C131, above the centre of the first and below that of the last layer.** The value is that of
the layer. -/
theorem storm_zInterp_ends {g : StormGrid} {zt zb : ℝ → ℝ → ℝ} (h : StormOk g zt zb) {s t r : ℝ}
    (hs : 0 ≤ s ∧ s < g.grid.ni) (ht : 0 ≤ t ∧ t < g.grid.nj)
    (hz : zt (g.place s t).1 (g.place s t).2 < zb (g.place s t).1 (g.place s t).2) {v : ℕ → ℝ}
    (hv : g.Column ⌊s⌋₊ ⌊t⌋₊ v) :
    (r ≤ 1 / 2 → g.valueZInterpolated (g.place s t).1 (g.place s t).2
      (g.depth zt zb (g.place s t) r) = .ok (v 0)) ∧
    ((g.grid.nk : ℝ) - 1 / 2 ≤ r → g.valueZInterpolated (g.place s t).1 (g.place s t).2
      (g.depth zt zb (g.place s t) r) = .ok (v (g.grid.nk - 1))) := by
  have half : (0.5 : ℝ) = 1 / 2 := by norm_num
  have hk : (0 : ℝ) < g.grid.nk := Nat.cast_pos.2 h.nk
  have f1 : ⌊s⌋₊ < g.grid.ni := (Nat.floor_lt hs.1).2 hs.2
  have f2 : ⌊t⌋₊ < g.grid.nj := (Nat.floor_lt ht.1).2 ht.2
  have hd : 0 < (zb (g.place s t).1 (g.place s t).2 - zt (g.place s t).1 (g.place s t).2) /
      g.grid.nk := div_pos (by linarith) hk
  have hzb : zb (g.place s t).1 (g.place s t).2 = zt (g.place s t).1 (g.place s t).2 +
      g.grid.nk * ((zb (g.place s t).1 (g.place s t).2 - zt (g.place s t).1 (g.place s t).2) /
      g.grid.nk) := by rw [mul_div_cancel₀ _ hk.ne']; ring
  obtain ⟨n0, e0, r0⟩ := column_rd hv f1 f2 h.nk
  obtain ⟨n1, e1, r1⟩ := column_rd hv f1 f2 (Nat.sub_lt h.nk Nat.one_pos)
  have first : r ≤ 1 / 2 → g.valueZInterpolated (g.place s t).1 (g.place s t).2
      (g.depth zt zb (g.place s t) r) = .ok (v 0) := by
    intro hr
    unfold StormGrid.valueZInterpolated StormGrid.findZInterpolatedIndex
    rw [h.findXY_inside hs.1 hs.2 ht.1 ht.2, h.heights_eq]
    simp only [Res.monad_bind_eq, Res.bind_ok]
    rw [if_pos (by
      unfold StormGrid.depth
      rw [half]
      have := mul_le_mul_of_nonneg_right hr hd.le
      linarith), e0]
    simp only [Res.bind_ok]
    unfold StormGrid.valueFromIndex
    rw [if_pos rfl, r0]
  refine ⟨first, fun hr => ?_⟩
  by_cases hr' : r ≤ 1 / 2
  · have hk1 : (g.grid.nk : ℝ) ≤ 1 := by linarith
    have hk2 : g.grid.nk ≤ 1 := by exact_mod_cast hk1
    have hk3 : g.grid.nk - 1 = 0 := by omega
    rw [hk3]
    exact first hr'
  · rw [not_le] at hr'
    unfold StormGrid.valueZInterpolated StormGrid.findZInterpolatedIndex
    rw [h.findXY_inside hs.1 hs.2 ht.1 ht.2, h.heights_eq]
    simp only [Res.monad_bind_eq, Res.bind_ok]
    rw [if_neg (by
      unfold StormGrid.depth
      rw [half, not_le]
      have := mul_lt_mul_of_pos_right hr' hd
      linarith), if_pos (by
      unfold StormGrid.depth
      rw [half, ge_iff_le]
      have := mul_le_mul_of_nonneg_right hr hd.le
      rw [sub_mul] at this
      linarith), e1]
    simp only [Res.bind_ok]
    unfold StormGrid.valueFromIndex
    rw [if_pos rfl, r1]

/-- **C131, between the centres of two layers.** The value is the weighted average of the values of
both layers, or the value of the one that is not missing, or missing. -/
theorem storm_zInterp {g : StormGrid} {zt zb : ℝ → ℝ → ℝ} (h : StormOk g zt zb) {s t w : ℝ}
    (hs : 0 ≤ s ∧ s < g.grid.ni) (ht : 0 ≤ t ∧ t < g.grid.nj)
    (hz : zt (g.place s t).1 (g.place s t).2 < zb (g.place s t).1 (g.place s t).2) {v : ℕ → ℝ}
    (hv : g.Column ⌊s⌋₊ ⌊t⌋₊ v) {k : ℕ} (hk : k + 1 < g.grid.nk) (hw : 0 < w ∧ w < 1)
    (hm : g.missing ≠ w) :
    ∃ x, g.valueZInterpolated (g.place s t).1 (g.place s t).2
        (g.depth zt zb (g.place s t) (k + 1 / 2 + w)) = .ok x ∧
      (v k ≠ g.missing → v (k + 1) ≠ g.missing → x = (1 - w) * v k + w * v (k + 1)) ∧
      (v k ≠ g.missing → v (k + 1) = g.missing → x = v k) ∧
      (v k = g.missing → x = v (k + 1)) := by
  have half : (0.5 : ℝ) = 1 / 2 := by norm_num
  have hkp : (0 : ℝ) < g.grid.nk := Nat.cast_pos.2 h.nk
  have f1 : ⌊s⌋₊ < g.grid.ni := (Nat.floor_lt hs.1).2 hs.2
  have f2 : ⌊t⌋₊ < g.grid.nj := (Nat.floor_lt ht.1).2 ht.2
  have hd : 0 < (zb (g.place s t).1 (g.place s t).2 - zt (g.place s t).1 (g.place s t).2) /
      g.grid.nk := div_pos (by linarith) hkp
  have hzb : zb (g.place s t).1 (g.place s t).2 = zt (g.place s t).1 (g.place s t).2 +
      g.grid.nk * ((zb (g.place s t).1 (g.place s t).2 - zt (g.place s t).1 (g.place s t).2) /
      g.grid.nk) := by rw [mul_div_cancel₀ _ hkp.ne']; ring
  have hk1 : (k : ℝ) + 2 ≤ g.grid.nk := by exact_mod_cast (show k + 2 ≤ g.grid.nk from hk)
  have hk0 : (0 : ℝ) ≤ k := Nat.cast_nonneg k
  obtain ⟨n0, e0, r0⟩ := column_rd hv f1 f2 (show k < g.grid.nk by omega)
  obtain ⟨n1, e1, r1⟩ := column_rd hv f1 f2 hk
  have hq : (g.depth zt zb (g.place s t) (k + 1 / 2 + w) - zt (g.place s t).1 (g.place s t).2) /
      ((zb (g.place s t).1 (g.place s t).2 - zt (g.place s t).1 (g.place s t).2) / g.grid.nk) =
      k + 1 / 2 + w := by
    unfold StormGrid.depth
    rw [add_sub_cancel_left, mul_div_cancel_right₀ _ hd.ne']
  have hfl : ⌊(k : ℝ) + 1 / 2 + w - 1 / 2⌋ = (k : ℤ) := by
    rw [Int.floor_eq_iff]
    push_cast
    constructor <;> linarith [hw.1, hw.2]
  have key : g.findZInterpolatedIndex (g.place s t).1 (g.place s t).2
      (g.depth zt zb (g.place s t) (k + 1 / 2 + w)) = .ok (n0, n1, w) := by
    unfold StormGrid.findZInterpolatedIndex
    rw [h.findXY_inside hs.1 hs.2 ht.1 ht.2, h.heights_eq]
    simp only [Res.monad_bind_eq, Res.bind_ok]
    rw [if_neg (by
      unfold StormGrid.depth
      rw [half, not_le]
      have := mul_lt_mul_of_pos_right (show (1 / 2 : ℝ) < k + 1 / 2 + w by linarith [hw.1]) hd
      linarith), if_neg (by
      unfold StormGrid.depth
      rw [half, ge_iff_le, not_le]
      have := mul_lt_mul_of_pos_right (show k + 1 / 2 + w < (g.grid.nk : ℝ) - 1 / 2 by
        linarith [hw.2]) hd
      rw [sub_mul] at this
      linarith), divD_ok hd.ne', hq, Res.bind_ok, half, hfl, Int.cast_natCast,
      toSize_nonneg hk0 (small_size h.small.2.2 (by linarith)), Nat.floor_natCast, Res.bind_ok, e0,
      Res.bind_ok, e1, Res.bind_ok, show (k : ℝ) + 1 / 2 + w - 1 / 2 - k = w by ring]
  unfold StormGrid.valueZInterpolated
  rw [key, Res.monad_bind_eq, Res.bind_ok]
  unfold StormGrid.valueFromIndex
  dsimp only
  rw [if_neg hm.symm, r0, r1]
  simp only [Res.monad_bind_eq, Res.bind_ok]
  by_cases h1 : v k = g.missing
  · rw [if_neg (not_not.2 h1)]
    exact ⟨_, rfl, fun h' => absurd h1 h', fun h' => absurd h1 h', fun _ => rfl⟩
  · rw [if_pos h1]
    by_cases h2 : v (k + 1) = g.missing
    · rw [if_neg (not_not.2 h2)]
      exact ⟨_, rfl, fun _ h' => absurd h2 h', fun _ _ => rfl, fun h' => absurd h' h1⟩
    · rw [if_pos h2]
      exact ⟨_, rfl, fun _ _ => by ring, fun _ h' => absurd h' h2, fun h' => absurd h' h1⟩

/-- **C131, values at fractions of layers.** `GetValueInterpolated` for a layer number `k + w`. -/
theorem storm_interpolated {g : StormGrid} {zt zb : ℝ → ℝ → ℝ} (h : StormOk g zt zb) {i j : ℕ}
    {v : ℕ → ℝ} (hv : g.Column i j v) {k : ℕ} (hk : k < g.grid.nk) {w : ℝ} (hw : 0 ≤ w ∧ w < 1) :
    ∃ x, g.valueInterpolated i j (k + w) = .ok x ∧
      (v k = g.missing → x = g.missing) ∧
      (v k ≠ g.missing → k + 1 = g.grid.nk → x = v k) ∧
      (v k ≠ g.missing → k + 1 < g.grid.nk → v (k + 1) = g.missing → x = v k) ∧
      (v k ≠ g.missing → k + 1 < g.grid.nk → v (k + 1) ≠ g.missing →
        x = (1 - w) * v k + w * v (k + 1)) := by
  have hfl : ⌊(k : ℝ) + w⌋ = (k : ℤ) := by
    rw [Int.floor_eq_iff]
    push_cast
    constructor <;> linarith [hw.1, hw.2]
  have one : (1.0 : ℝ) = 1 := by norm_num
  have hb := h.small.2.2
  unfold StormGrid.valueInterpolated
  have h32 : toInt32 (k : ℤ) = .ok (k : ℤ) := if_pos (by constructor <;> omega)
  rw [hfl, h32]
  simp only [Res.monad_bind_eq, Res.bind_ok, Int.toNat_natCast, Int.cast_natCast]
  rw [if_neg (by omega), hv k hk, Res.bind_ok]
  by_cases h1 : v k = g.missing
  · rw [if_pos h1]
    exact ⟨_, rfl, fun _ => rfl, fun h' => absurd h1 h', fun h' => absurd h1 h',
      fun h' => absurd h1 h'⟩
  · rw [if_neg h1]
    by_cases hl : k + 1 = g.grid.nk
    · rw [if_pos (show k = g.grid.nk - 1 by omega), hv k hk, Res.bind_ok, if_neg h1, one]
      exact ⟨_, rfl, fun h' => absurd h' h1, fun _ _ => by ring, fun _ h' => by omega,
        fun _ h' => by omega⟩
    · have hlt : k + 1 < g.grid.nk := by omega
      rw [if_neg (show ¬ k = g.grid.nk - 1 by omega), hv (k + 1) hlt, Res.bind_ok, one]
      by_cases h2 : v (k + 1) = g.missing
      · rw [if_pos h2]
        exact ⟨_, rfl, fun h' => absurd h' h1, fun _ h' => absurd h' hl, fun _ _ _ => rfl,
          fun _ _ h' => absurd h2 h'⟩
      · rw [if_neg h2]
        exact ⟨_, rfl, fun h' => absurd h' h1, fun _ h' => absurd h' hl,
          fun _ _ h' => absurd h' h2, fun _ _ _ => by ring⟩

/-- The layers that `GetValueClosestInZ` takes: below the centre of layer `m ≥ 1` it is still the
layers before and at `m`. -/
theorem closestLayers_eq {zt zb dz : ℝ} (hd : 0 < dz) {r : ℝ} (h0 : 1 / 2 ≤ r) (h1 : r < 2 ^ 31)
    (hb : zt + r * dz ≤ zb + 1 / 2 * dz) :
    StormGrid.closestLayers (zt + r * dz) zt zb dz =
      .ok (((⌊r⌋₊ - 1 : ℕ) : ℤ), r - 1 / 2 - ((⌊r⌋₊ - 1 : ℕ) : ℝ)) := by
  have half : (0.5 : ℝ) = 1 / 2 := by norm_num
  have hr0 : (0 : ℝ) ≤ r := by linarith
  unfold StormGrid.closestLayers
  rw [half, if_neg (by rw [not_lt]; have := mul_le_mul_of_nonneg_right h0 hd.le; linarith),
    if_neg (by rw [gt_iff_lt, not_lt]; exact hb)]
  simp only [Res.monad_bind_eq]
  rw [add_sub_cancel_left, divD_ok hd.ne', mul_div_cancel_right₀ _ hd.ne', Res.bind_ok]
  have e : truncZ ((⌊r⌋ : ℝ) - 1 / 2) = ((⌊r⌋₊ - 1 : ℕ) : ℤ) := by
    have hf : (⌊r⌋ : ℝ) = (⌊r⌋₊ : ℝ) := by
      rw [← Int.cast_natCast, Int.natCast_floor_eq_floor hr0]
    rw [hf]
    unfold truncZ
    rcases Nat.eq_zero_or_pos ⌊r⌋₊ with h | h
    · rw [h, if_neg (by norm_num), Int.ceil_eq_iff]
      norm_num
    · have h' : (1 : ℝ) ≤ (⌊r⌋₊ : ℝ) := by exact_mod_cast h
      rw [if_pos (by linarith), Int.floor_eq_iff]
      push_cast [Nat.cast_sub h]
      constructor <;> linarith
  have hlt : ⌊r⌋₊ < 2 ^ 31 := by
    rw [Nat.floor_lt hr0]
    exact_mod_cast h1
  rw [e]
  have h32 : toInt32 (((⌊r⌋₊ - 1 : ℕ) : ℤ)) = .ok (((⌊r⌋₊ - 1 : ℕ) : ℤ)) :=
    if_pos (by constructor <;> omega)
  rw [h32, Res.bind_ok, Int.cast_natCast]

theorem valueClosest_eq {g : StormGrid} {zt zb : ℝ → ℝ → ℝ} (h : StormOk g zt zb) {s t : ℝ}
    (z : ℝ) (hs : 0 ≤ s ∧ s < g.grid.ni) (ht : 0 ≤ t ∧ t < g.grid.nj) :
    g.valueClosestInZ (g.place s t).1 (g.place s t).2 z =
      (StormGrid.closestLayers z (zt (g.place s t).1 (g.place s t).2)
        (zb (g.place s t).1 (g.place s t).2)
        ((zb (g.place s t).1 (g.place s t).2 - zt (g.place s t).1 (g.place s t).2) /
          g.grid.nk)).bind fun r =>
      if r.1 < 0 then .ub "assert in Grid::GetIndex"
      else (g.grid.get ⌊s⌋₊ ⌊t⌋₊ r.1.toNat).bind fun v1 =>
        (g.grid.get ⌊s⌋₊ ⌊t⌋₊ (r.1.toNat + 1)).bind fun v2 =>
          .ok ((1 - r.2) * v1 + r.2 * v2) := by
  have z0 : (0.0 : ℝ) = 0 := by norm_num
  have hx := h.dx_pos
  have hy := h.dy_pos
  obtain ⟨b1, b2, -⟩ := h.small
  unfold StormGrid.valueClosestInZ
  rw [g.local_place s t, h.dx, h.dy]
  simp only [Res.monad_bind_eq, Res.bind_ok]
  rw [divD_ok hx.ne', mul_div_cancel_right₀ _ hx.ne', Res.bind_ok, divD_ok hy.ne',
    mul_div_cancel_right₀ _ hy.ne', toSize_nonneg hs.1 (small_size b1 hs.2.le), Res.bind_ok,
    Res.bind_ok, toSize_nonneg ht.1 (small_size b2 ht.2.le), Res.bind_ok, h.heights_eq,
    Res.bind_ok, if_neg]
  rw [z0]
  rintro (h' | h' | h' | h')
  · have := mul_nonneg hs.1 hx.le; linarith
  · rw [ge_iff_le, Nat.le_floor_iff hs.1] at h'; linarith [hs.2]
  · have := mul_nonneg ht.1 hy.le; linarith
  · rw [ge_iff_le, Nat.le_floor_iff ht.1] at h'; linarith [ht.2]

/-- **C131, `GetValueClosestInZ`, where it interpolates.** From the centre of layer `k` down to
that of the next one, for `k = 0` as far as the border of the layers, and for the others after the
border. -/
theorem storm_closest_partial {g : StormGrid} {zt zb : ℝ → ℝ → ℝ} (h : StormOk g zt zb) {s t w : ℝ}
    (hs : 0 ≤ s ∧ s < g.grid.ni) (ht : 0 ≤ t ∧ t < g.grid.nj)
    (hz : zt (g.place s t).1 (g.place s t).2 < zb (g.place s t).1 (g.place s t).2) {v : ℕ → ℝ}
    (hv : g.Column ⌊s⌋₊ ⌊t⌋₊ v) {k : ℕ} (hk : k + 1 < g.grid.nk) (hw : 0 ≤ w ∧ w < 1)
    (hkw : k = 0 ∨ 1 / 2 ≤ w) :
    g.valueClosestInZ (g.place s t).1 (g.place s t).2
      (g.depth zt zb (g.place s t) (k + 1 / 2 + w)) = .ok ((1 - w) * v k + w * v (k + 1)) := by
  have hkp : (0 : ℝ) < g.grid.nk := Nat.cast_pos.2 h.nk
  have hk0 : (0 : ℝ) ≤ k := Nat.cast_nonneg k
  have hk1 : (k : ℝ) + 2 ≤ g.grid.nk := by exact_mod_cast (show k + 2 ≤ g.grid.nk from hk)
  have hd : 0 < (zb (g.place s t).1 (g.place s t).2 - zt (g.place s t).1 (g.place s t).2) /
      g.grid.nk := div_pos (by linarith) hkp
  have hzb : zb (g.place s t).1 (g.place s t).2 = zt (g.place s t).1 (g.place s t).2 +
      g.grid.nk * ((zb (g.place s t).1 (g.place s t).2 - zt (g.place s t).1 (g.place s t).2) /
      g.grid.nk) := by rw [mul_div_cancel₀ _ hkp.ne']; ring
  have h31 : (k : ℝ) + 1 / 2 + w < 2 ^ 31 := by
    have h1 : (g.grid.nk : ℝ) < (2 : ℝ) ^ 31 := by exact_mod_cast h.small.2.2
    linarith [hw.2]
  have hfl : ⌊(k : ℝ) + 1 / 2 + w⌋₊ - 1 = k := by
    rcases hkw with rfl | hw2
    · have : ⌊((0 : ℕ) : ℝ) + 1 / 2 + w⌋₊ < 2 := by
        rw [Nat.floor_lt (by push_cast; linarith [hw.1])]
        push_cast
        linarith [hw.2]
      omega
    · have : ⌊(k : ℝ) + 1 / 2 + w⌋₊ = k + 1 := by
        rw [Nat.floor_eq_iff (by linarith [hw.1])]
        push_cast
        constructor <;> linarith [hw.2]
      omega
  rw [valueClosest_eq h _ hs ht]
  unfold StormGrid.depth
  rw [closestLayers_eq hd (by linarith [hw.1]) h31 (by
    have := mul_le_mul_of_nonneg_right (show k + 1 / 2 + w ≤ (g.grid.nk : ℝ) + 1 / 2 by
      linarith [hw.2]) hd.le
    rw [add_mul] at this
    linarith), Res.bind_ok, hfl]
  dsimp only
  rw [if_neg (by omega), Int.toNat_natCast, hv k (by omega), hv (k + 1) hk, Res.bind_ok,
    Res.bind_ok]
  congr 1
  ring

/-- **C131, `GetValueClosestInZ`, what it gives elsewhere.** In the first half below the centre of a
layer `k ≥ 1` that is not the last, the line through the values of the layers before and at `k` is
continued, and the value of the layer after `k`, which is the next one, has no part in it. -/
theorem storm_closest_extrapolates {g : StormGrid} {zt zb : ℝ → ℝ → ℝ} (h : StormOk g zt zb)
    {s t w : ℝ} (hs : 0 ≤ s ∧ s < g.grid.ni) (ht : 0 ≤ t ∧ t < g.grid.nj)
    (hz : zt (g.place s t).1 (g.place s t).2 < zb (g.place s t).1 (g.place s t).2) {v : ℕ → ℝ}
    (hv : g.Column ⌊s⌋₊ ⌊t⌋₊ v) {k : ℕ} (hk : k + 1 < g.grid.nk) (hw : 0 ≤ w ∧ w < 1 / 2) :
    g.valueClosestInZ (g.place s t).1 (g.place s t).2
      (g.depth zt zb (g.place s t) ((k + 1 : ℕ) + 1 / 2 + w)) =
        .ok (v (k + 1) + w * (v (k + 1) - v k)) := by
  have hkp : (0 : ℝ) < g.grid.nk := Nat.cast_pos.2 h.nk
  have hk0 : (0 : ℝ) ≤ k := Nat.cast_nonneg k
  have hk1 : (k : ℝ) + 2 ≤ g.grid.nk := by exact_mod_cast (show k + 2 ≤ g.grid.nk from hk)
  have hd : 0 < (zb (g.place s t).1 (g.place s t).2 - zt (g.place s t).1 (g.place s t).2) /
      g.grid.nk := div_pos (by linarith) hkp
  have hzb : zb (g.place s t).1 (g.place s t).2 = zt (g.place s t).1 (g.place s t).2 +
      g.grid.nk * ((zb (g.place s t).1 (g.place s t).2 - zt (g.place s t).1 (g.place s t).2) /
      g.grid.nk) := by rw [mul_div_cancel₀ _ hkp.ne']; ring
  have hc : ((k + 1 : ℕ) : ℝ) = (k : ℝ) + 1 := by push_cast; ring
  have h31 : ((k + 1 : ℕ) : ℝ) + 1 / 2 + w < 2 ^ 31 := by
    have h1 : (g.grid.nk : ℝ) < (2 : ℝ) ^ 31 := by exact_mod_cast h.small.2.2
    rw [hc]
    linarith [hw.2]
  have hfl : ⌊((k + 1 : ℕ) : ℝ) + 1 / 2 + w⌋₊ - 1 = k := by
    have : ⌊((k + 1 : ℕ) : ℝ) + 1 / 2 + w⌋₊ = k + 1 := by
      rw [Nat.floor_eq_iff (by rw [hc]; linarith [hw.1])]
      push_cast
      constructor <;> linarith [hw.1, hw.2]
    omega
  rw [valueClosest_eq h _ hs ht]
  unfold StormGrid.depth
  rw [closestLayers_eq hd (by rw [hc]; linarith [hw.1]) h31 (by
    have := mul_le_mul_of_nonneg_right (show ((k + 1 : ℕ) : ℝ) + 1 / 2 + w ≤
      (g.grid.nk : ℝ) + 1 / 2 by rw [hc]; linarith [hw.2]) hd.le
    rw [add_mul] at this
    linarith), Res.bind_ok, hfl]
  dsimp only
  rw [if_neg (by omega), Int.toNat_natCast, hv k (by omega), hv (k + 1) hk, Res.bind_ok,
    Res.bind_ok, hc]
  congr 1
  ring

/-- **C131, `GetValueClosestInZ` below the bottom.** On and below the bottom surface it reads a
layer that is not there. -/
theorem storm_closest_bottom_violation {g : StormGrid} {zt zb : ℝ → ℝ → ℝ} (h : StormOk g zt zb)
    {s t : ℝ} (hs : 0 ≤ s ∧ s < g.grid.ni) (ht : 0 ≤ t ∧ t < g.grid.nj)
    (hz : zt (g.place s t).1 (g.place s t).2 < zb (g.place s t).1 (g.place s t).2) {v : ℕ → ℝ}
    (hv : g.Column ⌊s⌋₊ ⌊t⌋₊ v) {r : ℝ} (hr : (g.grid.nk : ℝ) ≤ r ∧ r ≤ g.grid.nk + 1 / 2) :
    ∃ w, g.valueClosestInZ (g.place s t).1 (g.place s t).2 (g.depth zt zb (g.place s t) r) =
      .ub w := by
  have hkp : (0 : ℝ) < g.grid.nk := Nat.cast_pos.2 h.nk
  have hk1 : (1 : ℝ) ≤ g.grid.nk := by exact_mod_cast h.nk
  have hd : 0 < (zb (g.place s t).1 (g.place s t).2 - zt (g.place s t).1 (g.place s t).2) /
      g.grid.nk := div_pos (by linarith) hkp
  have hzb : zb (g.place s t).1 (g.place s t).2 = zt (g.place s t).1 (g.place s t).2 +
      g.grid.nk * ((zb (g.place s t).1 (g.place s t).2 - zt (g.place s t).1 (g.place s t).2) /
      g.grid.nk) := by rw [mul_div_cancel₀ _ hkp.ne']; ring
  have h31 : r < 2 ^ 31 := by
    have h1 : g.grid.nk + 1 ≤ 2 ^ 31 := h.small.2.2
    have h2 : (g.grid.nk : ℝ) + 1 ≤ (2 : ℝ) ^ 31 := by exact_mod_cast h1
    linarith [hr.2]
  have hfl : ⌊r⌋₊ - 1 = g.grid.nk - 1 := by
    have : ⌊r⌋₊ = g.grid.nk := by
      rw [Nat.floor_eq_iff (by linarith [hr.1])]
      constructor <;> linarith [hr.1, hr.2]
    rw [this]
  refine ⟨"assert in Grid::GetIndex", ?_⟩
  rw [valueClosest_eq h _ hs ht]
  unfold StormGrid.depth
  rw [closestLayers_eq hd (by linarith [hr.1]) h31 (by
    have := mul_le_mul_of_nonneg_right hr.2 hd.le
    rw [add_mul] at this
    linarith), Res.bind_ok, hfl]
  dsimp only
  rw [if_neg (by omega), Int.toNat_natCast, hv (g.grid.nk - 1) (Nat.sub_lt h.nk Nat.one_pos),
    Res.bind_ok]
  unfold Grid3D.get Grid3D.getIndex
  have := h.nk
  rw [if_neg (fun hc => by omega)]
  rfl

theorem concrete_depth (d : List ℝ) (p : ℝ × ℝ) (r : ℝ) :
    StormGrid.depth ⟨Volume.ofBox 10 20 100 6 4 30 0, ⟨2, 2, 3, d⟩, -999⟩ (fun _ _ => 100)
      (fun _ _ => 100 + 30) p r = 100 + r * 10 := by
  unfold StormGrid.depth
  norm_num

/-- **C131, `GetValueClosestInZ`, an example.** Layers with the values 0, 0 and 100: a quarter of a
layer below the centre of the second one, where the interpolated value is 25, it gives 0. If the
first layer is missing (-999), its code is averaged with the second one. -/
theorem storm_closest_violation :
    ∃ g : StormGrid, StormOk g (fun _ _ => 100) (fun _ _ => 100 + 30) ∧
      g.valueZInterpolated (g.place 0 0).1 (g.place 0 0).2 117.5 = .ok 25 ∧
      g.valueClosestInZ (g.place 0 0).1 (g.place 0 0).2 117.5 = .ok 0 ∧
    ∃ g' : StormGrid, StormOk g' (fun _ _ => 100) (fun _ _ => 100 + 30) ∧
      g'.valueZInterpolated (g'.place 0 0).1 (g'.place 0 0).2 109 = .ok 0 ∧
      g'.valueClosestInZ (g'.place 0 0).1 (g'.place 0 0).2 109 = .ok (-999 * 0.6) := by
  have hv1 : StormGrid.Column ⟨Volume.ofBox 10 20 100 6 4 30 0,
      ⟨2, 2, 3, [0, 0, 0, 0, 0, 0, 0, 0, 100, 100, 100, 100]⟩, -999⟩ ⌊(0 : ℝ)⌋₊ ⌊(0 : ℝ)⌋₊
      (fun k => if k = 2 then 100 else 0) := by
    intro k hk
    rw [Nat.floor_zero]
    have hk' : k < 3 := hk
    interval_cases k <;> rfl
  have hv2 : StormGrid.Column ⟨Volume.ofBox 10 20 100 6 4 30 0,
      ⟨2, 2, 3, [-999, 0, 0, 0, 0, 0, 0, 0, 100, 100, 100, 100]⟩, -999⟩ ⌊(0 : ℝ)⌋₊ ⌊(0 : ℝ)⌋₊
      (fun k => if k = 2 then 100 else if k = 0 then -999 else 0) := by
    intro k hk
    rw [Nat.floor_zero]
    have hk' : k < 3 := hk
    interval_cases k <;> rfl
  have ok1 := concrete_storm [0, 0, 0, 0, 0, 0, 0, 0, 100, 100, 100, 100] rfl
  have ok2 := concrete_storm [-999, 0, 0, 0, 0, 0, 0, 0, 100, 100, 100, 100] rfl
  have hz : ((100 : ℝ)) < 100 + 30 := by norm_num
  refine ⟨_, ok1, ?_, ?_, _, ok2, ?_, ?_⟩
  · obtain ⟨x, hx, h1, -⟩ := storm_zInterp ok1 (s := 0) (t := 0) (w := 1 / 4) (by norm_num)
      (by norm_num) hz hv1 (k := 1) (by norm_num) (by norm_num) (by norm_num)
    rw [concrete_depth, show (100 : ℝ) + ((1 : ℕ) + 1 / 2 + 1 / 4) * 10 = 117.5 by norm_num] at hx
    rw [hx, h1 (by norm_num) (by norm_num)]
    norm_num
  · have hx := storm_closest_extrapolates ok1 (s := 0) (t := 0) (w := 1 / 4) (by norm_num)
      (by norm_num) hz hv1 (k := 0) (by norm_num) (by norm_num)
    rw [concrete_depth, show (100 : ℝ) + ((0 + 1 : ℕ) + 1 / 2 + 1 / 4) * 10 = 117.5 by norm_num]
      at hx
    rw [hx]
    norm_num
  · obtain ⟨x, hx, -, -, h1⟩ := storm_zInterp ok2 (s := 0) (t := 0) (w := 2 / 5) (by norm_num)
      (by norm_num) hz hv2 (k := 0) (by norm_num) (by norm_num) (by norm_num)
    rw [concrete_depth, show (100 : ℝ) + ((0 : ℕ) + 1 / 2 + 2 / 5) * 10 = 109 by norm_num] at hx
    rw [hx, h1 (by norm_num)]
    norm_num
  · have hx := storm_closest_partial ok2 (s := 0) (t := 0) (w := 2 / 5) (by norm_num)
      (by norm_num) hz hv2 (k := 0) (by norm_num) (by norm_num) (Or.inl rfl)
    rw [concrete_depth, show (100 : ℝ) + ((0 : ℕ) + 1 / 2 + 2 / 5) * 10 = 109 by norm_num] at hx
    rw [hx]
    norm_num

theorem forRange_sum_ok {f : ℕ → ℝ} {body : ℕ → ℝ → Res ℝ} (n : ℕ) (s : ℝ)
    (hb : ∀ i x, i < n → body i x = .ok (x + f i)) :
    forRange 0 n body s = .ok (s + ∑ i ∈ Finset.range n, f i) := by
  obtain ⟨x, hx, rfl⟩ := forRange_sat
    (fun i x => x = s + ∑ k ∈ Finset.range i, f k) (Nat.zero_le n) (body := body) (s := s)
    (by rw [Finset.sum_range_zero, add_zero]) (fun i x _ hi h => by
      rw [hb i x hi]
      refine ⟨_, rfl, ?_⟩
      rw [h, Finset.sum_range_succ, add_assoc])
  exact hx

/-- **C131, the average thickness.** `GetAvgRelThick` is the average, over the centres of all
columns, of the distance of the surfaces as part of the height of the volume; columns where a
surface has no height count as 1. -/
theorem storm_avgRelThick {g : StormGrid} {zt zb : ℝ → ℝ → ℝ} (h : StormOk g zt zb)
    (hl : g.vol.lz ≠ 0) :
    ∃ T : ℕ → ℕ → ℝ,
      g.avgRelThick = .ok ((∑ i ∈ Finset.range g.grid.ni, ∑ j ∈ Finset.range g.grid.nj, T i j) /
        (g.grid.ni * g.grid.nj)) ∧
      ∀ (i j : ℕ) (p : ℝ × ℝ), p = g.place (i + 1 / 2) (j + 1 / 2) →
        (¬ g.vol.top.isMissing (zt p.1 p.2) → ¬ g.vol.bot.isMissing (zb p.1 p.2) →
          T i j = (zb p.1 p.2 - zt p.1 p.2) / g.vol.lz) ∧
        (g.vol.top.isMissing (zt p.1 p.2) ∨ g.vol.bot.isMissing (zb p.1 p.2) → T i j = 1) := by
  have half : (0.5 : ℝ) = 1 / 2 := by norm_num
  have zero : (0.0 : ℝ) = 0 := by norm_num
  have one : ∀ i j : ℕ, ∃ x, g.relThick i j = .ok x ∧
      ∀ p : ℝ × ℝ, p = g.place (i + 1 / 2) (j + 1 / 2) →
        (¬ g.vol.top.isMissing (zt p.1 p.2) → ¬ g.vol.bot.isMissing (zb p.1 p.2) →
          x = (zb p.1 p.2 - zt p.1 p.2) / g.vol.lz) ∧
        (g.vol.top.isMissing (zt p.1 p.2) ∨ g.vol.bot.isMissing (zb p.1 p.2) → x = 1) := by
    intro i j
    unfold StormGrid.relThick StormGrid.relThickAt
    rw [h.dx, h.dy]
    simp only [Res.monad_bind_eq, Res.bind_ok]
    have e1 : ((i : ℝ) + 0.5) * (g.vol.lx / g.grid.ni) * Real.cos g.vol.angle -
        ((j : ℝ) + 0.5) * (g.vol.ly / g.grid.nj) * Real.sin g.vol.angle + g.vol.x_min =
        (g.place (i + 1 / 2) (j + 1 / 2)).1 := by
      rw [half]
      unfold StormGrid.place areaPoint
      dsimp only
      ring
    have e2 : ((i : ℝ) + 0.5) * (g.vol.lx / g.grid.ni) * Real.sin g.vol.angle +
        ((j : ℝ) + 0.5) * (g.vol.ly / g.grid.nj) * Real.cos g.vol.angle + g.vol.y_min =
        (g.place (i + 1 / 2) (j + 1 / 2)).2 := by
      rw [half]
      unfold StormGrid.place areaPoint
      dsimp only
      ring
    rw [e1, e2, h.top, h.bot]
    simp only [Res.bind_ok]
    by_cases hm : ¬ g.vol.top.isMissing (zt (g.place (i + 1 / 2) (j + 1 / 2)).1
        (g.place (i + 1 / 2) (j + 1 / 2)).2) ∧ ¬ g.vol.bot.isMissing
        (zb (g.place (i + 1 / 2) (j + 1 / 2)).1 (g.place (i + 1 / 2) (j + 1 / 2)).2)
    · rw [if_pos hm, divD_ok hl]
      refine ⟨_, rfl, ?_⟩
      rintro p rfl
      refine ⟨fun _ _ => rfl, fun h' => ?_⟩
      rcases h' with h' | h'
      · exact absurd h' hm.1
      · exact absurd h' hm.2
    · rw [if_neg hm]
      refine ⟨_, rfl, ?_⟩
      rintro p rfl
      exact ⟨fun h1 h2 => absurd ⟨h1, h2⟩ hm, fun _ => rfl⟩
  choose T h1 h2 using one
  refine ⟨T, ?_, h2⟩
  unfold StormGrid.avgRelThick
  rw [forRange_sum_ok (f := fun i => ∑ j ∈ Finset.range g.grid.nj, T i j) g.grid.ni 0.0
    (fun i x _ => forRange_sum_ok (f := T i) g.grid.nj x (fun j y _ => by
      rw [h1, Res.monad_bind_eq, Res.bind_ok])), Res.monad_bind_eq, Res.bind_ok, zero, zero_add,
    divD_ok]
  · push_cast
    rfl
  · exact Nat.cast_ne_zero.2 (Nat.mul_pos h.ni h.nj).ne'

/-- A concrete case: the box of `concrete_storm` has the height of its volume everywhere. -/
example (d : List ℝ) (hd : d.length = 12) :
    StormOk ⟨Volume.ofBox 10 20 100 6 4 30 0, ⟨2, 2, 3, d⟩, -999⟩ (fun _ _ => 100)
      (fun _ _ => 100 + 30) ∧
    (⟨Volume.ofBox 10 20 100 6 4 30 0, ⟨2, 2, 3, d⟩, -999⟩ : StormGrid).vol.lz ≠ 0 :=
  ⟨concrete_storm d hd, by show (30 : ℝ) ≠ 0; norm_num⟩

end Verif
