import Verif.Props.StormValue

/-!
# Grids in a volume: where they have no thickness, outside their area, and beyond their centres (C130, C131)
-/

namespace Verif

/-- **C130, where a volume has no thickness.** Where the top and the bottom meet, the point on them
is in the first layer. -/
theorem storm_flat {g : StormGrid} {zt zb : ℝ → ℝ → ℝ} (h : StormOk g zt zb) {s t : ℝ}
    (hs : 0 ≤ s ∧ s < g.grid.ni) (ht : 0 ≤ t ∧ t < g.grid.nj)
    (hz : zt (g.place s t).1 (g.place s t).2 = zb (g.place s t).1 (g.place s t).2) :
    g.findIJK (g.place s t).1 (g.place s t).2 (zt (g.place s t).1 (g.place s t).2) =
      .ok (⌊s⌋₊, ⌊t⌋₊, 0) := by
  unfold StormGrid.findIJK
  rw [h.findXY_inside hs.1 hs.2 ht.1 ht.2, h.heights_eq]
  simp only [Res.monad_bind_eq, Res.bind_ok]
  rw [if_neg (lt_irrefl _), if_neg (by rw [← hz]; exact lt_irrefl _), if_pos]
  rw [hz, sub_self, zero_div]

theorem toSize_outer {q : ℝ} (hq : -1 < q ∧ q < 2 ^ 64) : toSize q = .ok ⌊q⌋₊ := by
  rcases lt_or_ge q 0 with h | h
  · rw [toSize_small hq.1 h, Nat.floor_of_nonpos h.le]
  · exact toSize_nonneg h hq.2

/-- **C131, `GetValueClosestInZ` outside the area.** Less than a cell before the first ones, or
anywhere after the last ones, it gives the missing code, at any depth. -/
theorem storm_closest_outside {g : StormGrid} {zt zb : ℝ → ℝ → ℝ} (h : StormOk g zt zb) {s t : ℝ}
    (z : ℝ) (hs : -1 < s ∧ s < 2 ^ 64) (ht : -1 < t ∧ t < 2 ^ 64)
    (hout : s < 0 ∨ (g.grid.ni : ℝ) ≤ s ∨ t < 0 ∨ (g.grid.nj : ℝ) ≤ t) :
    g.valueClosestInZ (g.place s t).1 (g.place s t).2 z = .ok g.missing := by
  have z0 : (0.0 : ℝ) = 0 := by norm_num
  have hx := h.dx_pos
  have hy := h.dy_pos
  unfold StormGrid.valueClosestInZ
  rw [g.local_place s t, h.dx, h.dy]
  simp only [Res.monad_bind_eq, Res.bind_ok]
  rw [divD_ok hx.ne', mul_div_cancel_right₀ _ hx.ne', Res.bind_ok, divD_ok hy.ne',
    mul_div_cancel_right₀ _ hy.ne', toSize_outer hs, Res.bind_ok, Res.bind_ok, toSize_outer ht,
    Res.bind_ok, h.heights_eq, Res.bind_ok, if_pos]
  rw [z0]
  rcases hout with h1 | h1 | h1 | h1
  · exact Or.inl (mul_neg_of_neg_of_pos h1 hx)
  · exact Or.inr (Or.inl (Nat.le_floor h1))
  · exact Or.inr (Or.inr (Or.inl (mul_neg_of_neg_of_pos h1 hy)))
  · exact Or.inr (Or.inr (Or.inr (Nat.le_floor h1)))

/-- **C131, `GetValueClosestInZ` above the first centre.** In a grid of two layers or more it is
the value of the first layer, however far above. -/
theorem storm_closest_top {g : StormGrid} {zt zb : ℝ → ℝ → ℝ} (h : StormOk g zt zb) {s t : ℝ}
    (hs : 0 ≤ s ∧ s < g.grid.ni) (ht : 0 ≤ t ∧ t < g.grid.nj)
    (hz : zt (g.place s t).1 (g.place s t).2 < zb (g.place s t).1 (g.place s t).2) {v : ℕ → ℝ}
    (hv : g.Column ⌊s⌋₊ ⌊t⌋₊ v) (hk : 2 ≤ g.grid.nk) {r : ℝ} (hr : r ≤ 1 / 2) :
    g.valueClosestInZ (g.place s t).1 (g.place s t).2 (g.depth zt zb (g.place s t) r) =
      .ok (v 0) := by
  have half : (0.5 : ℝ) = 1 / 2 := by norm_num
  have hd : 0 < (zb (g.place s t).1 (g.place s t).2 - zt (g.place s t).1 (g.place s t).2) /
      g.grid.nk := div_pos (by linarith) (Nat.cast_pos.2 h.nk)
  have key := storm_closest_partial h hs ht hz hv (k := 0) (w := 0) (by omega) (by norm_num)
    (Or.inl rfl)
  rw [show (1 - (0 : ℝ)) * v 0 + 0 * v (0 + 1) = v 0 by ring] at key
  rw [← key, valueClosest_eq h _ hs ht, valueClosest_eq h _ hs ht]
  congr 1
  unfold StormGrid.depth StormGrid.closestLayers
  rw [half]
  rcases hr.lt_or_eq with h1 | h1
  · rw [if_pos (by have := mul_lt_mul_of_pos_right h1 hd; linarith), if_neg (by
      rw [not_lt]; push_cast; linarith), if_neg (by
      rw [gt_iff_lt, not_lt]; push_cast; linarith)]
    norm_num
  · rw [h1]
    norm_num

/-- **C131, `GetValueClosestInZ` below the bottom, however far.** From the bottom surface down it
reads a layer that is not there. -/
theorem storm_closest_below_violation {g : StormGrid} {zt zb : ℝ → ℝ → ℝ} (h : StormOk g zt zb)
    {s t : ℝ} (hs : 0 ≤ s ∧ s < g.grid.ni) (ht : 0 ≤ t ∧ t < g.grid.nj)
    (hz : zt (g.place s t).1 (g.place s t).2 < zb (g.place s t).1 (g.place s t).2) {v : ℕ → ℝ}
    (hv : g.Column ⌊s⌋₊ ⌊t⌋₊ v) {z : ℝ} (hr : zb (g.place s t).1 (g.place s t).2 ≤ z) :
    ∃ w, g.valueClosestInZ (g.place s t).1 (g.place s t).2 z = .ub w := by
  have half : (0.5 : ℝ) = 1 / 2 := by norm_num
  have hkp : (0 : ℝ) < g.grid.nk := Nat.cast_pos.2 h.nk
  have hd : 0 < (zb (g.place s t).1 (g.place s t).2 - zt (g.place s t).1 (g.place s t).2) /
      g.grid.nk := div_pos (by linarith) hkp
  have hzb : zb (g.place s t).1 (g.place s t).2 = zt (g.place s t).1 (g.place s t).2 +
      g.grid.nk * ((zb (g.place s t).1 (g.place s t).2 - zt (g.place s t).1 (g.place s t).2) /
      g.grid.nk) := by rw [mul_div_cancel₀ _ hkp.ne']; ring
  rcases le_or_gt z (zb (g.place s t).1 (g.place s t).2 + 1 / 2 *
      ((zb (g.place s t).1 (g.place s t).2 - zt (g.place s t).1 (g.place s t).2) /
      g.grid.nk)) with h1 | h1
  · have e : z = g.depth zt zb (g.place s t) ((z - zt (g.place s t).1 (g.place s t).2) /
        ((zb (g.place s t).1 (g.place s t).2 - zt (g.place s t).1 (g.place s t).2) /
        g.grid.nk)) := by
      unfold StormGrid.depth
      rw [div_mul_cancel₀ _ hd.ne']
      ring
    rw [e]
    refine storm_closest_bottom_violation h hs ht hz hv ⟨?_, ?_⟩
    · rw [le_div_iff₀ hd]
      linarith
    · rw [div_le_iff₀ hd, add_mul]
      linarith
  · obtain ⟨w, hw⟩ := storm_closest_bottom_violation h hs ht hz hv (r := g.grid.nk + 1 / 2)
      (by constructor <;> linarith)
    refine ⟨w, ?_⟩
    rw [← hw, valueClosest_eq h _ hs ht, valueClosest_eq h _ hs ht]
    congr 1
    unfold StormGrid.depth StormGrid.closestLayers
    rw [half, if_neg (by rw [not_lt]; linarith), if_pos h1, if_neg (by
      rw [not_lt, add_mul]; linarith), if_neg (by rw [gt_iff_lt, not_lt, add_mul]; linarith)]
    simp only
    congr 2
    rw [add_mul]
    linarith

/-- The hypotheses are met: three layers of 10 from 100 to 130, with values 7, 8 and 9 in each
column. Far above, the value is that of the first layer, outside the area it is the missing code,
and far below a layer is read that is not there. -/
theorem storm_ends_example :
    ∃ g : StormGrid, StormOk g (fun _ _ => 100) (fun _ _ => 100 + 30) ∧
      g.valueClosestInZ (g.place 0 0).1 (g.place 0 0).2 (-1000) = .ok 7 ∧
      g.valueClosestInZ (g.place 2 0).1 (g.place 2 0).2 117 = .ok (-999) ∧
      ∃ w, g.valueClosestInZ (g.place 0 0).1 (g.place 0 0).2 1000 = .ub w := by
  have hv : StormGrid.Column ⟨Volume.ofBox 10 20 100 6 4 30 0,
      ⟨2, 2, 3, [7, 7, 7, 7, 8, 8, 8, 8, 9, 9, 9, 9]⟩, -999⟩ ⌊(0 : ℝ)⌋₊ ⌊(0 : ℝ)⌋₊
      (fun k => if k = 0 then 7 else if k = 1 then 8 else 9) := by
    intro k hk
    rw [Nat.floor_zero]
    have hk' : k < 3 := hk
    interval_cases k <;> rfl
  have ok := concrete_storm [7, 7, 7, 7, 8, 8, 8, 8, 9, 9, 9, 9] rfl
  have hz : ((100 : ℝ)) < 100 + 30 := by norm_num
  refine ⟨_, ok, ?_, ?_, ?_⟩
  · have := storm_closest_top ok (s := 0) (t := 0) (r := -110) (by norm_num) (by norm_num) hz hv
      (by norm_num) (by norm_num)
    rw [concrete_depth, show (100 : ℝ) + (-110) * 10 = -1000 by norm_num] at this
    exact this
  · exact storm_closest_outside ok (s := 2) (t := 0) 117 (by norm_num) (by norm_num)
      (Or.inr (Or.inl (by norm_num)))
  · exact storm_closest_below_violation ok (s := 0) (t := 0) (by norm_num) (by norm_num) hz hv
      (by norm_num)

/-- A grid whose top and bottom meet everywhere. -/
theorem storm_flat_example :
    ∃ g : StormGrid, StormOk g (fun _ _ => 100) (fun _ _ => 100 + 0) ∧
      g.findIJK (g.place 1 0).1 (g.place 1 0).2 100 = .ok (1, 0, 0) := by
  have ok : StormOk ⟨Volume.ofBox 10 20 100 6 4 0 0, ⟨2, 2, 3, List.replicate 12 7⟩, -999⟩
      (fun _ _ => 100) (fun _ _ => 100 + 0) :=
    { lx := by norm_num [Volume.ofBox]
      ly := by norm_num [Volume.ofBox]
      ni := by norm_num
      nj := by norm_num
      nk := by norm_num
      small := by norm_num
      data := by simp
      top := fun _ _ => rfl
      bot := fun _ _ => rfl }
  refine ⟨_, ok, ?_⟩
  have := storm_flat ok (s := 1) (t := 0) (by norm_num) (by norm_num) (by norm_num)
  rw [Nat.floor_one, Nat.floor_zero] at this
  exact this

end Verif
