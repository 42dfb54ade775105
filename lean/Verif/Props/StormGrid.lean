import Verif.Model.StormGrid
import Verif.Spec.Volume
import Verif.Props.Volume
import Verif.Props.Grid
import Verif.Lemmas.Outcome
import Mathlib.Tactic.FieldSimp
import Mathlib.Tactic.Linarith
import Mathlib.Tactic.Ring
import Mathlib.Tactic.NormNum

/-!
# C130: cells of grids in volumes
-/

namespace Verif

/-- A grid with at least one cell in a volume with an area, between surfaces with the heights `zt`
and `zb`. -/
structure StormOk (g : StormGrid) (zt zb : ℝ → ℝ → ℝ) : Prop where
  lx : 0 < g.vol.lx
  ly : 0 < g.vol.ly
  ni : 0 < g.grid.ni
  nj : 0 < g.grid.nj
  nk : 0 < g.grid.nk
  small : g.grid.ni < 2 ^ 31 ∧ g.grid.nj < 2 ^ 31 ∧ g.grid.nk < 2 ^ 31
  data : g.grid.data.length = g.grid.ni * g.grid.nj * g.grid.nk
  top : g.vol.top.HasHeights zt
  bot : g.vol.bot.HasHeights zb

/-- The point of the area that is `s` cells along its first and `t` cells along its second side. -/
noncomputable def StormGrid.place (g : StormGrid) (s t : ℝ) : ℝ × ℝ :=
  areaPoint g.vol.x_min g.vol.y_min g.vol.angle (s * (g.vol.lx / g.grid.ni))
    (t * (g.vol.ly / g.grid.nj))

/-- The height that is `r` layers below the top in the point `p`. -/
noncomputable def StormGrid.depth (g : StormGrid) (zt zb : ℝ → ℝ → ℝ) (p : ℝ × ℝ) (r : ℝ) : ℝ :=
  zt p.1 p.2 + r * ((zb p.1 p.2 - zt p.1 p.2) / g.grid.nk)

theorem small_size {n : ℕ} (h : n < 2 ^ 31) {q : ℝ} (hq : q ≤ n) : q < 2 ^ 64 := by
  have h1 : (n : ℝ) < (2 : ℝ) ^ 31 := by exact_mod_cast h
  have h2 : (2 : ℝ) ^ 31 ≤ 2 ^ 64 := by norm_num
  linarith

theorem toSize_nonneg {q : ℝ} (h0 : 0 ≤ q) (h1 : q < 2 ^ 64) : toSize q = .ok ⌊q⌋₊ := by
  unfold toSize truncZ
  rw [if_pos h0, if_pos]
  · rfl
  · refine ⟨Int.floor_nonneg.2 h0, ?_⟩
    rw [Int.floor_lt]
    exact_mod_cast h1

theorem toSize_small {q : ℝ} (h0 : -1 < q) (h1 : q < 0) : toSize q = .ok 0 := by
  have e : truncZ q = 0 := by
    unfold truncZ
    rw [if_neg (not_le.2 h1), Int.ceil_eq_iff]
    push_cast
    constructor <;> linarith
  unfold toSize
  rw [e]
  norm_num

theorem toSize_neg {q : ℝ} (h : q ≤ -1) : toSize q = .ub "conversion to size_t out of range" := by
  unfold toSize
  rw [if_neg]
  rintro ⟨h1, -⟩
  unfold truncZ at h1
  rw [if_neg (by linarith)] at h1
  have : ⌈q⌉ ≤ -1 := by rw [Int.ceil_le]; push_cast; exact h
  omega

theorem divD_ok {a b : ℝ} (h : b ≠ 0) : divD a b = .ok (a / b) := if_neg h

theorem StormGrid.local_place (g : StormGrid) (s t : ℝ) :
    g.vol.globalToLocal (g.place s t).1 (g.place s t).2 =
    (s * (g.vol.lx / g.grid.ni), t * (g.vol.ly / g.grid.nj)) := by
  obtain ⟨e1, e2⟩ := areaPoint_coords g.vol.x_min g.vol.y_min g.vol.angle
    (s * (g.vol.lx / g.grid.ni)) (t * (g.vol.ly / g.grid.nj))
  unfold Volume.globalToLocal
  apply Prod.ext
  · refine Eq.trans ?_ e1
    simp only [StormGrid.place]
    ring
  · refine Eq.trans ?_ e2
    simp only [StormGrid.place]
    ring

namespace StormOk
variable {g : StormGrid} {zt zb : ℝ → ℝ → ℝ} (h : StormOk g zt zb)
include h

theorem dx : g.getDX = .ok (g.vol.lx / g.grid.ni) :=
  divD_ok (Nat.cast_ne_zero.2 h.ni.ne')

theorem dy : g.getDY = .ok (g.vol.ly / g.grid.nj) :=
  divD_ok (Nat.cast_ne_zero.2 h.nj.ne')

theorem dx_pos : 0 < g.vol.lx / g.grid.ni := div_pos h.lx (Nat.cast_pos.2 h.ni)

theorem dy_pos : 0 < g.vol.ly / g.grid.nj := div_pos h.ly (Nat.cast_pos.2 h.nj)

/-- `FindXYIndex` after the divisions. -/
theorem findXY_eq (s t : ℝ) : g.findXYIndex (g.place s t).1 (g.place s t).2 =
    (toSize s).bind fun i => (toSize t).bind fun j =>
      if i ≥ g.grid.ni then .throws "Index in x direction is too large."
      else if j ≥ g.grid.nj then .throws "Index in y direction is too large."
      else if s < 0 then .throws "Local x-coordinate is too small"
      else if t < 0 then .throws "Local y-coordinate is too small"
      else .ok (i, j) := by
  have z : (0.0 : ℝ) = 0 := by norm_num
  have hx := h.dx_pos
  have hy := h.dy_pos
  have c1 : ∀ u : ℝ, (u * (g.vol.lx / g.grid.ni) < 0) = (u < 0) := by
    intro u
    rw [mul_neg_iff]
    apply propext
    constructor
    · rintro (⟨-, h'⟩ | ⟨h', -⟩)
      · linarith
      · exact h'
    · intro h'; exact Or.inr ⟨h', hx⟩
  have c2 : ∀ u : ℝ, (u * (g.vol.ly / g.grid.nj) < 0) = (u < 0) := by
    intro u
    rw [mul_neg_iff]
    apply propext
    constructor
    · rintro (⟨-, h'⟩ | ⟨h', -⟩)
      · linarith
      · exact h'
    · intro h'; exact Or.inr ⟨h', hy⟩
  unfold StormGrid.findXYIndex
  rw [g.local_place s t, h.dx, h.dy]
  simp only [Res.monad_bind_eq, Res.bind_ok]
  rw [divD_ok hx.ne', mul_div_cancel_right₀ _ hx.ne', Res.bind_ok, divD_ok hy.ne',
    mul_div_cancel_right₀ _ hy.ne']
  simp only [Res.bind_ok, z, c1, c2]

theorem findXY_inside {s t : ℝ} (hs0 : 0 ≤ s) (hs : s < g.grid.ni) (ht0 : 0 ≤ t)
    (ht : t < g.grid.nj) : g.findXYIndex (g.place s t).1 (g.place s t).2 = .ok (⌊s⌋₊, ⌊t⌋₊) := by
  obtain ⟨b1, b2, -⟩ := h.small
  have c1 : s < 2 ^ 64 := small_size b1 hs.le
  have c2 : t < 2 ^ 64 := small_size b2 ht.le
  rw [h.findXY_eq, toSize_nonneg hs0 c1, toSize_nonneg ht0 c2, Res.bind_ok, Res.bind_ok,
    if_neg (by rw [ge_iff_le, Nat.le_floor_iff hs0]; exact not_le.2 hs),
    if_neg (by rw [ge_iff_le, Nat.le_floor_iff ht0]; exact not_le.2 ht),
    if_neg (not_lt.2 hs0), if_neg (not_lt.2 ht0)]

theorem heights_eq (x y : ℝ) :
    g.heights x y = .ok (zt x y, zb x y, (zb x y - zt x y) / g.grid.nk) := by
  unfold StormGrid.heights
  rw [h.top x y, h.bot x y]
  simp only [Res.monad_bind_eq, Res.bind_ok]
  rw [divD_ok (Nat.cast_ne_zero.2 h.nk.ne')]
  rfl

end StormOk

/-- **C130, the cell of a point.** A point that is `s` and `t` cells along the sides and `r` layers
below the top belongs to the cell of the integer parts, if it is before the far sides and above the
bottom. -/
theorem storm_findIndex {g : StormGrid} {zt zb : ℝ → ℝ → ℝ} (h : StormOk g zt zb) {s t r : ℝ}
    (hs : 0 ≤ s ∧ s < g.grid.ni) (ht : 0 ≤ t ∧ t < g.grid.nj) (hr : 0 ≤ r ∧ r < g.grid.nk)
    (hz : zt (g.place s t).1 (g.place s t).2 < zb (g.place s t).1 (g.place s t).2) :
    g.findIJK (g.place s t).1 (g.place s t).2 (g.depth zt zb (g.place s t) r) =
      .ok (⌊s⌋₊, ⌊t⌋₊, ⌊r⌋₊) ∧
    ∃ n, g.findIndex (g.place s t).1 (g.place s t).2 (g.depth zt zb (g.place s t) r) = .ok n ∧
      g.grid.getIndex ⌊s⌋₊ ⌊t⌋₊ ⌊r⌋₊ = .ok n ∧ n < g.grid.data.length := by
  have hk : (0 : ℝ) < g.grid.nk := Nat.cast_pos.2 h.nk
  have hd : 0 < (zb (g.place s t).1 (g.place s t).2 - zt (g.place s t).1 (g.place s t).2) /
      g.grid.nk := div_pos (by linarith) hk
  have key : g.findIJK (g.place s t).1 (g.place s t).2 (g.depth zt zb (g.place s t) r) =
      .ok (⌊s⌋₊, ⌊t⌋₊, ⌊r⌋₊) := by
    unfold StormGrid.findIJK
    rw [h.findXY_inside hs.1 hs.2 ht.1 ht.2, h.heights_eq]
    simp only [Res.monad_bind_eq, Res.bind_ok]
    have c1 : (g.depth zt zb (g.place s t) r - zt (g.place s t).1 (g.place s t).2) /
        ((zb (g.place s t).1 (g.place s t).2 - zt (g.place s t).1 (g.place s t).2) /
          g.grid.nk) = r := by
      unfold StormGrid.depth
      rw [add_sub_cancel_left, mul_div_cancel_right₀ _ hd.ne']
    have c2 : ¬ g.depth zt zb (g.place s t) r < zt (g.place s t).1 (g.place s t).2 := by
      unfold StormGrid.depth
      have := mul_nonneg hr.1 hd.le
      linarith
    have c3 : ¬ g.depth zt zb (g.place s t) r > zb (g.place s t).1 (g.place s t).2 := by
      unfold StormGrid.depth
      have := mul_le_mul_of_nonneg_right hr.2.le hd.le
      rw [mul_div_cancel₀ _ hk.ne'] at this
      linarith
    have c4 : r < 2 ^ 64 := small_size h.small.2.2 hr.2.le
    rw [if_neg c2, if_neg c3, if_neg hd.ne', c1, toSize_nonneg hr.1 c4, Res.bind_ok]
  have f1 : ⌊s⌋₊ < g.grid.ni := (Nat.floor_lt hs.1).2 hs.2
  have f2 : ⌊t⌋₊ < g.grid.nj := (Nat.floor_lt ht.1).2 ht.2
  have f3 : ⌊r⌋₊ < g.grid.nk := (Nat.floor_lt hr.1).2 hr.2
  refine ⟨key, _, ?_, if_pos ⟨f1, f2, f3⟩, ?_⟩
  · unfold StormGrid.findIndex
    rw [key, Res.monad_bind_eq, Res.bind_ok]
    exact if_pos ⟨f1, f2, f3⟩
  · rw [h.data]
    exact idx3_lt f1 f2 f3

/-- **C130, centres.** `FindCenterOfCell` gives the point half a cell along each direction of the
cell, and `FindIndex` of the centre gives the cell back. -/
theorem storm_center {g : StormGrid} {zt zb : ℝ → ℝ → ℝ} (h : StormOk g zt zb) {i j k : ℕ}
    (hi : i < g.grid.ni) (hj : j < g.grid.nj) (hk : k < g.grid.nk) :
    let p := g.place (i + 1 / 2) (j + 1 / 2)
    g.findCenterOfCell i j k = .ok (p.1, p.2, g.depth zt zb p (k + 1 / 2)) ∧
    (zt p.1 p.2 < zb p.1 p.2 →
      g.findIJK p.1 p.2 (g.depth zt zb p (k + 1 / 2)) = .ok (i, j, k)) := by
  intro p
  have half : (0.5 : ℝ) = 1 / 2 := by norm_num
  have hlg : ∀ u v : ℝ, g.vol.localToGlobal u v =
      areaPoint g.vol.x_min g.vol.y_min g.vol.angle u v := by
    intro u v
    unfold Volume.localToGlobal areaPoint
    apply Prod.ext <;> simp only <;> ring
  have fl : ∀ n : ℕ, ⌊(n : ℝ) + 1 / 2⌋₊ = n := by
    intro n
    rw [Nat.floor_eq_iff (by positivity)]
    constructor <;> linarith
  have lt : ∀ {n m : ℕ}, n < m → (n : ℝ) + 1 / 2 < m := by
    intro n m hnm
    have : (n : ℝ) + 1 ≤ m := by exact_mod_cast hnm
    linarith
  constructor
  · unfold StormGrid.findCenterOfCell
    rw [h.dx, h.dy]
    simp only [Res.monad_bind_eq, Res.bind_ok]
    rw [hlg, h.heights_eq, Res.bind_ok, half]
    rfl
  · intro hz
    have := (storm_findIndex h (s := i + 1 / 2) (t := j + 1 / 2) (r := k + 1 / 2)
      ⟨by positivity, lt hi⟩ ⟨by positivity, lt hj⟩ ⟨by positivity, lt hk⟩ hz).1
    rw [fl, fl, fl] at this
    exact this

/-- **C130, points outside of the area.** From the far sides on, and less than one cell before the
near sides, there is an exception. -/
theorem storm_outside {g : StormGrid} {zt zb : ℝ → ℝ → ℝ} (h : StormOk g zt zb) {s t : ℝ} (z : ℝ)
    (hs : -1 < s ∧ s < 2 ^ 64) (ht : -1 < t ∧ t < 2 ^ 64)
    (hout : s < 0 ∨ (g.grid.ni : ℝ) ≤ s ∨ t < 0 ∨ (g.grid.nj : ℝ) ≤ t) :
    ∃ m, g.findIJK (g.place s t).1 (g.place s t).2 z = .throws m ∧
      g.findXYIndex (g.place s t).1 (g.place s t).2 = .throws m := by
  have key : ∃ m, g.findXYIndex (g.place s t).1 (g.place s t).2 = .throws m := by
    rw [h.findXY_eq]
    have hts : ∀ {q : ℝ}, -1 < q ∧ q < 2 ^ 64 → toSize q = .ok ⌊q⌋₊ := by
      intro q hq
      by_cases h0 : 0 ≤ q
      · exact toSize_nonneg h0 hq.2
      · rw [toSize_small hq.1 (not_le.1 h0), Nat.floor_of_nonpos (not_le.1 h0).le]
    rw [hts hs, hts ht, Res.bind_ok, Res.bind_ok]
    split_ifs with h1 h2 h3 h4
    · exact ⟨_, rfl⟩
    · exact ⟨_, rfl⟩
    · exact ⟨_, rfl⟩
    · exact ⟨_, rfl⟩
    · exfalso
      rw [not_lt] at h3 h4
      rw [ge_iff_le, Nat.le_floor_iff h3] at h1
      rw [ge_iff_le, Nat.le_floor_iff h4] at h2
      rcases hout with h' | h' | h' | h'
      · linarith
      · exact h1 h'
      · linarith
      · exact h2 h'
  obtain ⟨m, hm⟩ := key
  refine ⟨m, ?_, hm⟩
  unfold StormGrid.findIJK
  rw [hm]
  rfl

/-- **C130, points above the top and below the bottom.** There is an exception. -/
theorem storm_outside_z {g : StormGrid} {zt zb : ℝ → ℝ → ℝ} (h : StormOk g zt zb) {s t z : ℝ}
    (hs : 0 ≤ s ∧ s < g.grid.ni) (ht : 0 ≤ t ∧ t < g.grid.nj)
    (hz : z < zt (g.place s t).1 (g.place s t).2 ∨ zb (g.place s t).1 (g.place s t).2 < z) :
    ∃ m, g.findIJK (g.place s t).1 (g.place s t).2 z = .throws m := by
  unfold StormGrid.findIJK
  rw [h.findXY_inside hs.1 hs.2 ht.1 ht.2, h.heights_eq]
  simp only [Res.monad_bind_eq, Res.bind_ok]
  split_ifs with h1 h2 h3
  · exact ⟨_, rfl⟩
  · exact ⟨_, rfl⟩
  · rcases hz with hz | hz
    · exact absurd hz h1
    · exact absurd hz h2
  · rcases hz with hz | hz
    · exact absurd hz h1
    · exact absurd hz h2

/-- **C130, the bottom.** A point on the bottom surface is accepted, but its layer is one after the
last, and the number of its cell is refused by the assertion of the grid (and is the number of a
cell elsewhere, or of none, without assertions). -/
theorem storm_bottom_violation {g : StormGrid} {zt zb : ℝ → ℝ → ℝ} (h : StormOk g zt zb) {s t : ℝ}
    (hs : 0 ≤ s ∧ s < g.grid.ni) (ht : 0 ≤ t ∧ t < g.grid.nj)
    (hz : zt (g.place s t).1 (g.place s t).2 < zb (g.place s t).1 (g.place s t).2) :
    g.findIJK (g.place s t).1 (g.place s t).2 (zb (g.place s t).1 (g.place s t).2) =
      .ok (⌊s⌋₊, ⌊t⌋₊, g.grid.nk) ∧
    ∃ w, g.findIndex (g.place s t).1 (g.place s t).2 (zb (g.place s t).1 (g.place s t).2) =
      .ub w := by
  have hk : (0 : ℝ) < g.grid.nk := Nat.cast_pos.2 h.nk
  have key : g.findIJK (g.place s t).1 (g.place s t).2 (zb (g.place s t).1 (g.place s t).2) =
      .ok (⌊s⌋₊, ⌊t⌋₊, g.grid.nk) := by
    unfold StormGrid.findIJK
    rw [h.findXY_inside hs.1 hs.2 ht.1 ht.2, h.heights_eq]
    simp only [Res.monad_bind_eq, Res.bind_ok]
    have hd : zb (g.place s t).1 (g.place s t).2 - zt (g.place s t).1 (g.place s t).2 ≠ 0 := by
      linarith
    have c4 : (g.grid.nk : ℝ) < 2 ^ 64 := small_size h.small.2.2 le_rfl
    rw [if_neg (not_lt.2 hz.le), if_neg (lt_irrefl _), if_neg (div_ne_zero hd hk.ne'),
      div_div_cancel₀ hd, toSize_nonneg hk.le c4, Nat.floor_natCast, Res.bind_ok]
  refine ⟨key, "assert in Grid::GetIndex", ?_⟩
  unfold StormGrid.findIndex
  rw [key, Res.monad_bind_eq, Res.bind_ok]
  exact if_neg (fun hc => lt_irrefl _ hc.2.2)

/-- **C130, before the near sides.** A point one cell or more before a near side is not refused: a
negative number is converted to `size_t` first. -/
theorem storm_negative_violation {g : StormGrid} {zt zb : ℝ → ℝ → ℝ} (h : StormOk g zt zb)
    {s t : ℝ} (z : ℝ) (hs : s ≤ -1) :
    ∃ w, g.findIndex (g.place s t).1 (g.place s t).2 z = .ub w ∧
      g.valueClosestInZ (g.place s t).1 (g.place s t).2 z = .ub w := by
  refine ⟨"conversion to size_t out of range", ?_, ?_⟩
  · unfold StormGrid.findIndex StormGrid.findIJK
    rw [h.findXY_eq, toSize_neg hs]
    rfl
  · unfold StormGrid.valueClosestInZ
    have hx := h.dx_pos
    rw [g.local_place s t, h.dx]
    simp only [Res.monad_bind_eq, Res.bind_ok]
    rw [divD_ok hx.ne', mul_div_cancel_right₀ _ hx.ne', Res.bind_ok, toSize_neg hs]
    rfl

/-- A case of the hypotheses: two by two by three cells in a box. -/
theorem concrete_storm (data : List ℝ) (hd : data.length = 12) :
    StormOk ⟨Volume.ofBox 10 20 100 6 4 30 0, ⟨2, 2, 3, data⟩, -999⟩ (fun _ _ => 100)
      (fun _ _ => 100 + 30) where
  lx := by norm_num [Volume.ofBox]
  ly := by norm_num [Volume.ofBox]
  ni := by norm_num
  nj := by norm_num
  nk := by norm_num
  small := by norm_num
  data := hd
  top := fun _ _ => rfl
  bot := fun _ _ => rfl

example : ∃ n, (⟨Volume.ofBox 10 20 100 6 4 30 0, ⟨2, 2, 3, List.replicate 12 1⟩, -999⟩ :
    StormGrid).findIndex 14.5 23 115 = .ok n := by
  have h := concrete_storm (List.replicate 12 1) (by simp)
  obtain ⟨-, n, hn, -⟩ := storm_findIndex h (s := 1.5) (t := 1.5) (r := 1.5) (by norm_num)
    (by norm_num) (by norm_num) (by norm_num)
  refine ⟨n, ?_⟩
  rw [← hn]
  congr 1
  · norm_num [StormGrid.place, areaPoint, Volume.ofBox]
  · norm_num [StormGrid.place, areaPoint, Volume.ofBox]
  · norm_num [StormGrid.depth]

end Verif
