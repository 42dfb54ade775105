import Verif.Props.SurfaceInside
import Mathlib.Tactic.IntervalCases

/-! # Surfaces: `GetZInside`, and the surfaces that constructors give -/

namespace Verif

namespace RegSurf

theorem getZInside_corners (s : RegSurf) {x y c0 c1 c2 c3 : ℝ} (hdx : s.dx ≠ 0) (hdy : s.dy ≠ 0)
    (hc : s.getCorners x y = .ok [c0, c1, c2, c3]) :
    s.getZInside x y
      = if c0 = s.missing ∨ c1 = s.missing ∨ c2 = s.missing ∨ c3 = s.missing then .ok s.missing
        else s.getZ x y := by
  have hx1 : s.cellRelX x = .ok (modfFrac ((x - s.x_min) / s.dx)) := by
    simp only [cellRelX, Res.monad_bind_eq, divD_ok hdx, Res.bind_ok]
  have hy1 : s.cellRelY y = .ok (modfFrac ((y - s.y_min) / s.dy)) := by
    simp only [cellRelY, Res.monad_bind_eq, divD_ok hdy, Res.bind_ok]
  have hstep : ∀ (c : ℝ) (b : Bool),
      (if b = true then Res.ok b else if s.IsMissing c then Res.ok true else Res.ok b)
        = Res.ok (b || decide (c = s.missing)) := by
    intro c b
    cases b
    · by_cases h : c = s.missing
      · have h' : s.IsMissing c := h
        rw [if_neg (by simp), if_pos h', decide_eq_true h]; rfl
      · have h' : ¬ s.IsMissing c := h
        simp [h', h]
    · simp
  have hloop : s.getZInside x y
      = if (((decide (c0 = s.missing) || decide (c1 = s.missing)) || decide (c2 = s.missing))
          || decide (c3 = s.missing)) = true then .ok s.missing
        else getBilinearZ [c0, c1, c2, c3] (modfFrac ((x - s.x_min) / s.dx))
          (modfFrac ((y - s.y_min) / s.dy)) := by
    unfold getZInside
    simp only [Res.monad_bind_eq, hc, Res.bind_ok, hx1, hy1]
    simp only [forRange, forN, rd, List.getElem?_cons_zero, List.getElem?_cons_succ,
      Res.bind_ok, hstep, Nat.sub_zero, Nat.zero_add, Nat.reduceAdd, Bool.false_or]
  have hb : (((decide (c0 = s.missing) || decide (c1 = s.missing)) || decide (c2 = s.missing))
      || decide (c3 = s.missing)) = true
      ↔ c0 = s.missing ∨ c1 = s.missing ∨ c2 = s.missing ∨ c3 = s.missing := by
    simp only [Bool.or_eq_true, decide_eq_true_eq, or_assoc]
  rw [hloop]
  by_cases hn : c0 = s.missing ∨ c1 = s.missing ∨ c2 = s.missing ∨ c3 = s.missing
  · rw [if_pos hn, if_pos (hb.2 hn)]
  · rw [if_neg hn, if_neg (fun h => hn (hb.1 h)), getZ_corners s hdx hdy hc _ _ rfl rfl]
    push Not at hn
    obtain ⟨h0, h1, h2, h3⟩ := hn
    generalize modfFrac ((x - s.x_min) / s.dx) = u
    generalize modfFrac ((y - s.y_min) / s.dy) = v
    have hw : (1 - u) * (1 - v) + u * (1 - v) + (1 - u) * v + u * v = 1 := by ring
    simp only [wv, if_neg h0, if_neg h1, if_neg h2, if_neg h3]
    rw [hw, if_neg one_ne_zero, div_one, bilinear_eq]
    exact congrArg Res.ok (by ring)

end RegSurf

theorem floor_cell {m d x : ℝ} {i : ℕ} (hd : 0 < d) (h0 : m + i * d ≤ x)
    (h1 : x < m + (i + 1 : ℕ) * d) : ⌊(x - m) / d⌋ = i := by
  rw [Int.floor_eq_iff]
  push_cast at h1 ⊢
  constructor
  · rw [le_div_iff₀ hd]; linarith
  · rw [div_lt_iff₀ hd]; linarith

/-- C78. In the cell between nodes `i`, `i + 1` and `j`, `j + 1`, its upper edges excluded,
`GetZInside` is `GetZ` if the four corners have values, and the missing value otherwise. -/
theorem getZInside_cell_partial {s : RegSurf} {z : ℕ → ℕ → ℝ} (hs : HasNodes s z) (hdx : 0 < s.dx)
    (hdy : 0 < s.dy) {i j : ℕ} (hi : i + 1 < s.grid.ni) (hj : j + 1 < s.grid.nj) {x y : ℝ}
    (hx0 : nodeX s i ≤ x) (hx1 : x < nodeX s (i + 1)) (hy0 : nodeY s j ≤ y)
    (hy1 : y < nodeY s (j + 1)) :
    s.getZInside x y = if z i j = s.missing ∨ z (i + 1) j = s.missing ∨ z i (j + 1) = s.missing ∨
        z (i + 1) (j + 1) = s.missing then .ok s.missing else s.getZ x y := by
  have fx := floor_cell hdx hx0 hx1
  have fy := floor_cell hdy hy0 hy1
  have hni := hs.ni_lt
  have hnj := hs.nj_lt
  have hX : RegSurf.InInt ((x - s.x_min) / s.dx) := by unfold RegSurf.InInt; rw [fx]; omega
  have hY : RegSurf.InInt ((y - s.y_min) / s.dy) := by unfold RegSurf.InInt; rw [fy]; omega
  have hc := RegSurf.getCorners_eq s hs.read hs.ni_lt hs.nj_lt hs.dx_ne hs.dy_ne hX hY
  rw [fx, fy] at hc
  rw [RegSurf.getZInside_corners s hs.dx_ne hs.dy_ne hc]
  have e1 : ((i : ℤ) + 1) = ((i + 1 : ℕ) : ℤ) := by push_cast; rfl
  have e2 : ((j : ℤ) + 1) = ((j + 1 : ℕ) : ℤ) := by push_cast; rfl
  rw [e1, e2, RegSurf.cv_nat s z (by omega) (by omega), RegSurf.cv_nat s z hi (by omega),
    RegSurf.cv_nat s z (by omega) hj, RegSurf.cv_nat s z hi hj]

/-- C78. On the last column of nodes, and to the right of it, `GetZInside` gives no value. -/
theorem getZInside_edge {s : RegSurf} {z : ℕ → ℕ → ℝ} (hs : HasNodes s z) (hdx : 0 < s.dx)
    (hni : 1 ≤ s.grid.ni) {x y : ℝ} (hr : InReach s x y) (hx : nodeX s (s.grid.ni - 1) ≤ x) :
    s.getZInside x y = .ok s.missing := by
  have hc := RegSurf.getCorners_eq s hs.read hs.ni_lt hs.nj_lt hs.dx_ne hs.dy_ne (inInt_of hr.1)
    (inInt_of hr.2)
  rw [RegSurf.getZInside_corners s hs.dx_ne hs.dy_ne hc, if_pos]
  right; left
  refine RegSurf.cv_out s z ?_
  have : ((s.grid.ni - 1 : ℕ) : ℤ) ≤ ⌊(x - s.x_min) / s.dx⌋ := by
    rw [Int.le_floor, le_div_iff₀ hdx]
    simp only [nodeX, RegSurf.getXY] at hx
    push_cast
    linarith
  omega

/-- C78. The same for the last row of nodes. -/
theorem getZInside_edgeY {s : RegSurf} {z : ℕ → ℕ → ℝ} (hs : HasNodes s z) (hdy : 0 < s.dy)
    (hnj : 1 ≤ s.grid.nj) {x y : ℝ} (hr : InReach s x y) (hy : nodeY s (s.grid.nj - 1) ≤ y) :
    s.getZInside x y = .ok s.missing := by
  have hc := RegSurf.getCorners_eq s hs.read hs.ni_lt hs.nj_lt hs.dx_ne hs.dy_ne (inInt_of hr.1)
    (inInt_of hr.2)
  rw [RegSurf.getZInside_corners s hs.dx_ne hs.dy_ne hc, if_pos]
  right; right; left
  refine RegSurf.cv_out s z ?_
  have : ((s.grid.nj - 1 : ℕ) : ℤ) ≤ ⌊(y - s.y_min) / s.dy⌋ := by
    rw [Int.le_floor, le_div_iff₀ hdy]
    simp only [nodeY, RegSurf.getXY] at hy
    push_cast
    linarith
  omega

theorem spacing_ne_zero {n : ℕ} {l : ℝ} (h : 1 < n → l ≠ 0) : spacing n l ≠ 0 := by
  unfold spacing
  split
  · rename_i hn
    exact div_ne_zero (h hn) (by exact_mod_cast (by omega : n - 1 ≠ 0))
  · norm_num

theorem spacing_pos {n : ℕ} {l : ℝ} (h : 1 < n → 0 < l) : 0 < spacing n l := by
  unfold spacing
  split
  · rename_i hn
    exact div_pos (h hn) (by exact_mod_cast (by omega : 0 < n - 1))
  · norm_num

theorem grid_read {g : Grid2D ℝ} (hg : g.data.length = g.ni * g.nj) {i j : ℕ} (hi : i < g.ni)
    (hj : j < g.nj) : g.get i j = .ok (g.data.getD (i + j * g.ni) 0) := by
  have hlt : i + j * g.ni < g.data.length := by
    rw [hg]
    calc i + j * g.ni < g.ni + j * g.ni := by omega
      _ = (j + 1) * g.ni := by ring
      _ ≤ g.nj * g.ni := Nat.mul_le_mul_right _ hj
      _ = g.ni * g.nj := by ring
  unfold Grid2D.get Grid2D.getIndex
  rw [if_pos ⟨hi, hj⟩, Res.bind_ok, rd_ok hlt]
  simp [List.getD, hlt]

/-- The surfaces that the constructor gives from a grid meet the hypotheses of the theorems here. -/
theorem hasNodes_ofGrid {x_min y_min lx ly m : ℝ} {g : Grid2D ℝ} (hg : g.data.length = g.ni * g.nj)
    (hni : g.ni < 2 ^ 31) (hnj : g.nj < 2 ^ 31) (hlx : 1 < g.ni → lx ≠ 0) (hly : 1 < g.nj → ly ≠ 0) :
    HasNodes ((RegSurf.ofGrid x_min y_min lx ly g).setMissingValue m)
      (fun i j => g.data.getD (i + j * g.ni) 0) :=
  ⟨fun _ _ hi hj => grid_read hg hi hj, hni, hnj, spacing_ne_zero hlx, spacing_ne_zero hly⟩

/-- With two or more columns, the last node lies on the edge of the surface. -/
theorem nodeX_last {x_min y_min lx ly m : ℝ} {g : Grid2D ℝ} (hni : 1 < g.ni) :
    nodeX ((RegSurf.ofGrid x_min y_min lx ly g).setMissingValue m) (g.ni - 1)
      = RegSurf.xMax ((RegSurf.ofGrid x_min y_min lx ly g).setMissingValue m) := by
  have hne : ((g.ni - 1 : ℕ) : ℝ) ≠ 0 := by exact_mod_cast (by omega : g.ni - 1 ≠ 0)
  simp only [nodeX, RegSurf.getXY, RegSurf.xMax, RegSurf.setMissingValue, RegSurf.ofGrid, spacing,
    if_pos hni]
  field_simp

/-- With two or more rows, the last node lies on the edge of the surface. -/
theorem nodeY_last {x_min y_min lx ly m : ℝ} {g : Grid2D ℝ} (hnj : 1 < g.nj) :
    nodeY ((RegSurf.ofGrid x_min y_min lx ly g).setMissingValue m) (g.nj - 1)
      = RegSurf.yMax ((RegSurf.ofGrid x_min y_min lx ly g).setMissingValue m) := by
  have hne : ((g.nj - 1 : ℕ) : ℝ) ≠ 0 := by exact_mod_cast (by omega : g.nj - 1 ≠ 0)
  simp only [nodeY, RegSurf.getXY, RegSurf.yMax, RegSurf.setMissingValue, RegSurf.ofGrid, spacing,
    if_pos hnj]
  field_simp

/-- C78. Every surface with two or more columns and rows, of positive size and without missing nodes,
violates the claim: at the corner `(GetXMax(), GetYMax())`, which is inside the surface, `GetZ` gives
the value of the last node, but `GetZInside` gives the missing value. -/
theorem getZInside_violation {x_min y_min lx ly m : ℝ} {g : Grid2D ℝ}
    (hg : g.data.length = g.ni * g.nj) (hi : 1 < g.ni) (hj : 1 < g.nj) (hni : g.ni < 2 ^ 31)
    (hnj : g.nj < 2 ^ 31) (hlx : 0 < lx) (hly : 0 < ly) (hm : ∀ v ∈ g.data, v ≠ m)
    (s : RegSurf) (hs : s = (RegSurf.ofGrid x_min y_min lx ly g).setMissingValue m) :
    s.isInsideSurface s.xMax s.yMax = true ∧
    (∃ v ∈ g.data, v ≠ s.missing ∧ s.getZ s.xMax s.yMax = .ok v) ∧
    s.getZInside s.xMax s.yMax = .ok s.missing := by
  have hn : HasNodes s (fun i j => g.data.getD (i + j * g.ni) 0) := by
    rw [hs]; exact hasNodes_ofGrid hg hni hnj (fun _ => hlx.ne') (fun _ => hly.ne')
  have ex : nodeX s (g.ni - 1) = s.xMax := by rw [hs]; exact nodeX_last hi
  have ey : nodeY s (g.nj - 1) = s.yMax := by rw [hs]; exact nodeY_last hj
  have gi : s.grid.ni = g.ni := by rw [hs]; rfl
  have gj : s.grid.nj = g.nj := by rw [hs]; rfl
  have hr : InReach s s.xMax s.yMax := by
    rw [← ex, ← ey]; exact inReach_node hn (by omega) (by omega)
  have hmem : g.data.getD (g.ni - 1 + (g.nj - 1) * g.ni) 0 ∈ g.data := by
    have hlt : g.ni - 1 + (g.nj - 1) * g.ni < g.data.length := by
      rw [hg]
      obtain ⟨b, hb⟩ : ∃ b, g.nj = b + 1 := ⟨g.nj - 1, by omega⟩
      rw [hb, Nat.add_sub_cancel, Nat.mul_add, mul_comm b]; omega
    have : g.data.getD (g.ni - 1 + (g.nj - 1) * g.ni) 0 = g.data[g.ni - 1 + (g.nj - 1) * g.ni] := by
      simp [List.getD, hlt]
    rw [this]
    exact List.getElem_mem hlt
  have hmis : s.missing = m := by rw [hs]; rfl
  refine ⟨?_, ⟨g.data.getD (g.ni - 1 + (g.nj - 1) * g.ni) 0, hmem, hmis ▸ hm _ hmem, ?_⟩, ?_⟩
  · unfold RegSurf.isInsideSurface
    rw [if_neg]
    have h1 : s.xMax = s.x_min + lx := by rw [hs]; rfl
    have h2 : s.yMax = s.y_min + ly := by rw [hs]; rfl
    rintro (h | h | h | h) <;> linarith
  · have := getZ_node hn (i := g.ni - 1) (j := g.nj - 1) (by omega) (by omega)
    rw [← ex, ← ey]
    exact this
  · exact getZInside_edge hn (by rw [hs]; exact spacing_pos fun _ => hlx) (by omega) hr
      (by rw [gi, ex])

/-- C78. A point between two nodes that have values can be reported as missing: the interpolated
value may be the missing value itself. -/
theorem getZ_accident : ∃ (s : RegSurf) (z : ℕ → ℕ → ℝ), HasNodes s z ∧
    (∀ i j, i < s.grid.ni → j < s.grid.nj → z i j ≠ s.missing) ∧
    s.isInsideSurface 0.5 0 = true ∧ s.getZ 0.5 0 = .ok s.missing := by
  have hn := hasNodes_ofGrid (x_min := 0) (y_min := 0) (lx := 1) (ly := 1) (m := -999)
    (g := ⟨2, 2, [-998, -1000, -998, -1000]⟩) rfl (by norm_num) (by norm_num)
    (fun _ => one_ne_zero) (fun _ => one_ne_zero)
  refine ⟨_, _, hn, ?_, ?_, ?_⟩
  · intro i j hi hj
    change i < 2 at hi
    change j < 2 at hj
    change ([-998, -1000, -998, -1000] : List ℝ).getD (i + j * 2) 0 ≠ -999
    interval_cases i <;> interval_cases j <;> norm_num [List.getD]
  · norm_num [RegSurf.isInsideSurface, RegSurf.setMissingValue, RegSurf.ofGrid, RegSurf.xMax,
      RegSurf.yMax]
  · rw [getZ_bilinear hn (spacing_pos (n := 2) (l := 1) fun _ => one_pos)
      (spacing_pos (n := 2) (l := 1) fun _ => one_pos)
      (by change 1 ≤ 2; norm_num) (by change 1 ≤ 2; norm_num) (-998) (-2) 0 0]
    · norm_num [RegSurf.setMissingValue]
    · intro i j hi hj
      change i < 2 at hi
      change j < 2 at hj
      change ([-998, -1000, -998, -1000] : List ℝ).getD (i + j * 2) 0 ≠ -999 ∧ _
      interval_cases i <;> interval_cases j <;>
        norm_num [List.getD, nodeX, nodeY, RegSurf.getXY, RegSurf.setMissingValue, RegSurf.ofGrid,
          spacing]
    · norm_num [RegSurf.setMissingValue, RegSurf.ofGrid]
    · norm_num [nodeX, RegSurf.getXY, RegSurf.setMissingValue, RegSurf.ofGrid, spacing]
    · norm_num [RegSurf.setMissingValue, RegSurf.ofGrid]
    · norm_num [nodeY, RegSurf.getXY, RegSurf.setMissingValue, RegSurf.ofGrid, spacing]

/-- The hypotheses of the theorems on `GetZ` are met by a surface of 3 by 2 nodes with a missing
node, at a point outside the grid. -/
example : HasNodes ((RegSurf.ofGrid 10 20 4 1 ⟨3, 2, [1, 2, 3, 4, -999, 6]⟩).setMissingValue (-999))
      (fun i j => [1, 2, 3, 4, -999, 6].getD (i + j * 3) 0) ∧
    InReach ((RegSurf.ofGrid 10 20 4 1 ⟨3, 2, [1, 2, 3, 4, -999, 6]⟩).setMissingValue (-999))
      9 20.5 :=
  ⟨hasNodes_ofGrid rfl (by norm_num) (by norm_num) (fun _ => by norm_num) (fun _ => by norm_num),
   by norm_num [InReach, RegSurf.setMissingValue, RegSurf.ofGrid, spacing]⟩

end Verif
