import Verif.Props.SurfaceEdge

/-! # Surfaces: from coordinates to nodes and back -/

namespace Verif

/-- C79. The node number `i + j * GetNI()` has the coordinates of node `(i, j)`. -/
theorem getXYIndex_node (s : RegSurf) {i j : ℕ} (hi : i < s.grid.ni) :
    s.getXYIndex (i + j * s.grid.ni) = .ok (s.getXY i j) := by
  have h1 : (i + j * s.grid.ni) / s.grid.ni = j := by
    rw [Nat.add_mul_div_right _ _ (by omega), Nat.div_eq_of_lt hi, zero_add]
  unfold RegSurf.getXYIndex
  rw [if_neg (by omega)]
  dsimp only
  rw [h1, Nat.add_sub_cancel]

/-- C79. Both ways from a node number to a node agree. -/
theorem getXYIndex_getIJ (s : RegSurf) (hg : s.grid.data.length = s.grid.ni * s.grid.nj) {k : ℕ}
    (hk : k < s.grid.data.length) :
    ∃ i j, s.grid.getIJ k = .ok (i, j) ∧ i < s.grid.ni ∧ j < s.grid.nj ∧
      s.getXYIndex k = .ok (s.getXY i j) ∧ s.grid.getIndex i j = .ok k := by
  rw [hg] at hk
  have hni : 0 < s.grid.ni := Nat.pos_of_ne_zero fun h => by rw [h, zero_mul] at hk; omega
  have hj : k / s.grid.ni < s.grid.nj := Nat.div_lt_of_lt_mul hk
  have hi : k % s.grid.ni < s.grid.ni := Nat.mod_lt _ hni
  have hk' : k % s.grid.ni + k / s.grid.ni * s.grid.ni = k := by
    rw [mul_comm]; exact Nat.mod_add_div k s.grid.ni
  have hsub : (k - k % s.grid.ni) / s.grid.ni = k / s.grid.ni := by
    rw [show k - k % s.grid.ni = k / s.grid.ni * s.grid.ni by omega, Nat.mul_div_cancel _ hni]
  refine ⟨k % s.grid.ni, k / s.grid.ni, ?_, hi, hj, ?_, ?_⟩
  · unfold Grid2D.getIJ
    rw [if_pos (by rw [hg]; exact hk)]
    simp only [hsub, Nat.mod_eq_of_lt hj]
  · have := getXYIndex_node s (j := k / s.grid.ni) hi
    rwa [hk'] at this
  · unfold Grid2D.getIndex
    rw [if_pos ⟨hi, hj⟩, hk']

theorem nearest_axis {n : ℕ} (q : ℝ) {k : ℕ} (hk : k < n) :
    |q - (RegSurf.clampIndex ⌊q + 0.5⌋ n : ℝ)| ≤ |q - k| := by
  have h0 := Int.floor_le (q + 0.5)
  have h1 := Int.lt_floor_add_one (q + 0.5)
  generalize ⌊q + 0.5⌋ = t at *
  have hk0 : (0 : ℝ) ≤ k := Nat.cast_nonneg k
  have hk1 : (k : ℝ) + 1 ≤ n := by exact_mod_cast hk
  norm_num at h0 h1
  unfold RegSurf.clampIndex
  by_cases ht : t < 0
  · rw [if_pos ht]
    have : (t : ℝ) + 1 ≤ 0 := by exact_mod_cast ht
    rw [abs_of_nonpos (by push_cast; linarith), abs_of_nonpos (by linarith)]
    push_cast; linarith
  · rw [if_neg ht]
    by_cases ht2 : t ≥ n
    · rw [if_pos ht2]
      have : (n : ℝ) ≤ t := by exact_mod_cast ht2
      rw [abs_of_nonneg (by push_cast; linarith), abs_of_nonneg (by linarith)]
      push_cast; linarith
    · rw [if_neg ht2]
      rcases lt_trichotomy (k : ℤ) t with h | h | h
      · have : (k : ℝ) + 1 ≤ t := by exact_mod_cast h
        rw [abs_of_nonneg (a := q - k) (by linarith), abs_le]
        constructor <;> linarith
      · have : (k : ℝ) = t := by exact_mod_cast h
        rw [this]
      · have : (t : ℝ) + 1 ≤ k := by exact_mod_cast h
        rw [abs_of_nonpos (a := q - k) (by linarith), abs_le]
        constructor <;> linarith

theorem clampIndex_range {t : ℤ} {n : ℕ} (hn : 1 ≤ n) :
    0 ≤ RegSurf.clampIndex t n ∧ RegSurf.clampIndex t n < n := by
  unfold RegSurf.clampIndex
  split
  · omega
  · split <;> omega

/-- C79. `FindNearestNodeIndex` gives a node of the grid, and no node is nearer, in either
direction. -/
theorem findNearest {s : RegSurf} {z : ℕ → ℕ → ℝ} (hs : HasNodes s z)
    (hni : 1 ≤ s.grid.ni) (hnj : 1 ≤ s.grid.nj) {x y : ℝ}
    (hr : InReach s (x + 0.5 * s.dx) (y + 0.5 * s.dy)) :
    ∃ i j, s.findNearestNodeIndex x y = .ok (i, j) ∧ i < s.grid.ni ∧ j < s.grid.nj ∧
      (∀ k, k < s.grid.ni → |x - nodeX s i| ≤ |x - nodeX s k|) ∧
      (∀ l, l < s.grid.nj → |y - nodeY s j| ≤ |y - nodeY s l|) := by
  have hI := hs.ni_lt
  have hJ := hs.nj_lt
  have ex : (x + 0.5 * s.dx - s.x_min) / s.dx = (x - s.x_min) / s.dx + 0.5 := by
    have := hs.dx_ne; field_simp; ring
  have ey : (y + 0.5 * s.dy - s.y_min) / s.dy = (y - s.y_min) / s.dy + 0.5 := by
    have := hs.dy_ne; field_simp; ring
  obtain ⟨a0, a1⟩ := clampIndex_range (t := ⌊(x - s.x_min) / s.dx + 0.5⌋) hni
  obtain ⟨b0, b1⟩ := clampIndex_range (t := ⌊(y - s.y_min) / s.dy + 0.5⌋) hnj
  have na := fun k (hk : k < s.grid.ni) => nearest_axis ((x - s.x_min) / s.dx) (k := k) hk
  have nb := fun k (hk : k < s.grid.nj) => nearest_axis ((y - s.y_min) / s.dy) (k := k) hk
  have hf := RegSurf.findGeneralIndex_eq s hs.dx_ne hs.dy_ne (inInt_of hr.1) (inInt_of hr.2)
  rw [ex, ey] at hf
  refine ⟨(RegSurf.clampIndex ⌊(x - s.x_min) / s.dx + 0.5⌋ s.grid.ni).toNat,
    (RegSurf.clampIndex ⌊(y - s.y_min) / s.dy + 0.5⌋ s.grid.nj).toNat, ?_, by omega, by omega,
    ?_, ?_⟩
  · unfold RegSurf.findNearestNodeIndex
    simp only [Res.monad_bind_eq]
    rw [RegSurf.toInt32_ok (by omega) (by omega), Res.bind_ok,
      RegSurf.toInt32_ok (by omega) (by omega), Res.bind_ok, hf, Res.bind_ok]
    rw [Int.emod_eq_of_lt a0 (by omega), Int.emod_eq_of_lt b0 (by omega)]
  · intro k hk
    have h := na k hk
    have e : ∀ t : ℝ, |x - (s.x_min + t * s.dx)| = |(x - s.x_min) / s.dx - t| * |s.dx| := by
      intro t
      rw [← abs_mul]
      congr 1
      have := hs.dx_ne; field_simp; ring
    simp only [nodeX, RegSurf.getXY]
    rw [e, e]
    have c : (((RegSurf.clampIndex ⌊(x - s.x_min) / s.dx + 0.5⌋ s.grid.ni).toNat : ℕ) : ℝ)
        = (RegSurf.clampIndex ⌊(x - s.x_min) / s.dx + 0.5⌋ s.grid.ni : ℝ) := by
      rw [← Int.cast_natCast, Int.toNat_of_nonneg a0]
    rw [c]
    exact mul_le_mul_of_nonneg_right h (abs_nonneg _)
  · intro k hk
    have h := nb k hk
    have e : ∀ t : ℝ, |y - (s.y_min + t * s.dy)| = |(y - s.y_min) / s.dy - t| * |s.dy| := by
      intro t
      rw [← abs_mul]
      congr 1
      have := hs.dy_ne; field_simp; ring
    simp only [nodeY, RegSurf.getXY]
    rw [e, e]
    have c : (((RegSurf.clampIndex ⌊(y - s.y_min) / s.dy + 0.5⌋ s.grid.nj).toNat : ℕ) : ℝ)
        = (RegSurf.clampIndex ⌊(y - s.y_min) / s.dy + 0.5⌋ s.grid.nj : ℝ) := by
      rw [← Int.cast_natCast, Int.toNat_of_nonneg b0]
    rw [c]
    exact mul_le_mul_of_nonneg_right h (abs_nonneg _)

theorem truncZ_nonneg {q : ℝ} (h : 0 ≤ q) : truncZ q = ⌊q⌋ := by rw [truncZ, if_pos h]

theorem cell_axis {m d x : ℝ} (hd : 0 < d) (h : m ≤ x) :
    m + ((truncZ ((x - m) / d)).toNat : ℕ) * d ≤ x ∧
      x < m + ((truncZ ((x - m) / d)).toNat + 1 : ℕ) * d := by
  have q0 : 0 ≤ (x - m) / d := div_nonneg (by linarith) hd.le
  rw [truncZ_nonneg q0]
  have c : ((⌊(x - m) / d⌋.toNat : ℕ) : ℝ) = ⌊(x - m) / d⌋ := by
    rw [← Int.cast_natCast, Int.toNat_of_nonneg (Int.floor_nonneg.mpr q0)]
  have h0 := Int.floor_le ((x - m) / d)
  have h1 := Int.lt_floor_add_one ((x - m) / d)
  rw [le_div_iff₀ hd] at h0
  rw [div_lt_iff₀ hd] at h1
  push_cast
  rw [c]
  constructor <;> linarith

/-- C79. For a point inside the surface, `FindIndex` gives the cell that holds it: `x` is not left of
node `i` and left of node `i + 1`, and so for `y`. Below the upper edges of a surface with
two or more columns and rows, the cell is one of the grid. Partial: the claim asks for a cell of the
grid for every point inside, see `findIndex_violation` and `findIndex_single`. -/
theorem findIndex_cell_partial {x_min y_min lx ly m : ℝ} {g : Grid2D ℝ} (hlx : 0 < lx) (hly : 0 < ly)
    (hni : g.ni < 2 ^ 31) (hnj : g.nj < 2 ^ 31) (hi : 1 < g.ni) (hj : 1 < g.nj)
    (s : RegSurf) (hs : s = (RegSurf.ofGrid x_min y_min lx ly g).setMissingValue m) {x y : ℝ}
    (hin : s.isInsideSurface x y = true) :
    ∃ i j, s.findIndex x y = .ok (i, j) ∧ nodeX s i ≤ x ∧ x < nodeX s (i + 1) ∧
      nodeY s j ≤ y ∧ y < nodeY s (j + 1) ∧ (x < s.xMax → i + 1 < g.ni) ∧
      (y < s.yMax → j + 1 < g.nj) := by
  have hdx : 0 < s.dx := by rw [hs]; exact spacing_pos fun _ => hlx
  have hdy : 0 < s.dy := by rw [hs]; exact spacing_pos fun _ => hly
  have ex : nodeX s (g.ni - 1) = s.xMax := by rw [hs]; exact nodeX_last hi
  have ey : nodeY s (g.nj - 1) = s.yMax := by rw [hs]; exact nodeY_last hj
  unfold RegSurf.isInsideSurface at hin
  have hin' : ¬ (x < s.x_min ∨ x > s.xMax ∨ y < s.y_min ∨ y > s.yMax) := by
    intro h; rw [if_pos h] at hin; exact Bool.false_ne_true hin
  push Not at hin'
  obtain ⟨x0, x1, y0, y1⟩ := hin'
  have cx := cell_axis hdx x0
  have cy := cell_axis hdy y0
  have b64 : ∀ {t : ℕ}, t < 2 ^ 31 → (t : ℝ) < 2 ^ 64 := by
    intro t ht
    have : (t : ℝ) < ((2 ^ 64 : ℕ) : ℝ) := by exact_mod_cast (by omega : t < 2 ^ 64)
    norm_num at this ⊢; linarith
  have qx := rel_range (n := g.ni - 1) hdx x0 (by rw [← ex] at x1; exact x1)
  have qy := rel_range (n := g.nj - 1) hdy y0 (by rw [← ey] at y1; exact y1)
  refine ⟨(truncZ ((x - s.x_min) / s.dx)).toNat, (truncZ ((y - s.y_min) / s.dy)).toNat, ?_, cx.1,
    cx.2, cy.1, cy.2, ?_, ?_⟩
  · unfold RegSurf.findIndex
    rw [if_pos ⟨x0, x1, y0, y1⟩]
    simp only [Res.monad_bind_eq, RegSurf.divD_ok hdx.ne', RegSurf.divD_ok hdy.ne', Res.bind_ok]
    rw [if_pos]
    exact ⟨by linarith, lt_of_le_of_lt qx.2 (b64 (by omega)), by linarith,
      lt_of_le_of_lt qy.2 (b64 (by omega))⟩
  · intro h
    rw [← ex] at h
    have h' := lt_of_le_of_lt cx.1 h
    simp only [nodeX, RegSurf.getXY] at h'
    have : ((truncZ ((x - s.x_min) / s.dx)).toNat : ℝ) < ((g.ni - 1 : ℕ) : ℝ) := by
      by_contra hc
      push Not at hc
      have := mul_le_mul_of_nonneg_right hc hdx.le
      linarith
    have : (truncZ ((x - s.x_min) / s.dx)).toNat < g.ni - 1 := by exact_mod_cast this
    omega
  · intro h
    rw [← ey] at h
    have h' := lt_of_le_of_lt cy.1 h
    simp only [nodeY, RegSurf.getXY] at h'
    have : ((truncZ ((y - s.y_min) / s.dy)).toNat : ℝ) < ((g.nj - 1 : ℕ) : ℝ) := by
      by_contra hc
      push Not at hc
      have := mul_le_mul_of_nonneg_right hc hdy.le
      linarith
    have : (truncZ ((y - s.y_min) / s.dy)).toNat < g.nj - 1 := by exact_mod_cast this
    omega

/-- C79. At the upper edge of every surface the cell index is one too large: there are `GetNI() - 1`
cells in a row, and the index is `GetNI() - 1`. -/
theorem findIndex_violation {x_min y_min lx ly m : ℝ} {g : Grid2D ℝ} (hlx : 0 < lx) (hly : 0 < ly)
    (hni : g.ni < 2 ^ 31) (hnj : g.nj < 2 ^ 31) (hi : 1 < g.ni) (hj : 1 < g.nj)
    (s : RegSurf) (hs : s = (RegSurf.ofGrid x_min y_min lx ly g).setMissingValue m) :
    s.isInsideSurface s.xMax s.yMax = true ∧
      s.findIndex s.xMax s.yMax = .ok (g.ni - 1, g.nj - 1) := by
  have h1 : s.xMax = s.x_min + lx := by rw [hs]; rfl
  have h2 : s.yMax = s.y_min + ly := by rw [hs]; rfl
  have hin : s.isInsideSurface s.xMax s.yMax = true := by
    unfold RegSurf.isInsideSurface
    rw [if_neg]
    rintro (h | h | h | h) <;> linarith
  refine ⟨hin, ?_⟩
  have hdx : 0 < s.dx := by rw [hs]; exact spacing_pos fun _ => hlx
  have hdy : 0 < s.dy := by rw [hs]; exact spacing_pos fun _ => hly
  have ex : nodeX s (g.ni - 1) = s.xMax := by rw [hs]; exact nodeX_last hi
  have ey : nodeY s (g.nj - 1) = s.yMax := by rw [hs]; exact nodeY_last hj
  obtain ⟨i, j, hf, a, b, c, d, -, -⟩ := findIndex_cell_partial hlx hly hni hnj hi hj s hs hin
  rw [hf]
  have key : ∀ {o d : ℝ} {p k : ℕ}, 0 < d → o + p * d ≤ o + k * d → o + k * d < o + (p + 1 : ℕ) * d →
      p = k := by
    intro o d p k hd ha hb
    have h1 : (p : ℝ) ≤ k := by
      by_contra hc
      push Not at hc
      have := mul_lt_mul_of_pos_right hc hd
      linarith
    have h2 : (k : ℝ) < (p + 1 : ℕ) := by
      by_contra hc
      push Not at hc
      have := mul_le_mul_of_nonneg_right hc hd.le
      linarith
    have h1' : p ≤ k := by exact_mod_cast h1
    have h2' : k < p + 1 := by exact_mod_cast h2
    omega
  rw [← ex] at a b
  rw [← ey] at c d
  rw [key hdx a b, key hdy c d]

/-- C79. A surface with a single column, but a length, has points inside for which the index is
not the index of any node. -/
theorem findIndex_single :
    (RegSurf.mkConst 0 0 5 5 1 1 0).isInsideSurface 5 5 = true ∧
      (RegSurf.mkConst 0 0 5 5 1 1 0).findIndex 5 5 = .ok (5, 5) := by
  constructor
  · norm_num [RegSurf.isInsideSurface, RegSurf.mkConst, RegSurf.xMax, RegSurf.yMax]
  · have t : truncZ 5 = 5 := by
      rw [truncZ_nonneg (by norm_num)]
      exact_mod_cast Int.floor_intCast (5 : ℤ)
    norm_num [RegSurf.findIndex, RegSurf.mkConst, RegSurf.xMax, RegSurf.yMax, spacing, divD, t]
    rfl

/-- The hypotheses of `findNearest` are met by a surface of 3 by 2 nodes at a point outside it. -/
example : ∃ z, HasNodes ((RegSurf.ofGrid 10 20 4 1 ⟨3, 2, [1, 2, 3, 4, -999, 6]⟩).setMissingValue 0) z ∧
    InReach ((RegSurf.ofGrid 10 20 4 1 ⟨3, 2, [1, 2, 3, 4, -999, 6]⟩).setMissingValue 0)
      (8 + 0.5 * 2) (25 + 0.5 * 1) :=
  ⟨_, hasNodes_ofGrid rfl (by norm_num) (by norm_num) (fun _ => by norm_num) (fun _ => by norm_num),
   by norm_num [InReach, RegSurf.setMissingValue, RegSurf.ofGrid, spacing]⟩

end Verif
