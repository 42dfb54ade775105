import Verif.Lemmas.SegyGeometry

/-!
# C140, C141: lines, cells and points of a seismic cube

A cube has `nx` times `ny` cells along two perpendicular axes. Its in-lines are numbered along one axis and
its cross-lines along the other, from the line of the first cell, upwards or downwards.
-/

namespace Verif

open Classical

/-- The point `s` cells along the first axis and `t` cells along the second axis of a rotated grid. -/
noncomputable def Spec.gridPoint (x0 y0 dx dy c sn s t : ℝ) : ℝ × ℝ :=
  (x0 + s * dx * c - t * dy * sn, y0 + s * dx * sn + t * dy * c)

/-- The point of a cube. -/
noncomputable abbrev SegyGeometry.at (g : SegyGeometry) (s t : ℝ) : ℝ × ℝ :=
  Spec.gridPoint g.x0 g.y0 g.dx g.dy g.cosRot g.sinRot s t

/-- `n` lines from `L0` in steps of `step`, upwards (`σ = 1`) or downwards (`σ = -1`), end at `lo` and `hi`. -/
def Spec.LineRange (σ L0 lo hi step : ℤ) (n : ℕ) : Prop :=
  0 < step ∧ ((σ = 1 ∧ lo = L0 ∧ hi = L0 + (n - 1) * step) ∨
    (σ = -1 ∧ hi = L0 ∧ lo = L0 - (n - 1) * step ∧ 2 ≤ n))

/-- The members of a cube fit one another: the numbers of the lines at a point follow from its place among the
cells. -/
structure Spec.SegyGrid (g : SegyGeometry) (σI σX : ℤ) : Prop where
  circle : g.cosRot ^ 2 + g.sinRot ^ 2 = 1
  dx : 0 < g.dx
  dy : 0 < g.dy
  il : Spec.LineRange σI g.IL0 g.minIL g.maxIL g.ILStep (if g.firstAxisIL then g.nx else g.ny)
  xl : Spec.LineRange σX g.XL0 g.minXL g.maxXL g.XLStep (if g.firstAxisIL then g.ny else g.nx)
  lines : ∀ s t : ℝ, g.findContILXL (g.at s t).1 (g.at s t).2 =
    (g.IL0 + σI * g.ILStep * ((if g.firstAxisIL then s else t) - 1 / 2),
      g.XL0 + σX * g.XLStep * ((if g.firstAxisIL then t else s) - 1 / 2))

namespace SegyGeometry

theorem sgn_ne {σ L0 lo hi step : ℤ} {n : ℕ} (h : Spec.LineRange σ L0 lo hi step n) :
    (σ : ℝ) * step ≠ 0 := by
  obtain ⟨h0, ⟨rfl, -⟩ | ⟨rfl, -⟩⟩ := h
  · have : (0 : ℝ) < step := by exact_mod_cast h0
    push_cast
    linarith
  · have : (0 : ℝ) < step := by exact_mod_cast h0
    push_cast
    intro e
    linarith

/-- The steps of the lines along the axes. -/
theorem along {g : SegyGeometry} {σI σX : ℤ} (h : Spec.SegyGrid g σI σX) :
    g.inLine0 = g.IL0 - σI * g.ILStep / 2 ∧ g.crossLine0 = g.XL0 - σX * g.XLStep / 2 ∧
    (g.ilStepX * g.cosRot + g.ilStepY * g.sinRot) * g.dx = (if g.firstAxisIL then (σI : ℝ) * g.ILStep else 0) ∧
    (-g.ilStepX * g.sinRot + g.ilStepY * g.cosRot) * g.dy = (if g.firstAxisIL then 0 else (σI : ℝ) * g.ILStep) ∧
    (g.xlStepX * g.cosRot + g.xlStepY * g.sinRot) * g.dx = (if g.firstAxisIL then 0 else (σX : ℝ) * g.XLStep) ∧
    (-g.xlStepX * g.sinRot + g.xlStepY * g.cosRot) * g.dy = (if g.firstAxisIL then (σX : ℝ) * g.XLStep else 0) := by
  have h00 := Prod.ext_iff.1 (h.lines 0 0)
  have h10 := Prod.ext_iff.1 (h.lines 1 0)
  have h01 := Prod.ext_iff.1 (h.lines 0 1)
  simp only [findContILXL, SegyGeometry.at, Spec.gridPoint] at h00 h10 h01
  obtain ⟨a1, a2⟩ := h00
  obtain ⟨b1, b2⟩ := h10
  obtain ⟨c1, c2⟩ := h01
  cases hf : g.firstAxisIL <;> simp only [hf, if_true, Bool.false_eq_true, if_false] at * <;>
    refine ⟨?_, ?_, ?_, ?_, ?_, ?_⟩ <;> linarith

theorem at_surjective {g : SegyGeometry} {σI σX : ℤ} (h : Spec.SegyGrid g σI σX) (x y : ℝ) :
    ∃ s t, g.at s t = (x, y) := by
  have hx := h.dx.ne'
  have hy := h.dy.ne'
  refine ⟨((x - g.x0) * g.cosRot + (y - g.y0) * g.sinRot) / g.dx,
    (-(x - g.x0) * g.sinRot + (y - g.y0) * g.cosRot) / g.dy, Prod.ext ?_ ?_⟩ <;>
    simp only [SegyGeometry.at, Spec.gridPoint] <;> rw [div_mul_cancel₀ _ hx, div_mul_cancel₀ _ hy]
  · linear_combination (x - g.x0) * h.circle
  · linear_combination (y - g.y0) * h.circle

/-- The matrix of the lines is regular, and its entries off the axes vanish together. -/
theorem matrix {g : SegyGeometry} {σI σX : ℤ} (h : Spec.SegyGrid g σI σX) :
    g.ilStepX * g.xlStepY - g.ilStepY * g.xlStepX ≠ 0 ∧ (g.ilStepX = 0 ↔ g.xlStepY = 0) := by
  obtain ⟨-, -, h1, h2, h3, h4⟩ := along h
  have hI := sgn_ne h.il
  have hX := sgn_ne h.xl
  have c := h.circle
  have hx := h.dx.ne'
  have hy := h.dy.ne'
  obtain ⟨u, hu⟩ : ∃ u, u = g.ilStepX * g.cosRot + g.ilStepY * g.sinRot := ⟨_, rfl⟩
  obtain ⟨v, hv⟩ : ∃ v, v = -g.ilStepX * g.sinRot + g.ilStepY * g.cosRot := ⟨_, rfl⟩
  obtain ⟨p, hp⟩ : ∃ p, p = g.xlStepX * g.cosRot + g.xlStepY * g.sinRot := ⟨_, rfl⟩
  obtain ⟨q, hq⟩ : ∃ q, q = -g.xlStepX * g.sinRot + g.xlStepY * g.cosRot := ⟨_, rfl⟩
  rw [← hu] at h1
  rw [← hv] at h2
  rw [← hp] at h3
  rw [← hq] at h4
  have e1 : g.ilStepX = u * g.cosRot - v * g.sinRot := by
    rw [hu, hv]; linear_combination -g.ilStepX * c
  have e2 : g.ilStepY = u * g.sinRot + v * g.cosRot := by
    rw [hu, hv]; linear_combination -g.ilStepY * c
  have e3 : g.xlStepX = p * g.cosRot - q * g.sinRot := by
    rw [hp, hq]; linear_combination -g.xlStepX * c
  have e4 : g.xlStepY = p * g.sinRot + q * g.cosRot := by
    rw [hp, hq]; linear_combination -g.xlStepY * c
  have d : g.ilStepX * g.xlStepY - g.ilStepY * g.xlStepX = u * q - v * p := by
    rw [e1, e2, e3, e4]; linear_combination (u * q - v * p) * c
  rw [d]
  cases hf : g.firstAxisIL <;> simp only [hf, if_true, Bool.false_eq_true, if_false] at h1 h2 h3 h4
  · have u0 : u = 0 := by rcases mul_eq_zero.1 h1 with h | h <;> [exact h; exact absurd h hx]
    have q0 : q = 0 := by rcases mul_eq_zero.1 h4 with h | h <;> [exact h; exact absurd h hy]
    have v0 : v ≠ 0 := by rintro rfl; exact hI (by rw [← h2]; ring)
    have p0 : p ≠ 0 := by rintro rfl; exact hX (by rw [← h3]; ring)
    rw [e1, e4, u0, q0]
    refine ⟨by simpa using ⟨v0, p0⟩, ?_⟩
    simp [v0, p0]
  · have v0 : v = 0 := by rcases mul_eq_zero.1 h2 with h | h <;> [exact h; exact absurd h hy]
    have p0 : p = 0 := by rcases mul_eq_zero.1 h3 with h | h <;> [exact h; exact absurd h hx]
    have u0 : u ≠ 0 := by rintro rfl; exact hI (by rw [← h1]; ring)
    have q0 : q ≠ 0 := by rintro rfl; exact hX (by rw [← h4]; ring)
    rw [e1, e4, v0, p0]
    refine ⟨by simpa using ⟨u0, q0⟩, ?_⟩
    simp [u0, q0]

theorem strides {σ L0 lo hi step : ℤ} {n : ℕ} (h : Spec.LineRange σ L0 lo hi step n) (p : ℝ) :
    (if L0 = lo then (L0 + σ * step * (p - 1 / 2) : ℝ) - lo else hi - (L0 + σ * step * (p - 1 / 2) : ℝ)) / step
      = p - 1 / 2 := by
  have h0 : (0 : ℝ) < step := by exact_mod_cast h.1
  obtain ⟨hs, ⟨rfl, rfl, rfl⟩ | ⟨rfl, rfl, rfl, hn⟩⟩ := h
  · rw [if_pos rfl, div_eq_iff h0.ne']; push_cast; ring
  · rw [if_neg, div_eq_iff h0.ne']
    · push_cast; ring
    · have : 0 < ((n : ℤ) - 1) * step := mul_pos (by omega) hs
      omega

theorem findContIndex_at {g : SegyGeometry} {σI σX : ℤ} (h : Spec.SegyGrid g σI σX) (s t : ℝ) :
    g.findContIndex (g.at s t).1 (g.at s t).2 =
      .ok (decide (0 ≤ s ∧ s < g.nx ∧ 0 ≤ t ∧ t < g.ny), s, t) := by
  have hI : (g.ILStep : ℝ) ≠ 0 := by exact_mod_cast h.il.1.ne'
  have hX : (g.XLStep : ℝ) ≠ 0 := by exact_mod_cast h.xl.1.ne'
  have key : g.findContIndexFromContILXL (g.findContILXL (g.at s t).1 (g.at s t).2).1
      (g.findContILXL (g.at s t).1 (g.at s t).2).2 = .ok (s, t) := by
    rw [h.lines s t]
    unfold findContIndexFromContILXL ilStrides xlStrides
    have sI := strides h.il
    have sX := strides h.xl
    cases hf : g.firstAxisIL <;> simp only [if_true, Bool.false_eq_true, if_false, Res.monad_bind_eq]
    · rw [divD_eq hX, Res.bind_ok, divD_eq hI, Res.bind_ok, sI, sX]
      refine congrArg Res.ok (Prod.ext ?_ ?_) <;> dsimp only <;> ring
    · rw [divD_eq hI, Res.bind_ok, divD_eq hX, Res.bind_ok, sI, sX]
      refine congrArg Res.ok (Prod.ext ?_ ?_) <;> dsimp only <;> ring
  unfold findContIndex
  simp only [Res.monad_bind_eq]
  rw [key, Res.bind_ok]
  have z : (0.0 : ℝ) = 0 := by norm_num
  simp only [z, ge_iff_le]

/-- **C140 (cells).** A cube declares a point to be inside just if it is in one of the cells, and gives its
place among the cells. `FindIndex` gives the cell, and its number, of every point inside, and refuses the others
(if their places are numbers that an `int` can hold). -/
theorem segy_cells {g : SegyGeometry} {σI σX : ℤ} (h : Spec.SegyGrid g σI σX) (hn : g.nx ≤ 2 ^ 31 ∧ g.ny ≤ 2 ^ 31)
    (s t : ℝ) :
    g.findContIndex (g.at s t).1 (g.at s t).2 = .ok (decide (0 ≤ s ∧ s < g.nx ∧ 0 ≤ t ∧ t < g.ny), s, t) ∧
    g.isInside (g.at s t).1 (g.at s t).2 = .ok (decide (0 ≤ s ∧ s < g.nx ∧ 0 ≤ t ∧ t < g.ny)) ∧
    (0 ≤ s ∧ s < g.nx ∧ 0 ≤ t ∧ t < g.ny →
      g.findIndex (g.at s t).1 (g.at s t).2 = .ok (⌊s⌋, ⌊t⌋) ∧
      g.findIndexNumber (g.at s t).1 (g.at s t).2 = .ok (⌊t⌋ * g.nx + ⌊s⌋)) ∧
    (¬ (0 ≤ s ∧ s < g.nx ∧ 0 ≤ t ∧ t < g.ny) → |s| < 2 ^ 31 → |t| < 2 ^ 31 →
      g.findIndex (g.at s t).1 (g.at s t).2 = .throws "outside the SEGY cube") := by
  have k := findContIndex_at h s t
  refine ⟨k, ?_, ?_, ?_⟩
  · unfold isInside
    simp only [Res.monad_bind_eq]
    rw [k, Res.bind_ok]
  · intro hin
    have hnx : (g.nx : ℝ) ≤ 2 ^ 31 := by exact_mod_cast hn.1
    have hny : (g.ny : ℝ) ≤ 2 ^ 31 := by exact_mod_cast hn.2
    have ts : toInt32 (truncZ s) = .ok ⌊s⌋ := by
      unfold truncZ
      rw [if_pos hin.1]
      refine RegSurf.toInt32_ok (by have := Int.floor_nonneg.2 hin.1; omega) (Int.floor_lt.2 ?_)
      push_cast
      linarith [hin.2.1]
    have tt : toInt32 (truncZ t) = .ok ⌊t⌋ := by
      unfold truncZ
      rw [if_pos hin.2.2.1]
      refine RegSurf.toInt32_ok (by have := Int.floor_nonneg.2 hin.2.2.1; omega) (Int.floor_lt.2 ?_)
      push_cast
      linarith [hin.2.2.2]
    have f : g.findIndex (g.at s t).1 (g.at s t).2 = .ok (⌊s⌋, ⌊t⌋) := by
      unfold findIndex
      simp only [Res.monad_bind_eq]
      rw [k, Res.bind_ok, ts, Res.bind_ok, tt, Res.bind_ok]
      simp [hin]
    refine ⟨f, ?_⟩
    unfold findIndexNumber
    simp only [Res.monad_bind_eq]
    rw [f, Res.bind_ok]
  · intro hout h1 h2
    have tr : ∀ r : ℝ, |r| < 2 ^ 31 → ∃ m, toInt32 (truncZ r) = .ok m := by
      intro r hr
      rw [abs_lt] at hr
      unfold truncZ
      split_ifs with h0
      · exact ⟨_, RegSurf.toInt32_ok (by have := Int.floor_nonneg.2 h0; omega)
          (Int.floor_lt.2 (by push_cast; linarith [hr.2]))⟩
      · refine ⟨_, RegSurf.toInt32_ok ?_ ?_⟩
        · have := Int.le_ceil r
          have h3 : ((-2 ^ 31 : ℤ) : ℝ) < ⌈r⌉ := by push_cast; linarith
          exact le_of_lt (by exact_mod_cast h3)
        · have : ⌈r⌉ ≤ 0 := Int.ceil_le.2 (by push_cast; linarith)
          omega
    obtain ⟨m, hm⟩ := tr s h1
    obtain ⟨m', hm'⟩ := tr t h2
    unfold findIndex
    simp only [Res.monad_bind_eq]
    rw [k, Res.bind_ok, hm, Res.bind_ok, hm', Res.bind_ok]
    simp [hout]

theorem lines_of_cell {g : SegyGeometry} {σI σX : ℤ} (h : Spec.SegyGrid g σI σX) (i j : ℕ) :
    g.findILXLOfCell i j = (g.IL0 + σI * g.ILStep * (if g.firstAxisIL then (i : ℤ) else j),
      g.XL0 + σX * g.XLStep * (if g.firstAxisIL then (j : ℤ) else i)) := by
  have key : ∀ {σ L0 lo hi step : ℤ} {n : ℕ}, Spec.LineRange σ L0 lo hi step n → ∀ k : ℤ,
      (if L0 = lo then L0 + k * step else L0 - k * step) = L0 + σ * step * k := by
    rintro σ L0 lo hi step n ⟨hs, ⟨rfl, rfl, rfl⟩ | ⟨rfl, rfl, rfl, hn⟩⟩ k
    · rw [if_pos rfl]; ring
    · rw [if_neg]
      · ring
      · have : 0 < ((n : ℤ) - 1) * step := mul_pos (by omega) hs
        omega
  unfold findILXLOfCell
  dsimp only
  rw [key h.il, key h.xl]

/-- **C140 (lines).** The lines of a cell are those that pass through its middle, and `FindIndex` of the lines
gives the cell back. -/
theorem segy_lines {g : SegyGeometry} {σI σX : ℤ} (h : Spec.SegyGrid g σI σX) (i j : ℕ) :
    g.findContILXL (g.at (i + 1 / 2) (j + 1 / 2)).1 (g.at (i + 1 / 2) (j + 1 / 2)).2 =
      (((g.findILXLOfCell i j).1 : ℝ), ((g.findILXLOfCell i j).2 : ℝ)) ∧
    (i < g.nx → j < g.ny →
      g.findIndexOfLines (g.findILXLOfCell i j).1 (g.findILXLOfCell i j).2 = .ok (i, j) ∧
      (g.minIL ≤ (g.findILXLOfCell i j).1 ∧ (g.findILXLOfCell i j).1 ≤ g.maxIL) ∧
      (g.minXL ≤ (g.findILXLOfCell i j).2 ∧ (g.findILXLOfCell i j).2 ≤ g.maxXL)) := by
  have e := lines_of_cell h i j
  refine ⟨?_, fun hi hj => ?_⟩
  · rw [h.lines, e]
    cases hf : g.firstAxisIL <;> simp only [if_true, Bool.false_eq_true, if_false] <;>
      refine Prod.ext ?_ ?_ <;> dsimp only <;> push_cast <;> ring
  · have key : ∀ {σ L0 lo hi step : ℤ} {n : ℕ}, Spec.LineRange σ L0 lo hi step n → ∀ k : ℕ, k < n →
        divInt (if L0 = lo then (L0 + σ * step * k) - L0 else L0 - (L0 + σ * step * k)) step = .ok (k : ℤ) ∧
        lo ≤ L0 + σ * step * k ∧ L0 + σ * step * k ≤ hi := by
      rintro σ L0 lo hi step n ⟨hs, ⟨rfl, rfl, rfl⟩ | ⟨rfl, rfl, rfl, hn⟩⟩ k hk
      · rw [if_pos rfl, show lo + 1 * step * (k : ℤ) - lo = k * step by ring, divInt_mul hs]
        have a : (0 : ℤ) ≤ k * step := by positivity
        have b : (0 : ℤ) ≤ ((n : ℤ) - 1 - k) * step := mul_nonneg (by omega) hs.le
        refine ⟨rfl, ?_, ?_⟩ <;> linarith
      · rw [if_neg, show hi - (hi + -1 * step * (k : ℤ)) = k * step by ring, divInt_mul hs]
        · have a : (0 : ℤ) ≤ k * step := by positivity
          have b : (0 : ℤ) ≤ ((n : ℤ) - 1 - k) * step := mul_nonneg (by omega) hs.le
          refine ⟨rfl, ?_, ?_⟩ <;> linarith
        · have : 0 < ((n : ℤ) - 1) * step := mul_pos (by omega) hs
          omega
    rw [e]
    have kI := key h.il (if g.firstAxisIL then i else j) (by split_ifs <;> assumption)
    have kX := key h.xl (if g.firstAxisIL then j else i) (by split_ifs <;> assumption)
    have cI : ((if g.firstAxisIL then i else j : ℕ) : ℤ) = if g.firstAxisIL then (i : ℤ) else j := by
      split_ifs <;> rfl
    have cX : ((if g.firstAxisIL then j else i : ℕ) : ℤ) = if g.firstAxisIL then (j : ℤ) else i := by
      split_ifs <;> rfl
    rw [cI] at kI
    rw [cX] at kX
    refine ⟨?_, kI.2, kX.2⟩
    unfold findIndexOfLines
    simp only [Res.monad_bind_eq]
    rw [kI.1, Res.bind_ok, kX.1, Res.bind_ok]
    cases hf : g.firstAxisIL <;> simp only [if_true, Bool.false_eq_true, if_false] <;>
      rw [if_neg (by omega)] <;> simp

/-- **C140 (points).** The point of two lines is the point that they pass through, and the point of a cell is
its middle, if no small quotient of the steps is taken for 0. -/
theorem segy_points {g : SegyGeometry} {σI σX : ℤ} (h : Spec.SegyGrid g σI σX)
    (h1 : SegyGeometry.tiny g.ilStepX g.xlStepX → g.ilStepX = 0) (h2 : SegyGeometry.tiny g.xlStepY g.ilStepY → g.xlStepY = 0) :
    (∀ x y, g.findXYFromContILXL (g.findContILXL x y).1 (g.findContILXL x y).2 = .ok (x, y)) ∧
    ∀ i j : ℕ, g.findXYFromIJ i j = .ok (g.at (i + 1 / 2) (j + 1 / 2)) := by
  have m := matrix h
  have inv := findXY_inverse g m.1 (fun ht => by
    rcases ht with ht | ht
    · exact ⟨h1 ht, m.2.1 (h1 ht)⟩
    · exact ⟨m.2.2 (h2 ht), h2 ht⟩)
  refine ⟨inv, fun i j => ?_⟩
  have := inv (g.at (i + 1 / 2) (j + 1 / 2)).1 (g.at (i + 1 / 2) (j + 1 / 2)).2
  rw [(segy_lines h i j).1] at this
  exact this

end SegyGeometry
end Verif
