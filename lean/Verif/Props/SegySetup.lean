import Verif.Lemmas.SegySetup
import Verif.Props.SegyLines

/-!
# C143: a seismic cube from a trace and the directions of the lines
-/

namespace Verif

open Classical

/-- The point where in-line `i` crosses cross-line `j`, from a reference trace and the steps from line to line. -/
noncomputable def Spec.linePoint (xRef yRef : ℝ) (ilRef xlRef : ℤ) (vI vX : ℝ × ℝ) (i j : ℝ) : ℝ × ℝ :=
  (xRef + (i - ilRef) * vI.1 + (j - xlRef) * vX.1, yRef + (i - ilRef) * vI.2 + (j - xlRef) * vX.2)

namespace SegyGeometry

theorem setupCube_ok {xRef yRef : ℝ} {ilRef xlRef minIL maxIL minXL maxXL : ℤ} {vI vX : ℝ × ℝ} {dIL dXL : ℤ} {g : SegyGeometry}
    (hd : vI.1 * vX.2 - vX.1 * vI.2 ≠ 0)
    (h : setupCube xRef yRef ilRef xlRef minIL maxIL minXL maxXL vI vX dIL dXL = .ok g) (i j : ℝ) :
    g.findContILXL (Spec.linePoint xRef yRef ilRef xlRef vI vX i j).1 (Spec.linePoint xRef yRef ilRef xlRef vI vX i j).2 =
      (i, j) := by
  have hd' : vI.2 * vX.1 - vX.2 * vI.1 ≠ 0 := by intro e; apply hd; linarith
  unfold setupCube at h
  simp only [Res.monad_bind_eq] at h
  rw [stepsOf_spec hd, stepsOf_spec hd'] at h
  obtain ⟨f, -, h⟩ := Res.bind_eq_ok.1 h
  obtain ⟨dx, -, h⟩ := Res.bind_eq_ok.1 h
  obtain ⟨dy, -, h⟩ := Res.bind_eq_ok.1 h
  rw [Res.bind_ok, Res.bind_ok] at h
  injection h with h
  subst h
  have e : vI.2 * vX.1 - vX.2 * vI.1 = -(vI.1 * vX.2 - vX.1 * vI.2) := by ring
  simp only [findContILXL, Spec.linePoint, Prod.mk.injEq]
  have hinv := mul_inv_cancel₀ hd
  rw [e]
  simp only [div_eq_mul_inv, inv_neg]
  constructor
  · linear_combination (i - ilRef) * hinv
  · linear_combination (j - xlRef) * hinv

end SegyGeometry

/-- **C143 (lines, for every pair of directions).** However the corner of the cube is chosen, the in-line and the cross-line at
every point are those of the trace and the directions that are given. -/
theorem segy_setup_lines {xRef yRef : ℝ} {ilRef xlRef minIL maxIL minXL maxXL : ℤ} {vI vX : ℝ × ℝ} {dIL dXL : ℤ}
    {g : SegyGeometry} (hI : minIL ≠ maxIL) (hX : minXL ≠ maxXL) (hd : vI.1 * vX.2 - vX.1 * vI.2 ≠ 0)
    (h : SegyGeometry.setup xRef yRef ilRef xlRef minIL maxIL minXL maxXL vI vX dIL dXL = .ok g) (i j : ℝ) :
    g.findContILXL (Spec.linePoint xRef yRef ilRef xlRef vI vX i j).1 (Spec.linePoint xRef yRef ilRef xlRef vI vX i j).2 =
      (i, j) := by
  unfold SegyGeometry.setup at h
  rw [if_neg hX, if_neg hI] at h
  exact SegyGeometry.setupCube_ok hd h i j

namespace SegyGeometry

/-- The set-up of a cube with perpendicular lines. -/
theorem setupCube_grid {xRef yRef : ℝ} {ilRef xlRef minIL maxIL minXL maxXL : ℤ} {vI vX : ℝ × ℝ} {dIL dXL : ℤ} {nI nX : ℕ}
    (hp : vI.1 * vX.1 + vI.2 * vX.2 = 0) (hI0 : vI ≠ 0) (hX0 : vX ≠ 0) (hI : 0 < dIL) (hX : 0 < dXL)
    (eI : maxIL = minIL + nI * dIL) (eX : maxXL = minXL + nX * dXL) (bI : nI + 1 < 2 ^ 64) (bX : nX + 1 < 2 ^ 64) :
    ∃ (g : SegyGeometry) (α β first : Bool), setupCube xRef yRef ilRef xlRef minIL maxIL minXL maxXL vI vX dIL dXL = .ok g ∧
      0 < g.dx ∧ 0 < g.dy ∧ (g.cosRot = Real.cos g.rot ∧ g.sinRot = Real.sin g.rot) ∧ |g.rot| ≤ Real.pi / 4 ∧
      (g.nx = if first then nI + 1 else nX + 1) ∧ (g.ny = if first then nX + 1 else nI + 1) ∧
      Spec.LinesAt g.findContILXL g.at first (if α then maxIL else minIL) (if β then maxXL else minXL)
        ((if α then -1 else 1) * dIL) ((if β then -1 else 1) * dXL) := by
  obtain ⟨a1, a2⟩ := vI
  obtain ⟨b1, b2⟩ := vX
  simp only [ne_eq, Prod.mk_eq_zero, not_and_or] at hI0 hX0
  simp only at hp
  have s0 : 0 < a1 ^ 2 + a2 ^ 2 := by
    rcases hI0 with h | h
    · have := sq_pos_of_ne_zero h; nlinarith [sq_nonneg a2]
    · have := sq_pos_of_ne_zero h; nlinarith [sq_nonneg a1]
  obtain ⟨k, hk1, hk2⟩ : ∃ k : ℝ, b1 = -k * a2 ∧ b2 = k * a1 := by
    refine ⟨(a1 * b2 - a2 * b1) / (a1 ^ 2 + a2 ^ 2), ?_, ?_⟩
    · field_simp
      linear_combination a1 * hp
    · field_simp
      linear_combination a2 * hp
  have hk : k ≠ 0 := by
    rintro rfl
    simp at hk1 hk2
    tauto
  have hd : a1 * b2 - b1 * a2 ≠ 0 := by
    rw [hk1, hk2, show a1 * (k * a1) - -k * a2 * a2 = k * (a1 ^ 2 + a2 ^ 2) by ring]
    exact mul_ne_zero hk s0.ne'
  have hIr : (0 : ℝ) < dIL := by exact_mod_cast hI
  have hXr : (0 : ℝ) < dXL := by exact_mod_cast hX
  have pI : (0 : ℝ) < (nI + 1) * dIL := by positivity
  have pX : (0 : ℝ) < (nX + 1) * dXL := by positivity
  set il := cornerIL minIL maxIL dIL with hil
  set xl := cornerXL minXL maxXL dXL with hxl
  have il0 : il 0 = minIL - 1 / 2 * dIL ∧ il 1 = il 0 + (nI + 1) * dIL ∧ il 2 = il 0 ∧ il 3 = il 1 := by
    simp only [hil, cornerIL, eI]
    norm_num
    ring
  have xl0 : xl 0 = minXL - 1 / 2 * dXL ∧ xl 1 = xl 0 ∧ xl 2 = xl 0 + (nX + 1) * dXL ∧ xl 3 = xl 2 := by
    simp only [hxl, cornerXL, eX]
    norm_num
    ring
  obtain ⟨i0, i1, i2, i3⟩ := il0
  obtain ⟨x0, x1, x2, x3⟩ := xl0
  set x := cornerAt (xRef - xlRef * b1 - ilRef * a1) b1 a1 xl il with hx
  set y := cornerAt (yRef - xlRef * b2 - ilRef * a2) b2 a2 xl il with hy
  have dl0 : 0 < lineDist (a1, a2) (b1, b2) ∧ lineDist (a1, a2) (b1, b2) ≤ √(a1 * a1 + a2 * a2) := by
    have p : 0 < √(a1 * a1 + a2 * a2) := Real.sqrt_pos.2 (by nlinarith)
    unfold lineDist
    simp only
    split
    · rename_i hh
      rcases hh with hh | hh
      · exact absurd hh p.ne'
      · exact ⟨hh.1, hh.2.le⟩
    · exact ⟨p, le_refl _⟩
  obtain ⟨α, β, sw, C⟩ := pickCorners_spec (x := x) (y := y) (a1 := (nI + 1) * dIL * a1) (a2 := (nI + 1) * dIL * a2)
    (k := k * ((nX + 1) * dXL) / ((nI + 1) * dIL)) (dl := lineDist (a1, a2) (b1, b2))
    (by
      simp only [hx, cornerAt, i1, i2, i3, x1, x2, x3, hk1]
      refine ⟨by ring, ?_, ?_⟩ <;> (field_simp; ring))
    (by
      simp only [hy, cornerAt, i1, i2, i3, x1, x2, x3, hk2]
      refine ⟨by ring, ?_, ?_⟩ <;> (field_simp; ring))
    (by positivity) (by rcases hI0 with h | h; exacts [.inl (mul_ne_zero pI.ne' h), .inr (mul_ne_zero pI.ne' h)])
    dl0.1
    (by
      intro e
      have e' : a2 = 0 := by simpa [pI.ne'] using e
      have := dl0.2
      rw [e', mul_zero, add_zero, Real.sqrt_mul_self_eq_abs] at this
      rw [e', abs_mul, abs_of_pos pI]
      have one : (1 : ℝ) ≤ (nI + 1) * dIL := by
        have : (1 : ℝ) ≤ dIL := by exact_mod_cast hI
        nlinarith [Nat.cast_nonneg (α := ℝ) nI]
      nlinarith [abs_nonneg a1])
  obtain ⟨α, β, sw, rot, lx, ly, hf, F, hrot⟩ := frameOf_spec (xl := xl) (il := il) (dXL := dXL) (dIL := dIL) C
    (by intro a b; cases a <;> cases b <;> simp [idx] <;> simp only [hx, cornerAt, i1, i2, i3, x1, x2, x3] <;> ring)
    (by intro a b; cases a <;> cases b <;> simp [idx] <;> simp only [hy, cornerAt, i1, i2, i3, x1, x2, x3] <;> ring)
    (cells_IL hI hX.ne' eI bI) (cells_XL hX eX bX)
  have n1 : (((if sw then nX + 1 else nI + 1 : ℕ) : ℕ) : ℝ) ≠ 0 := by cases sw <;> simp <;> positivity
  have n2 : (((if sw then nI + 1 else nX + 1 : ℕ) : ℕ) : ℝ) ≠ 0 := by cases sw <;> simp <;> positivity
  obtain ⟨g, hg, q⟩ : ∃ g, setupCube xRef yRef ilRef xlRef minIL maxIL minXL maxXL (a1, a2) (b1, b2) dIL dXL = .ok g ∧
      (g.dx = lx / ((if sw then nX + 1 else nI + 1 : ℕ) : ℕ) ∧ g.dy = ly / ((if sw then nI + 1 else nX + 1 : ℕ) : ℕ) ∧
        g.rot = rot ∧ g.cosRot = Real.cos rot ∧ g.sinRot = Real.sin rot ∧ g.nx = (if sw then nX + 1 else nI + 1) ∧
        g.ny = (if sw then nI + 1 else nX + 1) ∧ g.x0 = x (idx α β) ∧ g.y0 = y (idx α β)) := by
    have hd' : a2 * b1 - b2 * a1 ≠ 0 := by intro e; apply hd; linarith
    unfold setupCube
    simp only [Res.monad_bind_eq]
    rw [hf, Res.bind_ok, divD_eq n1, Res.bind_ok, divD_eq n2, Res.bind_ok, stepsOf_spec hd, stepsOf_spec hd', Res.bind_ok,
      Res.bind_ok]
    exact ⟨_, rfl, rfl, rfl, rfl, rfl, rfl, rfl, rfl, rfl, rfl⟩
  have L := setupCube_ok hd hg
  obtain ⟨g1, g2, g3, g4, g5, g6, g7, g8, g9⟩ := q
  refine ⟨g, α, β, !sw, hg, ?_, ?_, ⟨by rw [g4, g3], by rw [g5, g3]⟩, by rw [g3]; exact hrot, ?_, ?_, ?_⟩
  · rw [g1]; exact div_pos F.posx (by cases sw <;> simp <;> positivity)
  · rw [g2]; exact div_pos F.posy (by cases sw <;> simp <;> positivity)
  · rw [g6]; cases sw <;> simp
  · rw [g7]; cases sw <;> simp
  · intro s t
    have at1 : (g.at s t).1 = x (idx α β) + s / ((if sw then nX + 1 else nI + 1 : ℕ) : ℕ) *
        (x (if sw then idx α (!β) else idx (!α) β) - x (idx α β)) + t / ((if sw then nI + 1 else nX + 1 : ℕ) : ℕ) *
        (x (if sw then idx (!α) β else idx α (!β)) - x (idx α β)) := by
      simp only [SegyGeometry.at, Spec.gridPoint]
      rw [g1, g2, g4, g5, g8, ← F.x1, ← F.x2]
      ring
    have at2 : (g.at s t).2 = y (idx α β) + s / ((if sw then nX + 1 else nI + 1 : ℕ) : ℕ) *
        (y (if sw then idx α (!β) else idx (!α) β) - y (idx α β)) + t / ((if sw then nI + 1 else nX + 1 : ℕ) : ℕ) *
        (y (if sw then idx (!α) β else idx α (!β)) - y (idx α β)) := by
      simp only [SegyGeometry.at, Spec.gridPoint]
      rw [g1, g2, g4, g5, g9, ← F.y1, ← F.y2]
      ring
    have := L ((if α then maxIL else minIL : ℤ) + ((if α then -1 else 1) * dIL : ℤ) * ((if !sw then s else t) - 1 / 2))
      ((if β then maxXL else minXL : ℤ) + ((if β then -1 else 1) * dXL : ℤ) * ((if !sw then t else s) - 1 / 2))
    rw [← this]
    congr 1
    · rw [at1, corner_coord xRef a1 b1 ilRef xlRef eI eX hx]
      rfl
    · rw [at2, corner_coord yRef a2 b2 ilRef xlRef eI eX hy]
      rfl

/-- `FindILXLGeometry` with given lines, if there is more than one cell along the first axis. -/
theorem findILXLGeometryGiven_grid {g : SegyGeometry} {first : Bool} {IL0 XL0 kI kX minIL maxIL dIL minXL maxXL dXL : ℤ}
    (h : Spec.LinesAt g.findContILXL g.at first IL0 XL0 kI kX) (hn : 1 < g.nx) (hX : kX ≠ 0) (hdI : dIL ≠ 0) (hdX : dXL ≠ 0)
    (r1 : 0 ≤ IL0 ∧ IL0 < 2 ^ 31) (r2 : 0 ≤ IL0 + kI ∧ IL0 + kI < 2 ^ 31)
    (r3 : 0 ≤ XL0 ∧ XL0 < 2 ^ 31) (r4 : 0 ≤ XL0 + kX ∧ XL0 + kX < 2 ^ 31) :
    g.findILXLGeometryGiven minIL maxIL dIL minXL maxXL dXL = .ok { g with
        IL0 := IL0, XL0 := XL0, firstAxisIL := first, ILStep := dIL, XLStep := dXL
        minIL := minIL, maxIL := maxIL, minXL := minXL, maxXL := maxXL } := by
  have q : ∀ s t, g.cellPoint s t = g.at s t := fun _ _ => rfl
  have n1 : (0.5 : ℝ) = ((0 : ℕ) : ℝ) + 1 / 2 := by norm_num
  have n2 : (1.5 : ℝ) = ((1 : ℕ) : ℝ) + 1 / 2 := by norm_num
  have l0 := findILXL_centre h 0 0 (a := IL0) (b := XL0) (by cases first <;> simp) (by cases first <;> simp)
    r1.1 r1.2 r3.1 r3.2
  unfold findILXLGeometryGiven
  simp only [Res.monad_bind_eq, gt_iff_lt, hn, if_true, not_true, decide_false, Bool.not_false]
  rw [q, q, n1, n2, l0, Res.bind_ok, if_neg hdI, if_neg hdX]
  cases first
  · rw [findILXL_centre h 1 0 (a := IL0) (b := XL0 + kX) (by simp) (by simp) r1.1 r1.2 r4.1 r4.2, Res.bind_ok]
    rw [if_pos (show (XL0 + kX) - XL0 ≠ 0 by omega)]
  · rw [findILXL_centre h 1 0 (a := IL0 + kI) (b := XL0) (by simp) (by simp) r2.1 r2.2 r3.1 r3.2, Res.bind_ok]
    rw [if_neg (show ¬ (XL0 - XL0 ≠ 0) by omega)]

end SegyGeometry

/-- **C143 (set-up).** From the place and the lines of one trace, the range of the lines and perpendicular steps from line to line,
the cube gets a cell for every crossing of an in-line and a cross-line, in whatever direction the lines run. The members of the
cube fit one another, the axes are within 45 degrees of those of the map, and the lines at every point are right. -/
theorem segy_setup (xRef yRef : ℝ) (ilRef xlRef : ℤ) {minIL maxIL minXL maxXL : ℤ} {vI vX : ℝ × ℝ} {dIL dXL : ℤ} {nI nX : ℕ}
    (hp : vI.1 * vX.1 + vI.2 * vX.2 = 0) (hI0 : vI ≠ 0) (hX0 : vX ≠ 0) (hI : 0 < dIL) (hX : 0 < dXL)
    (eI : maxIL = minIL + nI * dIL) (eX : maxXL = minXL + nX * dXL) (pI : 1 ≤ nI) (pX : 1 ≤ nX)
    (rI : 0 ≤ minIL ∧ maxIL < 2 ^ 31) (rX : 0 ≤ minXL ∧ maxXL < 2 ^ 31) :
    ∃ (g₀ g : SegyGeometry) (σI σX : ℤ),
      SegyGeometry.setup xRef yRef ilRef xlRef minIL maxIL minXL maxXL vI vX dIL dXL = .ok g₀ ∧
      g₀.findILXLGeometryGiven minIL maxIL dIL minXL maxXL dXL = .ok g ∧ Spec.SegyGrid g σI σX ∧
      (g.minIL, g.maxIL, g.ILStep) = (minIL, maxIL, dIL) ∧ (g.minXL, g.maxXL, g.XLStep) = (minXL, maxXL, dXL) ∧
      (g.nx, g.ny) = (if g.firstAxisIL then (nI + 1, nX + 1) else (nX + 1, nI + 1)) ∧
      (g.cosRot = Real.cos g.rot ∧ g.sinRot = Real.sin g.rot) ∧ |g.rot| ≤ Real.pi / 4 ∧
      ∀ i j : ℝ, g.findContILXL (Spec.linePoint xRef yRef ilRef xlRef vI vX i j).1
        (Spec.linePoint xRef yRef ilRef xlRef vI vX i j).2 = (i, j) := by
  have mI : (nI : ℤ) ≤ nI * dIL := by nlinarith
  have mX : (nX : ℤ) ≤ nX * dXL := by nlinarith
  have m1 : dIL ≤ nI * dIL := by nlinarith
  have m2 : dXL ≤ nX * dXL := by nlinarith
  obtain ⟨g, α, β, first, hg, dx, dy, cs, rot, nx, ny, L⟩ := SegyGeometry.setupCube_grid (xRef := xRef) (yRef := yRef)
    (ilRef := ilRef) (xlRef := xlRef) hp hI0 hX0 hI hX eI eX (by omega) (by omega)
  have hs : SegyGeometry.setup xRef yRef ilRef xlRef minIL maxIL minXL maxXL vI vX dIL dXL = .ok g := by
    unfold SegyGeometry.setup
    rw [if_neg (by omega), if_neg (by omega)]
    exact hg
  have hd : vI.1 * vX.2 - vX.1 * vI.2 ≠ 0 := by
    intro e
    have s1 : (vI.1 ^ 2 + vI.2 ^ 2) * (vX.1 ^ 2 + vX.2 ^ 2) = 0 := by
      linear_combination (vI.1 * vX.1 + vI.2 * vX.2) * hp + (vI.1 * vX.2 - vX.1 * vI.2) * e
    rcases mul_eq_zero.1 s1 with h | h
    · exact hI0 (Prod.ext (by simpa using pow_eq_zero_iff (two_ne_zero) |>.1 (by nlinarith [sq_nonneg vI.1, sq_nonneg vI.2]))
        (by simpa using pow_eq_zero_iff (two_ne_zero) |>.1 (by nlinarith [sq_nonneg vI.1, sq_nonneg vI.2])))
    · exact hX0 (Prod.ext (by simpa using pow_eq_zero_iff (two_ne_zero) |>.1 (by nlinarith [sq_nonneg vX.1, sq_nonneg vX.2]))
        (by simpa using pow_eq_zero_iff (two_ne_zero) |>.1 (by nlinarith [sq_nonneg vX.1, sq_nonneg vX.2])))
  have gl := segy_setup_lines (by omega) (by omega) hd hs
  have given := SegyGeometry.findILXLGeometryGiven_grid (minIL := minIL) (maxIL := maxIL) (dIL := dIL) (minXL := minXL)
    (maxXL := maxXL) (dXL := dXL) L
    (by rw [nx]; split <;> omega) (by split <;> omega) hI.ne' hX.ne' (by split <;> omega) (by cases α <;> simp <;> omega)
    (by split <;> omega) (by cases β <;> simp <;> omega)
  refine ⟨g, _, if α then -1 else 1, if β then -1 else 1, hs, given, ?_, rfl, rfl, ?_, cs, rot, gl⟩
  · refine ⟨?_, dx, dy, ?_, ?_, ?_⟩
    · show g.cosRot ^ 2 + g.sinRot ^ 2 = 1
      rw [cs.1, cs.2, add_comm]
      exact Real.sin_sq_add_cos_sq _
    · have e : (if first then g.nx else g.ny) = nI + 1 := by rw [nx, ny]; cases first <;> rfl
      simp only [e]
      refine ⟨hI, ?_⟩
      cases α
      · left; simp [eI]
      · right; simp [eI]; omega
    · have e : (if first then g.ny else g.nx) = nX + 1 := by rw [nx, ny]; cases first <;> rfl
      simp only [e]
      refine ⟨hX, ?_⟩
      cases β
      · left; simp [eX]
      · right; simp [eX]; omega
    · intro s t
      refine (L s t).trans ?_
      push_cast
      rfl
  · simp only [nx, ny]
    cases first <;> rfl

/-- A single cross-line, or a single in-line: one row of cells along it, as wide as long, whatever the step of the other lines is. -/
theorem segy_setup_single (xRef yRef : ℝ) (ilRef xlRef lo line : ℤ) {v w : ℝ × ℝ} {d e : ℤ} {n : ℕ} (hv : v ≠ 0) (hd : 0 < d)
    (pn : 1 ≤ n) (bn : n + 1 < 2 ^ 64) :
    (∃ (g : SegyGeometry) (α β first : Bool),
      SegyGeometry.setup xRef yRef ilRef xlRef lo (lo + n * d) line line v w d e = .ok g ∧ g.nx * g.ny = n + 1 ∧ 0 < g.dx ∧ 0 < g.dy ∧
      Spec.LinesAt g.findContILXL g.at first (if α then lo + n * d else lo) line
        ((if α then -1 else 1) * d) ((if β then -1 else 1) * d)) ∧
    ∃ (g : SegyGeometry) (α β first : Bool),
      SegyGeometry.setup xRef yRef ilRef xlRef line line lo (lo + n * d) w v e d = .ok g ∧ g.nx * g.ny = n + 1 ∧ 0 < g.dx ∧ 0 < g.dy ∧
      Spec.LinesAt g.findContILXL g.at first line (if β then lo + n * d else lo)
        ((if α then -1 else 1) * d) ((if β then -1 else 1) * d) := by
  have hv' : v.1 ≠ 0 ∨ v.2 ≠ 0 := by
    by_contra h
    push Not at h
    exact hv (Prod.ext h.1 h.2)
  have hne : lo ≠ lo + n * d := by
    have : 0 < (n : ℤ) * d := mul_pos (by omega) hd
    omega
  constructor
  · obtain ⟨g, α, β, first, h1, h2, h3, -, -, h4, h5, h6⟩ := SegyGeometry.setupCube_grid (xRef := xRef) (yRef := yRef) (ilRef := ilRef)
      (xlRef := xlRef) (minIL := lo) (maxIL := lo + n * d) (minXL := line) (maxXL := line) (vI := v) (vX := (v.2, -v.1)) (dIL := d)
      (dXL := d) (nI := n) (nX := 0) (by simp only; ring) hv (by
        intro h
        have a := congrArg Prod.fst h
        have b := congrArg Prod.snd h
        simp at a b
        rcases hv' with c | c <;> contradiction) hd hd rfl (by simp) bn (by omega)
    refine ⟨g, α, β, first, ?_, ?_, h2, h3, ?_⟩
    · unfold SegyGeometry.setup
      rw [if_pos rfl, h1]
    · rw [h4, h5]; cases first <;> simp
    · simpa using h6
  · obtain ⟨g, α, β, first, h1, h2, h3, -, -, h4, h5, h6⟩ := SegyGeometry.setupCube_grid (xRef := xRef) (yRef := yRef) (ilRef := ilRef)
      (xlRef := xlRef) (minIL := line) (maxIL := line) (minXL := lo) (maxXL := lo + n * d) (vI := (-v.2, v.1)) (vX := v) (dIL := d)
      (dXL := d) (nI := 0) (nX := n) (by simp only; ring) (by
        intro h
        have a := congrArg Prod.fst h
        have b := congrArg Prod.snd h
        simp at a b
        rcases hv' with c | c <;> contradiction) hv hd hd (by simp) rfl (by omega) bn
    refine ⟨g, α, β, first, ?_, ?_, h2, h3, ?_⟩
    · unfold SegyGeometry.setup
      rw [if_neg hne, if_pos rfl, h1]
    · rw [h4, h5]; cases first <;> simp
    · simpa using h6

/-- A case: a single cross-line with four traces. -/
example : ∃ g, SegyGeometry.setup 1000 2000 105 8 100 115 7 7 (3, 4) (0, 0) 5 0 = .ok g ∧ g.nx * g.ny = 4 := by
  obtain ⟨⟨g, _, _, _, h, h2, -⟩, -⟩ := segy_setup_single 1000 2000 105 8 100 7 (v := (3, 4)) (w := (0, 0)) (d := 5) (e := 0) (n := 3)
    (by simp) (by norm_num) (by norm_num) (by norm_num)
  exact ⟨g, by simpa using h, h2⟩

/-- Lines in steps of 5 and 1 that run along (3, 4) and (-8, 6). -/
theorem segy_setup_example : ∃ (g₀ g : SegyGeometry) (σI σX : ℤ),
    SegyGeometry.setup 1000 2000 105 8 100 110 7 10 (3, 4) (-8, 6) 5 1 = .ok g₀ ∧
    g₀.findILXLGeometryGiven 100 110 5 7 10 1 = .ok g ∧ Spec.SegyGrid g σI σX ∧ g.nx * g.ny = 12 := by
  obtain ⟨g₀, g, σI, σX, h1, h2, h3, -, -, h4, -⟩ := segy_setup 1000 2000 105 8 (minIL := 100) (maxIL := 110) (minXL := 7)
    (maxXL := 10) (vI := (3, 4)) (vX := (-8, 6)) (dIL := 5) (dXL := 1) (nI := 2) (nX := 3) (by norm_num) (by simp) (by simp)
    (by norm_num) (by norm_num) (by norm_num) (by norm_num) (by norm_num) (by norm_num) (by norm_num) (by norm_num)
  refine ⟨g₀, g, σI, σX, h1, h2, h3, ?_⟩
  have e1 := congrArg Prod.fst h4
  have e2 := congrArg Prod.snd h4
  simp only at e1 e2
  rw [e1, e2]
  split <;> rfl

namespace SegyGeometry

theorem line_place {σ L0 lo hi step : ℤ} {n a : ℕ} (h : Spec.LineRange σ L0 lo hi step n) (ha : a < n) :
    ∃ p : ℕ, p < n ∧ L0 + σ * step * p = lo + a * step := by
  obtain ⟨hs, ⟨rfl, rfl, rfl⟩ | ⟨rfl, rfl, rfl, hn⟩⟩ := h
  · exact ⟨a, ha, by ring⟩
  · refine ⟨n - 1 - a, by omega, ?_⟩
    rw [Nat.cast_sub (by omega), Nat.cast_sub (by omega)]
    push_cast
    ring

/-- A point where lines of a cube cross is the middle of a cell. -/
theorem grid_trace {g : SegyGeometry} {σI σX : ℤ} (h : Spec.SegyGrid g σI σX) {a b : ℕ}
    (ha : a < if g.firstAxisIL then g.nx else g.ny) (hb : b < if g.firstAxisIL then g.ny else g.nx) {P : ℝ × ℝ}
    (hP : g.findContILXL P.1 P.2 = (((g.minIL + a * g.ILStep : ℤ) : ℝ), ((g.minXL + b * g.XLStep : ℤ) : ℝ))) :
    ∃ i j : ℕ, i < g.nx ∧ j < g.ny ∧ P = g.at (i + 1 / 2) (j + 1 / 2) ∧
      g.findILXLOfCell i j = (g.minIL + a * g.ILStep, g.minXL + b * g.XLStep) := by
  obtain ⟨p, hp, ep⟩ := line_place h.il ha
  obtain ⟨q, hq, eq⟩ := line_place h.xl hb
  obtain ⟨s, t, hst⟩ := at_surjective h P.1 P.2
  have hst' : P = g.at s t := hst.symm
  have L := h.lines s t
  rw [← hst', hP, ← ep, ← eq] at L
  obtain ⟨L1, L2⟩ := Prod.ext_iff.1 L
  simp only at L1 L2
  have nI := sgn_ne h.il
  have nX := sgn_ne h.xl
  have k1 : (if g.firstAxisIL then s else t) = (p : ℝ) + 1 / 2 := by
    push_cast at L1
    have : (σI : ℝ) * g.ILStep * ((if g.firstAxisIL then s else t) - 1 / 2 - p) = 0 := by linarith
    rcases mul_eq_zero.1 this with h | h
    · exact absurd h nI
    · linarith
  have k2 : (if g.firstAxisIL then t else s) = (q : ℝ) + 1 / 2 := by
    push_cast at L2
    have : (σX : ℝ) * g.XLStep * ((if g.firstAxisIL then t else s) - 1 / 2 - q) = 0 := by linarith
    rcases mul_eq_zero.1 this with h | h
    · exact absurd h nX
    · linarith
  have lc := lines_of_cell h
  cases hf : g.firstAxisIL <;> simp only [hf, if_true, if_false, Bool.false_eq_true] at k1 k2 hp hq lc
  · exact ⟨q, p, hq, hp, by rw [hst', k1, k2], by rw [lc, ep, eq]⟩
  · exact ⟨p, q, hp, hq, by rw [hst', k1, k2], by rw [lc, ep, eq]⟩

end SegyGeometry

/-- **C143 (traces).** In a cube that is set up like this every crossing of an in-line and a cross-line is the middle of a cell,
and the cube finds the cell from the place and from the lines, and the lines from the cell. -/
theorem segy_setup_traces (xRef yRef : ℝ) (ilRef xlRef : ℤ) {minIL maxIL minXL maxXL : ℤ} {vI vX : ℝ × ℝ} {dIL dXL : ℤ}
    {nI nX : ℕ} (hp : vI.1 * vX.1 + vI.2 * vX.2 = 0) (hI0 : vI ≠ 0) (hX0 : vX ≠ 0) (hI : 0 < dIL) (hX : 0 < dXL)
    (eI : maxIL = minIL + nI * dIL) (eX : maxXL = minXL + nX * dXL) (pI : 1 ≤ nI) (pX : 1 ≤ nX)
    (rI : 0 ≤ minIL ∧ maxIL < 2 ^ 31) (rX : 0 ≤ minXL ∧ maxXL < 2 ^ 31) :
    ∃ g₀ g : SegyGeometry, SegyGeometry.setup xRef yRef ilRef xlRef minIL maxIL minXL maxXL vI vX dIL dXL = .ok g₀ ∧
      g₀.findILXLGeometryGiven minIL maxIL dIL minXL maxXL dXL = .ok g ∧
      ∀ a b : ℕ, a ≤ nI → b ≤ nX → ∃ i j : ℕ, i < g.nx ∧ j < g.ny ∧
        g.findIndex (Spec.linePoint xRef yRef ilRef xlRef vI vX (minIL + a * dIL) (minXL + b * dXL)).1
          (Spec.linePoint xRef yRef ilRef xlRef vI vX (minIL + a * dIL) (minXL + b * dXL)).2 = .ok ((i : ℤ), (j : ℤ)) ∧
        g.findILXLOfCell i j = (minIL + a * dIL, minXL + b * dXL) ∧
        g.findIndexOfLines (minIL + a * dIL) (minXL + b * dXL) = .ok (i, j) := by
  obtain ⟨g₀, g, σI, σX, h1, h2, h3, h4, h5, h6, -, -, h7⟩ := segy_setup xRef yRef ilRef xlRef hp hI0 hX0 hI hX eI eX pI pX rI rX
  refine ⟨g₀, g, h1, h2, fun a b ha hb => ?_⟩
  obtain ⟨m1, m2, m3⟩ : g.minIL = minIL ∧ g.maxIL = maxIL ∧ g.ILStep = dIL := by simpa using h4
  obtain ⟨m4, m5, m6⟩ : g.minXL = minXL ∧ g.maxXL = maxXL ∧ g.XLStep = dXL := by simpa using h5
  have n1 : (if g.firstAxisIL then g.nx else g.ny) = nI + 1 ∧ (if g.firstAxisIL then g.ny else g.nx) = nX + 1 := by
    have e1 := congrArg Prod.fst h6
    have e2 := congrArg Prod.snd h6
    cases hf : g.firstAxisIL <;> simp only [hf, if_true, if_false, Bool.false_eq_true] at e1 e2 ⊢ <;> exact ⟨by assumption, by assumption⟩
  have nn : g.nx ≤ 2 ^ 31 ∧ g.ny ≤ 2 ^ 31 := by
    have mI : (nI : ℤ) ≤ nI * dIL := by nlinarith
    have mX : (nX : ℤ) ≤ nX * dXL := by nlinarith
    cases hf : g.firstAxisIL <;> simp only [hf, if_true, if_false, Bool.false_eq_true] at n1 <;> omega
  obtain ⟨i, j, hi, hj, hP, hl⟩ := SegyGeometry.grid_trace h3 (a := a) (b := b) (by omega) (by omega)
    (P := Spec.linePoint xRef yRef ilRef xlRef vI vX (minIL + a * dIL) (minXL + b * dXL))
    (by rw [h7, m1, m3, m4, m6]; push_cast; rfl)
  rw [m1, m3, m4, m6] at hl
  refine ⟨i, j, hi, hj, ?_, hl, ?_⟩
  · have c := (SegyGeometry.segy_cells h3 nn (i + 1 / 2) (j + 1 / 2)).2.2.1
      ⟨by positivity, by have : ((i + 1 : ℕ) : ℝ) ≤ g.nx := by exact_mod_cast hi
                         push_cast at this; linarith,
        by positivity, by have : ((j + 1 : ℕ) : ℝ) ≤ g.ny := by exact_mod_cast hj
                          push_cast at this; linarith⟩
    rw [hP, c.1]
    have fl : ∀ n : ℕ, ⌊(n : ℝ) + 1 / 2⌋ = n := by
      intro n
      rw [Int.floor_eq_iff]
      push_cast
      constructor <;> linarith
    rw [fl, fl]
  · have := ((SegyGeometry.segy_lines h3 i j).2 hi hj).1
    rw [hl] at this
    exact this

theorem SegyGeometry.single_cont (x y : ℝ) (il xl : ℤ) (u v : ℝ) :
    (SegyGeometry.singleTrace x y il xl).findContIndex (x + u) (y + v) =
      .ok (decide (-0.05 ≤ u ∧ u < 0.05 ∧ -0.05 ≤ v ∧ v < 0.05), 1 / 2 + 10 * v, 1 / 2 + 10 * u) := by
  unfold SegyGeometry.findContIndex SegyGeometry.findContIndexFromContILXL
  simp only [SegyGeometry.singleTrace, SegyGeometry.findContILXL, SegyGeometry.xlStrides, SegyGeometry.ilStrides,
    Res.monad_bind_eq, if_true, Bool.false_eq_true, if_false, Int.cast_one]
  rw [SegyGeometry.divD_eq one_ne_zero, Res.bind_ok, SegyGeometry.divD_eq one_ne_zero, Res.bind_ok, Res.bind_ok]
  simp only [Res.ok.injEq, Prod.mk.injEq]
  refine ⟨decide_eq_decide.2 ⟨fun ⟨a, b, c, d⟩ => ?_, fun ⟨a, b, c, d⟩ => ?_⟩, by norm_num; ring, by norm_num; ring⟩
  · norm_num at a b c d ⊢
    refine ⟨?_, ?_, ?_, ?_⟩ <;> linarith
  · norm_num at a b c d ⊢
    refine ⟨?_, ?_, ?_, ?_⟩ <;> linarith

/-- **C143 (single trace).** A cube of a single trace has one cell of 0.1 by 0.1 around it: just the points in the cell are inside,
and their cell and its lines are those of the trace. -/
theorem segy_single_trace (x y : ℝ) (il xl : ℤ) (u v : ℝ) :
    (SegyGeometry.singleTrace x y il xl).isInside (x + u) (y + v) =
      .ok (decide (-0.05 ≤ u ∧ u < 0.05 ∧ -0.05 ≤ v ∧ v < 0.05)) ∧
    (-0.05 ≤ u → u < 0.05 → -0.05 ≤ v → v < 0.05 → (SegyGeometry.singleTrace x y il xl).findIndex (x + u) (y + v) = .ok (0, 0)) ∧
    (SegyGeometry.singleTrace x y il xl).findContILXL x y = ((il : ℝ), (xl : ℝ)) ∧
    (SegyGeometry.singleTrace x y il xl).findILXLOfCell 0 0 = (il, xl) := by
  have c := SegyGeometry.single_cont x y il xl u v
  refine ⟨?_, fun a1 a2 a3 a4 => ?_, ?_, ?_⟩
  · unfold SegyGeometry.isInside
    simp only [Res.monad_bind_eq]
    rw [c, Res.bind_ok]
  · have t : ∀ w : ℝ, -0.05 ≤ w → w < 0.05 → toInt32 (truncZ (1 / 2 + 10 * w)) = .ok 0 := by
      intro w h1 h2
      norm_num at h1 h2
      have : truncZ (1 / 2 + 10 * w) = 0 := by
        unfold truncZ
        rw [if_pos (by linarith), Int.floor_eq_zero_iff]
        constructor <;> linarith
      rw [this]
      exact RegSurf.toInt32_ok (by norm_num) (by norm_num)
    unfold SegyGeometry.findIndex
    simp only [Res.monad_bind_eq]
    rw [c, Res.bind_ok]
    simp only
    rw [t v a3 a4, Res.bind_ok, t u a1 a2, Res.bind_ok, if_pos (by simp only [decide_eq_true_eq]; exact ⟨a1, a2, a3, a4⟩)]
  · simp only [SegyGeometry.singleTrace, SegyGeometry.findContILXL, Prod.mk.injEq]
    constructor <;> norm_num
  · simp [SegyGeometry.singleTrace, SegyGeometry.findILXLOfCell]

/-- **C143 (a violation).** The place in the cell of a single trace comes out with the axes exchanged: the point `u` to the right
and `v` above the trace is said to be `10 v` cells along the first axis and `10 u` cells along the second from the middle. -/
theorem segy_single_trace_violation (x y : ℝ) (il xl : ℤ) (u v : ℝ) :
    ∃ inside, (SegyGeometry.singleTrace x y il xl).findContIndex (x + u) (y + v) = .ok (inside, 1 / 2 + 10 * v, 1 / 2 + 10 * u) ∧
      (SegyGeometry.singleTrace x y il xl).at (1 / 2 + 10 * u) (1 / 2 + 10 * v) = (x + u, y + v) := by
  refine ⟨_, SegyGeometry.single_cont x y il xl u v, ?_⟩
  simp only [SegyGeometry.at, Spec.gridPoint, SegyGeometry.singleTrace, Prod.mk.injEq]
  constructor <;> norm_num <;> ring

end Verif
