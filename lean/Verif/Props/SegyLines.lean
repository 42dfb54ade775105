import Verif.Props.SegyGeometry

/-!
# C140, C141: how a seismic cube is set up, and where its lines go wrong
-/

namespace Verif

open Classical

/-- Lines numbered along the axes of a grid: the numbers at the point `s` and `t` cells along the axes. -/
def Spec.LinesAt (f : ℝ → ℝ → ℝ × ℝ) (at' : ℝ → ℝ → ℝ × ℝ) (first : Bool) (IL0 XL0 kI kX : ℤ) : Prop :=
  ∀ s t : ℝ, f (at' s t).1 (at' s t).2 =
    (IL0 + kI * ((if first then s else t) - 1 / 2), XL0 + kX * ((if first then t else s) - 1 / 2))

namespace SegyGeometry

theorem findILXL_centre {g : SegyGeometry} {first : Bool} {IL0 XL0 kI kX : ℤ}
    (h : Spec.LinesAt g.findContILXL g.at first IL0 XL0 kI kX) (k m : ℕ) {a b : ℤ}
    (ha : a = IL0 + kI * (if first then (k : ℤ) else m)) (hb : b = XL0 + kX * (if first then (m : ℤ) else k))
    (a0 : 0 ≤ a) (a1 : a < 2 ^ 31) (b0 : 0 ≤ b) (b1 : b < 2 ^ 31) :
    g.findILXL (g.at (k + 1 / 2) (m + 1 / 2)).1 (g.at (k + 1 / 2) (m + 1 / 2)).2 = .ok (a, b) := by
  have e := h (k + 1 / 2) (m + 1 / 2)
  have e1 := congrArg Prod.fst e
  have e2 := congrArg Prod.snd e
  simp only [findContILXL] at e1 e2
  have ca : (IL0 : ℝ) + kI * ((if first then (k + 1 / 2 : ℝ) else (m + 1 / 2 : ℝ)) - 1 / 2) = a := by
    rw [ha]; cases first <;> simp
  have cb : (XL0 : ℝ) + kX * ((if first then (m + 1 / 2 : ℝ) else (k + 1 / 2 : ℝ)) - 1 / 2) = b := by
    rw [hb]; cases first <;> simp
  rw [ca] at e1
  rw [cb] at e2
  unfold findILXL
  have f1 : 0.5 + g.inLine0 + ((g.at (k + 1 / 2) (m + 1 / 2)).1 - g.x0) * g.ilStepX +
      ((g.at (k + 1 / 2) (m + 1 / 2)).2 - g.y0) * g.ilStepY = (a : ℝ) + 1 / 2 := by
    rw [← e1]; norm_num; ring
  have f2 : 0.5 + g.crossLine0 + ((g.at (k + 1 / 2) (m + 1 / 2)).1 - g.x0) * g.xlStepX +
      ((g.at (k + 1 / 2) (m + 1 / 2)).2 - g.y0) * g.xlStepY = (b : ℝ) + 1 / 2 := by
    rw [← e2]; norm_num; ring
  rw [f1, f2, truncZ_half a0, truncZ_half b0]
  simp only [Res.monad_bind_eq]
  rw [RegSurf.toInt32_ok (by omega) a1, Res.bind_ok, RegSurf.toInt32_ok (by omega) b1, Res.bind_ok]

theorem lineEnds_eq {L0 σ s : ℤ} {n : ℕ} (hs : 0 < s) (hσ : σ = 1 ∨ σ = -1) (h2 : σ = -1 → 2 ≤ n)
    (hn : n < 2 ^ 31) :
    Spec.LineRange σ L0 (lineEnds L0 (L0 + σ * s) (wrapInt n) |L0 + σ * s - L0|).1
      (lineEnds L0 (L0 + σ * s) (wrapInt n) |L0 + σ * s - L0|).2 s n := by
  have e : |L0 + σ * s - L0| = s := by
    rw [add_sub_cancel_left]
    rcases hσ with rfl | rfl
    · rw [one_mul, abs_of_pos hs]
    · rw [neg_one_mul, abs_neg, abs_of_pos hs]
  rw [e, wrapInt_small hn]
  refine ⟨hs, ?_⟩
  unfold lineEnds
  rcases hσ with rfl | rfl
  · left
    rw [if_pos (by omega)]
    exact ⟨rfl, rfl, rfl⟩
  · right
    rw [if_neg (by omega)]
    exact ⟨rfl, rfl, rfl, h2 rfl⟩

/-- `FindILXLGeometry` finds the lines of a grid whose lines have numbers that are not negative. -/
theorem findILXLGeometry_grid {g : SegyGeometry} {first : Bool} {IL0 XL0 σI σX sI sX : ℤ}
    (h : Spec.LinesAt g.findContILXL g.at first IL0 XL0 (σI * sI) (σX * sX))
    (hc : g.cosRot ^ 2 + g.sinRot ^ 2 = 1) (hdx : 0 < g.dx) (hdy : 0 < g.dy) (hI : 0 < sI) (hX : 0 < sX)
    (hσI : σI = 1 ∨ σI = -1 ∧ 2 ≤ (if first then g.nx else g.ny))
    (hσX : σX = 1 ∨ σX = -1 ∧ 2 ≤ (if first then g.ny else g.nx))
    (hn : g.nx < 2 ^ 31 ∧ g.ny < 2 ^ 31)
    (r1 : 0 ≤ IL0 ∧ IL0 < 2 ^ 31) (r2 : 0 ≤ IL0 + σI * sI ∧ IL0 + σI * sI < 2 ^ 31)
    (r3 : 0 ≤ XL0 ∧ XL0 < 2 ^ 31) (r4 : 0 ≤ XL0 + σX * sX ∧ XL0 + σX * sX < 2 ^ 31) :
    ∃ minI maxI minX maxX, g.findILXLGeometry = .ok { g with
        IL0 := IL0, XL0 := XL0, firstAxisIL := first, ILStep := sI, XLStep := sX
        minIL := minI, maxIL := maxI, minXL := minX, maxXL := maxX } ∧
      Spec.SegyGrid { g with
        IL0 := IL0, XL0 := XL0, firstAxisIL := first, ILStep := sI, XLStep := sX
        minIL := minI, maxIL := maxI, minXL := minX, maxXL := maxX } σI σX := by
  have q : ∀ s t, g.cellPoint s t = g.at s t := fun _ _ => rfl
  have n1 : (0.5 : ℝ) = ((0 : ℕ) : ℝ) + 1 / 2 := by norm_num
  have n2 : (1.5 : ℝ) = ((1 : ℕ) : ℝ) + 1 / 2 := by norm_num
  have sI' : ∀ n : ℕ, σI = 1 ∨ σI = -1 ∧ 2 ≤ n → (σI = 1 ∨ σI = -1) ∧ (σI = -1 → 2 ≤ n) := by
    intro n hh; omega
  have sX' : ∀ n : ℕ, σX = 1 ∨ σX = -1 ∧ 2 ≤ n → (σX = 1 ∨ σX = -1) ∧ (σX = -1 → 2 ≤ n) := by
    intro n hh; omega
  have aI : |IL0 + σI * sI - IL0| = sI := by
    rw [add_sub_cancel_left]
    rcases (sI' _ hσI).1 with rfl | rfl
    · rw [one_mul, abs_of_pos hI]
    · rw [neg_one_mul, abs_neg, abs_of_pos hI]
  have aX : |XL0 + σX * sX - XL0| = sX := by
    rw [add_sub_cancel_left]
    rcases (sX' _ hσX).1 with rfl | rfl
    · rw [one_mul, abs_of_pos hX]
    · rw [neg_one_mul, abs_neg, abs_of_pos hX]
  have neI : IL0 + σI * sI ≠ IL0 := by
    intro e; rw [e, sub_self, abs_zero] at aI; omega
  unfold findILXLGeometry
  simp only [Res.monad_bind_eq]
  rw [q, q, q, n1, n2]
  have l0 := findILXL_centre h 0 0 (a := IL0) (b := XL0) (by cases first <;> simp) (by cases first <;> simp)
    r1.1 r1.2 r3.1 r3.2
  cases first
  · have l1 := findILXL_centre h 1 0 (a := IL0) (b := XL0 + σX * sX) (by simp) (by simp) r1.1 r1.2 r4.1 r4.2
    have l2 := findILXL_centre h 0 1 (a := IL0 + σI * sI) (b := XL0) (by simp) (by simp) r2.1 r2.2 r3.1 r3.2
    rw [l0, Res.bind_ok, l1, Res.bind_ok, l2, Res.bind_ok, if_neg (by simp)]
    simp only [Bool.false_eq_true, if_false] at hσI hσX
    refine ⟨_, _, _, _, by rw [aI, aX], ⟨hc, hdx, hdy, ?_, ?_, ?_⟩⟩
    · have := lineEnds_eq (L0 := IL0) hI (sI' _ hσI).1 (sI' _ hσI).2 hn.2
      rw [aI] at this
      simpa using this
    · have := lineEnds_eq (L0 := XL0) hX (sX' _ hσX).1 (sX' _ hσX).2 hn.1
      rw [aX] at this
      simpa using this
    · intro s t
      refine (h s t).trans ?_
      push_cast
      rfl
  · have l1 := findILXL_centre h 1 0 (a := IL0 + σI * sI) (b := XL0) (by simp) (by simp) r2.1 r2.2 r3.1 r3.2
    have l2 := findILXL_centre h 0 1 (a := IL0) (b := XL0 + σX * sX) (by simp) (by simp) r1.1 r1.2 r4.1 r4.2
    rw [l0, Res.bind_ok, l1, Res.bind_ok, l2, Res.bind_ok, if_pos (by simpa using neI)]
    simp only [if_true] at hσI hσX
    refine ⟨_, _, _, _, by rw [aI, aX], ⟨hc, hdx, hdy, ?_, ?_, ?_⟩⟩
    · have := lineEnds_eq (L0 := IL0) hI (sI' _ hσI).1 (sI' _ hσI).2 hn.1
      rw [aI] at this
      simpa using this
    · have := lineEnds_eq (L0 := XL0) hX (sX' _ hσX).1 (sX' _ hσX).2 hn.2
      rw [aX] at this
      simpa using this
    · intro s t
      refine (h s t).trans ?_
      push_cast
      rfl

end SegyGeometry

/-- The numbers of the lines at a point, from those in a corner and the steps. -/
noncomputable def Spec.affineLines (x0 y0 I0 X0 iX iY xX xY x y : ℝ) : ℝ × ℝ :=
  (I0 + (x - x0) * iX + (y - y0) * iY, X0 + (x - x0) * xX + (y - y0) * xY)

/-- **C141 (set-up).** The constructor with lines gives a cube that has the cells and the lines that it is given
and whose members fit one another, if the lines are numbered along the axes by numbers that are not negative (and
upwards along an axis with one cell). -/
theorem segy_of_lines {x0 y0 dx dy rot I0 X0 iX iY xX xY : ℝ} {nx ny : ℕ} {first : Bool} {IL0 XL0 σI σX sI sX : ℤ}
    (h : Spec.LinesAt (Spec.affineLines x0 y0 I0 X0 iX iY xX xY)
      (Spec.gridPoint x0 y0 dx dy (Real.cos rot) (Real.sin rot)) first IL0 XL0 (σI * sI) (σX * sX))
    (hd : 0 < dx ∧ 0 < dy) (hs : 0 < sI ∧ 0 < sX)
    (hσI : σI = 1 ∨ σI = -1 ∧ 2 ≤ (if first then nx else ny))
    (hσX : σX = 1 ∨ σX = -1 ∧ 2 ≤ (if first then ny else nx))
    (hn : nx < 2 ^ 31 ∧ ny < 2 ^ 31)
    (rI : ∀ L ∈ [IL0, IL0 + σI * sI], 0 ≤ L ∧ L < 2 ^ 31) (rX : ∀ L ∈ [XL0, XL0 + σX * sX], 0 ≤ L ∧ L < 2 ^ 31) :
    ∃ g, SegyGeometry.ofLines x0 y0 dx dy nx ny I0 X0 iX iY xX xY rot = .ok g ∧
      Spec.SegyGrid g σI σX ∧ (g.x0, g.y0, g.dx, g.dy, g.nx, g.ny) = (x0, y0, dx, dy, nx, ny) ∧
      (g.rot, g.cosRot, g.sinRot) = (rot, Real.cos rot, Real.sin rot) ∧
      (g.IL0, g.XL0, g.ILStep, g.XLStep, g.firstAxisIL) = (IL0, XL0, sI, sX, first) ∧
      g.findContILXL = Spec.affineLines x0 y0 I0 X0 iX iY xX xY := by
  obtain ⟨a, b, c, d, e, k⟩ := SegyGeometry.findILXLGeometry_grid
    (g := { x0 := x0, y0 := y0, dx := dx, dy := dy, nx := nx, ny := ny
            inLine0 := I0, crossLine0 := X0
            ilStepX := iX, ilStepY := iY, xlStepX := xX, xlStepY := xY
            cosRot := Real.cos rot, sinRot := Real.sin rot, rot := rot
            IL0 := 0, XL0 := 0, minIL := 0, maxIL := 0, ILStep := 0
            minXL := 0, maxXL := 0, XLStep := 0, firstAxisIL := false })
    (first := first) (IL0 := IL0) (XL0 := XL0) (σI := σI) (σX := σX) (sI := sI) (sX := sX)
    h (by rw [add_comm]; exact Real.sin_sq_add_cos_sq rot) hd.1 hd.2 hs.1 hs.2 hσI hσX hn
    (rI _ (by simp)) (rI _ (by simp)) (rX _ (by simp)) (rX _ (by simp))
  exact ⟨_, e, k, rfl, rfl, rfl, rfl⟩

/-- Three by four cells of 12.5 by 25 m: cross-lines 500, 503 and 506 along the first axis, in-lines 1000, 998,
996 and 994 along the second. -/
theorem segy_example : ∃ g, SegyGeometry.ofLines 100 200 12.5 25 3 4 1001 498.5 0 (-0.08) 0.24 0 0 = .ok g ∧
    Spec.SegyGrid g (-1) 1 ∧ g.minIL = 994 ∧ g.maxXL = 506 ∧ (g.cosRot = Real.cos g.rot ∧ g.sinRot = Real.sin g.rot) ∧
    (g.maxIL, g.minXL, g.ILStep, g.XLStep) = (1000, 500, 2, 3) ∧
    (SegyGeometry.tiny g.ilStepX g.xlStepX → g.ilStepX = 0) ∧ (SegyGeometry.tiny g.xlStepY g.ilStepY → g.xlStepY = 0) ∧
    g.findXYFromIJ 1 2 = .ok (118.75, 262.5) ∧ g.findIndex 118.75 262.5 = .ok (1, 2) ∧
    g.findILXLOfCell 1 2 = (996, 503) := by
  obtain ⟨g, e, h, m, ro, l, f⟩ := segy_of_lines (x0 := 100) (y0 := 200) (dx := 12.5) (dy := 25) (rot := 0) (I0 := 1001)
    (X0 := 498.5) (iX := 0) (iY := -0.08) (xX := 0.24) (xY := 0) (nx := 3) (ny := 4) (first := false)
    (IL0 := 1000) (XL0 := 500) (σI := -1) (σX := 1) (sI := 2) (sX := 3)
    (by
      intro s t
      simp only [Spec.affineLines, Spec.gridPoint, Real.cos_zero, Real.sin_zero, Bool.false_eq_true, if_false]
      refine Prod.ext ?_ ?_ <;> dsimp only <;> norm_num <;> ring)
    (by norm_num) (by norm_num) (by simp) (by simp) (by norm_num) (by simp) (by simp)
  simp only [Prod.mk.injEq] at m l ro
  obtain ⟨m1, m2, m3, m4, m5, m6⟩ := m
  obtain ⟨l1, l2, l3, l4, l5⟩ := l
  have v : g.cosRot = 1 ∧ g.sinRot = 0 := by
    rw [ro.2.1, ro.2.2]
    exact ⟨Real.cos_zero, Real.sin_zero⟩
  have i0 : g.ilStepX = 0 := by
    have a := congrArg Prod.fst (congrFun (congrFun f 101) 200)
    have b := congrArg Prod.fst (congrFun (congrFun f 100) 200)
    simp only [SegyGeometry.findContILXL, Spec.affineLines, m1, m2] at a b
    linarith
  have x0 : g.xlStepY = 0 := by
    have a := congrArg Prod.snd (congrFun (congrFun f 100) 201)
    have b := congrArg Prod.snd (congrFun (congrFun f 100) 200)
    simp only [SegyGeometry.findContILXL, Spec.affineLines, m1, m2] at a b
    linarith
  have pt : g.at ((1 : ℕ) + 1 / 2) ((2 : ℕ) + 1 / 2) = (118.75, 262.5) := by
    simp only [SegyGeometry.at, Spec.gridPoint, m1, m2, m3, m4, v.1, v.2]
    refine Prod.ext ?_ ?_ <;> dsimp only <;> norm_num
  have c := (SegyGeometry.segy_cells h (by rw [m5, m6]; norm_num) ((1 : ℕ) + 1 / 2) ((2 : ℕ) + 1 / 2)).2.2.1
    (by rw [m5, m6]; norm_num)
  rw [pt] at c
  refine ⟨g, e, h, ?_, ?_, by rw [ro.1]; exact ro.2, ?_, fun _ => i0, fun _ => x0, ?_, ?_, ?_⟩
  · obtain ⟨-, ⟨q, -⟩ | ⟨-, -, q, -⟩⟩ := h.il
    · cases q
    · rw [q, l1, l3, l5, m6]; norm_num
  · obtain ⟨-, ⟨-, -, q⟩ | ⟨q, -⟩⟩ := h.xl
    · rw [q, l2, l4, l5, m5]; norm_num
    · cases q
  · obtain ⟨-, ⟨q, -⟩ | ⟨-, q, -, -⟩⟩ := h.il
    · cases q
    obtain ⟨-, ⟨-, q', -⟩ | ⟨q', -⟩⟩ := h.xl
    · rw [q, q', l1, l2, l3, l4]
    · cases q'
  · rw [(SegyGeometry.segy_points h (fun _ => i0) (fun _ => x0)).2 1 2, pt]
  · rw [c.1]
    norm_num
  · rw [SegyGeometry.lines_of_cell h, l1, l2, l3, l4, l5]
    norm_num

/-- **C140 violated (lines outside).** `FindIndex` of lines accepts the line after the last, with an index that no
trace has, and lines between those that are there. -/
theorem segy_beyond_violation {g : SegyGeometry} {σX : ℤ} (h : Spec.SegyGrid g 1 σX) (hf : g.firstAxisIL = true)
    (hy : 0 < g.ny) :
    g.findIndexOfLines (g.maxIL + g.ILStep) g.XL0 = .ok (g.nx, 0) ∧
    ∀ k : ℤ, |k| < g.ILStep → g.findIndexOfLines (g.minIL + k) g.XL0 = .ok (0, 0) := by
  have hI := h.il
  rw [hf] at hI
  simp only [if_true] at hI
  obtain ⟨hs, ⟨-, h1, h2⟩ | ⟨h1, -⟩⟩ := hI
  swap
  · cases h1
  have hX0 : SegyGeometry.divInt (if g.XL0 = g.minXL then g.XL0 - g.XL0 else g.XL0 - g.XL0) g.XLStep = .ok 0 := by
    rw [ite_self, sub_self, SegyGeometry.divInt, if_neg h.xl.1.ne', Int.zero_tdiv]
  refine ⟨?_, fun k hk => ?_⟩
  · unfold SegyGeometry.findIndexOfLines
    simp only [Res.monad_bind_eq]
    rw [if_pos h1.symm, h2, show g.IL0 + (↑g.nx - 1) * g.ILStep + g.ILStep - g.IL0 = g.nx * g.ILStep by ring,
      SegyGeometry.divInt_mul hs, Res.bind_ok, hX0, Res.bind_ok]
    simp only [hf, if_true]
    rw [if_neg (by omega)]
    simp
  · unfold SegyGeometry.findIndexOfLines
    simp only [Res.monad_bind_eq]
    have d : SegyGeometry.divInt (g.minIL + k - g.IL0) g.ILStep = .ok 0 := by
      rw [h1, add_sub_cancel_left, SegyGeometry.divInt, if_neg hs.ne']
      refine congrArg Res.ok ?_
      rcases le_or_gt 0 k with h0 | h0
      · rw [abs_of_nonneg h0] at hk
        exact Int.tdiv_eq_zero_of_lt h0 hk
      · rw [abs_of_neg h0] at hk
        have := Int.tdiv_eq_zero_of_lt (by omega : 0 ≤ -k) hk
        rw [Int.neg_tdiv] at this
        omega
    rw [if_pos h1.symm, d, Res.bind_ok, hX0, Res.bind_ok]
    simp only [hf, if_true]
    rw [if_neg (by omega)]
    simp

/-- **C140 violated (far points).** The place of a point far outside is converted to `int` before it is refused: from
2 to the 31st cells on the conversion has no defined result. -/
theorem segy_far_violation {g : SegyGeometry} {σI σX : ℤ} (h : Spec.SegyGrid g σI σX) {s : ℝ} (hs : 2 ^ 31 ≤ s) (t : ℝ) :
    ∃ m, g.findIndex (g.at s t).1 (g.at s t).2 = .ub m := by
  unfold SegyGeometry.findIndex
  simp only [Res.monad_bind_eq]
  rw [SegyGeometry.findContIndex_at h s t, Res.bind_ok]
  have : ∃ m, toInt32 (truncZ s) = .ub m := by
    unfold truncZ toInt32
    have hs0 : 0 ≤ s := le_trans (by norm_num) hs
    rw [if_pos hs0, if_neg]
    · exact ⟨_, rfl⟩
    · rintro ⟨-, h2⟩
      have h3 : (2 ^ 31 : ℤ) ≤ ⌊s⌋ := Int.le_floor.2 (by push_cast; linarith)
      omega
  obtain ⟨m, hm⟩ := this
  rw [hm]
  exact ⟨m, rfl⟩

/-- **C140 violated (oblique lines).** If the in-lines are parallel to the x axis but the cross-lines are not parallel
to the y axis, the point of the lines through a point is another point. -/
theorem segy_oblique_violation (g : SegyGeometry) (h1 : g.ilStepX = 0) (h2 : g.ilStepY ≠ 0) (h3 : g.xlStepX ≠ 0)
    (h4 : g.xlStepY ≠ 0) (x y : ℝ) :
    g.findXYFromContILXL (g.findContILXL x y).1 (g.findContILXL x y).2 =
      .ok (x + (y - g.y0) * g.xlStepY / g.xlStepX, y) ∧
    (y ≠ g.y0 → x + (y - g.y0) * g.xlStepY / g.xlStepX ≠ x) := by
  refine ⟨?_, fun hy e => ?_⟩
  swap
  · have : (y - g.y0) * g.xlStepY / g.xlStepX = 0 := by linarith
    simp [h3, h4, sub_eq_zero, hy] at this
  unfold SegyGeometry.findXYFromContILXL SegyGeometry.findContILXL
  have z : (0.0 : ℝ) = 0 := by norm_num
  simp only [z]
  rw [if_neg (by simp [h3]), if_neg (by simp [h2]), if_pos (Or.inl ⟨h3, by rw [h1]; norm_num⟩)]
  simp only [Res.monad_bind_eq]
  rw [SegyGeometry.divD_eq h3, Res.bind_ok, SegyGeometry.divD_eq h2, Res.bind_ok, h1]
  refine congrArg Res.ok (Prod.ext ?_ ?_) <;> dsimp only <;> field_simp <;> ring

/-- Members of `segy_oblique_violation`. -/
theorem segy_oblique_example : ∃ g : SegyGeometry, g.ilStepX = 0 ∧ g.ilStepY ≠ 0 ∧ g.xlStepX ≠ 0 ∧ g.xlStepY ≠ 0 ∧
    g.findXYFromContILXL (g.findContILXL 3 4).1 (g.findContILXL 3 4).2 = .ok (7, 4) := by
  let g : SegyGeometry := ⟨0, 0, 1, 1, 5, 5, 0, 0, 0, 1, 1, 1, 0, 1, 0, 0, 0, 0, 4, 1, 0, 4, 1, false⟩
  have a1 : g.ilStepX = 0 := rfl
  have a2 : g.ilStepY ≠ 0 := one_ne_zero
  have a3 : g.xlStepX ≠ 0 := one_ne_zero
  have a4 : g.xlStepY ≠ 0 := one_ne_zero
  refine ⟨g, a1, a2, a3, a4, ?_⟩
  rw [(segy_oblique_violation g a1 a2 a3 a4 3 4).1]
  refine congrArg Res.ok (Prod.ext ?_ ?_) <;> simp only [g] <;> norm_num

/-- **C141 violated (grids).** The cube made from a grid exchanges the axes: the place of a point along the first axis is
given as the second index and conversely, and the numbers of cells are compared with the wrong one. The point of a cell is
the middle of the cell with the indices exchanged. -/
theorem segy_grid_violation {x0 y0 dx dy rot : ℝ} {nx ny : ℕ} (hdx : 0 < dx) (hdy : 0 < dy) :
    ∃ g, SegyGeometry.ofGrid x0 y0 dx dy nx ny rot = .ok g ∧ g.nx = nx ∧ g.ny = ny ∧
      (∀ s t, g.findContIndex (Spec.gridPoint x0 y0 dx dy (Real.cos rot) (Real.sin rot) s t).1
        (Spec.gridPoint x0 y0 dx dy (Real.cos rot) (Real.sin rot) s t).2 =
        .ok (decide (0 ≤ t ∧ t < nx ∧ 0 ≤ s ∧ s < ny), t, s)) ∧
      (∀ i j : ℕ, g.findContILXL
        (Spec.gridPoint x0 y0 dx dy (Real.cos rot) (Real.sin rot) (j + 1 / 2) (i + 1 / 2)).1
        (Spec.gridPoint x0 y0 dx dy (Real.cos rot) (Real.sin rot) (j + 1 / 2) (i + 1 / 2)).2 =
        (((g.findILXLOfCell i j).1 : ℝ), ((g.findILXLOfCell i j).2 : ℝ))) := by
  have c := Real.sin_sq_add_cos_sq rot
  unfold SegyGeometry.ofGrid
  simp only [Res.monad_bind_eq]
  rw [SegyGeometry.divD_eq hdx.ne', Res.bind_ok, SegyGeometry.divD_eq hdx.ne', Res.bind_ok, SegyGeometry.divD_eq hdy.ne',
    Res.bind_ok, SegyGeometry.divD_eq hdy.ne', Res.bind_ok]
  have hdx' := hdx.ne'
  have hdy' := hdy.ne'
  have key : ∀ s t : ℝ,
      -0.5 + (x0 + s * dx * Real.cos rot - t * dy * Real.sin rot - x0) * (-Real.sin rot / dy) +
        (y0 + s * dx * Real.sin rot + t * dy * Real.cos rot - y0) * (Real.cos rot / dy) = t - 1 / 2 ∧
      -0.5 + (x0 + s * dx * Real.cos rot - t * dy * Real.sin rot - x0) * (Real.cos rot / dx) +
        (y0 + s * dx * Real.sin rot + t * dy * Real.cos rot - y0) * (Real.sin rot / dx) = s - 1 / 2 := by
    intro s t
    constructor
    · have : (x0 + s * dx * Real.cos rot - t * dy * Real.sin rot - x0) * (-Real.sin rot / dy) +
        (y0 + s * dx * Real.sin rot + t * dy * Real.cos rot - y0) * (Real.cos rot / dy) = t := by
        field_simp
        linear_combination t * dy * c
      norm_num
      linarith
    · have : (x0 + s * dx * Real.cos rot - t * dy * Real.sin rot - x0) * (Real.cos rot / dx) +
        (y0 + s * dx * Real.sin rot + t * dy * Real.cos rot - y0) * (Real.sin rot / dx) = s := by
        field_simp
        linear_combination s * dx * c
      norm_num
      linarith
  refine ⟨_, rfl, rfl, rfl, ?_, ?_⟩
  · intro s t
    unfold SegyGeometry.findContIndex SegyGeometry.findContIndexFromContILXL SegyGeometry.findContILXL
      SegyGeometry.ilStrides SegyGeometry.xlStrides Spec.gridPoint
    dsimp only
    rw [(key s t).1, (key s t).2]
    simp only [if_true, Res.monad_bind_eq]
    rw [SegyGeometry.divD_eq (by norm_num), Res.bind_ok, SegyGeometry.divD_eq (by norm_num), Res.bind_ok, Res.bind_ok]
    dsimp only
    have e : ∀ r : ℝ, 0.5 + (r - 1 / 2 - ((0 : ℤ) : ℝ)) / ((1 : ℤ) : ℝ) = r := by
      intro r; push_cast; norm_num
    rw [e, e]
    have z : (0.0 : ℝ) = 0 := by norm_num
    simp only [z, ge_iff_le]
  · intro i j
    unfold SegyGeometry.findContILXL SegyGeometry.findILXLOfCell Spec.gridPoint
    dsimp only
    rw [(key _ _).1, (key _ _).2]
    simp

/-- In a cube made from ten times two cells of 1 m, a point of the grid is said to be outside and a point outside the
grid is said to be inside. -/
theorem segy_grid_example : ∃ g, SegyGeometry.ofGrid 0 0 1 1 10 2 0 = .ok g ∧
    g.isInside 5.5 0.5 = .ok false ∧ g.isInside 0.5 5.5 = .ok true := by
  obtain ⟨g, e, -, -, h, -⟩ := segy_grid_violation (x0 := 0) (y0 := 0) (dx := 1) (dy := 1) (rot := 0) (nx := 10) (ny := 2)
    one_pos one_pos
  have a := h 5.5 0.5
  have b := h 0.5 5.5
  simp only [Spec.gridPoint, Real.cos_zero, Real.sin_zero] at a b
  norm_num at a b
  refine ⟨g, e, ?_, ?_⟩ <;> unfold SegyGeometry.isInside <;> simp only [Res.monad_bind_eq] <;> norm_num
  · rw [a]; rfl
  · rw [b]; rfl

/-- **C141 violated (negative numbers).** Numbers of lines are rounded towards 0 after 0.5 is added, which is wrong for
negative numbers: if the in-lines along the first axis are `k`, `k + 1`, ... with `k ≤ -2`, the cube takes `k + 1` for the
first one, and says that the first cell is outside. -/
theorem segy_negative_violation {k : ℤ} (hk : k ≤ -2) (hk' : -2 ^ 31 ≤ k) (nx ny : ℕ) :
    ∃ g, SegyGeometry.ofLines 0 0 1 1 nx ny (k - 1 / 2) (1 / 2) 1 0 0 1 0 = .ok g ∧
      g.findContILXL (1 / 2) (1 / 2) = ((k : ℝ), 1) ∧ g.IL0 = k + 1 ∧ (g.findILXLOfCell 0 0).1 = k + 1 ∧
      g.isInside (1 / 2) (1 / 2) = .ok false := by
  have t1 : truncZ (1 / 2 + (k - 1 / 2 : ℝ) + 1 / 2) = k + 1 := by
    rw [show (1 / 2 + (k - 1 / 2 : ℝ) + 1 / 2) = (k : ℝ) + 1 / 2 by ring, SegyGeometry.truncZ_half_neg (by omega)]
  have t2 : truncZ (1 / 2 + (k - 1 / 2 : ℝ) + 3 / 2) = k + 2 := by
    rw [show (1 / 2 + (k - 1 / 2 : ℝ) + 3 / 2) = ((k + 1 : ℤ) : ℝ) + 1 / 2 by push_cast; ring,
      SegyGeometry.truncZ_half_neg (by omega)]
    ring
  have t3 : truncZ (1 / 2 + 1 / 2 + 1 / 2 : ℝ) = 1 := by
    have := SegyGeometry.truncZ_half (k := 1) (by norm_num)
    norm_num at this ⊢
    exact this
  have t4 : truncZ (1 / 2 + 1 / 2 + 3 / 2 : ℝ) = 2 := by
    have := SegyGeometry.truncZ_half (k := 2) (by norm_num)
    norm_num at this ⊢
    exact this
  unfold SegyGeometry.ofLines SegyGeometry.findILXLGeometry SegyGeometry.cellPoint SegyGeometry.findILXL
  have n1 : (0.5 : ℝ) = 1 / 2 := by norm_num
  have n2 : (1.5 : ℝ) = 3 / 2 := by norm_num
  simp only [Res.monad_bind_eq, Real.cos_zero, Real.sin_zero, n1, n2, mul_one, mul_zero, add_zero, sub_zero, zero_add]
  rw [t1, t2, t3, t4]
  simp only [RegSurf.toInt32_ok (show -2 ^ 31 ≤ k + 1 by omega) (by omega),
    RegSurf.toInt32_ok (show -2 ^ 31 ≤ k + 2 by omega) (by omega), RegSurf.toInt32_ok (show -2 ^ 31 ≤ (1 : ℤ) by norm_num) (by norm_num),
    RegSurf.toInt32_ok (show -2 ^ 31 ≤ (2 : ℤ) by norm_num) (by norm_num), Res.bind_ok]
  rw [if_pos (by omega)]
  have s1 : |k + 2 - (k + 1)| = 1 := by rw [show k + 2 - (k + 1) = 1 by ring]; norm_num
  refine ⟨_, rfl, ?_, rfl, ?_, ?_⟩
  · unfold SegyGeometry.findContILXL
    refine Prod.ext ?_ ?_ <;> dsimp only <;> ring
  · unfold SegyGeometry.findILXLOfCell
    simp
  · unfold SegyGeometry.isInside SegyGeometry.findContIndex SegyGeometry.findContIndexFromContILXL SegyGeometry.findContILXL
      SegyGeometry.ilStrides SegyGeometry.xlStrides
    simp only [Res.monad_bind_eq]
    have w1 : (SegyGeometry.lineEnds (k + 1) (k + 2) (SegyGeometry.wrapInt nx) |k + 2 - (k + 1)|).1 = k + 1 := by
      unfold SegyGeometry.lineEnds
      rw [if_pos (by omega)]
    have s2 : |(2 : ℤ) - 1| = 1 := by norm_num
    rw [w1, s1, s2]
    simp only [if_true]
    rw [SegyGeometry.divD_eq (by norm_num), Res.bind_ok, SegyGeometry.divD_eq (by norm_num), Res.bind_ok, Res.bind_ok, Res.bind_ok]
    refine congrArg Res.ok (decide_eq_false ?_)
    rintro ⟨h1, -⟩
    norm_num at h1

/-- **C141 violated (one cell).** Along an axis with one cell and lines numbered downwards the place of a point is counted
from the wrong end. -/
theorem segy_single_violation : ∃ g, SegyGeometry.ofLines 0 0 1 1 1 5 (21 / 2) (1 / 2) (-1) 0 0 1 0 = .ok g ∧
    (∀ s t, g.findContILXL s t = (21 / 2 - s, 1 / 2 + t)) ∧
    ∀ s t, g.findContIndex s t = .ok (decide (0 ≤ 1 - s ∧ 1 - s < 1 ∧ 0 ≤ t ∧ t < 5), 1 - s, t) := by
  have t1 : truncZ (21 / 2 : ℝ) = 10 := by
    have := SegyGeometry.truncZ_half (k := 10) (by norm_num)
    norm_num at this ⊢
    exact this
  have t2 : truncZ (19 / 2 : ℝ) = 9 := by
    have := SegyGeometry.truncZ_half (k := 9) (by norm_num)
    norm_num at this ⊢
    exact this
  have t3 : truncZ (3 / 2 : ℝ) = 1 := by
    have := SegyGeometry.truncZ_half (k := 1) (by norm_num)
    norm_num at this ⊢
    exact this
  have t4 : truncZ (5 / 2 : ℝ) = 2 := by
    have := SegyGeometry.truncZ_half (k := 2) (by norm_num)
    norm_num at this ⊢
    exact this
  unfold SegyGeometry.ofLines SegyGeometry.findILXLGeometry SegyGeometry.cellPoint SegyGeometry.findILXL
  have e1 : (0.5 + 21 / 2 + (0 + 0.5 * 1 * 1 - 0.5 * 1 * 0 - 0) * -1 + (0 + 0.5 * 1 * 0 + 0.5 * 1 * 1 - 0) * 0 : ℝ) = 21 / 2 := by
    norm_num
  have e2 : (0.5 + 21 / 2 + (0 + 1.5 * 1 * 1 - 0.5 * 1 * 0 - 0) * -1 + (0 + 1.5 * 1 * 0 + 0.5 * 1 * 1 - 0) * 0 : ℝ) = 19 / 2 := by
    norm_num
  have e3 : (0.5 + 21 / 2 + (0 + 0.5 * 1 * 1 - 1.5 * 1 * 0 - 0) * -1 + (0 + 0.5 * 1 * 0 + 1.5 * 1 * 1 - 0) * 0 : ℝ) = 21 / 2 := by
    norm_num
  have f1 : (0.5 + 1 / 2 + (0 + 0.5 * 1 * 1 - 0.5 * 1 * 0 - 0) * 0 + (0 + 0.5 * 1 * 0 + 0.5 * 1 * 1 - 0) * 1 : ℝ) = 3 / 2 := by
    norm_num
  have f2 : (0.5 + 1 / 2 + (0 + 1.5 * 1 * 1 - 0.5 * 1 * 0 - 0) * 0 + (0 + 1.5 * 1 * 0 + 0.5 * 1 * 1 - 0) * 1 : ℝ) = 3 / 2 := by
    norm_num
  have f3 : (0.5 + 1 / 2 + (0 + 0.5 * 1 * 1 - 1.5 * 1 * 0 - 0) * 0 + (0 + 0.5 * 1 * 0 + 1.5 * 1 * 1 - 0) * 1 : ℝ) = 5 / 2 := by
    norm_num
  simp only [Res.monad_bind_eq, Real.cos_zero, Real.sin_zero]
  rw [e1, e2, e3, f1, f2, f3, t1, t2, t3, t4]
  simp only [RegSurf.toInt32_ok (show -2 ^ 31 ≤ (10 : ℤ) by norm_num) (by norm_num),
    RegSurf.toInt32_ok (show -2 ^ 31 ≤ (9 : ℤ) by norm_num) (by norm_num), RegSurf.toInt32_ok (show -2 ^ 31 ≤ (1 : ℤ) by norm_num) (by norm_num),
    RegSurf.toInt32_ok (show -2 ^ 31 ≤ (2 : ℤ) by norm_num) (by norm_num), Res.bind_ok]
  rw [if_pos (by norm_num)]
  refine ⟨_, rfl, ?_, ?_⟩
  · intro s t
    unfold SegyGeometry.findContILXL
    refine Prod.ext ?_ ?_ <;> dsimp only <;> ring
  · intro s t
    have w1 : SegyGeometry.lineEnds 10 9 (SegyGeometry.wrapInt 1) |(9 : ℤ) - 10| = (10, 10) := by decide
    have w2 : SegyGeometry.lineEnds 1 2 (SegyGeometry.wrapInt 5) |(2 : ℤ) - 1| = (1, 5) := by decide
    have s1 : |(9 : ℤ) - 10| = 1 := by norm_num
    have s2 : |(2 : ℤ) - 1| = 1 := by norm_num
    unfold SegyGeometry.findContIndex SegyGeometry.findContIndexFromContILXL SegyGeometry.findContILXL
      SegyGeometry.ilStrides SegyGeometry.xlStrides
    simp only [Res.monad_bind_eq]
    rw [w1, w2, s1, s2]
    simp only [if_true]
    rw [SegyGeometry.divD_eq (by norm_num), Res.bind_ok, SegyGeometry.divD_eq (by norm_num), Res.bind_ok, Res.bind_ok]
    have q1 : (0.5 + (21 / 2 + (s - 0) * -1 + (t - 0) * 0 - ((10 : ℤ) : ℝ)) / ((1 : ℤ) : ℝ) : ℝ) = 1 - s := by
      push_cast; norm_num; ring
    have q2 : (0.5 + (1 / 2 + (s - 0) * 0 + (t - 0) * 1 - ((1 : ℤ) : ℝ)) / ((1 : ℤ) : ℝ) : ℝ) = t := by
      push_cast; norm_num; ring
    dsimp only
    rw [q1, q2]
    have z : (0.0 : ℝ) = 0 := by norm_num
    simp only [z, ge_iff_le, Nat.cast_one, Nat.cast_ofNat]

end Verif
