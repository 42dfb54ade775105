import Verif.Props.SurfaceNonConform

/-! # Rotated surfaces -/

namespace Verif

/-- C82. The two coordinate changes undo each other. -/
theorem localToGlobal_globalToLocal (s : RotSurf) (x y : ℝ) :
    s.localToGlobal (s.globalToLocal x y).1 (s.globalToLocal x y).2 = (x, y) := by
  have h := Real.sin_sq_add_cos_sq s.angle
  unfold RotSurf.localToGlobal RotSurf.globalToLocal
  ext
  · dsimp only
    linear_combination (x - s.x_ref) * h
  · dsimp only
    linear_combination (y - s.y_ref) * h

/-- C82. The two coordinate changes undo each other. -/
theorem globalToLocal_localToGlobal (s : RotSurf) (x y : ℝ) :
    s.globalToLocal (s.localToGlobal x y).1 (s.localToGlobal x y).2 = (x, y) := by
  have h := Real.sin_sq_add_cos_sq s.angle
  unfold RotSurf.localToGlobal RotSurf.globalToLocal
  ext
  · dsimp only
    linear_combination x * h
  · dsimp only
    linear_combination y * h

/-- C82. They keep distances. -/
theorem localToGlobal_dist (s : RotSurf) (x y x' y' : ℝ) :
    ((s.localToGlobal x y).1 - (s.localToGlobal x' y').1) ^ 2
      + ((s.localToGlobal x y).2 - (s.localToGlobal x' y').2) ^ 2
      = (x - x') ^ 2 + (y - y') ^ 2 := by
  have h := Real.sin_sq_add_cos_sq s.angle
  unfold RotSurf.localToGlobal
  dsimp only
  linear_combination ((x - x') ^ 2 + (y - y') ^ 2) * h

/-- C82. At its own nodes a rotated surface has the values of the nodes. -/
theorem rot_getZ_node {s : RotSurf} {z : ℕ → ℕ → ℝ} (hs : HasNodes s.surf z) {i j : ℕ}
    (hi : i < s.surf.grid.ni) (hj : j < s.surf.grid.nj) :
    s.getZ (s.getXY i j).1 (s.getXY i j).2 = .ok (z i j) := by
  unfold RotSurf.getZ RotSurf.getXY
  dsimp only
  rw [globalToLocal_localToGlobal]
  dsimp only
  rw [sub_add_cancel, sub_add_cancel]
  exact getZ_node hs hi hj

/-- C82. Turning a surface by an angle: the value of the rotated surface at the turned point is the value of
the surface at the point. -/
theorem rot_getZ (s : RegSurf) (angle x y : ℝ) :
    (RotSurf.ofSurface s angle).getZ
      (s.x_min + Real.cos angle * (x - s.x_min) - Real.sin angle * (y - s.y_min))
      (s.y_min + Real.sin angle * (x - s.x_min) + Real.cos angle * (y - s.y_min))
      = s.getZ x y := by
  have h := Real.sin_sq_add_cos_sq angle
  unfold RotSurf.getZ RotSurf.globalToLocal RotSurf.ofSurface RotSurf.start RotSurf.calculateMinMaxXY
  dsimp only
  congr 1
  · linear_combination (x - s.x_min) * h
  · linear_combination (y - s.y_min) * h

/-- The bounding box of a surface is up to date and its reference point is the corner of the grid. Every
constructor and `SetDimensions` give this. -/
structure Boxed (s : RotSurf) : Prop where
  box : s.calculateMinMaxXY = s
  ref : s.x_ref = s.surf.x_min ∧ s.y_ref = s.surf.y_min
  pos : 0 ≤ s.surf.lx ∧ 0 ≤ s.surf.ly

theorem calc_idem (s : RotSurf) : s.calculateMinMaxXY.calculateMinMaxXY = s.calculateMinMaxXY := rfl

theorem boxed_ofGrid {x y lx ly a : ℝ} {g : Grid2D ℝ} (hx : 0 ≤ lx) (hy : 0 ≤ ly) :
    Boxed (RotSurf.ofGrid x y lx ly g a) := ⟨calc_idem _, ⟨rfl, rfl⟩, hx, hy⟩

theorem boxed_ofSurface {s : RegSurf} {a : ℝ} (hx : 0 ≤ s.lx) (hy : 0 ≤ s.ly) :
    Boxed (RotSurf.ofSurface s a) := ⟨calc_idem _, ⟨rfl, rfl⟩, hx, hy⟩

theorem boxed_setDimensions {s : RotSurf} {x y lx ly : ℝ} (hx : 0 ≤ lx) (hy : 0 ≤ ly) :
    Boxed (s.setDimensions x y lx ly) := ⟨calc_idem _, ⟨rfl, rfl⟩, hx, hy⟩

/-- Being inside means having local coordinates between 0 and the lengths. -/
theorem rot_inside_iff {s : RotSurf} (h : Boxed s) (x y : ℝ) :
    s.isInsideSurface x y = true ↔
      (0 ≤ (s.globalToLocal x y).1 ∧ (s.globalToLocal x y).1 ≤ s.surf.lx) ∧
      (0 ≤ (s.globalToLocal x y).2 ∧ (s.globalToLocal x y).2 ≤ s.surf.ly) := by
  unfold RotSurf.isInsideSurface RegSurf.isInsideSurface RegSurf.xMax RegSurf.yMax
  dsimp only
  rw [h.ref.1, h.ref.2]
  generalize (s.globalToLocal x y) = p
  constructor
  · intro hh
    by_contra hc
    rw [if_pos] at hh
    · cases hh
    · by_contra hd
      push Not at hd
      exact hc ⟨⟨by linarith, by linarith⟩, by linarith, by linarith⟩
  · rintro ⟨⟨h1, h2⟩, h3, h4⟩
    rw [if_neg]
    rintro (h | h | h | h) <;> linarith

theorem bilinear_bounds {a b c u v p q m M : ℝ} (h0 : 0 ≤ u) (h1 : u ≤ p) (h2 : 0 ≤ v) (h3 : v ≤ q)
    (m0 : m ≤ c) (m1 : m ≤ a * p + c) (m2 : m ≤ b * q + c) (m3 : m ≤ a * p + b * q + c)
    (M0 : c ≤ M) (M1 : a * p + c ≤ M) (M2 : b * q + c ≤ M) (M3 : a * p + b * q + c ≤ M) :
    m ≤ a * u + b * v + c ∧ a * u + b * v + c ≤ M := by
  rcases le_total 0 a with ha | ha <;> rcases le_total 0 b with hb | hb <;>
  · have e1 := mul_nonneg (abs_nonneg a) h0
    have e2 := mul_le_mul_of_nonneg_left h1 (abs_nonneg a)
    have e3 := mul_nonneg (abs_nonneg b) h2
    have e4 := mul_le_mul_of_nonneg_left h3 (abs_nonneg b)
    simp only [abs_of_nonneg, abs_of_nonpos, ha, hb] at e1 e2 e3 e4
    constructor <;> nlinarith

/-- C82. Every point inside a rotated surface lies in its bounding box. -/
theorem rot_box_contains {s : RotSurf} (h : Boxed s) {x y : ℝ} (hin : s.isInsideSurface x y = true) :
    s.x_min ≤ x ∧ x ≤ s.x_max ∧ s.y_min ≤ y ∧ y ≤ s.y_max := by
  obtain ⟨⟨h1, h2⟩, h3, h4⟩ := (rot_inside_iff h x y).1 hin
  have hg := localToGlobal_globalToLocal s x y
  generalize s.globalToLocal x y = p at *
  obtain ⟨u, v⟩ := p
  dsimp only at h1 h2 h3 h4 hg
  have hx : x = Real.cos s.angle * u + (-Real.sin s.angle) * v + s.x_ref := by
    have := congrArg Prod.fst hg
    simp only [RotSurf.localToGlobal] at this
    rw [← this]; ring
  have hy : y = Real.sin s.angle * u + Real.cos s.angle * v + s.y_ref := by
    have := congrArg Prod.snd hg
    simp only [RotSurf.localToGlobal] at this
    rw [← this]
  have hb := h.box
  have b1 : s.x_min = s.calculateMinMaxXY.x_min := by rw [hb]
  have b2 : s.x_max = s.calculateMinMaxXY.x_max := by rw [hb]
  have b3 : s.y_min = s.calculateMinMaxXY.y_min := by rw [hb]
  have b4 : s.y_max = s.calculateMinMaxXY.y_max := by rw [hb]
  rw [b1, b2, b3, b4, hx, hy]
  unfold RotSurf.calculateMinMaxXY RotSurf.localToGlobal
  dsimp only
  have X := bilinear_bounds (a := Real.cos s.angle) (b := -Real.sin s.angle) (c := s.x_ref) h1 h2 h3 h4
    (m := min (min (min (Real.cos s.angle * 0 - Real.sin s.angle * 0 + s.x_ref)
      (Real.cos s.angle * s.surf.lx - Real.sin s.angle * 0 + s.x_ref))
      (Real.cos s.angle * 0 - Real.sin s.angle * s.surf.ly + s.x_ref))
      (Real.cos s.angle * s.surf.lx - Real.sin s.angle * s.surf.ly + s.x_ref))
    (M := max (max (max (Real.cos s.angle * 0 - Real.sin s.angle * 0 + s.x_ref)
      (Real.cos s.angle * s.surf.lx - Real.sin s.angle * 0 + s.x_ref))
      (Real.cos s.angle * 0 - Real.sin s.angle * s.surf.ly + s.x_ref))
      (Real.cos s.angle * s.surf.lx - Real.sin s.angle * s.surf.ly + s.x_ref))
    (by refine (min_le_left _ _).trans ((min_le_left _ _).trans ((min_le_left _ _).trans ?_)); linarith)
    (by refine (min_le_left _ _).trans ((min_le_left _ _).trans ((min_le_right _ _).trans ?_)); linarith)
    (by refine (min_le_left _ _).trans ((min_le_right _ _).trans ?_); linarith)
    (by refine (min_le_right _ _).trans ?_; linarith)
    (by refine le_trans ?_ ((le_max_left _ _).trans ((le_max_left _ _).trans (le_max_left _ _))); linarith)
    (by refine le_trans ?_ ((le_max_right _ _).trans ((le_max_left _ _).trans (le_max_left _ _))); linarith)
    (by refine le_trans ?_ ((le_max_right _ _).trans (le_max_left _ _)); linarith)
    (by refine le_trans ?_ (le_max_right _ _); linarith)
  have Y := bilinear_bounds (a := Real.sin s.angle) (b := Real.cos s.angle) (c := s.y_ref) h1 h2 h3 h4
    (m := min (min (min (Real.sin s.angle * 0 + Real.cos s.angle * 0 + s.y_ref)
      (Real.sin s.angle * s.surf.lx + Real.cos s.angle * 0 + s.y_ref))
      (Real.sin s.angle * 0 + Real.cos s.angle * s.surf.ly + s.y_ref))
      (Real.sin s.angle * s.surf.lx + Real.cos s.angle * s.surf.ly + s.y_ref))
    (M := max (max (max (Real.sin s.angle * 0 + Real.cos s.angle * 0 + s.y_ref)
      (Real.sin s.angle * s.surf.lx + Real.cos s.angle * 0 + s.y_ref))
      (Real.sin s.angle * 0 + Real.cos s.angle * s.surf.ly + s.y_ref))
      (Real.sin s.angle * s.surf.lx + Real.cos s.angle * s.surf.ly + s.y_ref))
    (by refine (min_le_left _ _).trans ((min_le_left _ _).trans ((min_le_left _ _).trans ?_)); linarith)
    (by refine (min_le_left _ _).trans ((min_le_left _ _).trans ((min_le_right _ _).trans ?_)); linarith)
    (by refine (min_le_left _ _).trans ((min_le_right _ _).trans ?_); linarith)
    (by refine (min_le_right _ _).trans ?_; linarith)
    (by refine le_trans ?_ ((le_max_left _ _).trans ((le_max_left _ _).trans (le_max_left _ _))); linarith)
    (by refine le_trans ?_ ((le_max_right _ _).trans ((le_max_left _ _).trans (le_max_left _ _))); linarith)
    (by refine le_trans ?_ ((le_max_right _ _).trans (le_max_left _ _)); linarith)
    (by refine le_trans ?_ (le_max_right _ _); linarith)
  exact ⟨X.1, X.2, Y.1, Y.2⟩

/-- The corners of a rotated surface are inside it. -/
theorem rot_corner_inside {s : RotSurf} (h : Boxed s) {u v : ℝ} (hu : u = 0 ∨ u = s.surf.lx)
    (hv : v = 0 ∨ v = s.surf.ly) :
    s.isInsideSurface (s.localToGlobal u v).1 (s.localToGlobal u v).2 = true := by
  rw [rot_inside_iff h, globalToLocal_localToGlobal]
  have := h.pos
  rcases hu with rfl | rfl <;> rcases hv with rfl | rfl <;>
    exact ⟨⟨by linarith, by linarith⟩, by linarith, by linarith⟩

theorem min4 (a b c d : ℝ) : min (min (min a b) c) d = a ∨ min (min (min a b) c) d = b ∨
    min (min (min a b) c) d = c ∨ min (min (min a b) c) d = d := by
  rcases min_choice (min (min a b) c) d with h | h <;> rw [h]
  · rcases min_choice (min a b) c with h | h <;> rw [h]
    · rcases min_choice a b with h | h <;> rw [h] <;> simp
    · simp
  · simp

theorem max4 (a b c d : ℝ) : max (max (max a b) c) d = a ∨ max (max (max a b) c) d = b ∨
    max (max (max a b) c) d = c ∨ max (max (max a b) c) d = d := by
  rcases max_choice (max (max a b) c) d with h | h <;> rw [h]
  · rcases max_choice (max a b) c with h | h <;> rw [h]
    · rcases max_choice a b with h | h <;> rw [h] <;> simp
    · simp
  · simp

/-- C82. The bounding box is the smallest: each of its sides touches the surface. -/
theorem rot_box_tight {s : RotSurf} (h : Boxed s) :
    (∃ y, s.isInsideSurface s.x_min y = true) ∧ (∃ y, s.isInsideSurface s.x_max y = true) ∧
    (∃ x, s.isInsideSurface x s.y_min = true) ∧ ∃ x, s.isInsideSurface x s.y_max = true := by
  have hb := h.box
  have b1 : s.x_min = s.calculateMinMaxXY.x_min := by rw [hb]
  have b2 : s.x_max = s.calculateMinMaxXY.x_max := by rw [hb]
  have b3 : s.y_min = s.calculateMinMaxXY.y_min := by rw [hb]
  have b4 : s.y_max = s.calculateMinMaxXY.y_max := by rw [hb]
  have c00 := rot_corner_inside h (Or.inl rfl) (Or.inl rfl)
  have c10 := rot_corner_inside h (Or.inr rfl) (Or.inl rfl)
  have c01 := rot_corner_inside h (Or.inl rfl) (Or.inr rfl)
  have c11 := rot_corner_inside h (Or.inr rfl) (Or.inr rfl)
  refine ⟨?_, ?_, ?_, ?_⟩
  · rw [b1]
    unfold RotSurf.calculateMinMaxXY
    dsimp only
    rcases min4 (s.localToGlobal 0 0).1 (s.localToGlobal s.surf.lx 0).1
      (s.localToGlobal 0 s.surf.ly).1 (s.localToGlobal s.surf.lx s.surf.ly).1 with e | e | e | e <;>
      rw [e]
    exacts [⟨_, c00⟩, ⟨_, c10⟩, ⟨_, c01⟩, ⟨_, c11⟩]
  · rw [b2]
    unfold RotSurf.calculateMinMaxXY
    dsimp only
    rcases max4 (s.localToGlobal 0 0).1 (s.localToGlobal s.surf.lx 0).1
      (s.localToGlobal 0 s.surf.ly).1 (s.localToGlobal s.surf.lx s.surf.ly).1 with e | e | e | e <;>
      rw [e]
    exacts [⟨_, c00⟩, ⟨_, c10⟩, ⟨_, c01⟩, ⟨_, c11⟩]
  · rw [b3]
    unfold RotSurf.calculateMinMaxXY
    dsimp only
    rcases min4 (s.localToGlobal 0 0).2 (s.localToGlobal s.surf.lx 0).2
      (s.localToGlobal 0 s.surf.ly).2 (s.localToGlobal s.surf.lx s.surf.ly).2 with e | e | e | e <;>
      rw [e]
    exacts [⟨_, c00⟩, ⟨_, c10⟩, ⟨_, c01⟩, ⟨_, c11⟩]
  · rw [b4]
    unfold RotSurf.calculateMinMaxXY
    dsimp only
    rcases max4 (s.localToGlobal 0 0).2 (s.localToGlobal s.surf.lx 0).2
      (s.localToGlobal 0 s.surf.ly).2 (s.localToGlobal s.surf.lx s.surf.ly).2 with e | e | e | e <;>
      rw [e]
    exacts [⟨_, c00⟩, ⟨_, c10⟩, ⟨_, c01⟩, ⟨_, c11⟩]

/-- C82. If all of a rectangle is inside a rotated surface, `EnclosesRectangle` says so. The converse is
false, see `enclosesRectangle_violation`. -/
theorem enclosesRectangle_partial {s : RotSurf} (h : Boxed s) {x0 x1 y0 y1 : ℝ} (hx : x0 ≤ x1)
    (hy : y0 ≤ y1)
    (hin : ∀ x y, x0 ≤ x → x ≤ x1 → y0 ≤ y → y ≤ y1 → s.isInsideSurface x y = true) :
    s.enclosesRectangle x0 x1 y0 y1 = true := by
  have h0 := rot_box_contains h (hin x0 y0 le_rfl hx le_rfl hy)
  have h1 := rot_box_contains h (hin x1 y1 hx le_rfl hy le_rfl)
  unfold RotSurf.enclosesRectangle
  rw [if_neg]
  rintro (h | h | h | h) <;> linarith

/-- C82. `EnclosesRectangle` also says yes to the whole bounding box, whose corner is outside the surface:
here a square turned by an eighth of a turn. -/
theorem enclosesRectangle_violation :
    ∃ s : RotSurf, Boxed s ∧ s.enclosesRectangle s.x_min s.x_max s.y_min s.y_max = true ∧
      s.isInsideSurface s.x_min s.y_min = false := by
  obtain ⟨c, hc, hc1, hc2⟩ : ∃ c : ℝ, 0 < c ∧ Real.cos (Real.pi / 4) = c ∧ Real.sin (Real.pi / 4) = c :=
    ⟨Real.sqrt 2 / 2, by positivity, Real.cos_pi_div_four, Real.sin_pi_div_four⟩
  have hb : Boxed (RotSurf.ofGrid 0 0 1 1 ⟨2, 2, [0, 0, 0, 0]⟩ (Real.pi / 4)) :=
    boxed_ofGrid zero_le_one zero_le_one
  refine ⟨_, hb, ?_, ?_⟩
  · unfold RotSurf.enclosesRectangle
    rw [if_neg]
    rintro (h | h | h | h) <;> exact lt_irrefl _ h
  · have hx : (RotSurf.ofGrid 0 0 1 1 ⟨2, 2, [0, 0, 0, 0]⟩ (Real.pi / 4)).x_min = -c := by
      simp only [RotSurf.ofGrid, RotSurf.start, RotSurf.calculateMinMaxXY, RotSurf.localToGlobal,
        RegSurf.ofGrid, hc1, hc2, mul_zero, mul_one, sub_zero, zero_sub, add_zero, sub_self]
      rw [min_eq_left hc.le, min_eq_right (a := (0 : ℝ)) (b := -c) (by linarith),
        min_eq_left (by linarith)]
    have hy : (RotSurf.ofGrid 0 0 1 1 ⟨2, 2, [0, 0, 0, 0]⟩ (Real.pi / 4)).y_min = 0 := by
      simp only [RotSurf.ofGrid, RotSurf.start, RotSurf.calculateMinMaxXY, RotSurf.localToGlobal,
        RegSurf.ofGrid, hc1, hc2, mul_zero, mul_one, add_zero, zero_add]
      rw [min_eq_left hc.le, min_eq_left hc.le, min_eq_left (by linarith)]
    rw [Bool.eq_false_iff, Ne, rot_inside_iff hb, hx, hy]
    rintro ⟨⟨h1, -⟩, -⟩
    simp only [RotSurf.globalToLocal, RotSurf.ofGrid, RotSurf.start, RotSurf.calculateMinMaxXY, hc1,
      hc2] at h1
    nlinarith

/-- C82. `SetAngle` leaves the bounding box of the old angle: here a quarter turn of the unit square, after
which a point inside the surface is outside the box. -/
theorem setAngle_violation :
    let s := (RotSurf.ofGrid 0 0 1 1 ⟨2, 2, [0, 0, 0, 0]⟩ 0).setAngle (Real.pi / 2)
    s.isInsideSurface (-1) 0 = true ∧ s.x_min = 0 := by
  intro s
  have hx : s.x_min = 0 := by
    simp [s, RotSurf.setAngle, RotSurf.ofGrid, RotSurf.start, RotSurf.calculateMinMaxXY,
      RotSurf.localToGlobal, RegSurf.ofGrid]
  refine ⟨?_, hx⟩
  norm_num [s, RotSurf.setAngle, RotSurf.isInsideSurface, RotSurf.globalToLocal, RotSurf.ofGrid,
    RotSurf.start, RotSurf.calculateMinMaxXY, RegSurf.isInsideSurface, RegSurf.ofGrid, RegSurf.xMax,
    RegSurf.yMax]

/-- C82. Arithmetic with another surface, evaluated at the turned nodes. -/
theorem rot_nonConform_spec {s : RotSurf} {z w : ℕ → ℕ → ℝ} (h : HasValues s.surf z) {s2 : SurfaceIf}
    {op : ℝ → ℝ → Res ℝ} (f : ℝ → ℝ → ℝ)
    (hw : ∀ i j, i < s.surf.grid.ni → j < s.surf.grid.nj → z i j ≠ s.surf.missing →
      s2.getZ (s.getXY i j).1 (s.getXY i j).2 = .ok (w i j) ∧
      (¬ s2.isMissing (w i j) → op (z i j) (w i j) = .ok (f (z i j) (w i j)))) :
    ∃ t, s.nonConform op s2 = .ok { s with surf := t } ∧
      SameBut s.surf t (combined s.surf.missing s2.isMissing f z w) := by
  have key := nonConform_spec (s := s.surf) (z := z) (w := w) h
    (s2 := ⟨fun x y => s2.getZ (s.localToGlobal (x - s.x_ref) (y - s.y_ref)).1
      (s.localToGlobal (x - s.x_ref) (y - s.y_ref)).2, s2.isMissing⟩) (op := op) f hw
  obtain ⟨t, h1, h2⟩ := key
  refine ⟨t, ?_, h2⟩
  unfold RegSurf.nonConform at h1
  simp only [Res.monad_bind_eq] at h1
  obtain ⟨d, hd, ht⟩ := Res.bind_eq_ok.1 h1
  unfold RotSurf.nonConform
  simp only [Res.monad_bind_eq]
  have he : nonConformLoop s.getXYIndex s.surf.missing op s2 s.surf.grid.data = .ok d := by
    rw [← hd]
    unfold nonConformLoop RotSurf.getXYIndex
    simp only [Res.monad_bind_eq, Res.bind_assoc, Res.bind_ok]
  rw [he, Res.bind_ok, ← Res.ok.inj ht]

/-- The hypotheses are met: a turned surface of 3 by 2 nodes. -/
example : Boxed (RotSurf.ofGrid 10 20 4 1 ⟨3, 2, [1, 2, 3, 4, -999, 6]⟩ 1) ∧
    ∃ z, HasNodes (RotSurf.ofGrid 10 20 4 1 ⟨3, 2, [1, 2, 3, 4, -999, 6]⟩ 1).surf z :=
  ⟨boxed_ofGrid (by norm_num) (by norm_num), _,
    hasNodes_ofGrid (m := -999.0) rfl (by norm_num) (by norm_num) (fun _ => by norm_num)
      (fun _ => by norm_num)⟩

end Verif
