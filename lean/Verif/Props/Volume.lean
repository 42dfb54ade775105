import Verif.Spec.Volume
import Verif.Props.SurfaceRot
import Mathlib.Tactic.LinearCombination

/-!
# Volumes
-/

namespace Verif

open Classical

theorem areaPoint_coords (x0 y0 a s t : ℝ) :
    ((areaPoint x0 y0 a s t).1 - x0) * Real.cos a + ((areaPoint x0 y0 a s t).2 - y0) * Real.sin a = s ∧
    -((areaPoint x0 y0 a s t).1 - x0) * Real.sin a + ((areaPoint x0 y0 a s t).2 - y0) * Real.cos a = t := by
  have h := Real.sin_sq_add_cos_sq a
  simp only [areaPoint]
  constructor
  · linear_combination s * h
  · linear_combination t * h

theorem areaPoint_surj (x0 y0 a : ℝ) (p : ℝ × ℝ) :
    p = areaPoint x0 y0 a ((p.1 - x0) * Real.cos a + (p.2 - y0) * Real.sin a) (-(p.1 - x0) * Real.sin a + (p.2 - y0) * Real.cos a) := by
  have h := Real.sin_sq_add_cos_sq a
  apply Prod.ext
  · simp only [areaPoint]
    linear_combination -(p.1 - x0) * h
  · simp only [areaPoint]
    linear_combination -(p.2 - y0) * h

theorem inArea_iff (x0 y0 a l m : ℝ) (p : ℝ × ℝ) : InArea x0 y0 a l m p ↔
    (0 ≤ (p.1 - x0) * Real.cos a + (p.2 - y0) * Real.sin a ∧ (p.1 - x0) * Real.cos a + (p.2 - y0) * Real.sin a ≤ l) ∧
    0 ≤ -(p.1 - x0) * Real.sin a + (p.2 - y0) * Real.cos a ∧ -(p.1 - x0) * Real.sin a + (p.2 - y0) * Real.cos a ≤ m := by
  constructor
  · rintro ⟨s, t, h1, h2, h3, h4, rfl⟩
    obtain ⟨e1, e2⟩ := areaPoint_coords x0 y0 a s t
    rw [e1, e2]
    exact ⟨⟨h1, h2⟩, h3, h4⟩
  · rintro ⟨⟨h1, h2⟩, h3, h4⟩
    exact ⟨_, _, h1, h2, h3, h4, areaPoint_surj x0 y0 a p⟩

/-- `IsInside(x, y)` tells whether the point is in the turned rectangle. -/
theorem volume_isInsideXY (V : Volume) (x y : ℝ) : V.isInsideXY x y = true ↔ InArea V.x_min V.y_min V.angle V.lx V.ly (x, y) := by
  rw [inArea_iff]
  unfold Volume.isInsideXY
  have z : (0.0 : ℝ) = 0 := by norm_num
  simp only [z]
  split_ifs with h
  · simp only [Bool.false_eq_true, false_iff]
    rintro ⟨⟨h1, h2⟩, h3, h4⟩
    rcases h with h | h | h | h <;> linarith
  · push Not at h
    simp only [true_iff]
    exact ⟨⟨h.1, h.2.1⟩, h.2.2.1, h.2.2.2⟩

/-- `IsInsideTolerance` tells whether the point is in the rectangle that is larger by the tolerance on each side. -/
theorem volume_isInsideTolerance (V : Volume) (x y : ℝ) : V.isInsideTolerance x y = true ↔
    InArea (areaPoint V.x_min V.y_min V.angle (-V.tol) (-V.tol)).1 (areaPoint V.x_min V.y_min V.angle (-V.tol) (-V.tol)).2
      V.angle (V.lx + 2 * V.tol) (V.ly + 2 * V.tol) (x, y) := by
  rw [inArea_iff]
  have h0 := Real.sin_sq_add_cos_sq V.angle
  have e1 : (x - (areaPoint V.x_min V.y_min V.angle (-V.tol) (-V.tol)).1) * Real.cos V.angle +
      (y - (areaPoint V.x_min V.y_min V.angle (-V.tol) (-V.tol)).2) * Real.sin V.angle =
      (x - V.x_min) * Real.cos V.angle + (y - V.y_min) * Real.sin V.angle + V.tol := by
    simp only [areaPoint]
    linear_combination V.tol * h0
  have e2 : -(x - (areaPoint V.x_min V.y_min V.angle (-V.tol) (-V.tol)).1) * Real.sin V.angle +
      (y - (areaPoint V.x_min V.y_min V.angle (-V.tol) (-V.tol)).2) * Real.cos V.angle =
      -(x - V.x_min) * Real.sin V.angle + (y - V.y_min) * Real.cos V.angle + V.tol := by
    simp only [areaPoint]
    linear_combination V.tol * h0
  simp only
  rw [e1, e2]
  unfold Volume.isInsideTolerance
  have z : (0.0 : ℝ) = 0 := by norm_num
  simp only [z]
  split_ifs with h
  · simp only [Bool.false_eq_true, false_iff]
    rintro ⟨⟨h1, h2⟩, h3, h4⟩
    rcases h with h | h | h | h <;> linarith
  · push Not at h
    simp only [true_iff]
    exact ⟨⟨h.1, by linarith [h.2.1]⟩, h.2.2.1, by linarith [h.2.2.2]⟩

/-- Relative coordinates between 0 and 1 give the points of the rectangle, each once if it is not degenerate. -/
theorem volume_fromRelative (V : Volume) (hx : 0 < V.lx) (hy : 0 < V.ly) :
    (∀ p, V.isInsideXY p.1 p.2 = true ↔ ∃ r s, 0 ≤ r ∧ r ≤ 1 ∧ 0 ≤ s ∧ s ≤ 1 ∧ p = V.fromRelative r s) ∧
    ∀ r s r' s', V.fromRelative r s = V.fromRelative r' s' → r = r' ∧ s = s' := by
  have e : ∀ r s, V.fromRelative r s = areaPoint V.x_min V.y_min V.angle (r * V.lx) (s * V.ly) := by
    intro r s
    unfold Volume.fromRelative Volume.localToGlobal areaPoint
    apply Prod.ext <;> simp only <;> ring
  constructor
  · intro p
    rw [volume_isInsideXY]
    constructor
    · rintro ⟨s, t, h1, h2, h3, h4, h5⟩
      refine ⟨s / V.lx, t / V.ly, div_nonneg h1 hx.le, (div_le_one hx).2 h2, div_nonneg h3 hy.le, (div_le_one hy).2 h4, ?_⟩
      rw [e, div_mul_cancel₀ _ hx.ne', div_mul_cancel₀ _ hy.ne']
      exact h5
    · rintro ⟨r, s, h1, h2, h3, h4, rfl⟩
      exact ⟨r * V.lx, s * V.ly, by positivity, by nlinarith, by positivity, by nlinarith, e r s⟩
  · intro r s r' s' h
    rw [e, e] at h
    obtain ⟨a1, a2⟩ := areaPoint_coords V.x_min V.y_min V.angle (r * V.lx) (s * V.ly)
    obtain ⟨b1, b2⟩ := areaPoint_coords V.x_min V.y_min V.angle (r' * V.lx) (s' * V.ly)
    rw [h] at a1 a2
    exact ⟨mul_right_cancel₀ hx.ne' (a1.symm.trans b1), mul_right_cancel₀ hy.ne' (a2.symm.trans b2)⟩

/-- Local and global coordinates are inverse to each other. -/
theorem volume_coords (V : Volume) (p : ℝ × ℝ) :
    V.localToGlobal (V.globalToLocal p.1 p.2).1 (V.globalToLocal p.1 p.2).2 = p ∧
    V.globalToLocal (V.localToGlobal p.1 p.2).1 (V.localToGlobal p.1 p.2).2 = p := by
  have h := Real.sin_sq_add_cos_sq V.angle
  constructor <;> apply Prod.ext <;> simp only [Volume.localToGlobal, Volume.globalToLocal]
  · linear_combination (p.1 - V.x_min) * h
  · linear_combination (p.2 - V.y_min) * h
  · linear_combination p.1 * h
  · linear_combination p.2 * h

/-- `IsInside(x, y, z)` and `IsInsideZTolerance` for surfaces that have a height at the point. -/
theorem volume_isInside_partial (V : Volume) {zt zb : ℝ → ℝ → ℝ} (ht : V.top.HasHeights zt) (hb : V.bot.HasHeights zb) (x y z e : ℝ) :
    (V.isInside x y z = .ok (decide (InArea V.x_min V.y_min V.angle V.lx V.ly (x, y) ∧ zt x y < z ∧ z < zb x y))) ∧
    (V.isInsideZTolerance x y z e =
      .ok (decide (InArea V.x_min V.y_min V.angle V.lx V.ly (x, y) ∧ zt x y - e < z ∧ z < zb x y + e))) := by
  rw [← volume_isInsideXY]
  constructor
  · unfold Volume.isInside
    by_cases h1 : V.isInsideXY x y = true
    · rw [if_pos h1, ht x y, hb x y]
      show (if z > zt x y then Res.ok (decide (z < zb x y)) else Res.ok false) = _
      by_cases h2 : z > zt x y
      · rw [if_pos h2]; simp [h1, h2]
      · rw [if_neg h2]; simp [h2]
    · rw [if_neg h1]; simp [h1]
  · unfold Volume.isInsideZTolerance
    by_cases h1 : V.isInsideXY x y = true
    · rw [if_pos h1, ht x y, hb x y]
      show (if z > zt x y - e then Res.ok (decide (z < zb x y + e)) else Res.ok false) = _
      by_cases h2 : z > zt x y - e
      · rw [if_pos h2]; simp [h1, h2]
      · rw [if_neg h2]
        have : ¬ (zt x y - e < z) := h2
        simp only [this, false_and, and_false, decide_false]
    · rw [if_neg h1]; simp [h1]

/-- A point where the top is not defined, here far outside of it, is inside: the missing value is taken for a height. -/
theorem volume_isInside_violation : ∃ V : Volume, V.top = .regular (.mkConst 0 0 1 1 2 2 3) ∧ V.top.getZ 7 7 = .ok (-999) ∧
    V.top.isMissing (-999) ∧ V.isInside 7 7 2 = .ok true := by
  have hm : (-999.0 : ℝ) = -999 := by norm_num
  have hz : (VSurf.regular (.mkConst 0 0 1 1 2 2 3)).getZ 7 7 = .ok (-999) := by
    have f1 : ⌊(7 : ℝ)⌋ = 7 := by rw [Int.floor_eq_iff]; norm_num
    have hc : (RegSurf.mkConst 0 0 1 1 2 2 3).getCorners 7 7 = .ok [-999.0, -999.0, -999.0, -999.0] := by
      norm_num [RegSurf.getCorners, RegSurf.mkConst, RegSurf.findGeneralIndex, divD, spacing, toInt32, succInt32, f1, Grid2D.mk',
        Res.monad_bind_eq, Res.bind_ok]
    show (RegSurf.mkConst 0 0 1 1 2 2 3).getZ 7 7 = _
    unfold RegSurf.getZ
    rw [hc]
    simp [forRange, forN, rd, RegSurf.IsMissing, RegSurf.mkConst, Res.monad_bind_eq, Res.bind_ok, hm]
  have hm' : (VSurf.regular (.mkConst 0 0 1 1 2 2 3)).isMissing (-999) := hm.symm
  refine ⟨⟨5, 5, 4, 4, 1, .regular (.mkConst 0 0 1 1 2 2 3), .constant 10, none, none, 0, 1e-6⟩, rfl, hz, hm', ?_⟩
  unfold Volume.isInside
  rw [if_pos (by norm_num [Volume.isInsideXY]), hz]
  norm_num [VSurf.constant, Res.monad_bind_eq, Res.bind_ok]

/-- A linear function on a rectangle is between the least and the greatest of its values at the corners. -/
theorem corner_bounds {a b c u v p q : ℝ} (f : ℝ → ℝ → ℝ) (hf : ∀ u v, f u v = a * u + b * v + c) (h0 : 0 ≤ u) (h1 : u ≤ p) (h2 : 0 ≤ v) (h3 : v ≤ q) :
    min (min (min (f 0 0) (f p 0)) (f 0 q)) (f p q) ≤ f u v ∧ f u v ≤ max (max (max (f 0 0) (f p 0)) (f 0 q)) (f p q) := by
  have e0 : f 0 0 = c := by rw [hf]; ring
  have e1 : f p 0 = a * p + c := by rw [hf]; ring
  have e2 : f 0 q = b * q + c := by rw [hf]; ring
  have e3 : f p q = a * p + b * q + c := hf p q
  rw [hf u v]
  apply bilinear_bounds h0 h1 h2 h3
  · rw [← e0]; exact (min_le_left _ _).trans ((min_le_left _ _).trans (min_le_left _ _))
  · rw [← e1]; exact (min_le_left _ _).trans ((min_le_left _ _).trans (min_le_right _ _))
  · rw [← e2]; exact (min_le_left _ _).trans (min_le_right _ _)
  · rw [← e3]; exact min_le_right _ _
  · rw [← e0]; exact (le_max_left _ _).trans ((le_max_left _ _).trans (le_max_left _ _))
  · rw [← e1]; exact (le_max_right _ _).trans ((le_max_left _ _).trans (le_max_left _ _))
  · rw [← e2]; exact (le_max_right _ _).trans (le_max_left _ _)
  · rw [← e3]; exact le_max_right _ _

/-- `CheckSurface` accepts a surface only if it encloses an upright rectangle that contains all of the area, and asks for the smallest
one: each side of it meets the area. -/
theorem volume_checkSurface (V : Volume) (hx : 0 ≤ V.lx) (hy : 0 ≤ V.ly) (S : VSurf) : ∃ x0 x1 y0 y1,
    V.checkSurface S = S.encloses x0 x1 y0 y1 ∧
    (∀ x y, V.isInsideXY x y = true → x0 ≤ x ∧ x ≤ x1 ∧ y0 ≤ y ∧ y ≤ y1) ∧
    (∃ y, V.isInsideXY x0 y = true) ∧ (∃ y, V.isInsideXY x1 y = true) ∧ (∃ x, V.isInsideXY x y0 = true) ∧ (∃ x, V.isInsideXY x y1 = true) := by
  have e : ∀ s t, V.localToGlobal s t = areaPoint V.x_min V.y_min V.angle s t := by
    intro s t
    unfold Volume.localToGlobal areaPoint
    apply Prod.ext <;> simp only <;> ring
  have corner : ∀ s t, (s = 0 ∨ s = V.lx) → (t = 0 ∨ t = V.ly) → V.isInsideXY (V.localToGlobal s t).1 (V.localToGlobal s t).2 = true := by
    intro s t hs ht
    rw [volume_isInsideXY, e]
    refine ⟨s, t, ?_, ?_, ?_, ?_, rfl⟩
    · rcases hs with h | h <;> rw [h]; exact hx
    · rcases hs with h | h <;> rw [h]; exact hx
    · rcases ht with h | h <;> rw [h]; exact hy
    · rcases ht with h | h <;> rw [h]; exact hy
  have c00 := corner 0 0 (Or.inl rfl) (Or.inl rfl)
  have c10 := corner V.lx 0 (Or.inr rfl) (Or.inl rfl)
  have c01 := corner 0 V.ly (Or.inl rfl) (Or.inr rfl)
  have c11 := corner V.lx V.ly (Or.inr rfl) (Or.inr rfl)
  refine ⟨_, _, _, _, rfl, ?_, ?_, ?_, ?_, ?_⟩
  · intro x y h
    rw [volume_isInsideXY] at h
    obtain ⟨s, t, h1, h2, h3, h4, h5⟩ := h
    rw [← e] at h5
    have ex := congrArg Prod.fst h5
    have ey := congrArg Prod.snd h5
    simp only at ex ey
    have X := corner_bounds (fun s t => (V.localToGlobal s t).1) (a := Real.cos V.angle) (b := -Real.sin V.angle) (c := V.x_min)
      (fun s t => by simp only [Volume.localToGlobal]; ring) h1 h2 h3 h4
    have Y := corner_bounds (fun s t => (V.localToGlobal s t).2) (a := Real.sin V.angle) (b := Real.cos V.angle) (c := V.y_min)
      (fun s t => by simp only [Volume.localToGlobal]) h1 h2 h3 h4
    rw [ex, ey]
    exact ⟨X.1, X.2, Y.1, Y.2⟩
  · rcases min4 (V.localToGlobal 0 0).1 (V.localToGlobal V.lx 0).1 (V.localToGlobal 0 V.ly).1 (V.localToGlobal V.lx V.ly).1 with e | e | e | e <;> rw [e]
    exacts [⟨_, c00⟩, ⟨_, c10⟩, ⟨_, c01⟩, ⟨_, c11⟩]
  · rcases max4 (V.localToGlobal 0 0).1 (V.localToGlobal V.lx 0).1 (V.localToGlobal 0 V.ly).1 (V.localToGlobal V.lx V.ly).1 with e | e | e | e <;> rw [e]
    exacts [⟨_, c00⟩, ⟨_, c10⟩, ⟨_, c01⟩, ⟨_, c11⟩]
  · rcases min4 (V.localToGlobal 0 0).2 (V.localToGlobal V.lx 0).2 (V.localToGlobal 0 V.ly).2 (V.localToGlobal V.lx V.ly).2 with e | e | e | e <;> rw [e]
    exacts [⟨_, c00⟩, ⟨_, c10⟩, ⟨_, c01⟩, ⟨_, c11⟩]
  · rcases max4 (V.localToGlobal 0 0).2 (V.localToGlobal V.lx 0).2 (V.localToGlobal 0 V.ly).2 (V.localToGlobal V.lx V.ly).2 with e | e | e | e <;> rw [e]
    exacts [⟨_, c00⟩, ⟨_, c10⟩, ⟨_, c01⟩, ⟨_, c11⟩]

/-- A regular surface that is accepted is defined on the whole area. Rotated surfaces are accepted if their bounding box is large
enough, see C82. -/
theorem volume_checkSurface_regular (V : Volume) (hx : 0 ≤ V.lx) (hy : 0 ≤ V.ly) (s : RegSurf) : V.checkSurface (.regular s) = true ↔
    ∀ x y, V.isInsideXY x y = true → s.isInsideSurface x y = true := by
  obtain ⟨x0, x1, y0, y1, he, hin, ⟨a, ha⟩, ⟨b, hb⟩, ⟨c, hc⟩, ⟨d, hd⟩⟩ := volume_checkSurface V hx hy (.regular s)
  rw [he]
  show s.enclosesRectangle x0 x1 y0 y1 = true ↔ _
  have key : ∀ x y, s.isInsideSurface x y = true ↔ s.x_min ≤ x ∧ x ≤ s.xMax ∧ s.y_min ≤ y ∧ y ≤ s.yMax := by
    intro x y
    unfold RegSurf.isInsideSurface
    split_ifs with h
    · simp only [Bool.false_eq_true, false_iff]
      rintro ⟨h1, h2, h3, h4⟩
      rcases h with h | h | h | h <;> linarith
    · push Not at h
      simp only [true_iff]
      exact h
  have key2 : s.enclosesRectangle x0 x1 y0 y1 = true ↔ s.x_min ≤ x0 ∧ x1 ≤ s.xMax ∧ s.y_min ≤ y0 ∧ y1 ≤ s.yMax := by
    unfold RegSurf.enclosesRectangle
    split_ifs with h
    · simp only [Bool.false_eq_true, false_iff]
      rintro ⟨h1, h2, h3, h4⟩
      rcases h with h | h | h | h <;> linarith
    · push Not at h
      simp only [true_iff]
      exact h
  rw [key2]
  constructor
  · rintro ⟨h1, h2, h3, h4⟩ x y hxy
    obtain ⟨g1, g2, g3, g4⟩ := hin x y hxy
    rw [key]
    exact ⟨h1.trans g1, g2.trans h2, h3.trans g3, g4.trans h4⟩
  · intro h
    have k1 := (key _ _).1 (h _ _ ha)
    have k2 := (key _ _).1 (h _ _ hb)
    have k3 := (key _ _).1 (h _ _ hc)
    have k4 := (key _ _).1 (h _ _ hd)
    exact ⟨k1.1, k2.2.1, k3.2.2.1, k4.2.2.2⟩

/-- A volume turned by an angle with sine and cosine different from zero, and a point in it. -/
theorem concrete_volume : ∃ V : Volume, V = Volume.ofBox 10 20 100 6 4 50 (Real.pi / 4) ∧ 0 < V.lx ∧ 0 < V.ly ∧ V.isInsideXY 11 23 = true ∧
    V.isInsideXY 8 20 = false ∧ V.top.HasHeights (fun _ _ => 100) ∧ V.bot.HasHeights (fun _ _ => 100 + 50) := by
  have h2 : (1.4 : ℝ) < √2 := by rw [Real.lt_sqrt (by norm_num)]; norm_num
  have h3 : √2 < (1.5 : ℝ) := by rw [Real.sqrt_lt' (by norm_num)]; norm_num
  refine ⟨_, rfl, by norm_num [Volume.ofBox], by norm_num [Volume.ofBox], ?_, ?_, fun x y => rfl, fun x y => rfl⟩
  · unfold Volume.isInsideXY Volume.ofBox
    rw [if_neg]
    simp only [Real.cos_pi_div_four, Real.sin_pi_div_four]
    norm_num at h2 h3
    rintro (h | h | h | h) <;> norm_num at h <;> linarith
  · unfold Volume.isInsideXY Volume.ofBox
    rw [if_pos]
    left
    simp only [Real.cos_pi_div_four, Real.sin_pi_div_four]
    norm_num

end Verif
