import Verif.Props.EclipseNumbers
import Mathlib.Tactic.LinearCombination

/-!
# C146: points in a cell of a corner-point grid
-/

namespace Verif

open Geo

/-- The weights of the four corners of a square at `(u, v)`. -/
def Spec.bilinear (a00 a10 a01 a11 u v : ℝ) : ℝ := (1 - u) * (1 - v) * a00 + u * (1 - v) * a10 + (1 - u) * v * a01 + u * v * a11

/-- The depth at `(u, v)` of the top (`c = 0`) or the bottom (`c = 1`) of a cell. -/
noncomputable def Spec.cellDepth (g : EclipseGeometry) (i j k c : ℕ) (u v : ℝ) : ℝ :=
  Spec.bilinear (g.getZCorner i j k 0 0 c) (g.getZCorner i j k 1 0 c) (g.getZCorner i j k 0 1 c) (g.getZCorner i j k 1 1 c) u v

/-- The point at `(u, v)` of the top or the bottom of a cell: bilinear in depth, and at every depth between the four pillars. -/
noncomputable def Spec.cellSurface (g : EclipseGeometry) (i j k c : ℕ) (u v : ℝ) : Pt :=
  let z := Spec.cellDepth g i j k c u v
  ⟨Spec.bilinear (g.findPointAtPillar i j z).x (g.findPointAtPillar (i + 1) j z).x (g.findPointAtPillar i (j + 1) z).x
      (g.findPointAtPillar (i + 1) (j + 1) z).x u v,
    Spec.bilinear (g.findPointAtPillar i j z).y (g.findPointAtPillar (i + 1) j z).y (g.findPointAtPillar i (j + 1) z).y
      (g.findPointAtPillar (i + 1) (j + 1) z).y u v, z⟩

namespace EclipseGeometry

/-- A pillar is a line in space. -/
theorem pillar_line (g : EclipseGeometry) (i j : ℕ) :
    ∃ A B C D : ℝ, ∀ z, g.findPointAtPillar i j z = ⟨A + B * z, C + D * z, z⟩ := by
  unfold findPointAtPillar
  simp only
  split
  · exact ⟨(g.pillars i j).p1.x, 0, (g.pillars i j).p1.y, 0, fun z => by simp⟩
  · set p := (g.pillars i j).p1
    set d := (g.pillars i j).p2 - p
    refine ⟨p.x - p.z / d.z * d.x, d.x / d.z, p.y - p.z / d.z * d.y, d.y / d.z, fun z => ?_⟩
    ext
    · show p.x + (z - p.z) / d.z * d.x = _; ring
    · show p.y + (z - p.z) / d.z * d.y = _; ring
    · rfl

theorem add_x (p q : Pt) : (p + q).x = p.x + q.x := rfl
theorem add_y (p q : Pt) : (p + q).y = p.y + q.y := rfl
theorem add_z (p q : Pt) : (p + q).z = p.z + q.z := rfl
theorem sub_x (p q : Pt) : (p - q).x = p.x - q.x := rfl
theorem sub_y (p q : Pt) : (p - q).y = p.y - q.y := rfl
theorem sub_z (p q : Pt) : (p - q).z = p.z - q.z := rfl
theorem mul_x (t : ℝ) (p : Pt) : (t * p).x = p.x * t := rfl
theorem mul_y (t : ℝ) (p : Pt) : (t * p).y = p.y * t := rfl
theorem mul_z (t : ℝ) (p : Pt) : (t * p).z = p.z * t := rfl

end EclipseGeometry

open EclipseGeometry in
/-- **C146 (sides).** On the sides of the cell the top and the bottom are found right: there they are bilinear in depth and between
the pillars at every depth. -/
theorem eclipse_surface_sides (g : EclipseGeometry) (i j k c : ℕ) {u v : ℝ} (h : u = 0 ∨ u = 1 ∨ v = 0 ∨ v = 1) :
    g.findPointCellSurface i j k c u v = Spec.cellSurface g i j k c u v := by
  obtain ⟨A0, B0, C0, D0, h0⟩ := g.pillar_line i j
  obtain ⟨A1, B1, C1, D1, h1⟩ := g.pillar_line (i + 1) j
  obtain ⟨A2, B2, C2, D2, h2⟩ := g.pillar_line i (j + 1)
  obtain ⟨A3, B3, C3, D3, h3⟩ := g.pillar_line (i + 1) (j + 1)
  unfold findPointCellSurface Spec.cellSurface Spec.cellDepth Spec.bilinear
  simp only [h0, h1, h2, h3]
  rcases h with rfl | rfl | rfl | rfl <;> ext <;> simp only [add_x, add_y, add_z, sub_x, sub_y, sub_z, mul_x, mul_y, mul_z] <;> ring

open EclipseGeometry in
/-- **C146 (points on the sides of a cell).** On the four sides of a cell the point is on the segment between the top and the bottom;
its corners are the corners of the cell. -/
theorem eclipse_point_in_cell (g : EclipseGeometry) (i j k : ℕ) :
    (∀ u v w, (u = 0 ∨ u = 1 ∨ v = 0 ∨ v = 1) → g.findPointInCell i j k u v w =
      (1 - w) * Spec.cellSurface g i j k 0 u v + w * Spec.cellSurface g i j k 1 u v) ∧
    ∀ a b c : ℕ, a < 2 → b < 2 → c < 2 → g.findPointInCell i j k a b c = g.findCornerPoint i j k a b c := by
  constructor
  · intro u v w h
    unfold findPointInCell
    rw [eclipse_surface_sides g i j k 0 h, eclipse_surface_sides g i j k 1 h]
  · intro a b c ha hb hc
    obtain ⟨A0, B0, C0, D0, h0⟩ := g.pillar_line i j
    obtain ⟨A1, B1, C1, D1, h1⟩ := g.pillar_line (i + 1) j
    obtain ⟨A2, B2, C2, D2, h2⟩ := g.pillar_line i (j + 1)
    obtain ⟨A3, B3, C3, D3, h3⟩ := g.pillar_line (i + 1) (j + 1)
    unfold findPointInCell findCornerPoint
    have s : ∀ c', g.findPointCellSurface i j k c' a b = Spec.cellSurface g i j k c' a b := fun c' =>
      eclipse_surface_sides g i j k c' (by
        rcases (show a = 0 ∨ a = 1 by omega) with rfl | rfl
        · left; simp
        · right; left; simp)
    rw [s, s]
    unfold Spec.cellSurface Spec.cellDepth Spec.bilinear
    have e : (a = 0 ∨ a = 1) ∧ (b = 0 ∨ b = 1) ∧ (c = 0 ∨ c = 1) := by omega
    obtain ⟨rfl | rfl, rfl | rfl, rfl | rfl⟩ := e <;>
      (simp only [add_zero, Nat.cast_zero, Nat.cast_one, h0, h1, h2, h3]
       ext <;> simp only [add_x, add_y, add_z, mul_x, mul_y, mul_z] <;> ring)

open EclipseGeometry in
/-- **C146 (violation, every cell).** Inside the cell the depth is off by the product of the weights of the four corners' distances
and the difference of depth along one side: it is right for all `(u, v)` only if this side is level. -/
theorem eclipse_surface_depth_violation (g : EclipseGeometry) (i j k c : ℕ) (u v : ℝ) :
    (g.findPointCellSurface i j k c u v).z = Spec.cellDepth g i j k c u v -
      (g.getZCorner i j k 1 1 c - g.getZCorner i j k 1 0 c) * (u * (1 - u) * v * (1 - v)) := by
  obtain ⟨A0, B0, C0, D0, h0⟩ := g.pillar_line i j
  obtain ⟨A1, B1, C1, D1, h1⟩ := g.pillar_line (i + 1) j
  obtain ⟨A2, B2, C2, D2, h2⟩ := g.pillar_line i (j + 1)
  obtain ⟨A3, B3, C3, D3, h3⟩ := g.pillar_line (i + 1) (j + 1)
  unfold findPointCellSurface Spec.cellDepth Spec.bilinear
  simp only [h0, h1, h2, h3, add_z, sub_z, mul_z]
  ring

/-- A grid of boxes: vertical pillars at `(x i, y j)`, and layers between the depths `d k`. -/
structure Spec.Boxes (g : EclipseGeometry) (x y d : ℕ → ℝ) : Prop where
  pillar : ∀ i j, (g.pillars i j).p1 = ⟨x i, y j, d 0⟩ ∧ (g.pillars i j).p2 = ⟨x i, y j, d g.nk⟩
  depth : ∀ i j k a b c, i < g.ni → j < g.nj → k < g.nk → a < 2 → b < 2 → c < 2 → g.getZCorner i j k a b c = d (k + c)

namespace EclipseGeometry

theorem boxes_pillar {g : EclipseGeometry} {x y d : ℕ → ℝ} (h : Spec.Boxes g x y d) (i j : ℕ) (z : ℝ) :
    g.findPointAtPillar i j z = ⟨x i, y j, z⟩ := by
  unfold findPointAtPillar
  simp only [(h.pillar i j).1, (h.pillar i j).2]
  split
  · rfl
  · ext
    · show x i + _ * (x i - x i) = _; ring
    · show y j + _ * (y j - y j) = _; ring
    · rfl

end EclipseGeometry

open EclipseGeometry in
/-- **C146 (violation, boxes).** In a grid of boxes the point at `(u, v, w)` has the right `x` and depth, but its `y` is
too small by the product of the width of the cell and `u (1 - u) v (1 - v)`: in the middle by a sixteenth of the width. -/
theorem eclipse_box_violation {g : EclipseGeometry} {x y d : ℕ → ℝ} (h : Spec.Boxes g x y d) {i j k : ℕ} (hi : i < g.ni) (hj : j < g.nj)
    (hk : k < g.nk) (u v w : ℝ) :
    g.findPointInCell i j k u v w = ⟨(1 - u) * x i + u * x (i + 1),
      (1 - v) * y j + v * y (j + 1) - (y (j + 1) - y j) * (u * (1 - u) * v * (1 - v)), (1 - w) * d k + w * d (k + 1)⟩ ∧
    g.findCellCenterPoint i j k = ⟨(x i + x (i + 1)) / 2, (y j + y (j + 1)) / 2, (d k + d (k + 1)) / 2⟩ := by
  constructor
  · unfold findPointInCell findPointCellSurface
    have dp : ∀ a b c, a < 2 → b < 2 → c < 2 → g.getZCorner i j k a b c = d (k + c) := fun a b c => h.depth i j k a b c hi hj hk
    simp only [boxes_pillar h, dp 0 0 0 (by decide) (by decide) (by decide), dp 1 0 0 (by decide) (by decide) (by decide),
      dp 0 1 0 (by decide) (by decide) (by decide), dp 1 1 0 (by decide) (by decide) (by decide),
      dp 0 0 1 (by decide) (by decide) (by decide), dp 1 0 1 (by decide) (by decide) (by decide),
      dp 0 1 1 (by decide) (by decide) (by decide), dp 1 1 1 (by decide) (by decide) (by decide)]
    ext <;> simp only [add_x, add_y, add_z, sub_x, sub_y, sub_z, mul_x, mul_y, mul_z, add_zero] <;> ring
  · unfold findCellCenterPoint findCornerPoint
    have dp : ∀ a b c, a < 2 → b < 2 → c < 2 → g.getZCorner i j k a b c = d (k + c) := fun a b c => h.depth i j k a b c hi hj hk
    simp only [boxes_pillar h, dp 0 0 0 (by decide) (by decide) (by decide), dp 1 0 0 (by decide) (by decide) (by decide),
      dp 0 1 0 (by decide) (by decide) (by decide), dp 1 1 0 (by decide) (by decide) (by decide),
      dp 0 0 1 (by decide) (by decide) (by decide), dp 1 0 1 (by decide) (by decide) (by decide),
      dp 0 1 1 (by decide) (by decide) (by decide), dp 1 1 1 (by decide) (by decide) (by decide)]
    ext <;> simp only [add_x, add_y, add_z, mul_x, mul_y, mul_z, add_zero] <;> ring

/-- A grid of 2 by 2 by 2 boxes of size 1. -/
theorem eclipse_box_example : ∃ g : EclipseGeometry, Spec.Boxes g (fun i => i) (fun j => j) (fun k => k) ∧ (g.ni, g.nj, g.nk) = (2, 2, 2) ∧
    (g.findPointInCell 0 0 0 (1 / 2) (1 / 2) (1 / 2)).y = 7 / 16 ∧ (g.findCellCenterPoint 0 0 0).y = 1 / 2 := by
  let g : EclipseGeometry := ⟨2, 2, 2, [], [], fun i j => ⟨⟨i, j, 0⟩, ⟨i, j, 2⟩, true, true⟩, fun _ _ => true,
    fun n => ((n / 16 + 1) / 2 : ℕ), fun _ _ _ => true⟩
  have h : Spec.Boxes g (fun i => i) (fun j => j) (fun k => k) := by
    refine ⟨fun i j => ⟨by simp [g], by simp [g]⟩, ?_⟩
    intro i j k a b c hi hj hk ha hb hc
    show (((2 * i + a + 2 * 2 * (2 * j + b) + 4 * 2 * 2 * (2 * k + c)) / 16 + 1) / 2 : ℕ) = ((k + c : ℕ) : ℝ)
    congr 1
    have : i < 2 ∧ j < 2 := ⟨hi, hj⟩
    omega
  refine ⟨g, h, rfl, ?_, ?_⟩
  · rw [(eclipse_box_violation h (by decide) (by decide) (by decide) _ _ _).1]; norm_num
  · rw [(eclipse_box_violation h (by decide) (by decide) (by decide) 0 0 0).2]; norm_num

end Verif
