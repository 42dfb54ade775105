import Verif.Spec.Geometry
import Verif.Model.Box

/-!
# What a box is
-/

namespace Verif.Geo

/-- The point `s` along, `t` across and `r` above the reference point of a box. -/
noncomputable def Box.place (B : Box) (s t r : ℝ) : Pt :=
  ⟨B.ref.x + s * Real.cos B.angle - t * Real.sin B.angle, B.ref.y + s * Real.sin B.angle + t * Real.cos B.angle, B.ref.z + r⟩

/-- `q` is a point of the box. -/
def Box.Has (B : Box) (q : Pt) : Prop := ∃ s t r, 0 ≤ s ∧ s ≤ B.lx ∧ 0 ≤ t ∧ t ≤ B.ly ∧ 0 ≤ r ∧ r ≤ B.lz ∧ q = B.place s t r

/-- `q` is a point of one of the six sides of the box. -/
def Box.Surface (B : Box) (q : Pt) : Prop :=
  ∃ s t r, 0 ≤ s ∧ s ≤ B.lx ∧ 0 ≤ t ∧ t ≤ B.ly ∧ 0 ≤ r ∧ r ≤ B.lz ∧ q = B.place s t r ∧
    (s = 0 ∨ s = B.lx ∨ t = 0 ∨ t = B.ly ∨ r = 0 ∨ r = B.lz)

/-- `q` is a point of a side of the box that is not parallel to the line: the line goes along, across or up. -/
def Box.Crosses (B : Box) (l : Line) (q : Pt) : Prop :=
  ∃ s t r, 0 ≤ s ∧ s ≤ B.lx ∧ 0 ≤ t ∧ t ≤ B.ly ∧ 0 ≤ r ∧ r ≤ B.lz ∧ q = B.place s t r ∧
    (((s = 0 ∨ s = B.lx) ∧ (l.p2.x - l.p1.x) * Real.cos B.angle + (l.p2.y - l.p1.y) * Real.sin B.angle ≠ 0) ∨
     ((t = 0 ∨ t = B.ly) ∧ -((l.p2.x - l.p1.x) * Real.sin B.angle) + (l.p2.y - l.p1.y) * Real.cos B.angle ≠ 0) ∨
     ((r = 0 ∨ r = B.lz) ∧ l.p2.z - l.p1.z ≠ 0))

end Verif.Geo
