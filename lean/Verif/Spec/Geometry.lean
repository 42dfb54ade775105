import Verif.Model.Geometry

/-!
# Points of space: what the geometric functions are about
-/

namespace Verif.Geo

/-- The distance of two points. -/
noncomputable def euclid (p q : Pt) : ℝ := √((p.x - q.x) ^ 2 + (p.y - q.y) ^ 2 + (p.z - q.z) ^ 2)

/-- `q` is a point of the line: all of it, or only what comes after `p1` if that is an end, and before `p2` if that is an end. -/
def Line.Has (l : Line) (q : Pt) : Prop :=
  ∃ t : ℝ, (l.end1 = true → 0 ≤ t) ∧ (l.end2 = true → t ≤ 1) ∧
    q = ⟨l.p1.x + t * (l.p2.x - l.p1.x), l.p1.y + t * (l.p2.y - l.p1.y), l.p1.z + t * (l.p2.z - l.p1.z)⟩

/-- The two points lie above each other, or are equal. -/
def SameXY (p q : Pt) : Prop := p.x = q.x ∧ p.y = q.y

/-- `q` is a point of the plane through `p` that is orthogonal to `n`. -/
def InPlane (p n q : Pt) : Prop := n.x * (q.x - p.x) + n.y * (q.y - p.y) + n.z * (q.z - p.z) = 0

/-- `q` is a point of the triangle. -/
def Triangle.Has (T : Triangle) (q : Pt) : Prop :=
  ∃ a b c : ℝ, 0 ≤ a ∧ 0 ≤ b ∧ 0 ≤ c ∧ a + b + c = 1 ∧
    q = ⟨a * T.p1.x + b * T.p2.x + c * T.p3.x, a * T.p1.y + b * T.p2.y + c * T.p3.y, a * T.p1.z + b * T.p2.z + c * T.p3.z⟩

/-- `q` is a point of the triangle off its edges. -/
def Triangle.HasInside (T : Triangle) (q : Pt) : Prop :=
  ∃ a b c : ℝ, 0 < a ∧ 0 < b ∧ 0 < c ∧ a + b + c = 1 ∧
    q = ⟨a * T.p1.x + b * T.p2.x + c * T.p3.x, a * T.p1.y + b * T.p2.y + c * T.p3.y, a * T.p1.z + b * T.p2.z + c * T.p3.z⟩

end Verif.Geo
