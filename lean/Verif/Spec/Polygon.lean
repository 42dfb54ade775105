import Verif.Spec.Geometry
import Verif.Model.Polygon
import Mathlib.Analysis.Convex.Combination
import Mathlib.Topology.Instances.Real.Lemmas

/-!
# Polygons in the plane
-/

namespace Verif.Geo

/-- From `p` to the first of the points, from that to the next, and so on. -/
def edgesFrom : Pt → List Pt → List (Pt × Pt)
  | _, [] => []
  | p, q :: ps => (p, q) :: edgesFrom q ps

/-- The edges of the closed polygon with the given corners; the one from the last corner to the first comes first. -/
def edges (ps : List Pt) : List (Pt × Pt) := if h : ps = [] then [] else edgesFrom (ps.getLast h) ps

/-- `z` is a point of the edge, seen from above. -/
def OnEdge (e : Pt × Pt) (z : ℝ × ℝ) : Prop :=
  ∃ t : ℝ, 0 ≤ t ∧ t ≤ 1 ∧ z.1 = e.1.x + t * (e.2.x - e.1.x) ∧ z.2 = e.1.y + t * (e.2.y - e.1.y)

/-- Positive on the left of the line from `a` to `b`, negative on the right. -/
def side (a b : Pt) (z : ℝ × ℝ) : ℝ := (b.x - a.x) * (z.2 - a.y) - (z.1 - a.x) * (b.y - a.y)

/-- The corners, seen from above. -/
def cornersXY (ps : List Pt) : Set (ℝ × ℝ) := {z | ∃ p ∈ ps, z = (p.x, p.y)}

/-- The corners are different points, at least three, and each edge has all the other corners on its left. -/
def StrictlyConvex (ps : List Pt) : Prop :=
  3 ≤ ps.length ∧ ps.Nodup ∧ ∀ e ∈ edges ps, ∀ v ∈ ps, v ≠ e.1 → v ≠ e.2 → 0 < side e.1 e.2 (v.x, v.y)

/-- Twice the area of the closed polygon, by the shoelace formula: positive if the corners are given counterclockwise. -/
def twiceArea (ps : List Pt) : ℝ := ((edges ps).map fun e => e.1.x * e.2.y - e.1.y * e.2.x).sum

/-- The length of all the edges, in space. -/
noncomputable def perimeter (ps : List Pt) : ℝ := ((edges ps).map fun e => euclid e.1 e.2).sum

/-- The length of all the edges, seen from above. -/
noncomputable def perimeterXY (ps : List Pt) : ℝ := ((edges ps).map fun e => √((e.1.x - e.2.x) ^ 2 + (e.1.y - e.2.y) ^ 2)).sum

/-- The corner with number `k`. -/
noncomputable def corner (ps : List Pt) (k : ℕ) : Pt := ps.getD k ⟨0, 0, 0⟩

/-- The way from corner `i` to corner `j` in the order of the corners. -/
noncomputable def way (ps : List Pt) (i j : ℕ) : ℝ := ∑ k ∈ Finset.Ico i j, euclid (corner ps k) (corner ps (k + 1))

end Verif.Geo
