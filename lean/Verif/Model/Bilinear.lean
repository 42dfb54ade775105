import Verif.Model.Geometry

/-!
# Bilinear surfaces

Models src/nrlib/geometry/bilinearsurface.{hpp,cpp} without output. Doubles are real numbers; where a division by zero only decides
comparisons, its result is `none` or the comparison is written out.
-/

namespace Verif.Geo

open Classical

/-- The members of `BilinearSurface`, bilinearsurface.hpp lines 71-72. -/
@[ext] structure Bilinear where
  p00 : Pt
  p10 : Pt
  p11 : Pt
  p01 : Pt
  a0 : Pt
  a1 : Pt
  a2 : Pt

namespace Bilinear

/-- `min_`, bilinearsurface.cpp line 27. -/
noncomputable def minVal : ℝ := 0.001

/-- The constructor and `SetCornerPoints`, bilinearsurface.cpp lines 36-47 and 68-81. -/
noncomputable def ofCorners (p00 p10 p11 p01 : Pt) : Bilinear :=
  ⟨p00, p10, p11, p01, p10 - p00, p01 - p00, p11 - p01 - p10 + p00⟩

/-- `SetPtVector`, bilinearsurface.cpp lines 51-64. -/
noncomputable def setPtVector (p00 a0 a1 a2 : Pt) : Bilinear :=
  ⟨p00, p00 + a0, p00 + a0 + a1 + a2, p00 + a1, a0, a1, a2⟩

/-- `GetPoint`, bilinearsurface.cpp lines 85-89. -/
noncomputable def getPoint (S : Bilinear) (u v : ℝ) : Pt := S.p00 + (u * v) * S.a2 + v * S.a1 + u * S.a0

/-- `IsAbove`, bilinearsurface.cpp lines 112-151, with `Matrix3DInverse`, point.cpp lines 87-104. With determinant zero the last
comparison is of zero, an infinite number or no number times zero, so it is false. -/
noncomputable def isAbove (S : Bilinear) (p : Pt) : Bool :=
  let b := p - S.p00
  if S.a2.norm < minVal then decide (b.dot (S.a0.cross S.a1) > minVal)
  else
    let v1 := S.a0
    let v2 := S.a1
    let v3 := S.a2
    let det := v3.dot (v1.cross v2)
    if det = 0 then false
    else
      let k := 1.0 / det
      let c0 : Pt := ⟨(v2.y * v3.z - v2.z * v3.y) * k, (v2.z * v3.x - v2.x * v3.z) * k, (v2.x * v3.y - v2.y * v3.x) * k⟩
      let c1 : Pt := ⟨(v1.z * v3.y - v1.y * v3.z) * k, (v1.x * v3.z - v1.z * v3.x) * k, (v1.y * v3.x - v1.x * v3.y) * k⟩
      let c2 : Pt := ⟨(v1.y * v2.z - v1.z * v2.y) * k, (v1.z * v2.x - v1.x * v2.z) * k, (v1.x * v2.y - v1.y * v2.x) * k⟩
      let u := b.dot c0
      let v := b.dot c1
      if (u ≥ 0.0 ∧ u ≤ 1.0) ∨ (v ≥ 0.0 ∧ v ≤ 1.0) then decide ((b.dot c2 - u * v) * det > 0.0)
      else if u < 0.0 ∧ v < 0.0 then decide (b.dot c2 * det > 0.0)
      else if u < 0.0 ∧ v > 1.0 then decide ((b.dot c2 - u) * det > 0.0)
      else if u > 1.0 ∧ v < 0.0 then decide ((b.dot c2 - v) * det > 0.0)
      else decide ((b.dot c2 - u - v + 1.0) * det > 0.0)

/-- `QuadraticSol`, bilinearsurface.cpp lines 155-178: the solutions. If `A` and `B` are zero, `-C/A` is infinite or not a number; the
caller rejects an infinite solution, so there is none here. -/
noncomputable def quadraticSol (A B C : ℝ) : List ℝ :=
  let tmp := B * B - 4 * A * C
  if A ≠ 0.0 ∧ tmp ≥ 0.0 then [(-B + √tmp) / (2 * A), (-B - √tmp) / (2 * A)]
  else if A = 0.0 ∧ B ≠ 0.0 then [-C / B]
  else if B = 0.0 ∧ A ≠ 0.0 ∧ -C / A > 0.0 then [√(-C / A)]
  else []

/-- `Compute_T`, bilinearsurface.cpp lines 182-192, which is called only for lines that are not horizontal. -/
noncomputable def computeT (r q p : Pt) : ℝ :=
  if |q.x| ≥ |q.y| ∧ |q.x| ≥ |q.z| then (p.x - r.x) / q.x
  else if |q.y| ≥ |q.z| then (p.y - r.y) / q.y
  else (p.z - r.z) / q.z

/-- bilinearsurface.cpp lines 210-215; a division by zero gives no number or an infinite one, for which the comparison is false. -/
noncomputable def snap (a p : ℝ) : ℝ := if p = 0 then a else if |a / p| < minVal then 0 else a

/-- bilinearsurface.cpp lines 251-256 and the two places like it: `u` for a given `v`, `none` after a division by zero, which the caller
rejects. -/
noncomputable def solveU (A1 B1 C1 D1 A2 B2 C2 D2 v : ℝ) : Option ℝ :=
  let aa := v * A2 + B2
  let bb := v * (A2 - A1) + B2 - B1
  if |bb| ≥ |aa| then if bb = 0 then none else some ((v * (C1 - C2) + D1 - D2) / bb)
  else some ((-v * C2 - D2) / aa)

/-- bilinearsurface.cpp lines 257-267 and the two places like it: the point, if it is accepted. -/
noncomputable def accept (a b c d : Pt) (v : ℝ) (u : Option ℝ) : Option Pt :=
  match u with
  | none => none
  | some u => if v ≥ -0.001 ∧ v ≤ 1.001 ∧ u ≥ -0.05 ∧ u ≤ 1.05 then some ((u * v) * a + u * b + v * c + d) else none

/-- bilinearsurface.cpp lines 247-270 and 301-327: the accepted points for the solutions, two of them in the order of the line. -/
noncomputable def pick (point : ℝ → Option Pt) (t : Pt → ℝ) : List ℝ → List Pt
  | [v1] => (point v1).toList
  | [v1, v2] =>
    match point v1, point v2 with
    | some p1, some p2 => if t p1 ≤ t p2 then [p1, p2] else [p2, p1]
    | some p1, none => [p1]
    | none, some p2 => [p2]
    | none, none => []
  | _ => []

/-- `FindIntersections`, bilinearsurface.cpp lines 198-334: the points that are counted, in the order of the output. -/
noncomputable def findIntersections (S : Bilinear) (l : Line) : List Pt :=
  let a' := S.p00 - S.p10 - S.p01 + S.p11
  let b := S.p10 - S.p00
  let c := S.p01 - S.p00
  let d := S.p00
  let a : Pt := ⟨snap a'.x S.p00.x, snap a'.y S.p00.y, snap a'.z S.p00.z⟩
  let r := l.p1
  let q := l.p2 - r
  let A1 := a.x * q.z - a.z * q.x
  let B1 := b.x * q.z - b.z * q.x
  let C1 := c.x * q.z - c.z * q.x
  let D1 := (d.x - r.x) * q.z - (d.z - r.z) * q.x
  let A2 := a.y * q.z - a.z * q.y
  let B2 := b.y * q.z - b.z * q.y
  let C2 := c.y * q.z - c.z * q.y
  let D2 := (d.y - r.y) * q.z - (d.z - r.z) * q.y
  let A := A2 * C1 - A1 * C2
  let B := A2 * D1 - A1 * D2 + B2 * C1 - B1 * C2
  let C := B2 * D1 - B1 * D2
  let point := fun v : ℝ => accept a b c d v (solveU A1 B1 C1 D1 A2 B2 C2 D2 v)
  pick point (computeT r q) (quadraticSol A B C)

end Bilinear

end Verif.Geo
