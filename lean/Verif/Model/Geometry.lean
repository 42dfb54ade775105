import Verif.Model.Distr
import Mathlib.Analysis.SpecialFunctions.Trigonometric.Inverse

/-!
# Points, lines, planes and triangles

Models src/nrlib/geometry/point.{hpp,cpp}, line.{hpp,cpp}, plane.{hpp,cpp} and triangle.{hpp,cpp} without input and output. Doubles
are real numbers. Assertions are not compiled. A point that a function writes to before it returns false is given where a theorem
needs it.
-/

namespace Verif.Geo

open Classical

/-- The members of `Point`, point.hpp line 35. -/
@[ext] structure Pt where
  x : ℝ
  y : ℝ
  z : ℝ

namespace Pt

/-- `operator+`, point.hpp lines 148-154 and 255-260. -/
instance : Add Pt := ⟨fun p q => ⟨p.x + q.x, p.y + q.y, p.z + q.z⟩⟩

/-- `operator-`, point.hpp lines 157-163 and 263-268. -/
instance : Sub Pt := ⟨fun p q => ⟨p.x - q.x, p.y - q.y, p.z - q.z⟩⟩

/-- `operator*`, point.hpp lines 176-182 and 271-282. -/
instance : HMul ℝ Pt Pt := ⟨fun t p => ⟨p.x * t, p.y * t, p.z * t⟩⟩

/-- `Dot`, point.hpp lines 218-221. -/
def dot (p q : Pt) : ℝ := p.x * q.x + p.y * q.y + p.z * q.z

/-- `Cross`, point.hpp lines 224-231. -/
def cross (p q : Pt) : Pt := ⟨p.y * q.z - p.z * q.y, p.z * q.x - p.x * q.z, p.x * q.y - p.y * q.x⟩

/-- `Norm`, point.hpp lines 248-251. -/
noncomputable def norm (p : Pt) : ℝ := √(p.x * p.x + p.y * p.y + p.z * p.z)

/-- `GetDistance`, point.hpp lines 234-237. -/
noncomputable def getDistance (p q : Pt) : ℝ := (q - p).norm

/-- `GetDistanceXY`, point.hpp lines 240-245. -/
noncomputable def getDistanceXY (p q : Pt) : ℝ := √((p.x - q.x) * (p.x - q.x) + (p.y - q.y) * (p.y - q.y))

/-- `GetNormalized` and `Normalize`, point.cpp lines 43-57; the division is by a number that is not zero. -/
noncomputable def getNormalized (p : Pt) : Pt :=
  if p.norm = 0.0 then p else ⟨p.x / p.norm, p.y / p.norm, p.z / p.norm⟩

/-- `GetAngle`, point.cpp lines 60-70; the division is by a positive number. -/
noncomputable def getAngle (p q : Pt) : ℝ :=
  let n := p.norm * q.norm
  if n > 0.0 then Real.arccos (p.dot q / n) else 0.0

/-- `LeftFromLineXY`, point.cpp lines 112-115. -/
def leftFromLineXY (p p0 p1 : Pt) : ℝ := (p1.x - p0.x) * (p.y - p0.y) - (p.x - p0.x) * (p1.y - p0.y)

/-- `CalculatePointVectorLength`, point.cpp lines 136-147. -/
noncomputable def vectorLength : List Pt → ℝ
  | p :: q :: ps => (q - p).norm + vectorLength (q :: ps)
  | _ => 0.0

end Pt

/-- The members of `Line`, line.hpp lines 131-132. -/
structure Line where
  p1 : Pt
  p2 : Pt
  end1 : Bool
  end2 : Bool

namespace Line

/-- `InfiniteLine`, line.hpp lines 45-46. -/
noncomputable def infiniteLine (start dir : Pt) : Line := ⟨start, start + dir, false, false⟩

/-- `Segment`, line.hpp lines 56-57. -/
def segment (p q : Pt) : Line := ⟨p, q, true, true⟩

/-- `GetDir`, line.hpp lines 73-74. -/
noncomputable def getDir (l : Line) : Pt := (l.p2 - l.p1).getNormalized

/-- `GetLength`, line.cpp lines 75-85. -/
noncomputable def getLength (l : Line) : Res ℝ :=
  if l.end1 && l.end2 then .ok (l.p2 - l.p1).norm else .nonfinite "infinity"

/-- `FindParameter`, line.cpp lines 127-133. -/
noncomputable def findParameter (l : Line) (p : Pt) : Res ℝ :=
  let diff_12 := l.p1.getDistance l.p2
  let delta_p := l.p2 - l.p1
  fdiv (delta_p.dot (p - l.p1)) (diff_12 * diff_12)

/-- `FindProjection`, line.cpp lines 111-125. -/
noncomputable def findProjection (l : Line) (p : Pt) : Res Pt :=
  let diff_12 := l.p1.getDistance l.p2
  if diff_12 = 0.0 then .ok l.p1
  else do
    let delta_p := l.p2 - l.p1
    let t ← fdiv (delta_p.dot (p - l.p1)) (diff_12 * diff_12)
    if t < 0.0 ∧ l.end1 then .ok l.p1
    else if t > 1.0 ∧ l.end2 then .ok l.p2
    else .ok (l.p1 + t * delta_p)

/-- `FindDistance(point)`, line.cpp lines 89-93. -/
noncomputable def findDistance (l : Line) (p : Pt) : Res ℝ := do
  let q ← l.findProjection p
  .ok (p.getDistance q)

/-- `FindDistanceAndSide`, line.cpp lines 96-107. -/
noncomputable def findDistanceAndSide (l : Line) (p : Pt) : Res (ℝ × Bool) := do
  let q ← l.findProjection p
  let side_vec := p - q
  let line_vec := l.p2 - q
  let cross := side_vec.cross line_vec
  .ok (p.getDistance q, decide (cross.z ≥ 0))

/-- `IsPointOnLine`, line.cpp lines 136-142. -/
noncomputable def isPointOnLine (l : Line) (p : Pt) (min : ℝ := 0.000001) : Res Bool := do
  let d ← l.findDistance p
  .ok (decide (d < min))

/-- `IsParallel`, line.cpp lines 145-151. -/
noncomputable def isParallel (l m : Line) (min : ℝ := 0.0) : Bool :=
  decide ((l.getDir.cross m.getDir).norm < min)

/-- The variables `sn`, `sd`, `tn` and `td` of `FindDistance(line)`, line.cpp lines 169-170. -/
structure Quots where
  sn : ℝ
  sd : ℝ
  tn : ℝ
  td : ℝ

/-- line.cpp lines 174-193. -/
noncomputable def nearStart (end1 end2 : Bool) (a b c d e : ℝ) : Quots :=
  let dd := a * c - b * b
  if dd = 0 then ⟨0, 1, e, c⟩
  else
    let sn := b * e - c * d
    let tn := a * e - b * d
    if end1 ∧ sn < 0 then ⟨0, dd, e, c⟩
    else if end2 ∧ sn > dd then ⟨dd, dd, e + b, c⟩
    else ⟨sn, dd, tn, dd⟩

/-- line.cpp lines 195-222; `f1`, `f2` are the ends of `line_in`. -/
noncomputable def nearEnd (end1 end2 f1 f2 : Bool) (a b d : ℝ) (q : Quots) : Quots :=
  if f1 ∧ q.tn < 0 then
    if end1 ∧ -d < 0 then ⟨0, q.sd, 0, q.td⟩
    else if end2 ∧ -d > a then ⟨q.sd, q.sd, 0, q.td⟩
    else ⟨-d, a, 0, q.td⟩
  else if f2 ∧ q.tn > q.td then
    if end1 ∧ -d + b < 0 then ⟨0, q.sd, q.td, q.td⟩
    else if end2 ∧ -d + b > a then ⟨q.sd, q.sd, q.td, q.td⟩
    else ⟨-d + b, a, q.td, q.td⟩
  else q

/-- `sn == 0.0 ? 0.0 : sn / sd`, line.cpp lines 224-225. -/
noncomputable def quotOrZero (n d : ℝ) : Res ℝ := if n = 0.0 then .ok 0.0 else fdiv n d

/-- `FindDistance(line, point, point)`, line.cpp lines 156-231: the distance, `this_line_point` and `in_line_point`. -/
noncomputable def findNearest (l m : Line) : Res (ℝ × Pt × Pt) := do
  let u := l.p2 - l.p1
  let v := m.p2 - m.p1
  let w := l.p1 - m.p1
  let a := u.dot u
  let b := u.dot v
  let c := v.dot v
  let d := u.dot w
  let e := v.dot w
  let q := nearEnd l.end1 l.end2 m.end1 m.end2 a b d (nearStart l.end1 l.end2 a b c d e)
  let sc ← quotOrZero q.sn q.sd
  let tc ← quotOrZero q.tn q.td
  let p := l.p1 + sc * u
  let r := m.p1 + tc * v
  .ok ((p - r).norm, p, r)

/-- `IsOverLapping`, line.cpp lines 234-250. -/
noncomputable def isOverLapping (l m : Line) (min : ℝ := 0.000001) : Res Bool :=
  if ¬ l.isParallel m min then .ok false
  else do
    if ← l.isPointOnLine m.p1 min then .ok true
    else if ← l.isPointOnLine m.p2 min then .ok true
    else if ← m.isPointOnLine l.p1 min then .ok true
    else m.isPointOnLine l.p2 min

/-- `LineXY`, line.cpp lines 301-309. -/
def lineXY (l : Line) : Line := ⟨⟨l.p1.x, l.p1.y, 0⟩, ⟨l.p2.x, l.p2.y, 0⟩, l.end1, l.end2⟩

/-- `IntersectXY`, line.cpp lines 252-299: `none` is false with the point (0, 0, 0). -/
noncomputable def intersectXY (l m : Line) (infinite : Bool := false) : Res (Option Pt) := do
  let a1 := l.p1.y - l.p2.y
  let b1 := l.p2.x - l.p1.x
  let c1 := l.p1.y * l.p2.x - l.p2.y * l.p1.x
  let a2 := m.p1.y - m.p2.y
  let b2 := m.p2.x - m.p1.x
  let c2 := m.p1.y * m.p2.x - m.p2.y * m.p1.x
  let den := a1 * b2 - b1 * a2
  if den ≠ 0 then do
    let x ← fdiv (c1 * b2 - b1 * c2) den
    let y ← fdiv (a1 * c2 - c1 * a2) den
    let tmp : Pt := ⟨x, y, 0.0⟩
    if !infinite then do
      let t1 ← l.lineXY.findParameter tmp
      let t2 ← m.lineXY.findParameter tmp
      if t1 ≤ 1.0 ∧ t1 ≥ 0.0 ∧ t2 ≤ 1.0 ∧ t2 ≥ 0.0 then .ok (some tmp) else .ok none
    else do
      let t ← m.lineXY.findParameter tmp
      if t ≤ 1.0 ∧ t ≥ 0.0 then .ok (some tmp) else .ok none
  else .ok none

end Line

/-- The members of `Plane`, plane.hpp lines 74-75. -/
structure Plane where
  pt : Pt
  nvec : Pt

namespace Plane

/-- `Plane(pt1, pt2, pt3)`, plane.cpp lines 37-47. -/
noncomputable def ofPoints (p q r : Pt) : Plane := ⟨p, ((p - q).cross (p - r)).getNormalized⟩

/-- `Plane(pt, nvec)`, plane.cpp lines 50-54. -/
noncomputable def ofNormal (p n : Pt) : Plane := ⟨p, n.getNormalized⟩

/-- `IsParallel`, plane.cpp lines 108-116. -/
noncomputable def isParallel (a : Plane) (l : Line) (min : ℝ := 0.0) : Bool :=
  decide (|a.nvec.dot (l.p2 - l.p1)| ≤ min)

/-- `FindIntersection(line)`, plane.cpp lines 75-86. -/
noncomputable def findIntersectionPt (a : Plane) (l : Line) : Res Pt := do
  let t ← fdiv (a.nvec.dot (a.pt - l.p1)) (a.nvec.dot (l.p2 - l.p1))
  .ok (l.p1 + t * (l.p2 - l.p1))

/-- `FindIntersection(line, intersection, min)`, plane.cpp lines 89-105: `none` is false. -/
noncomputable def findIntersection (a : Plane) (l : Line) (min : ℝ := 0.0) : Res (Option Pt) :=
  if a.isParallel l min then .ok none
  else do
    let t ← fdiv (a.nvec.dot (a.pt - l.p1)) (a.nvec.dot (l.p2 - l.p1))
    let p := l.p1 + t * (l.p2 - l.p1)
    if (l.end1 ∧ t < 0) ∨ (l.end2 ∧ t > 1) then .ok none else .ok (some p)

/-- `FindProjection`, plane.cpp lines 119-123. -/
noncomputable def findProjection (a : Plane) (p : Pt) : Pt := p + a.nvec.dot (a.pt - p) * a.nvec

/-- `FindDistance`, plane.cpp lines 126-129. -/
noncomputable def findDistance (a : Plane) (p : Pt) : ℝ := |a.nvec.dot (p - a.pt)|

/-- `IsPointOnPlane`, plane.cpp lines 132-137. -/
noncomputable def isPointOnPlane (a : Plane) (p : Pt) (min : ℝ := 0.0000001) : Bool := decide (a.findDistance p ≤ min)

/-- `IsOnPositiveSide`, plane.cpp lines 163-168. -/
noncomputable def isOnPositiveSide (a : Plane) (p : Pt) : Bool := decide (a.nvec.dot (p - a.pt) > 0)

/-- `FindIntersection(plane)`, plane.cpp lines 140-160. -/
noncomputable def findLine (a b : Plane) : Res Line :=
  let n1 := a.nvec
  let n2 := b.nvec
  let cross := n1.cross n2
  if cross.norm = 0 then .ok ⟨⟨0, 0, 0⟩, ⟨0, 0, 0⟩, true, true⟩
  else do
    let d1 := -n1.dot a.pt
    let d2 := -n2.dot b.pt
    let dot := n1.dot n2
    let one_minus_dotdot := 1.0 - dot * dot
    let const1 ← fdiv (d2 * dot - d1) one_minus_dotdot
    let const2 ← fdiv (d1 * dot - d2) one_minus_dotdot
    .ok (Line.infiniteLine (const1 * n1 + const2 * n2) cross)

end Plane

/-- The members of `Triangle`, triangle.hpp lines 44-46. -/
structure Triangle where
  p1 : Pt
  p2 : Pt
  p3 : Pt

namespace Triangle

/-- triangle.cpp lines 75-111: is the point inside? -/
noncomputable def holds (T : Triangle) (p : Pt) (edge : Bool) : Res Bool := do
  let u := T.p2 - T.p1
  let v := T.p3 - T.p1
  let uu := u.dot u
  let uv := u.dot v
  let vv := v.dot v
  let w := p - T.p1
  let wu := w.dot u
  let wv := w.dot v
  let D := uv * uv - uu * vv
  let s ← fdiv (uv * wv - vv * wu) D
  if (if edge then s < 0.0 ∨ s > 1.0 else s ≤ 0.0 ∨ s ≥ 1.0) then .ok false
  else do
    let t ← fdiv (uv * wu - uu * wv) D
    if (if edge then t < 0.0 ∨ s + t > 1.0 else t ≤ 0.0 ∨ s + t ≥ 1.0) then .ok false
    else .ok true

/-- `FindIntersection`, triangle.cpp lines 38-112: `none` is false. -/
noncomputable def findIntersection (T : Triangle) (l : Line) (edge : Bool) : Res (Option Pt) := do
  let u := T.p2 - T.p1
  let v := T.p3 - T.p1
  let n := u.cross v
  if n.x = 0.0 ∧ n.y = 0.0 ∧ n.z = 0.0 then .ok none
  else do
    let line_dir := l.p2 - l.p1
    let w0 := l.p1 - T.p1
    let a := -n.dot w0
    let b := n.dot line_dir
    if b = 0.0 then .ok none
    else do
      let r ← fdiv a b
      if (l.end1 ∧ r < 0.0) ∨ (l.end2 ∧ r > 1.0) then .ok none
      else do
        let p := l.p1 + r * line_dir
        if ← T.holds p edge then .ok (some p) else .ok none

/-- `FindNearestPoint`, triangle.cpp lines 115-140: the distance and the point. -/
noncomputable def findNearestPoint (T : Triangle) (l : Line) : Res (ℝ × Pt) := do
  match ← T.findIntersection l true with
  | some p => .ok (0.0, p)
  | none => do
    let (min_dist, nearest, _) ← (Line.segment T.p1 T.p2).findNearest l
    let (dist, pt, _) ← (Line.segment T.p2 T.p3).findNearest l
    let (min_dist, nearest) := if dist < min_dist then (dist, pt) else (min_dist, nearest)
    let (dist, pt, _) ← (Line.segment T.p1 T.p3).findNearest l
    let (min_dist, nearest) := if dist < min_dist then (dist, pt) else (min_dist, nearest)
    .ok (min_dist, nearest)

end Triangle

end Verif.Geo
