import Verif.Model.Geometry
import Verif.Model.Loop

/-!
# Polygons

Models src/nrlib/geometry/polygon.cpp without `MinEnclosingRectangle`. Doubles are real numbers. The vector of points is a list. A
`size_t` that goes below zero is a huge number, and reading a vector there is undefined behaviour; loops that would run to such a
number are given as undefined behaviour at once, as they read every element on the way and then the one after the last.
-/

namespace Verif.Geo.Polygon

open Classical

/-- The body of the loop of `IsInsidePolygonXY`, polygon.cpp lines 76-85. -/
noncomputable def crossStep (x y : ℝ) (p1 p2 : Pt) (inside : Bool) : Res Bool :=
  if y ≤ max p1.y p2.y then
    if y > min p1.y p2.y then
      if x < max p1.x p2.x then do
        let s ← fdiv (y - p1.y) (p2.y - p1.y)
        (if x < s * (p2.x - p1.x) + p1.x then .ok (!inside) else .ok inside : Res Bool)
      else .ok inside
    else .ok inside
  else .ok inside

/-- The loop of `IsInsidePolygonXY`, polygon.cpp lines 73-87: the points that are left, and the one before them. -/
noncomputable def insideLoop (x y : ℝ) : Pt → List Pt → Bool → Res Bool
  | _, [], inside => .ok inside
  | p1, p2 :: ps, inside => do
    let inside ← crossStep x y p1 p2 inside
    insideLoop x y p2 ps inside

/-- `IsInsidePolygonXY(x, y)`, polygon.cpp lines 62-90. -/
noncomputable def isInsideXY (ps : List Pt) (x y : ℝ) : Res Bool :=
  if ps.length ≤ 1 then .ok false
  else do
    let p1 ← rd ps (ps.length - 1)
    insideLoop x y p1 ps false

/-- The sum in `IsCounterclockwise`, polygon.cpp lines 95-98: over the points that have a next one. -/
def doubleArea : List Pt → ℝ → ℝ
  | p :: q :: ps, s => doubleArea (q :: ps) (s + (p.x * q.y - p.y * q.x))
  | _, s => s

/-- `IsCounterclockwise`, polygon.cpp lines 93-100. -/
noncomputable def isCounterclockwise (ps : List Pt) : Res Bool :=
  if ps = [] then .ub "read out of range" else .ok (decide (doubleArea ps 0 ≥ 0))

/-- One round of the loop of `XYExtent`, polygon.cpp lines 109-116: (xmin, xmax, ymin, ymax). -/
noncomputable def extentStep (e : ℝ × ℝ × ℝ × ℝ) (p : Pt) : ℝ × ℝ × ℝ × ℝ :=
  let (xmin, xmax, ymin, ymax) := e
  let (xmin, xmax) := if p.x < xmin then (p.x, xmax) else if p.x > xmax then (xmin, p.x) else (xmin, xmax)
  let (ymin, ymax) := if p.y < ymin then (p.y, ymax) else if p.y > ymax then (ymin, p.y) else (ymin, ymax)
  (xmin, xmax, ymin, ymax)

/-- `XYExtent`, polygon.cpp lines 102-118. -/
noncomputable def xyExtent : List Pt → Res (ℝ × ℝ × ℝ × ℝ)
  | [] => .ub "read out of range"
  | p :: ps => .ok (ps.foldl extentStep (p.x, p.x, p.y, p.y))

/-- `cross` at the second of three points, polygon.cpp lines 129-131, 135-137, 140-142 and 161-163. -/
def turn (p q r : Pt) : ℝ := (q - p).x * (r - q).y - (q - p).y * (r - q).x

/-- The loop of `IsConvex`, polygon.cpp lines 128-134: true if it does not return. -/
noncomputable def turnsLoop (f : ℝ) : List Pt → Bool
  | p :: q :: r :: ps => if turn p q r * f < 0.0 then false else turnsLoop f (q :: r :: ps)
  | _ => true

/-- `IsConvex`, polygon.cpp lines 120-146. With fewer than two points, `length-2` is huge, and the loop leaves the vector. -/
noncomputable def isConvex (ps : List Pt) : Res Bool := do
  let c ← isCounterclockwise ps
  let f : ℝ := if c then 1 else -1
  if ps.length < 2 then .ub "read out of range"
  else if turnsLoop f ps = false then .ok false
  else do
    let a ← rd ps (ps.length - 2)
    let b ← rd ps (ps.length - 1)
    let p ← rd ps 0
    let q ← rd ps 1
    (if turn a b p * f < 0.0 then .ok false else if turn b p q * f < 0.0 then .ok false else .ok true : Res Bool)

/-- The inner loop of `MakeConvex`, polygon.cpp lines 160-178, with the number of rounds that are left at most; the vector is
shortened by the point at `second`. -/
noncomputable def dropLoop (f : ℝ) (ps : List Pt) : ℕ → ℕ → ℕ → ℕ → Res (List Pt)
  | 0, _, _, _ => .ok ps
  | n + 1, first, second, third => do
    let a ← rd ps first
    let b ← rd ps second
    let c ← rd ps third
    if turn a b c * f ≤ 0.0 then .ok (ps.eraseIdx second) else dropLoop f ps n second third (third + 1)

/-- One round of the outer loop of `MakeConvex`, polygon.cpp lines 156-179. With one point, `second-1` is huge. -/
noncomputable def convexRound (f : ℝ) (ps : List Pt) : Res (Option Unit × List Pt) := do
  let c ← isConvex ps
  (if c then .ok (some (), ps)
   else do
    let qs ← dropLoop f ps ps.length (ps.length - 2) (ps.length - 1) 0
    .ok (none, qs) : Res _)

/-- `MakeConvex`, polygon.cpp lines 148-180: the points that are left. -/
noncomputable def makeConvex (ps : List Pt) : Res (List Pt) := do
  let c ← isCounterclockwise ps
  let f : ℝ := if c then 1 else -1
  let (_, qs) ← untilLoop (convexRound f) ps
  .ok qs

/-- The lengths of the edges from the point with index `lo` to the one with index `hi`, added to `s`: polygon.cpp lines 315-317 and
342-344. -/
noncomputable def lengthFrom (ps : List Pt) (lo hi : ℕ) (s : ℝ) : Res ℝ :=
  forRange lo hi (fun i s => do
    let q ← rd ps (i + 1)
    let p ← rd ps i
    .ok (s + (q - p).norm)) s

/-- `GetCircumferenceXY`, polygon.cpp lines 335-346. With fewer than two points, `poly_size - 2` is huge. -/
noncomputable def getCircumferenceXY (ps : List Pt) : Res ℝ :=
  if ps.length < 2 then .ub "read out of range"
  else do
    let q ← rd ps (ps.length - 1)
    let p ← rd ps 0
    lengthFrom ps 0 (ps.length - 2) (q - p).norm

/-- `DistanceBetweenPointsXY`, polygon.cpp lines 306-320. -/
noncomputable def distanceBetweenXY (ps : List Pt) (i0 i1 : ℕ) : Res ℝ := do
  let dist ← lengthFrom ps (min i0 i1) (max i0 i1) 0
  let c ← getCircumferenceXY ps
  .ok (min dist (c - dist))

/-- `FindPointPosition`, polygon.cpp lines 323-333. -/
noncomputable def findPointPosition (ps : List Pt) (p : Pt) : ℕ := ps.findIdx (fun q => decide (q = p))

/-- One corner in `TangentPointPoly`, polygon.cpp lines 281-290 and 293-302: `vn` is the next corner, `s` is (eprev, rtan, ltan). -/
noncomputable def tanStep (ps : List Pt) (p : Pt) (i : ℕ) (vi vn : Pt) (s : ℝ × ℕ × ℕ) : Res (ℝ × ℕ × ℕ) :=
  let enext := p.leftFromLineXY vi vn
  if s.1 ≤ 0 ∧ enext > 0 then do
    let vr ← rd ps s.2.1
    (if p.leftFromLineXY vi vr ≥ 0 then .ok (enext, i, s.2.2) else .ok (enext, s.2.1, s.2.2) : Res _)
  else if s.1 > 0 ∧ enext ≤ 0 then do
    let vl ← rd ps s.2.2
    (if p.leftFromLineXY vi vl ≤ 0 then .ok (enext, s.2.1, i) else .ok (enext, s.2.1, s.2.2) : Res _)
  else .ok (enext, s.2.1, s.2.2)

/-- The body of the loop of `TangentPointPoly`, polygon.cpp lines 280-291. -/
noncomputable def tanRound (ps : List Pt) (p : Pt) (i : ℕ) (s : ℝ × ℕ × ℕ) : Res (ℝ × ℕ × ℕ) := do
  let vi ← rd ps i
  let vn ← rd ps (i + 1)
  tanStep ps p i vi vn s

/-- `TangentPointPoly`, polygon.cpp lines 271-304, with `rtan` and `ltan` initialised as 0: (rtan, ltan). -/
noncomputable def tangentPointPoly (ps : List Pt) (p : Pt) : Res (ℕ × ℕ) := do
  let v0 ← rd ps 0
  let v1 ← rd ps 1
  let s ← forRange 1 (ps.length - 1) (tanRound ps p) (p.leftFromLineXY v0 v1, 0, 0)
  let vl ← rd ps (ps.length - 1)
  let s ← tanStep ps p (ps.length - 1) vl v0 s
  .ok s.2

end Verif.Geo.Polygon
