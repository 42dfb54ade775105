import Verif.Model.Geometry
import Mathlib.Analysis.SpecialFunctions.Trigonometric.Basic

/-!
# Boxes

Models src/nrlib/geometry/box.{hpp,cpp}. Doubles are real numbers. Assertions are not compiled.
-/

namespace Verif.Geo

open Classical

/-- The members of `Box`, box.hpp lines 77-81. -/
structure Box where
  ref : Pt
  lx : ℝ
  ly : ℝ
  lz : ℝ
  angle : ℝ

namespace Box

/-- `Box(min_x, min_y, min_z, max_x, max_y, max_z)`, box.cpp lines 41-49. -/
noncomputable def ofLimits (x0 y0 z0 x1 y1 z1 : ℝ) : Box := ⟨⟨x0, y0, z0⟩, x1 - x0, y1 - y0, z1 - z0, 0.0⟩

/-- `GlobalToLocal`, box.cpp lines 246-257. -/
noncomputable def globalToLocal (B : Box) (p : Pt) : Pt :=
  let x := p.x - B.ref.x
  let y := p.y - B.ref.y
  let z := p.z - B.ref.z
  ⟨x * Real.cos B.angle + y * Real.sin B.angle, -x * Real.sin B.angle + y * Real.cos B.angle, z⟩

/-- `LocalToGlobal`, box.cpp lines 259-267. -/
noncomputable def localToGlobal (B : Box) (p : Pt) : Pt :=
  ⟨p.x * Real.cos B.angle - p.y * Real.sin B.angle + B.ref.x, p.x * Real.sin B.angle + p.y * Real.cos B.angle + B.ref.y, p.z + B.ref.z⟩

/-- `IsInside`, box.hpp lines 49-53. -/
noncomputable def isInside (B : Box) (p : Pt) : Bool :=
  let q := B.globalToLocal p
  decide (q.x ≥ 0.0 ∧ q.x ≤ B.lx ∧ q.y ≥ 0.0 ∧ q.y ≤ B.ly ∧ q.z ≥ 0.0 ∧ q.z ≤ B.lz)

/-- box.cpp lines 66-72 and the five places like it: the common point of a side and a line, if any. -/
noncomputable def sidePts (side : Plane) (inside : Pt → Prop) (l : Line) : Res (List Pt) := do
  match ← side.findIntersection l with
  | some p => .ok (if inside p then [p] else [])
  | none => .ok []

/-- box.cpp lines 114-131. -/
noncomputable def pushInside (B : Box) (p : Pt) : Pt :=
  let x := if p.x < 0.0 then 0.0 else p.x
  let y := if p.y < 0.0 then 0.0 else p.y
  let z := if p.z < 0.0 then 0.0 else p.z
  ⟨if x > B.lx then B.lx else x, if y > B.ly then B.ly else y, if z > B.lz then B.lz else z⟩

/-- `FindIntersections`, box.cpp lines 60-137. -/
noncomputable def findIntersections (B : Box) (l : Line) : Res (List Pt) := do
  let m : Line := ⟨B.globalToLocal l.p1, B.globalToLocal l.p2, l.end1, l.end2⟩
  let insideX := fun p : Pt => p.y ≥ 0.0 ∧ p.y ≤ B.ly ∧ p.z ≥ 0.0 ∧ p.z ≤ B.lz
  let insideY := fun p : Pt => p.x ≥ 0.0 ∧ p.x ≤ B.lx ∧ p.z ≥ 0.0 ∧ p.z ≤ B.lz
  let insideZ := fun p : Pt => p.x ≥ 0.0 ∧ p.x ≤ B.lx ∧ p.y ≥ 0.0 ∧ p.y ≤ B.ly
  let p1 ← sidePts (Plane.ofNormal ⟨0, 0, 0⟩ ⟨1, 0, 0⟩) insideX m
  let p2 ← sidePts (Plane.ofNormal ⟨B.lx, 0, 0⟩ ⟨1, 0, 0⟩) insideX m
  let p3 ← sidePts (Plane.ofNormal ⟨0, 0, 0⟩ ⟨0, 1, 0⟩) insideY m
  let p4 ← sidePts (Plane.ofNormal ⟨0, B.ly, 0⟩ ⟨0, 1, 0⟩) insideY m
  let p5 ← sidePts (Plane.ofNormal ⟨0, 0, 0⟩ ⟨0, 0, 1⟩) insideZ m
  let p6 ← sidePts (Plane.ofNormal ⟨0, 0, B.lz⟩ ⟨0, 0, 1⟩) insideZ m
  .ok ((p1 ++ p2 ++ p3 ++ p4 ++ p5 ++ p6).map fun p => B.localToGlobal (B.pushInside p))

/-- box.cpp lines 145-157: the least of the six distances. -/
noncomputable def leastSide (B : Box) (p : Pt) : ℝ :=
  [B.lz - p.z, p.y, B.ly - p.y, p.x, B.lx - p.x].foldl (fun m d => if m > d then d else m) p.z

/-- `FindDistance`, box.cpp lines 140-244. -/
noncomputable def findDistance (B : Box) (p : Pt) : ℝ :=
  let q := B.globalToLocal p
  if B.isInside p then B.leastSide q
  else if q.x < 0.0 then
    if q.y < 0.0 then
      if q.z < 0.0 then q.getDistance ⟨0.0, 0.0, 0.0⟩
      else if q.z > B.lz then q.getDistance ⟨0.0, 0.0, B.lz⟩
      else q.getDistance ⟨0.0, 0.0, q.z⟩
    else if q.y > B.ly then
      if q.z < 0.0 then q.getDistance ⟨0.0, B.ly, 0.0⟩
      else if q.z > B.lz then q.getDistance ⟨0.0, B.ly, B.lz⟩
      else q.getDistance ⟨0.0, B.ly, q.z⟩
    else
      if q.z < 0.0 then q.getDistance ⟨0.0, q.y, 0.0⟩
      else if q.z > B.lz then q.getDistance ⟨0.0, q.y, B.lz⟩
      else -q.x
  else if q.x > B.lx then
    if q.y < 0.0 then
      if q.z < 0.0 then q.getDistance ⟨B.lx, 0.0, 0.0⟩
      else if q.z > B.lz then q.getDistance ⟨B.lx, 0.0, B.lz⟩
      else q.getDistance ⟨B.lx, 0.0, q.z⟩
    else if q.y > B.ly then
      if q.z < 0.0 then q.getDistance ⟨B.lx, B.ly, 0.0⟩
      else if q.z > B.lz then q.getDistance ⟨B.lx, B.ly, B.lz⟩
      else q.getDistance ⟨B.lx, B.ly, q.z⟩
    else
      if q.z < 0.0 then q.getDistance ⟨B.lx, q.y, 0.0⟩
      else if q.z > B.lz then q.getDistance ⟨B.lx, q.y, B.lz⟩
      else q.x - B.lx
  else
    if q.y < 0.0 then
      if q.z < 0.0 then q.getDistance ⟨q.x, 0.0, 0.0⟩
      else if q.z > B.lz then q.getDistance ⟨q.x, 0.0, B.lz⟩
      else -q.y
    else if q.y > B.ly then
      if q.z < 0.0 then q.getDistance ⟨q.x, B.ly, 0.0⟩
      else if q.z > B.lz then q.getDistance ⟨q.x, B.ly, B.lz⟩
      else q.y - B.ly
    else
      if q.z < 0.0 then -q.z
      else if q.z > B.lz then q.z - B.lz
      else -1

/-- `GetCorner`, box.cpp lines 269-290. -/
noncomputable def getCorner (B : Box) (i j k : ℤ) : Pt :=
  B.localToGlobal ⟨if i = 0 then 0.0 else B.lx, if j = 0 then 0.0 else B.ly, if k = 0 then 0.0 else B.lz⟩

end Box

end Verif.Geo
