import Verif.Model.Polygon

/-!
# Corner-point grids

Models src/nrlib/eclipsegrid/eclipsegeometry.{hpp,cpp} without files, layer surfaces and the polygons around the active pillars.
Doubles are real numbers. The vectors and grids of the class are functions, and are read at indices that are in them, as the
assertions demand. Products of sizes stay in the range of `size_t`. Assertions are not compiled.
-/

namespace Verif

open Classical Geo

/-- The members of `EclipseGeometry`, eclipsegeometry.hpp lines 292-316. -/
structure EclipseGeometry where
  ni : ℕ
  nj : ℕ
  nk : ℕ
  polymax : List Pt
  polymin : List Pt
  pillars : ℕ → ℕ → Line
  activePillars : ℕ → ℕ → Bool
  zCorners : ℕ → ℝ
  active : ℕ → ℕ → ℕ → Bool

namespace EclipseGeometry

/-- `GetIJK`, eclipsegeometry.hpp lines 323-330. -/
def getIJK (g : EclipseGeometry) (index : ℕ) : ℕ × ℕ × ℕ :=
  let i := index % g.ni
  let j := (index - i) / g.ni % g.nj
  let k := (index - j * g.ni - i) / g.ni / g.nj
  (i, j, k)

/-- `GetIndex`, eclipsegeometry.hpp lines 333-338. -/
def getIndex (g : EclipseGeometry) (i j k : ℕ) : ℕ := i + j * g.ni + k * g.ni * g.nj

/-- `FindZCornerIndex`, eclipsegeometry.hpp lines 400-410. -/
def findZCornerIndex (g : EclipseGeometry) (i j k a b c : ℕ) : ℕ :=
  2 * i + a + 2 * g.ni * (2 * j + b) + 4 * g.ni * g.nj * (2 * k + c)

/-- `GetZCorner`, eclipsegeometry.hpp lines 359-363. -/
def getZCorner (g : EclipseGeometry) (i j k a b c : ℕ) : ℝ := g.zCorners (g.findZCornerIndex i j k a b c)

/-- `SetZCorner`, eclipsegeometry.hpp lines 372-376. -/
def setZCorner (g : EclipseGeometry) (i j k a b c : ℕ) (z : ℝ) : EclipseGeometry :=
  { g with zCorners := Function.update g.zCorners (g.findZCornerIndex i j k a b c) z }

/-- The pillar that `SetCoord` and `ReadCoord` make from six numbers, eclipsegeometry.cpp lines 978-984. -/
def coordLine (data : List ℝ) (n : ℕ) : Res Line := do
  let x1 ← rd data n
  let y1 ← rd data (n + 1)
  let z1 ← rd data (n + 2)
  let x2 ← rd data (n + 3)
  let y2 ← rd data (n + 4)
  let z2 ← rd data (n + 5)
  .ok ⟨⟨x1, y1, z1⟩, ⟨x2, y2, z2⟩, true, true⟩

/-- The body of the loops of `SetCoord`, eclipsegeometry.cpp lines 978-984. -/
def setCoordAt (data : List ℝ) (j i : ℕ) (g : EclipseGeometry) : Res EclipseGeometry := do
  let l ← coordLine data (6 * i + 6 * j * (g.ni + 1))
  .ok { g with pillars := Function.update g.pillars i (Function.update (g.pillars i) j l) }

/-- `SetCoord`, eclipsegeometry.cpp lines 972-987. -/
def setCoord (g : EclipseGeometry) (data : List ℝ) : Res EclipseGeometry :=
  forRange 0 (g.nj + 1) (fun j g => forRange 0 (g.ni + 1) (setCoordAt data j) g) g

/-- `FindPointAtPillar`, eclipsegeometry.cpp lines 544-568. -/
noncomputable def findPointAtPillar (g : EclipseGeometry) (i j : ℕ) (z : ℝ) : Pt :=
  let p1 := (g.pillars i j).p1
  let p2 := (g.pillars i j).p2
  if (p2 - p1).z = 0.0 then ⟨p1.x, p1.y, z⟩
  else
    let t := (z - p1.z) / (p2 - p1).z
    ⟨p1.x + t * (p2 - p1).x, p1.y + t * (p2 - p1).y, z⟩

/-- `FindCornerPoint`, eclipsegeometry.hpp lines 391-397. -/
noncomputable def findCornerPoint (g : EclipseGeometry) (i j k a b c : ℕ) : Pt :=
  g.findPointAtPillar (i + a) (j + b) (g.getZCorner i j k a b c)

/-- `FindCellCenterPoint`, eclipsegeometry.cpp lines 132-139. -/
noncomputable def findCellCenterPoint (g : EclipseGeometry) (i j k : ℕ) : Pt :=
  (1 / 8 : ℝ) * (g.findCornerPoint i j k 0 0 0 + g.findCornerPoint i j k 1 0 0 +
    g.findCornerPoint i j k 0 1 0 + g.findCornerPoint i j k 1 1 0 +
    g.findCornerPoint i j k 0 0 1 + g.findCornerPoint i j k 1 0 1 +
    g.findCornerPoint i j k 0 1 1 + g.findCornerPoint i j k 1 1 1)

/-- `FindPointCellSurface`, eclipsegeometry.cpp lines 796-839. -/
noncomputable def findPointCellSurface (g : EclipseGeometry) (i j k c : ℕ) (u v : ℝ) : Pt :=
  let p00 := g.findPointAtPillar i j (g.getZCorner i j k 0 0 c)
  let q00 := g.findPointAtPillar i j (g.getZCorner i j k 1 0 c)
  let r00 := g.findPointAtPillar i j (g.getZCorner i j k 0 1 c)
  let p10 := g.findPointAtPillar (i + 1) j (g.getZCorner i j k 1 0 c)
  let q10 := g.findPointAtPillar (i + 1) j (g.getZCorner i j k 0 0 c)
  let r10 := g.findPointAtPillar (i + 1) j (g.getZCorner i j k 1 1 c)
  let p01 := g.findPointAtPillar i (j + 1) (g.getZCorner i j k 0 1 c)
  let q01 := g.findPointAtPillar i (j + 1) (g.getZCorner i j k 1 1 c)
  let r01 := g.findPointAtPillar i (j + 1) (g.getZCorner i j k 0 0 c)
  let p11 := g.findPointAtPillar (i + 1) (j + 1) (g.getZCorner i j k 1 1 c)
  let q11 := g.findPointAtPillar (i + 1) (j + 1) (g.getZCorner i j k 0 1 c)
  let r11 := g.findPointAtPillar (i + 1) (j + 1) (g.getZCorner i j k 1 0 c)
  let a2 := (p01 + p11 - q01 - q11) - (p00 + p10 - q00 - q10) - (r10 + r11 - (2 : ℝ) * p10)
  let b2 := r10 + r11 - (2 : ℝ) * p10
  let c2 := p00 + p10 - q00 - q10
  let a1 := (p00 + p10 - q00 - q10) + (p10 + p11 - r10 - r11) - (p01 + p11 - q01 - q11) - (p00 + p01 - r00 - r01) +
    (r10 + r11 - (2 : ℝ) * p10)
  let b1 := (-1 : ℝ) * (r00 + r01 - (2 : ℝ) * p00)
  let c1 := q00 + q10 - (2 : ℝ) * p00
  let a0 := p00 + p01 - r00 - r01
  let b0 := r00 + r01 - (2 : ℝ) * p00
  let c0 := p00
  u * (u * (v * (v * a2) + v * b2 + c2)) + u * (v * (v * a1) + v * b1 + c1) + v * (v * a0) + v * b0 + c0

/-- `FindPointInCell`, eclipsegeometry.cpp lines 841-847. -/
noncomputable def findPointInCell (g : EclipseGeometry) (i j k : ℕ) (u v w : ℝ) : Pt :=
  (1 - w) * g.findPointCellSurface i j k 0 u v + w * g.findPointCellSurface i j k 1 u v

/-- `FindUVCoordinates` if `v` does not depend on `u`, eclipsegeometry.cpp lines 873-892. -/
noncomputable def uvFlat (ay b cx cy dx dy x y : ℝ) : Res (ℝ × ℝ) :=
  if cx ≠ 0 then do
    let v ← fdiv (x - dx) cx
    (if ay ≠ 0 ∨ b ≠ 0 then
      if ay * v + b ≠ 0 then do
        let u ← fdiv (y - cy * v - dy) (ay * v + b)
        .ok (u, v)
      else .ok (0, v)
    else .throws "Degenerated cell" : Res (ℝ × ℝ))
  else .throws "Degenerated cell"

/-- `v` in `FindUVCoordinates` otherwise, eclipsegeometry.cpp lines 899-918. -/
noncomputable def uvRoot (seca secb secc : ℝ) : Res ℝ :=
  if seca ≠ 0 then do
    let s ← fsqrt (secb * secb - 4 * seca * secc)
    let v ← fdiv (-secb + s) (2 * seca)
    (if v < 0 ∨ v > 1 then fdiv (-secb - s) (2 * seca) else .ok v : Res ℝ)
  else if secb ≠ 0 then fdiv (-secc) secb
  else if secc = 0 then .ok 0
  else .throws "Degenerated cell"

/-- `FindUVCoordinates` with the points of the four pillars, eclipsegeometry.cpp lines 857-924. -/
noncomputable def uvOf (p00 p10 p01 p11 : Pt) (x y : ℝ) : Res (ℝ × ℝ) :=
  let ax := p00.x + p11.x - p10.x - p01.x
  let ay := p00.y + p11.y - p10.y - p01.y
  let bx := p10.x - p00.x
  let b := p10.y - p00.y
  let cx := p01.x - p00.x
  let cy := p01.y - p00.y
  let dx := p00.x
  let dy := p00.y
  if ax = 0 ∧ bx = 0 then uvFlat ay b cx cy dx dy x y
  else do
    let seca := ax * cy - ay * cx
    let secb := dy * ax + bx * cy + x * ay - dx * ay - b * cx - ax * y
    let secc := dy * bx + x * b - b * dx - y * bx
    let v ← uvRoot seca secb secc
    (if ax * v + bx ≠ 0 then do
      let u ← fdiv (x - cx * v - dx) (ax * v + bx)
      .ok (u, v)
    else .ok (0, v) : Res (ℝ × ℝ))

/-- `FindUVCoordinates`, eclipsegeometry.cpp lines 849-924. -/
noncomputable def findUVCoordinates (g : EclipseGeometry) (x y z : ℝ) (i j : ℕ) : Res (ℝ × ℝ) :=
  uvOf (g.findPointAtPillar i j z) (g.findPointAtPillar (i + 1) j z) (g.findPointAtPillar i (j + 1) z)
    (g.findPointAtPillar (i + 1) (j + 1) z) x y

/-- `interSecTab(i, j)` and `pillar_ok(i, j)` of `GetCellIndex_ij`, eclipsegeometry.cpp lines 171-185: `none` is a pillar that is not
active. Nothing is thrown for a degenerated one. -/
noncomputable def intersection (g : EclipseGeometry) (p : Pt) (i j : ℕ) : Res (Option Pt) :=
  if g.activePillars i j then do
    let q ← (Plane.ofNormal p ⟨0, 0, 1⟩).findIntersectionPt (g.pillars i j)
    .ok (some q)
  else .ok none

/-- The body of the second loops of `GetCellIndex_ij`, eclipsegeometry.cpp lines 191-208. The points of the pillars are found here. -/
noncomputable def columnHas (g : EclipseGeometry) (p : Pt) (i j : ℕ) : Res Bool := do
  let q0 ← g.intersection p i j
  let q1 ← g.intersection p (i + 1) j
  let q2 ← g.intersection p (i + 1) (j + 1)
  let q3 ← g.intersection p i (j + 1)
  match q0, q1, q2, q3 with
  | some q0, some q1, some q2, some q3 => Polygon.isInsideXY [q0, q1, q2, q3] p.x p.y
  | _, _, _, _ => .ok false

/-- The second loops of `GetCellIndex_ij`, eclipsegeometry.cpp lines 189-211: the first of some columns that holds the point. -/
noncomputable def firstColumn (g : EclipseGeometry) (p : Pt) : List (ℕ × ℕ) → Res (Option (ℕ × ℕ))
  | [] => .ok none
  | (i, j) :: l => do
    let b ← g.columnHas p i j
    if b then .ok (some (i, j)) else g.firstColumn p l

/-- The columns in the order of the loops, eclipsegeometry.cpp lines 189-190. -/
def columns (g : EclipseGeometry) : List (ℕ × ℕ) :=
  (List.range g.nj).flatMap fun j => (List.range g.ni).map fun i => (i, j)

/-- `GetCellIndex_ij`, eclipsegeometry.cpp lines 156-211. -/
noncomputable def getCellIndex (g : EclipseGeometry) (x y z : ℝ) : Res (Option (ℕ × ℕ)) := do
  let inside1 ← Polygon.isInsideXY g.polymin x y
  let inside2 ← Polygon.isInsideXY g.polymax x y
  (if inside1 = false ∧ inside2 = false then .ok none else g.firstColumn ⟨x, y, z⟩ g.columns : Res (Option (ℕ × ℕ)))

/-- The `while` loop of `FindIndex`, eclipsegeometry.cpp lines 486-497, with the depths of the tops and bottoms of the cells of a
column: the ends of the interval that is left, or the cell that is returned. `bot - 1` is not negative: with `bot = 0` it is the
greatest `size_t`, and the loop goes on. -/
noncomputable def searchLayer (T B : ℕ → ℝ) (z : ℝ) (top bot : ℕ) : Res ((ℕ × ℕ) ⊕ ℕ) :=
  if bot = 0 then
    if z < B 0 ∨ z > T 0 then .diverges else .ok (.inr 0)
  else if h : top < bot - 1 then
    let newbot := (top + bot) / 2
    if z < B newbot then searchLayer T B z top newbot
    else if z > T newbot then searchLayer T B z newbot bot
    else .ok (.inr newbot)
  else .ok (.inl (top, bot))
termination_by bot - top
decreasing_by all_goals omega

/-- `FindIndex` in a column, eclipsegeometry.cpp lines 474-520. -/
noncomputable def findLayer (T B : ℕ → ℝ) (nk : ℕ) (z : ℝ) : Res (Option ℕ) :=
  if nk = 0 then .ub "read out of range"
  else if z < T 0 ∨ ¬ z < B (nk - 1) then .ok none
  else do
    let r ← searchLayer T B z 0 (nk - 1)
    match r with
    | .inr k => .ok (some k)
    | .inl (top, bot) =>
      if decide (z < T top) ≠ decide (z < B top) then .ok (some top)
      else if decide (z < T bot) ≠ decide (z < B bot) then .ok (some bot)
      else .ok none

/-- `FindIndex`, eclipsegeometry.cpp lines 463-541: `none` is `false`. -/
noncomputable def findIndex (g : EclipseGeometry) (x y z : ℝ) : Res (Option (ℕ × ℕ × ℕ)) := do
  let c ← g.getCellIndex x y z
  match c with
  | none => .ok none
  | some (i, j) => do
    let uv ← g.findUVCoordinates x y z i j
    let k ← findLayer (fun k => (g.findPointCellSurface i j k 0 uv.1 uv.2).z)
      (fun k => (g.findPointCellSurface i j k 1 uv.1 uv.2).z) g.nk z
    .ok (k.map fun k => (i, j, k))

/-- `FindTopCell`, eclipsegeometry.cpp lines 1089-1098: the loop from cell `k` on, with `n` cells left. -/
def topFrom (g : EclipseGeometry) (i j : ℕ) : ℕ → ℕ → ℕ
  | k, 0 => k
  | k, n + 1 => if g.active i j k then k else g.topFrom i j (k + 1) n

/-- `FindTopCell`, eclipsegeometry.cpp lines 1089-1098. -/
def findTopCell (g : EclipseGeometry) (i j : ℕ) : ℕ := g.topFrom i j 0 g.nk

/-- `FindBottomCell`, eclipsegeometry.cpp lines 1101-1113: the loop with `n` cells left; `nk` is at most the greatest `int`. -/
def botFrom (g : EclipseGeometry) (i j : ℕ) : ℕ → ℕ
  | 0 => g.nk
  | n + 1 => if g.active i j n then n else g.botFrom i j n

/-- `FindBottomCell`, eclipsegeometry.cpp lines 1101-1113. -/
def findBottomCell (g : EclipseGeometry) (i j : ℕ) : ℕ := g.botFrom i j g.nk

/-- `IsColumnActive`, eclipsegeometry.hpp lines 106-107. -/
def isColumnActive (g : EclipseGeometry) (i j : ℕ) : Bool := decide (g.findTopCell i j < g.nk)

/-- Sets an element of a grid. -/
def setAt (f : ℕ → ℕ → Bool) (i j : ℕ) : ℕ → ℕ → Bool := Function.update f i (Function.update (f i) j true)

/-- The body of the loops of `InitializeActivePillars`, eclipsegeometry.cpp lines 1005-1010. -/
def markPillars (g : EclipseGeometry) (f : ℕ → ℕ → Bool) (c : ℕ × ℕ) : ℕ → ℕ → Bool :=
  if g.isColumnActive c.1 c.2 then
    setAt (setAt (setAt (setAt f c.1 c.2) (c.1 + 1) c.2) c.1 (c.2 + 1)) (c.1 + 1) (c.2 + 1)
  else f

/-- All columns in the order of loops over `i` and then `j`, e.g. eclipsegeometry.cpp lines 1003-1004. -/
def columnsI (g : EclipseGeometry) : List (ℕ × ℕ) :=
  (List.range g.ni).flatMap fun i => (List.range g.nj).map fun j => (i, j)

/-- `InitializeActivePillars`, eclipsegeometry.cpp lines 1000-1013. -/
def initializeActivePillars (g : EclipseGeometry) : EclipseGeometry :=
  { g with activePillars := g.columnsI.foldl g.markPillars fun _ _ => false }

/-- `FindTopLayer`, eclipsegeometry.cpp lines 1145-1157. -/
def findTopLayer (g : EclipseGeometry) : ℕ :=
  g.columnsI.foldl
    (fun top c => if top > g.findTopCell c.1 c.2 then g.findTopCell c.1 c.2 else top) (g.findTopCell 0 0)

/-- `FindBottomLayer`, eclipsegeometry.cpp lines 1159-1172. -/
def findBottomLayer (g : EclipseGeometry) : ℕ :=
  g.columnsI.foldl
    (fun bot c => if g.findBottomCell c.1 c.2 < g.nk ∧ (bot < g.findBottomCell c.1 c.2 ∨ bot = g.nk) then g.findBottomCell c.1 c.2
      else bot) (g.findBottomCell 0 0)

/-- The smaller of an infinite or finite depth and a depth, eclipsegeometry.cpp lines 708-709. -/
noncomputable def minOf (t : Option ℝ) (z : ℝ) : Option ℝ :=
  match t with
  | none => some z
  | some t => if z < t then some z else some t

/-- The greater of an infinite or finite depth and a depth, eclipsegeometry.cpp lines 756-757. -/
noncomputable def maxOf (t : Option ℝ) (z : ℝ) : Option ℝ :=
  match t with
  | none => some z
  | some t => if z > t then some z else some t

/-- The four columns at a pillar, and which of their corners is there, eclipsegeometry.cpp lines 704, 713, 722 and 731. -/
def columnsAt (g : EclipseGeometry) (i j : ℕ) : List (ℕ × ℕ × ℕ × ℕ) :=
  (if i > 0 ∧ j > 0 then [(i - 1, j - 1, 1, 1)] else []) ++ (if i > 0 ∧ j < g.nj then [(i - 1, j, 1, 0)] else []) ++
    (if i < g.ni ∧ j > 0 then [(i, j - 1, 0, 1)] else []) ++ (if i < g.ni ∧ j < g.nj then [(i, j, 0, 0)] else [])

/-- `FindZTopAtPillar`, eclipsegeometry.cpp lines 701-746: `none` is infinite and not found. -/
noncomputable def findZTopAtPillar (g : EclipseGeometry) (i j : ℕ) : Option ℝ :=
  (g.columnsAt i j).foldl (fun t c => if g.findTopCell c.1 c.2.1 < g.nk then
    minOf t (g.getZCorner c.1 c.2.1 (g.findTopCell c.1 c.2.1) c.2.2.1 c.2.2.2 0) else t) none

/-- `FindZBotAtPillar`, eclipsegeometry.cpp lines 749-794: `none` is infinite and not found. -/
noncomputable def findZBotAtPillar (g : EclipseGeometry) (i j : ℕ) : Option ℝ :=
  (g.columnsAt i j).foldl (fun t c => if g.findBottomCell c.1 c.2.1 < g.nk then
    maxOf t (g.getZCorner c.1 c.2.1 (g.findBottomCell c.1 c.2.1) c.2.2.1 c.2.2.2 1) else t) none

/-- `FindPointAtPillarInsideGrid`, eclipsegeometry.cpp lines 571-587: `none` is not found. -/
noncomputable def findPointAtPillarInsideGrid (g : EclipseGeometry) (i j : ℕ) (z : ℝ) : Option Pt :=
  match g.findZTopAtPillar i j with
  | none => none
  | some t =>
    if z < t then some (g.findPointAtPillar i j t)
    else match g.findZBotAtPillar i j with
      | none => none
      | some b => some (g.findPointAtPillar i j (if z > b then b else z))

/-- One pair of pillars of `FindMeanPillarDistance`, e.g. eclipsegeometry.cpp lines 603-608: the sum and the number. -/
noncomputable def addPair (g : EclipseGeometry) (z : ℝ) (s : ℝ × ℕ) (p q : ℕ × ℕ) : ℝ × ℕ :=
  if g.activePillars p.1 p.2 ∧ g.activePillars q.1 q.2 then
    (s.1 + (g.findPointAtPillar p.1 p.2 z).getDistance (g.findPointAtPillar q.1 q.2 z), s.2 + 1)
  else s

/-- `FindMeanPillarDistance`, eclipsegeometry.cpp lines 590-646. -/
noncomputable def findMeanPillarDistance (g : EclipseGeometry) (z : ℝ) : Res ℝ :=
  let s := ((List.range g.ni).flatMap fun i => (List.range g.nj).map fun j => (i + 1, j + 1)).foldl
    (fun s p => g.addPair z (g.addPair z s p (p.1 - 1, p.2)) p (p.1, p.2 - 1)) (0, 0)
  let s := (List.range g.nj).foldl (fun s j => g.addPair z s (0, j + 1) (0, j)) s
  let s := (List.range g.ni).foldl (fun s i => g.addPair z s (i + 1, 0) (i, 0)) s
  fdiv s.1 s.2

end EclipseGeometry
end Verif
