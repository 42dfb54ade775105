import Verif.Model.Grid
import Mathlib.Data.Real.Basic
import Mathlib.Algebra.Order.Floor.Ring
import Mathlib.Analysis.SpecialFunctions.Trigonometric.Basic

/-!
# Surfaces

Models src/nrlib/surface/surface.hpp, regularsurface.hpp and regularsurfacerotated.hpp for
`A = double`. Doubles are real numbers without rounding. A division by zero is `nonfinite`, the
conversion to `int` of a number outside its range and a signed overflow are `ub`, and so is a failing
`assert`. The name of a surface is left out.
-/

namespace Verif

/-- A division of doubles. -/
noncomputable def divD (a b : ℝ) : Res ℝ :=
  if b = 0 then .nonfinite "division by zero" else .ok (a / b)

/-- `static_cast<int>` of a double that is an integer, and of a `size_t`: a number outside the range
of `int` has no value. -/
def toInt32 (k : ℤ) : Res ℤ :=
  if -2 ^ 31 ≤ k ∧ k < 2 ^ 31 then .ok k else .ub "conversion to int out of range"

/-- `i + 1` for an `int`. -/
def succInt32 (k : ℤ) : Res ℤ :=
  if k + 1 < 2 ^ 31 then .ok (k + 1) else .ub "signed overflow"

/-- Rounding towards zero, as in a conversion to an integer type. -/
noncomputable def truncZ (q : ℝ) : ℤ := if 0 ≤ q then ⌊q⌋ else ⌈q⌉

/-- The result of `std::modf`: the fractional part, which has the sign of the argument. -/
noncomputable def modfFrac (q : ℝ) : ℝ := q - truncZ q

/-- `RegularSurface<double>`, regularsurface.hpp lines 247-259, with the members of its base
class `Grid2D`. -/
structure RegSurf where
  grid : Grid2D ℝ
  x_min : ℝ
  y_min : ℝ
  lx : ℝ
  ly : ℝ
  dx : ℝ
  dy : ℝ
  missing : ℝ

/-- The spacing of `n` nodes over a length, regularsurface.hpp lines 293-294, 311-312, 784-785,
793-794. -/
noncomputable def spacing (n : ℕ) (l : ℝ) : ℝ := if 1 < n then l / ((n - 1 : ℕ) : ℝ) else 1.0

namespace RegSurf

/-- Constructor from a constant, regularsurface.hpp lines 281-295. -/
noncomputable def mkConst (x_min y_min lx ly : ℝ) (nx ny : ℕ) (value : ℝ) : RegSurf :=
  { grid := Grid2D.mk' nx ny value, x_min := x_min, y_min := y_min, lx := lx, ly := ly,
    dx := spacing nx lx, dy := spacing ny ly, missing := -999.0 }

/-- Constructor from a grid, regularsurface.hpp lines 298-313. -/
noncomputable def ofGrid (x_min y_min lx ly : ℝ) (grid : Grid2D ℝ) : RegSurf :=
  { grid := grid, x_min := x_min, y_min := y_min, lx := lx, ly := ly,
    dx := spacing grid.ni lx, dy := spacing grid.nj ly, missing := -999.0 }

/-- `SetMissingValue`, regularsurface.hpp line 224. The values of the nodes stay as they are. -/
def setMissingValue (s : RegSurf) (missing_val : ℝ) : RegSurf := { s with missing := missing_val }

/-- `SetDimensions`, regularsurface.hpp lines 774-786. -/
noncomputable def setDimensions (s : RegSurf) (x_min y_min lx ly : ℝ) : RegSurf :=
  { s with x_min := x_min, y_min := y_min, lx := lx, ly := ly,
           dx := spacing s.grid.ni lx, dy := spacing s.grid.nj ly }

/-- `Resize`, regularsurface.hpp lines 789-795. -/
noncomputable def resize (s : RegSurf) (nx ny : ℕ) (value : ℝ) : RegSurf :=
  { s with grid := Grid2D.mk' nx ny value, dx := spacing nx s.lx, dy := spacing ny s.ly }

/-- `GetXMax`, regularsurface.hpp line 190. -/
noncomputable def xMax (s : RegSurf) : ℝ := s.x_min + s.lx

/-- `GetYMax`, regularsurface.hpp line 191. -/
noncomputable def yMax (s : RegSurf) : ℝ := s.y_min + s.ly

/-- `GetXY(i, j)`, regularsurface.hpp lines 166-169. -/
noncomputable def getXY (s : RegSurf) (i j : ℕ) : ℝ × ℝ := (s.x_min + i * s.dx, s.y_min + j * s.dy)

/-- `GetXY(index)`, regularsurface.hpp lines 171-175. An integer division by zero is undefined. -/
noncomputable def getXYIndex (s : RegSurf) (index : ℕ) : Res (ℝ × ℝ) :=
  if s.grid.ni = 0 then .ub "integer division by zero"
  else
    let j := index / s.grid.ni
    let i := index - j * s.grid.ni
    .ok (s.getXY i j)

/-- `IsMissing`, regularsurface.hpp lines 204-206. -/
def IsMissing (s : RegSurf) (val : ℝ) : Prop := val = s.missing

noncomputable instance (s : RegSurf) (val : ℝ) : Decidable (s.IsMissing val) :=
  inferInstanceAs (Decidable (val = s.missing))

/-- `FindGeneralIndex`, regularsurface.hpp lines 640-645. -/
noncomputable def findGeneralIndex (s : RegSurf) (x y : ℝ) : Res (ℤ × ℤ) := do
  let qx ← divD (x - s.x_min) s.dx
  let i ← toInt32 ⌊qx⌋
  let qy ← divD (y - s.y_min) s.dy
  let j ← toInt32 ⌊qy⌋
  .ok (i, j)

/-- One of the four corners, regularsurface.hpp lines 681-696: the condition, and the node. -/
noncomputable def corner (s : RegSurf) (cond : Prop) [Decidable cond] (i j : ℤ) : Res ℝ :=
  if cond then s.grid.get i.toNat j.toNat else .ok s.missing

/-- `GetCorners`, regularsurface.hpp lines 670-704. The operands of `&&` after the first are
evaluated only if the ones before them hold, which matters for the overflow of `j + 1`. -/
noncomputable def getCorners (s : RegSurf) (x y : ℝ) : Res (List ℝ) := do
  let ni ← toInt32 s.grid.ni
  let nj ← toInt32 s.grid.nj
  let ij ← s.findGeneralIndex x y
  let i := ij.1
  let j := ij.2
  let i1 ← succInt32 i
  if 0 ≤ i1 ∧ i < ni then
    let j1 ← succInt32 j
    if 0 ≤ j1 ∧ j < nj then
      let c0 ← s.corner (0 ≤ i ∧ 0 ≤ j) i j
      let c1 ← s.corner (i1 < ni ∧ 0 ≤ j) i1 j
      let c2 ← s.corner (0 ≤ i ∧ j1 < nj) i j1
      let c3 ← s.corner (i1 < ni ∧ j1 < nj) i1 j1
      .ok [c0, c1, c2, c3]
    else .ok [s.missing, s.missing, s.missing, s.missing]
  else .ok [s.missing, s.missing, s.missing, s.missing]

/-- `CellRelX`, regularsurface.hpp lines 851-856. -/
noncomputable def cellRelX (s : RegSurf) (x : ℝ) : Res ℝ := do
  let q ← divD (x - s.x_min) s.dx
  .ok (modfFrac q)

/-- `CellRelY`, regularsurface.hpp lines 859-864. -/
noncomputable def cellRelY (s : RegSurf) (y : ℝ) : Res ℝ := do
  let q ← divD (y - s.y_min) s.dy
  .ok (modfFrac q)

/-- `GetBilinearZ`, regularsurface.hpp lines 328-337. -/
def getBilinearZ (corners : List ℝ) (u v : ℝ) : Res ℝ := do
  let a ← rd corners 0
  let c1 ← rd corners 1
  let b := c1 - a
  let c2 ← rd corners 2
  let c := c2 - a
  let c3 ← rd corners 3
  let d := c3 - a - b - c
  .ok (a + b * u + c * v + d * u * v)

/-- `GetBilinearZMissingCorners`, regularsurface.hpp lines 340-364. -/
noncomputable def getBilinearZMissingCorners (s : RegSurf) (corners : List ℝ) (u v : ℝ) : Res ℝ := do
  let weights : List ℝ := [(1.0 - u) * (1.0 - v), u * (1.0 - v), (1.0 - u) * v, u * v]
  let r ← forRange 0 4 (fun i (st : ℝ × ℝ) => do
    let c ← rd corners i
    let w ← rd weights i
    if ¬ s.IsMissing c then .ok (st.1 + w * c, st.2 + w) else .ok st) ((0.0, 0.0) : ℝ × ℝ)
  if r.2 = 0.0 then .ok s.missing else divD r.1 r.2

/-- `GetZ`, regularsurface.hpp lines 367-395. -/
noncomputable def getZ (s : RegSurf) (x y : ℝ) : Res ℝ := do
  let corner ← s.getCorners x y
  let n_missing ← forRange 0 4 (fun pix (n : ℕ) => do
    let c ← rd corner pix
    if s.IsMissing c then .ok (n + 1) else .ok n) 0
  if n_missing = 4 then .ok s.missing
  else
    let x1 ← s.cellRelX x
    let y1 ← s.cellRelY y
    if n_missing = 0 then getBilinearZ corner x1 y1
    else s.getBilinearZMissingCorners corner x1 y1

/-- `GetZInside`, regularsurface.hpp lines 398-420. The `while` loop, which stops at the first
missing corner, is a loop over all four that does nothing once one is found. -/
noncomputable def getZInside (s : RegSurf) (x y : ℝ) : Res ℝ := do
  let corner ← s.getCorners x y
  let missing ← forRange 0 4 (fun pix (missing : Bool) =>
    if missing = true then .ok missing
    else do
      let c ← rd corner pix
      if s.IsMissing c then .ok true else .ok missing) false
  if missing = true then .ok s.missing
  else
    let x1 ← s.cellRelX x
    let y1 ← s.cellRelY y
    getBilinearZ corner x1 y1

/-- `IsInsideSurface`, regularsurface.hpp lines 423-429. -/
noncomputable def isInsideSurface (s : RegSurf) (x y : ℝ) : Bool :=
  if x < s.x_min ∨ x > s.xMax ∨ y < s.y_min ∨ y > s.yMax then false else true

/-- `EnclosesRectangle`, regularsurface.hpp lines 589-599. -/
noncomputable def enclosesRectangle (s : RegSurf) (x_min x_max y_min y_max : ℝ) : Bool :=
  if x_min < s.x_min ∨ x_max > s.xMax ∨ y_min < s.y_min ∨ y_max > s.yMax then false else true

/-- `FindIndex`, regularsurface.hpp lines 618-626; also `FindI` and `FindJ`, lines 602-615. -/
noncomputable def findIndex (s : RegSurf) (x y : ℝ) : Res (ℕ × ℕ) :=
  if x ≥ s.x_min ∧ x ≤ s.xMax ∧ y ≥ s.y_min ∧ y ≤ s.yMax then do
    let qx ← divD (x - s.x_min) s.dx
    let qy ← divD (y - s.y_min) s.dy
    if -1 < qx ∧ qx < 2 ^ 64 ∧ -1 < qy ∧ qy < 2 ^ 64 then
      .ok ((truncZ qx).toNat, (truncZ qy).toNat)
    else .ub "conversion to size_t out of range"
  else .ub "assert in RegularSurface::FindIndex"

/-- The two clamps of `FindNearestNodeIndex`, regularsurface.hpp lines 655-663. -/
def clampIndex (t n : ℤ) : ℤ := if t < 0 then 0 else if t ≥ n then n - 1 else t

/-- `FindNearestNodeIndex`, regularsurface.hpp lines 648-667. A negative index, which an empty grid
gives, becomes a huge `size_t`. -/
noncomputable def findNearestNodeIndex (s : RegSurf) (x y : ℝ) : Res (ℕ × ℕ) := do
  let ni ← toInt32 s.grid.ni
  let nj ← toInt32 s.grid.nj
  let ij ← s.findGeneralIndex (x + 0.5 * s.dx) (y + 0.5 * s.dy)
  let i := clampIndex ij.1 ni
  let j := clampIndex ij.2 nj
  .ok ((i % 2 ^ 64).toNat, (j % 2 ^ 64).toNat)

/-- The loop of `Add`, `Subtract` and `Multiply`, regularsurface.hpp lines 83-102. -/
noncomputable def mapValid (s : RegSurf) (f : ℝ → ℝ) : Res RegSurf := do
  let d ← forRange 0 s.grid.data.length (fun i (d : List ℝ) => do
    let z ← rd d i
    if z ≠ s.missing then wr d i (f z) else .ok d) s.grid.data
  .ok { s with grid := { s.grid with data := d } }

/-- `Add`, regularsurface.hpp lines 83-88. -/
noncomputable def add (s : RegSurf) (c : ℝ) : Res RegSurf := s.mapValid (· + c)

/-- `Subtract`, regularsurface.hpp lines 90-95. -/
noncomputable def subtract (s : RegSurf) (c : ℝ) : Res RegSurf := s.mapValid (· - c)

/-- `Multiply`, regularsurface.hpp lines 97-102. -/
noncomputable def multiply (s : RegSurf) (c : ℝ) : Res RegSurf := s.mapValid (· * c)

/-- `Assign`, regularsurface.hpp lines 77-81. -/
noncomputable def assign (s : RegSurf) (c : ℝ) : Res RegSurf := do
  let d ← forRange 0 s.grid.data.length (fun i (d : List ℝ) => wr d i c) s.grid.data
  .ok { s with grid := { s.grid with data := d } }

/-- The loop of `Min` and `MinNode`, regularsurface.hpp lines 502-528: the smallest value and the
index where it was found. -/
noncomputable def minLoop (s : RegSurf) : Res (ℝ × ℕ) := do
  let z0 ← rd s.grid.data 0
  forRange 0 s.grid.data.length (fun i (st : ℝ × ℕ) => do
    let z ← rd s.grid.data i
    if (s.IsMissing st.1 ∨ z < st.1) ∧ ¬ s.IsMissing z then .ok (z, i) else .ok st) (z0, 0)

/-- The loop of `Max` and `MaxNode`, regularsurface.hpp lines 530-556. -/
noncomputable def maxLoop (s : RegSurf) : Res (ℝ × ℕ) := do
  let z0 ← rd s.grid.data 0
  forRange 0 s.grid.data.length (fun i (st : ℝ × ℕ) => do
    let z ← rd s.grid.data i
    if (s.IsMissing st.1 ∨ z > st.1) ∧ ¬ s.IsMissing z then .ok (z, i) else .ok st) (z0, 0)

/-- `MinNode`, regularsurface.hpp lines 514-528: the value and the indices of its node. -/
noncomputable def minNode (s : RegSurf) : Res (ℝ × ℕ × ℕ) := do
  let r ← s.minLoop
  let ij ← s.grid.getIJ r.2
  .ok (r.1, ij)

/-- `MaxNode`, regularsurface.hpp lines 542-556. -/
noncomputable def maxNode (s : RegSurf) : Res (ℝ × ℕ × ℕ) := do
  let r ← s.maxLoop
  let ij ← s.grid.getIJ r.2
  .ok (r.1, ij)

/-- `Min`, regularsurface.hpp lines 502-512. -/
noncomputable def min (s : RegSurf) : Res ℝ := do
  let r ← s.minLoop
  .ok r.1

/-- `Max`, regularsurface.hpp lines 530-540. -/
noncomputable def max (s : RegSurf) : Res ℝ := do
  let r ← s.maxLoop
  .ok r.1

/-- `Avg(n_nodes)`, regularsurface.hpp lines 566-586: the average and the number of nodes. The
counter is an `int`. -/
noncomputable def avg (s : RegSurf) : Res (ℝ × ℤ) := do
  let r ← forRange 0 s.grid.data.length (fun i (st : ℝ × ℤ) => do
    let z ← rd s.grid.data i
    if ¬ s.IsMissing z then do
      let n ← succInt32 st.2
      .ok (st.1 + z, n)
    else .ok st) ((0.0, 0) : ℝ × ℤ)
  if r.2 > 0 then do
    let a ← divD r.1 r.2
    .ok (a, r.2)
  else .ok (s.missing, r.2)

/-- One neighbour in `CreateNeighbourAvg`, for instance regularsurface.hpp lines 714-717. -/
noncomputable def addNode (s : RegSurf) (i j : ℕ) (st : ℝ × ℕ) : Res (ℝ × ℕ) := do
  let z ← s.grid.get i j
  if ¬ s.IsMissing z then .ok (st.1 + z, st.2 + 1) else .ok st

/-- `n - 1` for a `size_t`. -/
def predSize (n : ℕ) : ℕ := if n = 0 then 2 ^ 64 - 1 else n - 1

/-- An `if` without an `else` in `CreateNeighbourAvg`. -/
def stepIf (c : Prop) [Decidable c] (f : ℝ × ℕ → Res (ℝ × ℕ)) (st : ℝ × ℕ) : Res (ℝ × ℕ) :=
  if c then f st else .ok st

/-- The three neighbours in a column next to the node, regularsurface.hpp lines 713-728 and
731-746. -/
noncomputable def addColumn (s : RegSurf) (k j : ℕ) (st : ℝ × ℕ) : Res (ℝ × ℕ) := do
  let st ← stepIf (j > 0) (s.addNode k (j - 1)) st
  let st ← stepIf (j < predSize s.grid.nj) (s.addNode k (j + 1)) st
  s.addNode k j st

/-- `CreateNeighbourAvg`, regularsurface.hpp lines 707-771: the changed surface and whether any
neighbour had a value. -/
noncomputable def createNeighbourAvg (s : RegSurf) (i j : ℕ) : Res (RegSurf × Bool) := do
  let st ← stepIf (i > 0) (s.addColumn (i - 1) j) (0.0, 0)
  let st ← stepIf (i < predSize s.grid.ni) (s.addColumn (i + 1) j) st
  let st ← stepIf (j > 0) (s.addNode i (j - 1)) st
  let st ← stepIf (j < predSize s.grid.nj) (s.addNode i (j + 1)) st
  if st.2 > 0 then do
    let avg ← divD st.1 st.2
    let g ← s.grid.set i j avg
    .ok ({ s with grid := g }, true)
  else do
    let g ← s.grid.set i j s.missing
    .ok ({ s with grid := g }, false)

end RegSurf

/-- The members of the interface `Surface<double>` that binary operations use, surface.hpp
lines 29-55. -/
structure SurfaceIf where
  getZ : ℝ → ℝ → Res ℝ
  isMissing : ℝ → Prop

/-- A regular surface as a `Surface`. -/
noncomputable def RegSurf.toSurface (s : RegSurf) : SurfaceIf := ⟨s.getZ, s.IsMissing⟩

/-- `ConstantSurface`, surface.hpp lines 57-130, as a `Surface`: `IsMissing` is the one of the base
class, which is always false. -/
def constantSurface (z : ℝ) : SurfaceIf := ⟨fun _ _ => .ok z, fun _ => False⟩

open Classical in
/-- The loop of `AddNonConform` and its relatives, regularsurface.hpp lines 432-499 and
regularsurfacerotated.hpp lines 312-383. `nodeXY` is `GetXY(index)` of the surface that is changed;
`s2` is another surface, so that it does not change during the loop. -/
noncomputable def nonConformLoop (nodeXY : ℕ → Res (ℝ × ℝ)) (missing : ℝ) (op : ℝ → ℝ → Res ℝ)
    (s2 : SurfaceIf) (d : List ℝ) : Res (List ℝ) :=
  forRange 0 d.length (fun i (d : List ℝ) => do
    let z ← rd d i
    if z ≠ missing then do
      let xy ← nodeXY i
      let value ← s2.getZ xy.1 xy.2
      if ¬ s2.isMissing value then do
        let r ← op z value
        wr d i r
      else wr d i missing
    else .ok d) d

namespace RegSurf

/-- The four `…NonConform` functions, regularsurface.hpp lines 432-499, with the operation as an
argument. -/
noncomputable def nonConform (s : RegSurf) (op : ℝ → ℝ → Res ℝ) (s2 : SurfaceIf) : Res RegSurf := do
  let d ← nonConformLoop s.getXYIndex s.missing op s2 s.grid.data
  .ok { s with grid := { s.grid with data := d } }

/-- `AddNonConform`, regularsurface.hpp lines 432-447. -/
noncomputable def addNonConform (s : RegSurf) (s2 : SurfaceIf) : Res RegSurf :=
  s.nonConform (fun a b => .ok (a + b)) s2

/-- `SubtractNonConform`, regularsurface.hpp lines 450-465. -/
noncomputable def subtractNonConform (s : RegSurf) (s2 : SurfaceIf) : Res RegSurf :=
  s.nonConform (fun a b => .ok (a - b)) s2

/-- `MultiplyNonConform`, regularsurface.hpp lines 467-482. -/
noncomputable def multiplyNonConform (s : RegSurf) (s2 : SurfaceIf) : Res RegSurf :=
  s.nonConform (fun a b => .ok (a * b)) s2

/-- `DivideNonConform`, regularsurface.hpp lines 484-499. -/
noncomputable def divideNonConform (s : RegSurf) (s2 : SurfaceIf) : Res RegSurf :=
  s.nonConform divD s2

end RegSurf

/-- `RegularSurfaceRotated<double>`, regularsurfacerotated.hpp lines 190-198. -/
structure RotSurf where
  surf : RegSurf
  angle : ℝ
  x_ref : ℝ
  y_ref : ℝ
  x_min : ℝ
  y_min : ℝ
  x_max : ℝ
  y_max : ℝ

namespace RotSurf

/-- `GlobalToLocalCoord`, regularsurfacerotated.hpp lines 262-274. -/
noncomputable def globalToLocal (s : RotSurf) (x y : ℝ) : ℝ × ℝ :=
  let x_rel := x - s.x_ref
  let y_rel := y - s.y_ref
  (Real.cos s.angle * x_rel + Real.sin s.angle * y_rel,
   -Real.sin s.angle * x_rel + Real.cos s.angle * y_rel)

/-- `LocalToGlobalCoord`, regularsurfacerotated.hpp lines 276-284. -/
noncomputable def localToGlobal (s : RotSurf) (x y : ℝ) : ℝ × ℝ :=
  (Real.cos s.angle * x - Real.sin s.angle * y + s.x_ref,
   Real.sin s.angle * x + Real.cos s.angle * y + s.y_ref)

/-- `CalculateMinMaxXY`, regularsurfacerotated.hpp lines 398-414. -/
noncomputable def calculateMinMaxXY (s : RotSurf) : RotSurf :=
  let p0 := s.localToGlobal 0 0
  let p1 := s.localToGlobal s.surf.lx 0
  let p2 := s.localToGlobal 0 s.surf.ly
  let p3 := s.localToGlobal s.surf.lx s.surf.ly
  { s with x_min := min (min (min p0.1 p1.1) p2.1) p3.1
           y_min := min (min (min p0.2 p1.2) p2.2) p3.2
           x_max := max (max (max p0.1 p1.1) p2.1) p3.1
           y_max := max (max (max p0.2 p1.2) p2.2) p3.2 }

/-- The members set before `CalculateMinMaxXY` is called. -/
noncomputable def start (surf : RegSurf) (angle x_ref y_ref : ℝ) : RotSurf :=
  ⟨surf, angle, x_ref, y_ref, 0, 0, 0, 0⟩

/-- Constructor from a surface, regularsurfacerotated.hpp lines 228-237. -/
noncomputable def ofSurface (surface : RegSurf) (angle : ℝ) : RotSurf :=
  (start surface angle surface.x_min surface.y_min).calculateMinMaxXY

/-- Constructor from a grid, regularsurfacerotated.hpp lines 239-249. -/
noncomputable def ofGrid (x_ref y_ref lx ly : ℝ) (grid : Grid2D ℝ) (angle : ℝ) : RotSurf :=
  (start (RegSurf.ofGrid x_ref y_ref lx ly grid) angle x_ref y_ref).calculateMinMaxXY

/-- `SetDimensions`, regularsurfacerotated.hpp lines 416-425. -/
noncomputable def setDimensions (s : RotSurf) (x_min y_min lx ly : ℝ) : RotSurf :=
  { s with surf := s.surf.setDimensions x_min y_min lx ly, x_ref := x_min,
           y_ref := y_min }.calculateMinMaxXY

/-- `SetAngle`, regularsurfacerotated.hpp line 153. -/
def setAngle (s : RotSurf) (angle : ℝ) : RotSurf := { s with angle := angle }

/-- `GetZ`, regularsurfacerotated.hpp lines 286-293. -/
noncomputable def getZ (s : RotSurf) (x y : ℝ) : Res ℝ :=
  let l := s.globalToLocal x y
  s.surf.getZ (l.1 + s.x_ref) (l.2 + s.y_ref)

/-- `GetZInside`, regularsurfacerotated.hpp lines 294-301. -/
noncomputable def getZInside (s : RotSurf) (x y : ℝ) : Res ℝ :=
  let l := s.globalToLocal x y
  s.surf.getZInside (l.1 + s.x_ref) (l.2 + s.y_ref)

/-- `IsInsideSurface`, regularsurfacerotated.hpp lines 302-310. -/
noncomputable def isInsideSurface (s : RotSurf) (x y : ℝ) : Bool :=
  let l := s.globalToLocal x y
  s.surf.isInsideSurface (l.1 + s.x_ref) (l.2 + s.y_ref)

/-- `EnclosesRectangle`, regularsurfacerotated.hpp lines 385-396. -/
noncomputable def enclosesRectangle (s : RotSurf) (x_min x_max y_min y_max : ℝ) : Bool :=
  if x_min < s.x_min ∨ x_max > s.x_max ∨ y_min < s.y_min ∨ y_max > s.y_max then false else true

/-- `GetXY(i, j)`, regularsurfacerotated.hpp lines 434-444. -/
noncomputable def getXY (s : RotSurf) (i j : ℕ) : ℝ × ℝ :=
  let p := s.surf.getXY i j
  s.localToGlobal (p.1 - s.x_ref) (p.2 - s.y_ref)

/-- `GetXY(index)`, regularsurfacerotated.hpp lines 446-456. -/
noncomputable def getXYIndex (s : RotSurf) (index : ℕ) : Res (ℝ × ℝ) := do
  let p ← s.surf.getXYIndex index
  .ok (s.localToGlobal (p.1 - s.x_ref) (p.2 - s.y_ref))

/-- A rotated surface as a `Surface`. -/
noncomputable def toSurface (s : RotSurf) : SurfaceIf := ⟨s.getZ, s.surf.IsMissing⟩

/-- The four `…NonConform` functions, regularsurfacerotated.hpp lines 312-383. -/
noncomputable def nonConform (s : RotSurf) (op : ℝ → ℝ → Res ℝ) (s2 : SurfaceIf) : Res RotSurf := do
  let d ← nonConformLoop s.getXYIndex s.surf.missing op s2 s.surf.grid.data
  .ok { s with surf := { s.surf with grid := { s.surf.grid with data := d } } }

/-- The number of nodes in one direction in `ResampleSurface`, regularsurfacerotated.hpp
lines 463-464. -/
noncomputable def resampleSize (l d : ℝ) : Res ℕ := do
  let q ← divD l d
  let n ← toInt32 (truncZ q)
  let n ← succInt32 n
  .ok n.toNat

/-- `ResampleSurface`, regularsurfacerotated.hpp lines 458-480. A negative number of nodes, which a
negative spacing gives, is not followed: it is taken as 0. -/
noncomputable def resampleSurface (s : RotSurf) : Res RegSurf := do
  let dx := s.surf.dx
  let dy := s.surf.dy
  let nx ← resampleSize (s.x_max - s.x_min) dx
  let ny ← resampleSize (s.y_max - s.y_min) dy
  let surf := (RegSurf.mkConst s.x_min s.y_min (s.x_max - s.x_min) (s.y_max - s.y_min) nx ny
    0.0).setMissingValue s.surf.missing
  forRange 0 nx (fun i surf => forRange 0 ny (fun j (surf : RegSurf) => do
    let x := s.x_min + i * dx
    let y := s.y_min + j * dy
    let value ← s.getZ x y
    let g ← surf.grid.set i j value
    .ok { surf with grid := g }) surf) surf

end RotSurf

end Verif
