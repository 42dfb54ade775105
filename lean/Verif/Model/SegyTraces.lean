import Verif.Model.SegySetup

/-!
# The geometry of a seismic cube from its traces

Models the constructor from traces of src/nrlib/segy/segygeometry.cpp, without regularization. The traces are in the
coordinate system of the map. Doubles are real numbers. The sums, differences and products of `int` stay in its range.
Messages are left out.
-/

namespace Verif

open Classical

/-- What the constructor uses of a `SegYTrace`: its lines and its place, segytrace.hpp lines 79-84. -/
structure SegyTrace where
  il : ℤ
  xl : ℤ
  x : ℝ
  y : ℝ

namespace SegyTrace

/-- `IMISSING`, segygeometry.cpp line 43. -/
def missing : ℤ := -99999

/-- Both lines are there, segygeometry.cpp lines 92, 129 and 273. -/
def HasLines (t : SegyTrace) : Prop := t.il ≠ missing ∧ t.xl ≠ missing

/-- What a loop does with a trace: null pointers and traces without lines are passed over, segygeometry.cpp lines 86-92. -/
noncomputable def visit {α : Type} (f : α → SegyTrace → α) (a : α) : Option SegyTrace → α
  | none => a
  | some t => if t.HasLines then f a t else a

/-- The first trace that is not null and the traces after it, segygeometry.cpp lines 64-66: without one the loop runs past the
end. -/
def firstTrace : List (Option SegyTrace) → Res (SegyTrace × List (Option SegyTrace))
  | [] => .ub "read past the end of the traces"
  | none :: ts => firstTrace ts
  | some t :: ts => .ok (t, ts)

/-- The ranges of the lines, the greatest squared distance to the first trace, and the trace where it is,
segygeometry.cpp lines 70-82. -/
structure Extent where
  ilMin : ℤ
  ilMax : ℤ
  xlMin : ℤ
  xlMax : ℤ
  dist1sq : ℤ
  p1 : SegyTrace

/-- The body of the first loop, segygeometry.cpp lines 94-106. -/
def extend (t0 : SegyTrace) (e : Extent) (t : SegyTrace) : Extent :=
  let distsq := (t.xl - t0.xl) * (t.xl - t0.xl) + (t.il - t0.il) * (t.il - t0.il)
  { ilMin := if t.il < e.ilMin then t.il else e.ilMin
    ilMax := if t.il > e.ilMax then t.il else e.ilMax
    xlMin := if t.xl < e.xlMin then t.xl else e.xlMin
    xlMax := if t.xl > e.xlMax then t.xl else e.xlMax
    dist1sq := if distsq > e.dist1sq then distsq else e.dist1sq
    p1 := if distsq > e.dist1sq then t else e.p1 }

/-- The first loop, segygeometry.cpp lines 70-109. -/
noncomputable def extentOf (t0 : SegyTrace) (ts : List (Option SegyTrace)) : Extent :=
  ts.foldl (visit (extend t0)) ⟨t0.il, t0.il, t0.xl, t0.xl, 0, t0⟩

/-- The steps of the lines, the greatest sum of the distances to two traces, and the trace where it is,
segygeometry.cpp lines 114-119. -/
structure Spread where
  dIL : ℤ
  dXL : ℤ
  dist2 : ℝ
  p2 : SegyTrace

/-- The distance of the lines of two traces, segygeometry.cpp lines 131-132. -/
noncomputable def lineDistance (s t : SegyTrace) : ℝ :=
  √(((t.xl - s.xl) * (t.xl - s.xl) + (t.il - s.il) * (t.il - s.il) : ℤ) : ℝ)

/-- The body of the second loop, segygeometry.cpp lines 131-144. `prevIL` and `prevXL` are those of the first trace throughout. -/
noncomputable def spread (t0 p1 : SegyTrace) (s : Spread) (t : SegyTrace) : Spread :=
  let dist := lineDistance t0 t + lineDistance p1 t
  { dIL := if |t.il - t0.il| > 0 ∧ |t.il - t0.il| < s.dIL then |t.il - t0.il| else s.dIL
    dXL := if |t.xl - t0.xl| > 0 ∧ |t.xl - t0.xl| < s.dXL then |t.xl - t0.xl| else s.dXL
    dist2 := if dist > s.dist2 then dist else s.dist2
    p2 := if dist > s.dist2 then t else s.p2 }

/-- The second loop, segygeometry.cpp lines 114-148. -/
noncomputable def spreadOf (t0 : SegyTrace) (e : Extent) (ts : List (Option SegyTrace)) : Spread :=
  ts.foldl (visit (spread t0 e.p1)) ⟨e.ilMax - e.ilMin, e.xlMax - e.xlMin, 0, t0⟩

/-- The steps from line to line of one coordinate, from its values at three traces, segygeometry.cpp lines 166-179. -/
noncomputable def solve (dIL1 dXL1 dIL2 dXL2 x0 x1 x2 : ℝ) : Res (ℝ × ℝ) :=
  if dXL2 > 0 then do
    let q ← divD dXL1 dXL2
    let dxIL ← divD (x1 - x0 - q * (x2 - x0)) (dIL1 - q * dIL2)
    let dxXL ← divD (x2 - x0 - dxIL * dIL2) dXL2
    .ok (dxIL, dxXL)
  else do
    let q ← divD dXL2 dXL1
    let dxIL ← divD (x2 - x0 - q * (x1 - x0)) (dIL2 - q * dIL1)
    let dxXL ← divD (x1 - x0 - dxIL * dIL1) dXL1
    .ok (dxIL, dxXL)

/-- The steps from in-line to in-line and from cross-line to cross-line, segygeometry.cpp lines 150-235. -/
noncomputable def directions (t0 p1 p2 : SegyTrace) (dist1sq : ℤ) (dist2 : ℝ) : Res ((ℝ × ℝ) × (ℝ × ℝ)) :=
  let dIL1 : ℝ := (p1.il - t0.il : ℤ)
  let dXL1 : ℝ := (p1.xl - t0.xl : ℤ)
  let dIL2 : ℝ := (p2.il - t0.il : ℤ)
  let dXL2 : ℝ := (p2.xl - t0.xl : ℤ)
  if dist2 > √(dist1sq : ℝ) + 0.005 then do
    let u ← solve dIL1 dXL1 dIL2 dXL2 t0.x p1.x p2.x
    let v ← solve dIL1 dXL1 dIL2 dXL2 t0.y p1.y p2.y
    .ok ((u.1, v.1), (u.2, v.2))
  else if dXL1 = 0 ∧ dXL2 = 0 then
    if dIL1 > 0 then do
      let a ← divD (p1.x - t0.x) dIL1
      let b ← divD (p1.y - t0.y) dIL1
      .ok ((a, b), (0, 0))
    else .ok ((0, 0), (0, 0))
  else if dIL1 = 0 ∧ dIL2 = 0 then do
    let a ← divD (p1.x - t0.x) dXL1
    let b ← divD (p1.y - t0.y) dXL1
    .ok ((0, 0), (a, b))
  else do
    let b ← divD (p1.y - t0.y) dIL1
    let a ← divD (p1.x - t0.x) dXL1
    .ok ((0, b), (a, 0))

/-- The greatest square of the distance of a trace from its place, segygeometry.cpp lines 252-257. -/
noncomputable def errorDist (vI vX : ℝ × ℝ) : ℝ :=
  let distIL := vI.1 * vI.1 + vI.2 * vI.2
  let distXL := vX.1 * vX.1 + vX.2 * vX.2
  0.25 * (if distIL = 0 ∨ (distIL > distXL ∧ distXL > 0) then distXL else distIL)

/-- The body of the third loop for a trace with lines, segygeometry.cpp lines 275-322. -/
noncomputable def placeOne (g : SegyGeometry) (err : ℝ) (a : List (Option SegyTrace)) (t : SegyTrace) :
    Res (List (Option SegyTrace)) := do
  let c ← g.findXYFromContILXL t.il t.xl
  (if (t.x - c.1) * (t.x - c.1) + (t.y - c.2) * (t.y - c.2) > err then .throws "the geometry predicts another place"
  else do
    let ij ← g.findIndex t.x t.y
    wr a (ij.1.toNat + g.nx * ij.2.toNat) (some t) : Res (List (Option SegyTrace)))

/-- The third loop, segygeometry.cpp lines 262-325. -/
noncomputable def place (g : SegyGeometry) (err : ℝ) : List (Option SegyTrace) → List (Option SegyTrace) →
    Res (List (Option SegyTrace))
  | [], a => .ok a
  | none :: ts, a => place g err ts a
  | some t :: ts, a =>
    if t.HasLines then do
      let b ← placeOne g err a t
      place g err ts b
    else place g err ts a

/-- The constructor from traces, segygeometry.cpp lines 48-350: the geometry and the traces in the order of the cells. -/
noncomputable def geometry (ts : List (Option SegyTrace)) : Res (SegyGeometry × List (Option SegyTrace)) :=
  if ts.length > 1 then do
    let f ← firstTrace ts
    let e := extentOf f.1 f.2
    let s := spreadOf f.1 e f.2
    let d ← directions f.1 e.p1 s.p2 e.dist1sq s.dist2
    let g₀ ← SegyGeometry.setup f.1.x f.1.y f.1.il f.1.xl e.ilMin e.ilMax e.xlMin e.xlMax d.1 d.2 s.dIL s.dXL
    let g ← g₀.findILXLGeometryGiven e.ilMin e.ilMax s.dIL e.xlMin e.xlMax s.dXL
    let a ← place g (errorDist d.1 d.2) ts (List.replicate (g.nx * g.ny) none)
    .ok (g, a)
  else match ts with
    | [] => .throws "Can not set up geometry: No traces in file."
    | none :: _ => .ub "null pointer"
    | some t :: _ => .ok (SegyGeometry.singleTrace t.x t.y t.il t.xl, ts)

end SegyTrace
end Verif
