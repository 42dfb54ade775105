import Verif.Model.Outcome
import Verif.Model.Distr
import Verif.Model.StormGrid

/-!
# Values in traces and cubes of SegY files

Models functions of src/nrlib/segy/segytrace.cpp and src/nrlib/segy/segy.cpp. Floats and doubles are real numbers; numbers of type
`size_t` are natural numbers, and the places where they wrap are named. Headers, files and the search for the lateral place of a point
are left out.
-/

namespace Verif

open Classical

namespace SegyValues

/-- `segyRMISSING`, segytrace.cpp line 38, and `rmissing_` of the cube. -/
def missing : ℝ := -99999

/-- The fields of a trace that hold its samples, and whether it has a header, segytrace.hpp lines 105-125. -/
structure Trace where
  start : ℕ
  stop : ℕ
  data : List ℝ
  header : Bool

namespace Trace

/-- The body of the loop of the constructor from samples, segytrace.cpp line 143. -/
noncomputable def copyOne (indata : List ℝ) (jStart : ℕ) (i : ℕ) (d : List ℝ) : Res (List ℝ) := do
  let v ← rd indata (jStart + i)
  wr d i v

/-- The constructor from samples, segytrace.cpp lines 126-148. A negative number of samples wraps to a size that no vector has. -/
noncomputable def ofData (indata : List ℝ) (jStart jEnd : ℕ) : Res Trace := do
  if jEnd + 1 < jStart then .throws "vector::_M_default_append"
  else
    let n := jEnd + 1 - jStart
    let d ← forRange 0 n (copyOne indata jStart) (List.replicate n 0)
    .ok ⟨jStart, jEnd, d, false⟩

/-- The constructor from a header, segytrace.cpp lines 150-171: no samples. -/
def ofHeader (keep : Bool) : Trace := ⟨1, 0, [], keep⟩

/-- The copy constructor, segytrace.cpp lines 173-189: the header is copied from behind its pointer. -/
def copy (t : Trace) : Res Trace :=
  if t.header then .ok t else .ub "null pointer"

/-- `GetValue`, segytrace.cpp lines 193-202. -/
noncomputable def value (t : Trace) (j : ℕ) : Res ℝ :=
  if j < t.start ∨ j > t.stop then .ok missing else rd t.data (j - t.start)

/-- `GetValue(j - 1)`: the index of type `size_t` wraps at zero to one that is beyond every trace. -/
noncomputable def valueBefore (t : Trace) (j : ℕ) : Res ℝ :=
  if j = 0 then .ok missing else t.value (j - 1)

/-- `GetLegalIndex`, segytrace.cpp lines 204-213. -/
def legalIndex (t : Trace) (index : ℕ) : ℕ :=
  if index < t.start then t.start else if index > t.stop then t.stop else index

end Trace

/-- The body of the inner loop of `GetAllValues`, segy.cpp lines 962-966. The vector grows, where the program counts the values first. -/
noncomputable def addValue (t : Trace) (k : ℕ) (r : List ℝ) : Res (List ℝ) := do
  let v ← t.value k
  .ok (r ++ [v])

/-- The loop of `GetAllValues`, segy.cpp lines 957-967. -/
noncomputable def allValuesFrom : List (Option Trace) → List ℝ → Res (List ℝ)
  | [], r => .ok r
  | none :: l, r => allValuesFrom l r
  | some t :: l, r => do
    let r' ← forRange t.start (t.stop + 1) (addValue t) r
    allValuesFrom l r'

/-- `GetAllValues`, segy.cpp lines 946-969. -/
noncomputable def allValues (ts : List (Option Trace)) : Res (List ℝ) := allValuesFrom ts []

/-- `FindNumberOfSamplesInLongestTrace`, segy.cpp lines 971-983. For a trace without samples, the difference wraps and back. -/
def longest : List (Option Trace) → ℕ → ℕ
  | [], m => m
  | none :: l, m => longest l m
  | some t :: l, m => longest l (max m (t.stop + 1 - t.start))

/-- `OutsideModes`, segy.hpp line 221. -/
inductive Mode where
  | missing
  | zero
  | closest

/-- The value outside, segy.cpp lines 1169-1172 and 1177-1180. -/
def outside : Mode → ℝ
  | .zero => 0
  | _ => missing

/-- A cube of traces: the fields of `SegY` used for values, and the size of its geometry. -/
structure Cube where
  nx : ℕ
  ny : ℕ
  nz : ℕ
  z0 : ℝ
  dz : ℝ
  traces : List (Option Trace)

/-- The coefficients along one direction, segy.cpp lines 1087-1104, 1119-1136 and 1140-1157. -/
noncomputable def coef (v0 v1 v2 : ℝ) : ℝ × ℝ :=
  if v0 = missing then
    if v2 = missing then (0, 0) else (0, v2 - v1)
  else if v2 = missing then (0, v1 - v0)
  else ((v2 + v0 - 2 * v1) / 2, (v2 - v0) / 2)

namespace Cube

/-- The value of a trace of the table, or missing without a trace, segy.cpp lines 1083-1086, 1112-1118. -/
noncomputable def neighbour (c : Cube) (index zind : ℕ) : Res ℝ := do
  match ← rd c.traces index with
  | none => .ok missing
  | some t => t.value zind

/-- The interpolation, segy.cpp lines 1073-1173. The lateral offsets from the centre are given. -/
noncomputable def interpolate (c : Cube) (t : Trace) (index zind : ℕ) (v1 ux uy z : ℝ) (mode : Mode) : Res ℝ := do
  if v1 = missing then .ok (outside mode)
  else
    let maxInd := c.nx * c.ny - 1
    let x0 ← (if 1 ≤ index then c.neighbour (index - 1) zind else .ok missing : Res ℝ)
    let x2 ← (if index + 1 ≤ maxInd then c.neighbour (index + 1) zind else .ok missing : Res ℝ)
    let y0 ← (if c.nx ≤ index ∧ index - c.nx ≤ maxInd then c.neighbour (index - c.nx) zind else .ok missing : Res ℝ)
    let y2 ← (if index + c.nx ≤ maxInd then c.neighbour (index + c.nx) zind else .ok missing : Res ℝ)
    let w0 ← t.valueBefore zind
    let w2 ← t.value (zind + 1)
    let q ← fdiv (z - c.z0) c.dz
    let uz := q - (⌊q⌋ + 1 / 2)
    let (a, d) := coef x0 v1 x2
    let (b, e) := coef y0 v1 y2
    let (cc, f) := coef w0 v1 w2
    .ok (a * ux * ux + b * uy * uy + cc * uz * uz + d * ux + e * uy + f * uz + v1)

/-- The choice of the sample, segy.cpp lines 1061-1072. -/
noncomputable def inTrace (c : Cube) (t : Trace) (index : ℕ) (ux uy z : ℝ) (mode : Mode) : Res ℝ := do
  let q ← fdiv (z - c.z0) c.dz
  let zind := ⌊q⌋₊
  let v1 ← t.value zind
  if v1 = missing ∧ mode = .closest then
    let zi := t.legalIndex zind
    let v ← t.value zi
    let p ← t.valueBefore zi
    let z' := if p = missing then c.z0 + zi * c.dz else c.z0 + (zi + 99 / 100) * c.dz
    c.interpolate t index zi v ux uy z' mode
  else c.interpolate t index zind v1 ux uy z mode

/-- `GetValue`, segy.cpp lines 1037-1190. The place is the cell of the table, none for a point outside the geometry, and the offsets
of the point from the centre of the cell in units of the cell. -/
noncomputable def value (c : Cube) (place : Option (ℕ × ℕ)) (ux uy z : ℝ) (mode : Mode) : Res ℝ :=
  match place with
  | none => .ok (outside mode)
  | some (i, j) => do
    match ← rd c.traces (j * c.nx + i) with
    | none => .ok (outside mode)
    | some t =>
      if z ≥ c.z0 ∧ z ≤ c.z0 + c.nz * c.dz then c.inTrace t (j * c.nx + i) ux uy z mode else .ok (outside mode)

end Cube

/-- The body of the loop over the samples of `StoreTrace`, segy.cpp line 1260. -/
noncomputable def putData (data : List ℝ) (first k : ℕ) (tr : List ℝ) : Res (List ℝ) := do
  let v ← rd data (k - first)
  wr tr k v

/-- The padding of `StoreTrace`, segy.cpp lines 1247-1263, for a top that is not missing. A quotient that no `size_t` holds after
truncation is undefined behaviour. -/
noncomputable def padded (nz : ℕ) (z0 dz ztop topVal baseVal : ℝ) (data : List ℝ) : Res (List ℝ) := do
  let q ← fdiv (ztop - z0) dz
  if q ≤ -1 ∨ 2 ^ 64 ≤ q then .ub "conversion to size_t"
  else
    let first := ⌊q⌋₊
    let t1 ← forRange 0 first (fun k tr => wr tr k topVal) (List.replicate nz 0)
    let t2 ← forRange first (first + data.length) (putData data first) t1
    forRange (first + data.length) nz (fun k tr => wr tr k baseVal) t2

/-- A limit of `GetTraceData`, segy.cpp lines 539-547. -/
noncomputable def sampleOf (z z0 dz : ℝ) (inactive : ℕ) : Res ℕ :=
  if z > z0 then do
    let q ← fdiv (z - z0) dz
    if q ≤ -1 ∨ 2 ^ 64 ≤ q then .ub "conversion to size_t" else .ok ⌊q⌋₊
  else .ok inactive

/-- The samples read by `GetTraceData`, segy.cpp lines 534-553. `nz` is positive. -/
noncomputable def samples (nz : ℕ) (z0 dz ztop zbot : ℝ) : Res (ℕ × ℕ) := do
  let j0 ← sampleOf ztop z0 dz 0
  let j1 ← sampleOf zbot z0 dz (nz - 1)
  let j1 := if j1 > nz - 1 then nz - 1 else j1
  if j0 > j1 then .throws "Lower horizon above SegY region or upper horizon below SegY region" else .ok (j0, j1)

/-- `SortIndex`, segy.cpp lines 1407-1418. Traces are known by their index in the table. -/
def sortIndex : Option ℕ → Option ℕ → Bool
  | _, none => false
  | none, some _ => true
  | some a, some b => a < b

/-- `SortILXL`, segy.cpp lines 1388-1405, on inline, crossline and index. -/
def sortILXL : Option (ℤ × ℤ × ℕ) → Option (ℤ × ℤ × ℕ) → Bool
  | none, _ => false
  | some _, none => true
  | some (i1, x1, n1), some (i2, x2, n2) =>
    if i1 < i2 then true
    else if i1 = i2 then
      if x1 < x2 then true else if x1 = x2 ∧ n1 < n2 then true else false
    else false

/-- The loop that puts traces back to their places at the end of `WriteAllTracesToFile`, segy.cpp lines 1454-1464; `n` iterations. -/
def restoreFrom : ℕ → ℕ → List (Option ℕ) → Res (List (Option ℕ))
  | 0, _, ts => .ok ts
  | n + 1, i, ts => do
    match ← rd ts i with
    | none => restoreFrom n (i + 1) ts
    | some index =>
      if i > index then do
        let t1 ← wr ts index (some index)
        let t2 ← wr t1 i none
        restoreFrom n (i + 1) t2
      else .ok ts

/-- The end of `WriteAllTracesToFile`, segy.cpp lines 1454-1464, after the sorting. -/
def restore (ts : List (Option ℕ)) : Res (List (Option ℕ)) := restoreFrom ts.length 0 ts

end SegyValues

end Verif
