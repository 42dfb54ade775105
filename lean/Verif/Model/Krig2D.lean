import Verif.Model.Kriging
import Verif.Model.CovLookup
import Verif.Model.Surface
import Verif.Model.Loop

/-!
# Kriging in two dimensions

Models `Krig2D` of src/nrlib/statistics/kriging.cpp with the data classes of nodalkrigingdata2d.{hpp,cpp} and
continuouskrigingdata2d.{hpp,cpp}. Floats are real numbers. Counts and indices do not overflow, except where it is
written out. The parallel version (`PARALLEL`) is not followed. The dead code of `FindOptimalDataInBlock`
(lines 662-829, `binary_search_dir` is false) is left out, and so are the numbers that are computed and not used.
-/

namespace Verif

/-! ### Data at nodes -/

/-- One element of the vectors `data_`, `indexI_`, `indexJ_` and `count_`, nodalkrigingdata2d.hpp; they always have
the same length. -/
structure Datum where
  i : ℤ
  j : ℤ
  value : ℝ
  count : ℤ

/-- `AddData`, nodalkrigingdata2d.cpp lines 74-94 with `GotBlock`, lines 98-104: the value is added to the first
element of the same location, or else put at the end. -/
noncomputable def addData (d : List Datum) (i j : ℤ) (value : ℝ) : List Datum :=
  if value ≠ 99999.0 then
    match d.findIdx? fun e => e.i = i ∧ e.j = j with
    | none => d ++ [⟨i, j, value, 1⟩]
    | some ij => d.modify ij fun e => { e with count := e.count + 1, value := e.value + value }
  else d

/-- `FindMeanValues`, nodalkrigingdata2d.cpp lines 108-114. -/
noncomputable def findMeanValues (d : List Datum) : List Datum :=
  d.map fun e => { e with value := e.value / e.count, count := 1 }

/-- A data point. -/
structure Pt where
  x : ℝ
  y : ℝ
  z : ℝ

/-- The loop of the constructor, nodalkrigingdata2d.cpp lines 57-63. -/
noncomputable def addPoints (trend : RegSurf) : List Pt → List Datum → Res (List Datum)
  | [], d => .ok d
  | p :: ps, d => do
    let ij ← trend.findIndex p.x p.y
    let i ← toInt32 ij.1
    let j ← toInt32 ij.2
    addPoints trend ps (addData d i j p.z)

/-- The constructor from data points, nodalkrigingdata2d.cpp lines 49-65. -/
noncomputable def nodalData (points : List Pt) (trend : RegSurf) : Res (List Datum) := do
  let d ← addPoints trend points []
  .ok (findMeanValues d)

/-- An `int` as a `size_t`. -/
def sizeOf32 (n : ℤ) : ℕ := (n % 2 ^ 64).toNat

/-- The test of nodalkrigingdata2d.cpp lines 141-146 and 162-167. -/
def Datum.inBlock (e : Datum) (imin imax jmin jmax : ℕ) : Bool :=
  decide (sizeOf32 e.i ≤ imax ∧ sizeOf32 e.i ≥ imin ∧ sizeOf32 e.j ≤ jmax ∧ sizeOf32 e.j ≥ jmin)

/-- `CountDataInBlock`, nodalkrigingdata2d.cpp lines 135-150. -/
def countDataInBlock (d : List Datum) (imin imax jmin jmax : ℕ) : ℕ :=
  d.countP fun e => e.inBlock imin imax jmin jmax

/-- `AddDataToBlock`, nodalkrigingdata2d.cpp lines 154-170. -/
noncomputable def addDataToBlock (d block : List Datum) (imin imax jmin jmax : ℕ) : List Datum :=
  d.foldl (fun b e => if e.inBlock imin imax jmin jmax = true then addData b e.i e.j e.value else b) block

/-! ### Kriging from data at nodes -/

/-- `g(i,j)` with `int` indices, which become `size_t`. -/
def getZ32 (g : Grid2D ℝ) (i j : ℤ) : Res ℝ := g.get (sizeOf32 i) (sizeOf32 j)

/-- `g(i,j) = x` with `int` indices. -/
def setZ32 (g : Grid2D ℝ) (i j : ℤ) (x : ℝ) : Res (Grid2D ℝ) := g.set (sizeOf32 i) (sizeOf32 j) x

/-- The node written by kriging: kriging.cpp lines 943-946, 955-958 and 1070-1073. -/
noncomputable def putNode (get_residuals : Bool) (trend : Grid2D ℝ) (i j : ℤ) (y : ℝ) : Res (Grid2D ℝ) := do
  if get_residuals = true then setZ32 trend i j y
  else
    let t ← getZ32 trend i j
    setZ32 trend i j (t + y)

/-- The end of a block, kriging.cpp lines 909-913 and 916-920. -/
def blockEnd (block n_blocks nb n : ℕ) : ℕ := if block = n_blocks - 1 then n else min ((block + 1) * nb) n

/-- kriging.cpp lines 938-949, one turn. -/
noncomputable def dataStep (d : List Datum) (residual : List ℝ) (imin imax jmin jmax : ℕ) (get_residuals : Bool) (a : ℕ)
    (st : Grid2D ℝ × Grid2D ℝ) : Res (Grid2D ℝ × Grid2D ℝ) := do
  let e ← rd d a
  if e.i < imax ∧ e.i ≥ imin ∧ e.j < jmax ∧ e.j ≥ jmin then
    let r ← rd residual a
    let trend ← putNode get_residuals st.1 e.i e.j r
    let filled ← setZ32 st.2 e.i e.j 1.0
    .ok (trend, filled)
  else .ok st

/-- `FillKrigingVector`, kriging.cpp lines 989-1001. -/
noncomputable def nodeVector (cov : CovTable) (d : List Datum) (i j : ℤ) : Res (List ℝ) :=
  fillVec d.length fun a => do
    let e ← rd d a
    cov.getCov (e.i - i) (e.j - j)

/-- kriging.cpp lines 953-959, one node. -/
noncomputable def nodeStep (cov : CovTable) (d : List Datum) (x : List ℝ) (get_residuals : Bool) (filled : Grid2D ℝ) (i j : ℕ)
    (trend : Grid2D ℝ) : Res (Grid2D ℝ) := do
  let f ← filled.get i j
  if ¬ f > 0.0 then
    let k ← nodeVector cov d i j
    putNode get_residuals trend i j (dotList k x)
  else .ok trend

/-- `FillKrigingMatrix`, kriging.cpp lines 966-986. -/
noncomputable def nodeMatrix (cov : CovTable) (d : List Datum) : Res SymMat :=
  fillSymm d.length fun a b => do
    let e ← rd d a
    let f ← rd d b
    cov.getCov (e.i - f.i) (e.j - f.j)

/-- The residuals, kriging.cpp lines 931-932. -/
noncomputable def nodeResidual (trend_orig : Grid2D ℝ) (d : List Datum) : Res (List ℝ) :=
  fillVec d.length fun a => do
    let e ← rd d a
    let t ← getZ32 trend_orig e.i e.j
    .ok (e.value - t)

/-- `Krig2DBlock` for nodal data, kriging.cpp lines 881-963: the new `trend` and `filled`. -/
noncomputable def krigBlockNodal (trend_orig : Grid2D ℝ) (d : List Datum) (cov : CovTable)
    (block_x block_y nxb nyb n_blocks_x n_blocks_y : ℕ) (get_residuals : Bool) (st : Grid2D ℝ × Grid2D ℝ) :
    Res (Grid2D ℝ × Grid2D ℝ) := do
  let nx := st.1.ni
  let ny := st.1.nj
  let imin := block_x * nxb
  let imax := blockEnd block_x n_blocks_x nxb nx
  let jmin := block_y * nyb
  let jmax := blockEnd block_y n_blocks_y nyb ny
  if d.length > 0 ∧ d.length ≤ nx * ny then
    let residual ← nodeResidual trend_orig d
    let K ← nodeMatrix cov d
    let x ← choleskySolve d.length K residual
    let st ← forRange 0 d.length (dataStep d residual imin imax jmin jmax get_residuals) st
    let trend ← forRange imin imax (fun i trend =>
      forRange jmin jmax (fun j trend => nodeStep cov d x get_residuals st.2 i j trend) trend) st.1
    .ok (trend, st.2)
  else .ok st

/-! ### Blocks -/

/-- The number of cells in a block, kriging.cpp lines 236-237 and 593-594. -/
noncomputable def cellsPerBlock (n n_blocks : ℕ) : ℕ := ⌊(n : ℝ) / n_blocks + 0.5⌋.toNat

/-- `DataInBlockBinarySearch`, kriging.cpp lines 503-569, one call with all four flags true, which they remain. The state
is `P_min` and `P_max`; the value is `P`. `count` is `CountDataInBlock` of the data. -/
noncomputable def searchStep (count : ℕ → ℕ → ℕ → ℕ → ℕ) (rx ry : ℤ) (nx ny imin_in imax_in jmin_in jmax_in n_target : ℕ)
    (tol : ℝ) (st : ℝ × ℝ) : Res (Option ℝ × ℝ × ℝ) := do
  let P := (st.2 + st.1) / 2
  if st.2 - st.1 < tol then .ok (some P, st)
  else
    let a ← toInt32 ⌊(imin_in : ℝ) - P * rx⌋
    let b ← toInt32 ⌊(imax_in : ℝ) + P * rx⌋
    let c ← toInt32 ⌊(jmin_in : ℝ) - P * ry⌋
    let d ← toInt32 ⌊(jmax_in : ℝ) + P * ry⌋
    let n_data := count (sizeOf32 (max a 0)) (sizeOf32 (min b nx)) (sizeOf32 (max c 0)) (sizeOf32 (min d ny))
    if n_data < n_target then .ok (none, P, st.2)
    else if n_data > n_target then .ok (none, st.1, P)
    else .ok (some P, st)

/-- The data of one block, kriging.cpp lines 643-656: the call of `AddDataToBlock` with the ranges found. -/
noncomputable def blockData {D : Type} (count : ℕ → ℕ → ℕ → ℕ → ℕ) (select : ℕ → ℕ → ℕ → ℕ → D) (P : ℝ) (rx ry : ℤ)
    (nx ny nxb nyb n_target i j : ℕ) : Res D := do
  let r ← untilLoop (searchStep count rx ry nx ny (i * nxb) (min ((i + 1) * nxb) nx) (j * nyb) (min ((j + 1) * nyb) ny)
    n_target 0.05) (P / 2, 2 * P)
  let P_est := r.1
  let a ← toInt32 ⌊((i * nxb : ℕ) : ℝ) - P_est * rx⌋
  let b ← toInt32 ⌈(((i + 1) * nxb : ℕ) : ℝ) + P_est * rx⌉
  let c ← toInt32 ⌊((j * nyb : ℕ) : ℝ) - P_est * ry⌋
  let d ← toInt32 ⌈(((j + 1) * nyb : ℕ) : ℝ) + P_est * ry⌉
  .ok (select (sizeOf32 (max a 0)) (sizeOf32 (min b nx)) (sizeOf32 (max c 0)) (sizeOf32 (min d ny)))

/-- `OverallTime`, kriging.cpp lines 456-477. -/
noncomputable def overallTime (n Ns nx ny : ℕ) : ℝ :=
  let V : ℝ := (nx * ny : ℕ)
  0.00032 * Ns * n * n * n + 0.75088 * Ns * n * n + 0.12702 * Ns * n * n + 1.0 * V * n

/-- A nonnegative double as an unsigned number below `bound`. -/
noncomputable def toUnsigned (bound : ℕ) (x : ℝ) : Res ℕ :=
  if -1 < x ∧ x < bound then .ok (truncZ x).toNat else .ub "conversion to unsigned out of range"

/-- The number of blocks for a relative size, kriging.cpp lines 379-380 and 389-390. -/
noncomputable def blocksFor (length S R : ℝ) : Res ℕ := do
  let q ← divD (1.0 * length) (S * R)
  toUnsigned (2 ^ 32) (max 1.0 q)

/-- kriging.cpp lines 372-388, one turn with `n_threads = 1`: the state is `minatS`, `mintime` (`none` is infinite) and
`n_data_blocks`. -/
noncomputable def optimalStep (nx ny n_data : ℕ) (Rx Ry xlength ylength Vcell V R P Smin Smax : ℝ) (k : ℕ)
    (st : ℝ × Option ℝ × ℕ) : Res (ℝ × Option ℝ × ℕ) := do
  let S := Smin + k * (Smax - Smin) / 200
  let v := max (R * S * S) Vcell
  let vd := R * (2 * P + S) * (2 * P + S)
  let q ← divD V v
  let Ns ← toUnsigned (2 ^ 64) q
  let q ← divD vd V
  let nd ← toUnsigned (2 ^ 64) (n_data * q)
  let totTime := overallTime nd Ns nx ny
  let nbx ← blocksFor xlength S Rx
  let nby ← blocksFor ylength S Ry
  if (∀ m ∈ st.2.1, totTime ≤ m) ∧ nbx * nby ≥ 1 then .ok (S, some totTime, nd) else .ok st

/-- `FindOptimalBlockP`, kriging.cpp lines 330-392, with `n_threads = 1`: the numbers of blocks and `n_data_blocks`. -/
noncomputable def findOptimalBlockP (nx ny : ℕ) (Rx Ry dx dy : ℝ) (n_data : ℕ) (P : ℝ) : Res (ℕ × ℕ × ℕ) := do
  let xlength := nx * dx
  let ylength := ny * dy
  let Vcell := dx * dy
  let V := xlength * ylength
  let R := Rx * Ry
  if n_data > 200 then
    let s1 ← divD (5 * dx) Rx
    let s2 ← divD (5 * dy) Ry
    let Smin := max s1 s2
    let t1 ← divD xlength (5 * Rx)
    let t2 ← divD ylength (5 * Ry)
    let Smax := min t1 t2
    let st ← forRange 0 201 (optimalStep nx ny n_data Rx Ry xlength ylength Vcell V R P Smin Smax) (Smax, none, n_data)
    let nbx ← blocksFor xlength st.1 Rx
    let nby ← blocksFor ylength st.1 Ry
    .ok (nbx, nby, st.2.2)
  else .ok (10, 10, n_data)

/-- `FindOptimalDataInBlock`, kriging.cpp lines 575-878 with `SetConstants`, lines 480-499: the blocks with their data,
before they are sorted. `all` is the data as a whole, for a single block. -/
noncomputable def findOptimalDataInBlock {D : Type} (count : ℕ → ℕ → ℕ → ℕ → ℕ) (select : ℕ → ℕ → ℕ → ℕ → D) (all : D)
    (nx ny : ℕ) (Rx Ry dx dy : ℝ) (n_blocks_x n_blocks_y : ℕ) (P : ℝ) (n_avg : ℕ) : Res (List ((ℕ × ℕ) × D)) := do
  let nxb := cellsPerBlock nx n_blocks_x
  let nyb := cellsPerBlock ny n_blocks_y
  let q ← divD Rx dx
  let rx ← toInt32 (truncZ q)
  let q ← divD Ry dy
  let ry ← toInt32 (truncZ q)
  let n_target := min n_avg 100000
  if n_blocks_x > 1 ∨ n_blocks_y > 1 then
    forRange 0 n_blocks_x (fun i blocks => forRange 0 n_blocks_y (fun j blocks => do
      let d ← blockData count select P rx ry nx ny nxb nyb n_target i j
      .ok (blocks ++ [((i, j), d)])) blocks) []
  else .ok [((0, 0), all)]

/-- The blocks of `Krig2D`, kriging.cpp lines 202-263: their numbers, and the blocks with their data. -/
noncomputable def krigBlocks {D : Type} (count : ℕ → ℕ → ℕ → ℕ → ℕ) (select : ℕ → ℕ → ℕ → ℕ → D) (all : D) (n_data nx ny : ℕ)
    (Rx Ry dx dy P : ℝ) (krig_all : Bool) : Res (ℕ × ℕ × List ((ℕ × ℕ) × D)) := do
  if krig_all = true then .ok (1, 1, [((0, 0), all)])
  else
    let n ← findOptimalBlockP nx ny Rx Ry dx dy n_data P
    let blocks ← findOptimalDataInBlock count select all nx ny Rx Ry dx dy n.1 n.2.1 P n.2.2
    .ok (n.1, n.2.1, blocks)

/-- The loop over the blocks. -/
noncomputable def overBlocks {σ D : Type} (f : ℕ → ℕ → D → σ → Res σ) : List ((ℕ × ℕ) × D) → σ → Res σ
  | [], s => .ok s
  | b :: bs, s => (f b.1.1 b.1.2 b.2 s).bind (overBlocks f bs)

/-- `std::sort` of the blocks by their number of data, kriging.cpp lines 843-877: `sort` is any function that gives a
permutation of the blocks. -/
abbrev BlockSort (D : Type) := List ((ℕ × ℕ) × D) → List ((ℕ × ℕ) × D)

/-- `Krig2D` for nodal data, kriging.cpp lines 106-133 and 189-327: the new grid. -/
noncomputable def krig2DNodal (sort : BlockSort (List Datum)) (trend : Grid2D ℝ) (d : List Datum) (cov : CovTable)
    (get_residuals krig_all : Bool) (P : ℝ) : Res (Grid2D ℝ) := do
  let Rx ← cov.getRangeX
  let Ry ← cov.getRangeY
  let b ← krigBlocks (countDataInBlock d) (fun i0 i1 j0 j1 => findMeanValues (addDataToBlock d [] i0 i1 j0 j1))
    (if krig_all = true then d else findMeanValues d) d.length trend.ni trend.nj Rx Ry cov.dx cov.dy P krig_all
  let nxb := cellsPerBlock trend.ni b.1
  let nyb := cellsPerBlock trend.nj b.2.1
  let st ← overBlocks (fun bx by_ db => krigBlockNodal trend db cov bx by_ nxb nyb b.1 b.2.1 get_residuals) (sort b.2.2)
    (trend, Grid2D.mk' trend.ni trend.nj 0)
  .ok st.1

end Verif
