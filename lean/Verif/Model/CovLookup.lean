import Verif.Model.Variogram

/-!
# Precomputed 2D covariance

Models src/nrlib/variogram/covgrid2d.hpp and covgrid2d.cpp. Floats are real numbers.
-/

namespace Verif

/-- `CovGrid2D`, covgrid2d.hpp lines 46-50. -/
structure CovTable where
  cov : List ℝ
  nx : ℤ
  ny : ℤ
  dx : ℝ
  dy : ℝ

namespace CovTable

/-- A result of `int` arithmetic: overflow is undefined. -/
def int32 (z : ℤ) : Res ℤ :=
  if -2 ^ 31 ≤ z ∧ z < 2 ^ 31 then .ok z else .ub "int overflow"

/-- Read with an `int` index. -/
def rdInt (a : List ℝ) (i : ℤ) : Res ℝ :=
  if i < 0 then .ub "read out of range" else rd a i.toNat

/-- Write with an `int` index. -/
def wrInt (a : List ℝ) (i : ℤ) (x : ℝ) : Res (List ℝ) :=
  if i < 0 then .ub "write out of range" else wr a i.toNat x

/-- The index `i*2*ny + ny + j` of covgrid2d.cpp lines 49, 75, 94. -/
def index (ny i j : ℤ) : Res ℤ := do
  let a ← int32 (i * 2)
  let a ← int32 (a * ny)
  let a ← int32 (a + ny)
  int32 (a + j)

/-- covgrid2d.cpp lines 49-50. -/
noncomputable def fillCell (v : Variogram) (ny : ℤ) (dx dy : ℝ) (i j : ℤ) (cov : List ℝ) :
    Res (List ℝ) := do
  let index ← index ny i j
  wrInt cov index (v.corr2 (i * dx) (j * dy))

/-- Constructor, covgrid2d.cpp lines 36-53. The inner loop over `j` from `-ny` to `ny - 1` is a loop
over `k = j + ny`. A negative size of the array is an exception. -/
noncomputable def create (v : Variogram) (nx ny : ℤ) (dx dy : ℝ) : Res CovTable := do
  let n ← int32 (2 * nx)
  let n ← int32 (n * ny)
  if n < 0 then .throws "length_error"
  else
    let cov ← forRange 0 nx.toNat (fun i cov =>
      forRange 0 (2 * ny).toNat (fun k cov => fillCell v ny dx dy i (k - ny) cov) cov)
      (List.replicate n.toNat 0)
    .ok { cov := cov, nx := nx, ny := ny, dx := dx, dy := dy }

/-- The index of covgrid2d.cpp line 62 and the read of line 63. -/
def lookup (g : CovTable) (deltai deltaj : ℤ) : Res ℝ := do
  let a ← int32 (deltai * 2)
  let a ← int32 (a * g.ny)
  let a ← int32 (a + deltaj)
  let index ← int32 (a + g.ny)
  rdInt g.cov index

/-- `GetCov`, covgrid2d.cpp lines 55-64. -/
def getCov (g : CovTable) (deltai deltaj : ℤ) : Res ℝ :=
  if deltai < 0 then do
    let a ← int32 (-deltai)
    let b ← int32 (-deltaj)
    g.lookup a b
  else g.lookup deltai deltaj

/-- Loop body of `GetRangeX`, covgrid2d.cpp lines 75-79. -/
noncomputable def rangeXCell (g : CovTable) (i j : ℤ) (rx : ℝ) : Res ℝ := do
  let index ← index g.ny i j
  let c ← rdInt g.cov index
  .ok (if c ≥ 0.05 then (if i * g.dx > rx then i * g.dx else rx) else rx)

/-- `GetRangeX`, covgrid2d.cpp lines 66-83. -/
noncomputable def getRangeX (g : CovTable) : Res ℝ :=
  forRange 0 g.nx.toNat (fun i rx =>
    forRange 0 (2 * g.ny).toNat (fun k rx => g.rangeXCell i (k - g.ny) rx) rx) 0

/-- Loop body of `GetRangeY`, covgrid2d.cpp lines 94-98. -/
noncomputable def rangeYCell (g : CovTable) (i j : ℤ) (ry : ℝ) : Res ℝ := do
  let index ← index g.ny i j
  let c ← rdInt g.cov index
  .ok (if c ≥ 0.05 then (if j * g.dy > ry then j * g.dy else ry) else ry)

/-- `GetRangeY`, covgrid2d.cpp lines 85-102. -/
noncomputable def getRangeY (g : CovTable) : Res ℝ :=
  forRange 0 g.nx.toNat (fun i ry =>
    forRange 0 (2 * g.ny).toNat (fun k ry => g.rangeYCell i (k - g.ny) ry) ry) 0

/-- What `WriteToFile` puts in the file: the two counts, the increments, the corners, the values. -/
structure Written where
  ni : ℤ
  nj : ℤ
  dx : ℝ
  dy : ℝ
  xmin : ℝ
  xmax : ℝ
  ymin : ℝ
  ymax : ℝ
  values : List ℝ

/-- `WriteToFile`, covgrid2d.cpp lines 104-127, without the opening of the file, the formatting of
the numbers and overflow of the counts. The loops over `j` from `-ny+1` to `ny-1` and `i` from
`-nx+1` to `nx-1` are loops from 0. -/
noncomputable def writeToFile (g : CovTable) : Res Written := do
  let values ← forRange 0 (2 * g.ny - 1).toNat (fun l out =>
    forRange 0 (2 * g.nx - 1).toNat (fun k out => do
      let c ← g.getCov (k + 1 - g.nx) (l + 1 - g.ny)
      .ok (out ++ [c])) out) []
  .ok { ni := 2 * g.nx - 1, nj := 2 * g.ny - 1, dx := g.dx, dy := g.dy,
        xmin := -g.dx * g.nx, xmax := g.dx * g.nx, ymin := -g.dy * g.ny, ymax := g.dy * g.ny,
        values := values }

end CovTable

end Verif
