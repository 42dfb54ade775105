import Verif.Model.Api

/-!
# The Python layer: type names, estimating a variogram

Models gaussianfft/__init__.py and the class `EmpiricalVariogram` of
gaussianfft/util/empirical_variogram.py.

NumPy and SciPy are modelled by what they compute in exact arithmetic; a NumPy float that may be nan
is an `Option ℝ` (`none` is nan). A Python exception is `Res.throws`. Not modelled: the timing data,
the convergence analysis (`Model/PadAnalyzer`), the strategy `random` and the messages of exceptions.
-/

namespace Verif.Py

/-- The members of the enumeration `VariogramType`, gaussianfft/__init__.py lines 13-21. -/
inductive VariogramType
  | GAUSSIAN | EXPONENTIAL | GENERAL_EXPONENTIAL | SPHERICAL | MATERN_32 | MATERN_52 | MATERN_72
  | CONSTANT
  deriving DecidableEq

/-- `VariogramType.value`, gaussianfft/__init__.py lines 14-21. -/
def VariogramType.value : VariogramType → String
  | .GAUSSIAN => "gaussian"
  | .EXPONENTIAL => "exponential"
  | .GENERAL_EXPONENTIAL => "general_exponential"
  | .SPHERICAL => "spherical"
  | .MATERN_32 => "matern32"
  | .MATERN_52 => "matern52"
  | .MATERN_72 => "matern72"
  | .CONSTANT => "constant"

/-- The first argument of `variogram`: a string or a member of the enumeration. -/
inductive TypeArg
  | str (s : String)
  | member (m : VariogramType)

/-- `gaussianfft.variogram`, gaussianfft/__init__.py lines 24-27. -/
noncomputable def variogram (type : TypeArg) (mainRange perpRange depthRange azimuth dip power : ℝ) :
    Res Variogram :=
  let s := match type with
    | .member m => m.value
    | .str s => s
  createVariogram s.toList mainRange perpRange depthRange azimuth dip power

/-- `__all__`, gaussianfft/__init__.py lines 30-34. -/
def exported : List String :=
  ["variogram", "simulate", "seed", "advanced", "simulation_size", "quote", "Variogram",
    "VariogramType", "util", "SizeTVector", "DoubleVector", "__version__"]

/-- The public names of the extension module, src/gaussfftinterface.cpp lines 169-242. -/
def extensionNames : List String :=
  ["quote", "Variogram", "seed", "simulation_size", "variogram", "simulate", "advanced"]

/-- The names that exist in the package after it is imported, gaussianfft/__init__.py lines 1-27. -/
def packageNames : List String :=
  ["__version__", "Enum", "find_spec", "_gaussianfft"] ++ extensionNames ++
    ["VariogramType", "variogram"]

/-- The modules in the directory of the package: gaussianfft/advanced, gaussianfft/util,
gaussianfft/_version.py (written when the package is built). -/
def submodules : List String := ["advanced", "util", "_version"]

/-- `from gaussianfft import *`: every name of `__all__` is looked up in the package, then among its
modules. Simplification: the import of a module succeeds (SciPy is installed). -/
def starImport : Res (List String) :=
  if exported.all fun n => packageNames.contains n || submodules.contains n then .ok exported
  else .throws "AttributeError"

/-- An object of class `EmpiricalVariogram`, empirical_variogram.py lines 13-17. Sizes are not
negative. -/
structure Ev where
  v : Variogram
  nx : ℕ
  dx : ℝ
  ny : ℕ
  dy : ℝ
  nz : ℕ
  dz : ℝ
  px : ℤ
  py : ℤ
  pz : ℤ

/-- `find_grid_points`, empirical_variogram.py lines 167-175: the second result. The three nested
loops append one cell at a time. -/
def gridIndexes (nx ny nz : ℕ) : List (ℕ × ℕ × ℕ) :=
  (List.range nx).flatMap fun i => (List.range ny).flatMap fun j =>
    (List.range nz).map fun k => (i, j, k)

/-- `find_grid_points`, empirical_variogram.py line 173: the point of a cell. -/
noncomputable def gridPoint (dx dy dz : ℝ) (c : ℕ × ℕ × ℕ) : ℝ × ℝ × ℝ :=
  (dx * c.1, dy * c.2.1, dz * c.2.2)

/-- `find_grid_points`, empirical_variogram.py lines 167-175: the first result. -/
noncomputable def gridPoints (nx : ℕ) (dx : ℝ) (ny : ℕ) (dy : ℝ) (nz : ℕ) (dz : ℝ) :
    List (ℝ × ℝ × ℝ) :=
  (gridIndexes nx ny nz).map (gridPoint dx dy dz)

/-- A three-dimensional NumPy array that is stored in Fortran order. -/
structure Arr3 where
  n0 : ℕ
  n1 : ℕ
  n2 : ℕ
  data : List ℝ

/-- `a[i, j, k]`. -/
def Arr3.get (a : Arr3) (c : ℕ × ℕ × ℕ) : Res ℝ :=
  if c.1 < a.n0 ∧ c.2.1 < a.n1 ∧ c.2.2 < a.n2 then rd a.data (c.1 + a.n0 * (c.2.1 + a.n1 * c.2.2))
  else .throws "IndexError"

/-- `np.array(s).reshape((n0, n1, n2), order='F')`, empirical_variogram.py line 147. -/
def reshapeF (n0 n1 n2 : ℕ) (s : List ℝ) : Res Arr3 :=
  if s.length = n0 * n1 * n2 then .ok ⟨n0, n1, n2, s⟩ else .throws "ValueError"

/-- `simulate`, empirical_variogram.py lines 141-148. -/
noncomputable def Ev.simulate (E : Ev) (S : Setup) (e : Env) (s : Random) : Res (Arr3 × Random) := do
  let (out, s) ← advancedSimulate S e E.v E.nx E.dx E.ny E.dy E.nz E.dz E.px E.py E.pz 1.0 1.0 1.0 s
  let a ← reshapeF E.nx E.ny E.nz out
  .ok (a, s)

/-- One entry of `cdist`: the Euclidean distance. -/
noncomputable def cdist (a b : ℝ × ℝ × ℝ) : ℝ :=
  Real.sqrt ((a.1 - b.1) ^ 2 + (a.2.1 - b.2.1) ^ 2 + (a.2.2 - b.2.2) ^ 2)

/-- `dummy_sim`, empirical_variogram.py lines 150-164: instead of a field, the numbers whose squared
difference from the value in the first cell is twice the variogram. The cell of the stored position
`p` is found from the Fortran order. -/
noncomputable def Ev.dummySim (E : Ev) : Arr3 :=
  ⟨E.nx, E.ny, E.nz, (List.range (E.nx * E.ny * E.nz)).map fun p =>
    Real.sqrt ((1 - E.v.corr (cdist (gridPoint E.dx E.dy E.dz (0, 0, 0))
      (gridPoint E.dx E.dy E.dz (p % E.nx, p / E.nx % E.ny, p / E.nx / E.ny)))) * 2)⟩

/-- `calculate_deltas`, empirical_variogram.py lines 116-119: the shape is reduced. With `ny = 1` a
grid of more than `nx` cells cannot be reshaped; in the other cases the array stays as it is. -/
def Ev.reshape (E : Ev) (grid : Arr3) : Res Arr3 :=
  if E.ny = 1 then
    if grid.data.length = E.nx then .ok { grid with n0 := E.nx, n1 := 1, n2 := 1 }
    else .throws "ValueError"
  else if E.nz = 1 then
    if grid.data.length = E.nx * E.ny then .ok { grid with n0 := E.nx, n1 := E.ny, n2 := 1 }
    else .throws "ValueError"
  else .ok grid

/-- `grid - grid[ref]` at the cells in the order of `indexes`, empirical_variogram.py lines
123-124. -/
def deltasAt (grid : Arr3) (g0 : ℝ) : List (ℕ × ℕ × ℕ) → Res (List ℝ)
  | [] => .ok []
  | c :: cs => do
    let x ← grid.get c
    let r ← deltasAt grid g0 cs
    .ok ((x - g0) :: r)

/-- `calculate_deltas`, empirical_variogram.py lines 114-126. -/
noncomputable def Ev.calculateDeltas (E : Ev) (grid : Arr3) (ref : Option (ℕ × ℕ × ℕ)) :
    Res (List ℝ × List ℝ) := do
  let ref := ref.getD (0, 0, 0)
  let grid ← E.reshape grid
  let points := gridPoints E.nx E.dx E.ny E.dy E.nz E.dz
  let indexes := gridIndexes E.nx E.ny E.nz
  -- tuple_indexes.index(ref)
  match indexes.idxOf? ref with
  | none => .throws "ValueError"
  | some pIdx => do
    let p ← rd points pIdx
    let dists := points.map (cdist p)
    let g0 ← grid.get ref
    let deltas ← deltasAt grid g0 indexes
    .ok (dists, deltas)

/-- `np.max`. -/
noncomputable def npMax : List ℝ → Res ℝ
  | [] => .throws "ValueError"
  | x :: l => .ok (l.foldl max x)

/-- `np.min`. -/
noncomputable def npMin : List ℝ → Res ℝ
  | [] => .throws "ValueError"
  | x :: l => .ok (l.foldl min x)

/-- `np.linspace(lo, hi, n + 1)`: the edges of `n` bins of equal width. -/
noncomputable def linspace (lo hi : ℝ) (n : ℕ) : List ℝ :=
  (List.range (n + 1)).map fun b : ℕ => lo + b * ((hi - lo) / n)

open Classical in
/-- The bin of a value in SciPy's `binned_statistic` (`_bin_numbers`): `np.digitize` counts the edges
that are not above the value; a value on the last edge belongs to the last bin. Bin numbers begin
with 1. -/
noncomputable def binNumber (edges : List ℝ) (x : ℝ) : ℕ :=
  (edges.filter fun e => decide (e ≤ x)).length - if edges.getLast? = some x then 1 else 0

/-- The mean of the values whose bin number is `b`; nan if there are none. -/
noncomputable def binMean (numbers : List ℕ) (values : List ℝ) (b : ℕ) : Option ℝ :=
  let sel := ((numbers.zip values).filter fun p => p.1 = b).map Prod.snd
  if sel.isEmpty then none else some (sel.sum / sel.length)

/-- `binned_statistic(x, values, statistic='mean', bins=nbins)` of SciPy: means and edges. Less than
one bin is an error. -/
noncomputable def binnedMean (x values : List ℝ) (nbins : ℤ) : Res (List (Option ℝ) × List ℝ) :=
  if nbins < 1 then .throws "ValueError" else do
  let lo ← npMin x
  let hi ← npMax x
  let edges := linspace lo hi nbins.toNat
  let numbers := x.map (binNumber edges)
  .ok ((List.range nbins.toNat).map fun b => binMean numbers values (b + 1), edges)

/-- `binned_variogram_statistics`, empirical_variogram.py lines 128-134. `int` truncates; a
resolution of zero is an infinite number of bins, which is an error. -/
noncomputable def Ev.binnedStatistics (E : Ev) (resolution : ℝ) (grid : Arr3)
    (ref : Option (ℕ × ℕ × ℕ)) : Res (List (Option ℝ) × List ℝ) := do
  let (dists, deltas) ← E.calculateDeltas grid ref
  let deltas2 := deltas.map fun d => d ^ 2
  let m ← npMax dists
  if resolution = 0 then .throws "OverflowError" else
  let ratio := m / resolution
  let nbins : ℤ := if 0 ≤ ratio then ⌊ratio⌋ else ⌈ratio⌉
  binnedMean dists deltas2 nbins

/-- `edges[:-1] + np.diff(edges)[0]`, empirical_variogram.py line 139. -/
noncomputable def midpointsOf (edges : List ℝ) : Res (List ℝ) := do
  let e0 ← rd edges 0
  let e1 ← rd edges 1
  .ok (edges.dropLast.map fun e => e + (e1 - e0))

/-- `find_midpoints`, empirical_variogram.py lines 136-139, for the field it simulates. -/
noncomputable def Ev.midpoints (E : Ev) (resolution : ℝ) (grid : Arr3) : Res (List ℝ) := do
  let (_, edges) ← E.binnedStatistics resolution grid none
  midpointsOf edges

/-- `a + b` of floats that may be nan. -/
noncomputable def nanAdd : Option ℝ → Option ℝ → Option ℝ
  | some a, some b => some (a + b)
  | _, _ => none

/-- `a / n`; `0 / 0` is nan. The dividend is zero if the divisor is, in this program. -/
noncomputable def nanDiv (a : Option ℝ) (n : ℕ) : Option ℝ :=
  if n = 0 then none else a.map (· / n)

/-- `np.pad(l, (0, n - len(l)), 'constant')`. A negative length is an error. -/
def padZero {α : Type} (zero : α) (n : ℕ) (l : List α) : Res (List α) :=
  if l.length ≤ n then .ok (l ++ List.replicate (n - l.length) zero) else .throws "ValueError"

/-- The loop over the reference points, empirical_variogram.py lines 51-56. -/
noncomputable def Ev.refLoop (E : Ev) (resolution : ℝ) (grid : Arr3) :
    List (ℕ × ℕ × ℕ) → List (Option ℝ) → List ℕ → Res (List (Option ℝ) × List ℕ)
  | [], mean, count => .ok (mean, count)
  | ref :: refs, mean, count => do
    let (means, _) ← E.binnedStatistics resolution grid (some ref)
    let means := means.map fun m => m.map fun x => 1 - x / 2.0
    let m ← padZero (some 0) mean.length means
    let c ← padZero 0 count.length (means.map fun _ => 1)
    E.refLoop resolution grid refs (List.zipWith nanAdd mean m) (List.zipWith (· + ·) count c)

/-- The loop over the simulated fields, empirical_variogram.py lines 42-62. -/
noncomputable def Ev.simLoop (E : Ev) (resolution : ℝ) (refs : List (ℕ × ℕ × ℕ)) :
    List Arr3 → List (Option ℝ) → List ℕ → Res (List (Option ℝ) × List ℕ)
  | [], sum, n => .ok (sum, n)
  | grid :: grids, sum, n => do
    let (mean, count) ← E.refLoop resolution grid refs (sum.map fun _ => some 0)
      (sum.map fun _ => 0)
    let mean := List.zipWith nanDiv mean count
    E.simLoop resolution refs grids (List.zipWith nanAdd sum mean) (List.zipWith (· + ·) n count)

/-- `estimate_variogram` for given fields, empirical_variogram.py lines 37-68: the first field gives
the distances; the estimate is made from the others. (`true_variogram` simulates another field for
the same distances; the number of samples is not returned.) -/
noncomputable def Ev.estimate (E : Ev) (resolution : ℝ) (refs : List (ℕ × ℕ × ℕ)) (first : Arr3)
    (grids : List Arr3) : Res (List ℝ × List (Option ℝ)) := do
  let mid ← E.midpoints resolution first
  let (sum, _) ← E.simLoop resolution refs grids (mid.map fun _ => some 0) (mid.map fun _ => 0)
  .ok (mid, sum.map fun a => nanDiv a grids.length)

/-- `n` simulated fields, empirical_variogram.py lines 42-44; `e k` is the environment of the call
number `k`. -/
noncomputable def Ev.simulateMany (E : Ev) (S : Setup) (e : ℕ → Env) :
    ℕ → ℕ → Random → Res (List Arr3 × Random)
  | _, 0, s => .ok ([], s)
  | k, n + 1, s => do
    let (g, s) ← E.simulate S (e k) s
    let (gs, s) ← E.simulateMany S e (k + 1) n s
    .ok (g :: gs, s)

/-- `estimate_variogram`, empirical_variogram.py lines 23-68: two fields for the distances (lines 37
and 41), then `nmax` fields. -/
noncomputable def Ev.estimateVariogram (E : Ev) (S : Setup) (e : ℕ → Env) (nmax : ℕ) (resolution : ℝ)
    (refs : List (ℕ × ℕ × ℕ)) (s : Random) : Res ((List ℝ × List (Option ℝ)) × Random) := do
  let (first, s) ← E.simulate S (e 0) s
  let _ ← E.midpoints resolution first
  let (second, s) ← E.simulate S (e 1) s
  let _ ← E.midpoints resolution second
  let (grids, s) ← E.simulateMany S e 2 nmax s
  let r ← E.estimate resolution refs first grids
  .ok (r, s)

/-- Every `step`-th element, beginning with the first. -/
def everyNth {α : Type} (step : ℕ) : ℕ → List α → List α
  | _, [] => []
  | 0, x :: l => x :: everyNth step (step - 1) l
  | n + 1, _ :: l => everyNth step n l

/-- The Python slice `l[offset::step]` for an offset that is not negative; a step of zero is an
error. -/
def slice {α : Type} (l : List α) (offset step : ℕ) : Res (List α) :=
  if step = 0 then .throws "ValueError" else .ok (everyNth step 0 (l.drop offset))

/-- The strategies of `pick_reference_points`. -/
inductive Strategy
  | all
  | origo
  | center
  | regular (n offset : ℕ)

/-- `pick_reference_points`, empirical_variogram.py lines 96-108, except the strategy `random`.
`int(len / n)` is the integer quotient (for lists of less than 2^53 elements). -/
def Ev.pickReferencePoints (E : Ev) : Strategy → Res (List (ℕ × ℕ × ℕ))
  | .all => .ok (gridIndexes E.nx E.ny E.nz)
  | .origo => .ok [(0, 0, 0)]
  | .center => .ok [(E.nx / 2, E.ny / 2, E.nz / 2)]
  | .regular n offset =>
    if n = 0 then .throws "ZeroDivisionError" else
    let l := gridIndexes E.nx E.ny E.nz
    slice l offset (l.length / n)

end Verif.Py
