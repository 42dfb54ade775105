import Verif.Model.Empirical

/-!
# Convergence of the estimate, and the analysis of paddings

Models the class `ConvergenceAnalyzer` and the argument `analyze_convergence` of
`estimate_variogram` (gaussianfft/util/empirical_variogram.py), and the class `PaddingAnalyzer` of
gaussianfft/util/padding_analyzer.py.

Floats are real numbers; a NumPy float that may be nan is an `Option ℝ`. Not modelled: what is
printed, the timing data.
-/

namespace Verif.Py

/-- `feed`, empirical_variogram.py lines 184-185: the difference that is appended. Both arrays have
one element per distance. -/
noncomputable def feedDelta (est : List (Option ℝ)) (truth : List ℝ) : List (Option ℝ) :=
  List.zipWith (fun (a : Option ℝ) (t : ℝ) => a.map (· - t)) est truth

/-- The loop over the simulated fields with the convergence analysis, empirical_variogram.py lines
42-66. `i` is the number of the field; `ds` are the differences fed so far. -/
noncomputable def Ev.convLoop (E : Ev) (resolution : ℝ) (refs : List (ℕ × ℕ × ℕ)) (step : ℤ)
    (truth : List ℝ) : ℕ → List Arr3 → List (Option ℝ) → List ℕ → List (List (Option ℝ)) →
      Res (List (Option ℝ) × List ℕ × List (List (Option ℝ)))
  | _, [], sum, n, ds => .ok (sum, n, ds)
  | i, grid :: grids, sum, n, ds => do
    let (mean, count) ← E.refLoop resolution grid refs (sum.map fun _ => some 0)
      (sum.map fun _ => 0)
    let mean := List.zipWith nanDiv mean count
    let sum := List.zipWith nanAdd sum mean
    let n := List.zipWith (· + ·) n count
    let ds := if 0 < step ∧ (i : ℤ) % step = 0
      then ds ++ [feedDelta (sum.map fun a => nanDiv a (i + 1)) truth] else ds
    E.convLoop resolution refs step truth (i + 1) grids sum n ds

/-- What `estimate_variogram` returns, empirical_variogram.py line 68: distances, estimate, number of
samples, and the property `deltas` of the convergence analyzer (line 189). -/
structure Estimated where
  mid : List ℝ
  est : List (Option ℝ)
  samples : List ℕ
  deltas : List (List (Option ℝ))

/-- `estimate_variogram` for given fields, empirical_variogram.py lines 37-68: the first field gives
the distances, the second one those at which the variogram is computed (lines 41 and 76-82); the
estimate is made from the others. -/
noncomputable def Ev.estimateConv (E : Ev) (resolution : ℝ) (refs : List (ℕ × ℕ × ℕ)) (step : ℤ)
    (first second : Arr3) (grids : List Arr3) : Res Estimated := do
  let mid ← E.midpoints resolution first
  let mid' ← E.midpoints resolution second
  let truth := mid'.map E.v.corr
  let (sum, n, ds) ← E.convLoop resolution refs step truth 0 grids (mid.map fun _ => some 0)
    (mid.map fun _ => 0) []
  .ok ⟨mid, sum.map fun a => nanDiv a grids.length, n, ds⟩

/-- `estimate_variogram`, empirical_variogram.py lines 23-68; `e k` is the environment of simulation
number `k`. `range(nmax)` is empty if `nmax` is negative. All fields are simulated before the
estimates are made, which do not change the state of the generator. -/
noncomputable def Ev.estimateWith (E : Ev) (S : Setup) (e : ℕ → Env) (nmax : ℤ) (resolution : ℝ)
    (refs : List (ℕ × ℕ × ℕ)) (step : ℤ) (s : Random) : Res (Estimated × Random) := do
  let (first, s) ← E.simulate S (e 0) s
  let (second, s) ← E.simulate S (e 1) s
  let (grids, s) ← E.simulateMany S e 2 nmax.toNat s
  let r ← E.estimateConv resolution refs step first second grids
  .ok (r, s)

/-- The arguments of `PaddingAnalyzer`, padding_analyzer.py lines 23-24; `none` is Python's `None`.
The number of cells is not negative. -/
structure PadArgs where
  ranges : List ℝ
  paddings : List ℝ
  L : Option ℝ
  n : Option ℕ
  drf : Option ℝ
  nmax : Option ℤ
  vtype : TypeArg
  seed : Option (BitVec 64)
  ndims : Option ℤ

open Classical in
/-- `x or default` for a number: `None` and zero are false, padding_analyzer.py lines 26-31. -/
noncomputable def pyOr {α : Type} [Zero α] (x : Option α) (default : α) : α :=
  match x with
  | none => default
  | some v => if v = 0 then default else v

/-- The number of cells in force, padding_analyzer.py lines 13 and 26. -/
noncomputable def PadArgs.cells (a : PadArgs) : ℕ := pyOr a.n 100
/-- The factor of the resolution, padding_analyzer.py lines 11 and 27. -/
noncomputable def PadArgs.factor (a : PadArgs) : ℝ := pyOr a.drf 1.0
/-- The length, padding_analyzer.py lines 12 and 28. -/
noncomputable def PadArgs.length (a : PadArgs) : ℝ := pyOr a.L 1000
/-- The seed, padding_analyzer.py lines 14 and 29. -/
noncomputable def PadArgs.theSeed (a : PadArgs) : BitVec 64 := pyOr a.seed 12313
/-- The number of fields, padding_analyzer.py lines 15 and 30. -/
noncomputable def PadArgs.fields (a : PadArgs) : ℤ := pyOr a.nmax 600
/-- The number of dimensions, padding_analyzer.py lines 16 and 31. -/
noncomputable def PadArgs.dims (a : PadArgs) : ℤ := pyOr a.ndims 1
/-- `d = L / n`, padding_analyzer.py line 38. -/
noncomputable def PadArgs.d (a : PadArgs) : ℝ := a.length / a.cells
/-- `dr = drf * d`, padding_analyzer.py line 39. -/
noncomputable def PadArgs.dr (a : PadArgs) : ℝ := a.factor * a.d

/-- `int(x)`. -/
noncomputable def pyInt (x : ℝ) : ℤ := if 0 ≤ x then ⌊x⌋ else ⌈x⌉

/-- The paddings in cells, padding_analyzer.py lines 42-44. -/
noncomputable def PadArgs.outputPadding (a : PadArgs) : List ℤ :=
  a.paddings.map fun p => pyInt (p * a.length / a.d)

/-- `create_variograms`, padding_analyzer.py lines 67-76. -/
noncomputable def createVariograms (rrange : ℝ) (padding : ℤ) (ndims : ℤ) (d : ℝ) (n : ℕ) (L : ℝ)
    (vtype : TypeArg) : Res Ev :=
  if ndims = 1 then do
    let v ← variogram vtype (rrange * L) (-1.0) (-1.0) 0.0 0.0 1.5
    .ok ⟨v, n, d, 1, 0, 1, 0, padding, padding, padding⟩
  else if ndims = 2 then do
    let v ← variogram vtype (rrange * L) (rrange * L) (-1.0) 0.0 0.0 1.5
    .ok ⟨v, n, d, n, d, 1, 0, padding, padding, padding⟩
  else .throws "NotImplementedError"

/-- One estimate, padding_analyzer.py lines 47-49 and 58-60. The convergence step is 10 (line 35),
the reference point the first cell (line 34). -/
noncomputable def PadArgs.analyze (a : PadArgs) (S : Setup) (e : ℕ → Env) (rrange : ℝ) (padding : ℤ)
    (s : Random) : Res (Estimated × Random) := do
  let ev ← createVariograms rrange padding a.dims a.d a.cells a.length a.vtype
  let refs ← ev.pickReferencePoints .origo
  ev.estimateWith S e a.fields a.dr refs 10 s

/-- `l[-1]`. -/
def pyLast {α : Type} (l : List α) : Res α :=
  match l.getLast? with
  | none => .throws "IndexError"
  | some x => .ok x

/-- `self.deltas[j, i, :] = row`: the array is stored as the list of its rows. Rows of another length
are an error (a row of length one would be broadcast, which gives a constant row). -/
def storeRow (rows : List (List (Option ℝ))) (k width : ℕ) (row : List (Option ℝ)) :
    Res (List (List (Option ℝ))) :=
  if row.length = width then wr rows k row
  else if row.length = 1 then wr rows k (List.replicate width (row.headD none))
  else .throws "ValueError"

/-- The order in which combinations of range and padding are taken, padding_analyzer.py lines 54 and
57: number of the range, range, number of the padding, padding. -/
def jobs (ranges : List ℝ) (paddings : List ℤ) : List ((ℝ × ℕ) × (ℤ × ℕ)) :=
  ranges.zipIdx.flatMap fun r => paddings.zipIdx.map fun p => (r, p)

/-- The loops, padding_analyzer.py lines 54-61. `e k` are the environments of estimate number `k`. -/
noncomputable def PadArgs.loop (a : PadArgs) (S : Setup) (e : ℕ → ℕ → Env) (width : ℕ) :
    ℕ → List ((ℝ × ℕ) × (ℤ × ℕ)) → List (List (Option ℝ)) → Random →
      Res (List (List (Option ℝ)) × Random)
  | _, [], rows, s => .ok (rows, s)
  | k, ((r, i), (p, j)) :: rest, rows, s => do
    let (est, s) ← a.analyze S (e k) r p s
    let last ← pyLast est.deltas
    let rows ← storeRow rows (j * a.ranges.length + i) width last
    a.loop S e width (k + 1) rest rows s

/-- The attributes of a `PaddingAnalyzer`, padding_analyzer.py lines 52 and 63-65. The array `deltas`
is the list of its rows `deltas[j, i, :]`, at `j * len(range) + i`. -/
structure PadResult where
  deltas : List (List (Option ℝ))
  range : List ℝ
  paddingF : List ℝ
  grid : List ℝ

/-- `np.linspace(0, hi, n)`: `n` points from 0 to `hi`; a single point is 0. -/
noncomputable def linspacePoints (hi : ℝ) (n : ℕ) : List ℝ :=
  (List.range n).map fun b : ℕ => b * (hi / ((n - 1 : ℕ) : ℝ))

/-- `l[0]` of a Python list. -/
def pyFirst {α : Type} (l : List α) : Res α :=
  match l.head? with
  | none => .throws "IndexError"
  | some x => .ok x

/-- `PaddingAnalyzer(...)`, padding_analyzer.py lines 23-65. -/
noncomputable def padAnalyzer (S : Setup) (e : ℕ → ℕ → Env) (a : PadArgs) (s : Random) :
    Res (PadResult × Random) := do
  let s ← s.initializeSeed a.theSeed
  let pads := a.outputPadding
  let r0 ← pyFirst a.ranges
  let p0 ← pyFirst pads
  let (est, s) ← a.analyze S (e 0) r0 p0 s
  -- convrg.deltas.shape[1]
  let row ← pyFirst est.deltas
  let width := row.length
  let rows := List.replicate (pads.length * a.ranges.length) (List.replicate width (some 0))
  let (rows, s) ← a.loop S e width 1 (jobs a.ranges pads) rows s
  .ok (⟨rows, a.ranges, pads.map fun p => (p : ℝ) / a.cells, linspacePoints (width * a.d) width⟩, s)

end Verif.Py
