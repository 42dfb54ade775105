import Verif.Model.Empirical
import Mathlib.Logic.Relation

/-!
# Estimating a variogram by distance classes

Models the class `EmpiricalVariogram2` of gaussianfft/util/empirical_variogram2.py.

As in `Model/Empirical`, NumPy and SciPy are modelled by what they compute in exact arithmetic. The
memory for the matrix of pairwise distances is not modelled. `step` is not negative (the sign does
not matter to the test `j % step == 0`).
-/

namespace Verif.Py

/-- Boolean indexing `l[mask]`, e.g. empirical_variogram2.py lines 72, 103 and 104. -/
def compress {α : Type} (mask : List Bool) (l : List α) : List α :=
  ((mask.zip l).filter Prod.fst).map Prod.snd

/-- The edges of the graph that is given to `connected_components`, empirical_variogram2.py lines 73
and 74: positions whose distances differ by less than 1e-10. -/
def Close (dists : List ℝ) (a b : ℕ) : Prop :=
  ∃ x y, dists[a]? = some x ∧ dists[b]? = some y ∧ |x - y| < 1e-10

/-- Two nodes of a graph are in the same component. -/
def SameComponent (edge : ℕ → ℕ → Prop) (a b : ℕ) : Prop := Relation.ReflTransGen edge a b

open Classical in
/-- `connected_components` of SciPy and the lists of the nodes with each label,
empirical_variogram2.py lines 75-79. SciPy scans the nodes in order and gives the next label to the
component of a node that has none yet, so a component is found at its first node; `np.argwhere` lists
the nodes of a label in order. -/
noncomputable def components (edge : ℕ → ℕ → Prop) (n : ℕ) : List (List ℕ) :=
  ((List.range n).filter fun i => ∀ j < i, ¬ SameComponent edge j i).map fun i =>
    (List.range n).filter fun j => SameComponent edge i j

/-- `dists[g[0]]`, empirical_variogram2.py line 80. -/
def firstDist (dists : List ℝ) (g : List ℕ) : Res ℝ := do
  let i ← rd g 0
  rd dists i

/-- `[dists[g[0]] for g in groups]`, empirical_variogram2.py line 80. -/
def groupDists (dists : List ℝ) : List (List ℕ) → Res (List ℝ)
  | [] => .ok []
  | g :: gs => do
    let x ← firstDist dists g
    let r ← groupDists dists gs
    .ok (x :: r)

/-- The classes of the selected points: positions among the selected points, and distances. -/
structure Bins where
  groups : List (List ℕ)
  dists : List ℝ

/-- `_find_distance_bins`, empirical_variogram2.py lines 71-81. If no point is selected, `squareform`
makes a matrix of one zero of the empty list, so there is one group, and line 80 is an error. -/
noncomputable def findDistanceBins (distsFromRef : List ℝ) (mask : List Bool) : Res Bins := do
  let dists := compress mask distsFromRef
  if dists.isEmpty then .throws "IndexError" else
  let groups := components (Close dists) dists.length
  let group_dists ← groupDists dists groups
  .ok ⟨groups, group_dists⟩

/-- `j % step` for an integer of NumPy: with a step of zero it is zero (and a warning). -/
def npMod (j step : ℕ) : ℕ := if step = 0 then 0 else j % step

/-- An object of class `EmpiricalVariogram2`, empirical_variogram2.py lines 29-49. The cell size is 1
in all directions. -/
structure Ev2 where
  ev : Ev
  ixShort : List Bool
  ixSample : List Bool
  shortBins : Bins
  sampleBins : Bins

open Classical in
/-- The constructor, empirical_variogram2.py lines 14-52, with `_calculate_dists`, lines 66-69. -/
noncomputable def Ev2.create (v : Variogram) (nx ny nz : ℕ) (px py pz : ℤ) (close_range : ℝ)
    (step : ℕ) : Res Ev2 :=
  let points := gridPoints nx 1.0 ny 1.0 nz 1.0
  let indexes := gridIndexes nx ny nz
  match indexes.idxOf? (0, 0, 0) with
  | none => .throws "ValueError"
  | some p_idx => do
    let p ← rd points p_idx
    let dists := points.map (cdist p)
    let ixShort := dists.map fun d => decide (d < close_range)
    let ixSample := indexes.map fun i =>
      npMod i.1 step == 0 && npMod i.2.1 step == 0 && npMod i.2.2 step == 0
    let shortBins ← findDistanceBins dists ixShort
    let sampleBins ← findDistanceBins dists ixSample
    .ok ⟨⟨v, nx, 1.0, ny, 1.0, nz, 1.0, px, py, pz⟩, ixShort, ixSample, shortBins, sampleBins⟩

/-- The class attribute `smoothing`, empirical_variogram2.py line 9. -/
noncomputable def smoothing : ℝ := 0.00001

/-- `_simulate`, empirical_variogram2.py lines 84-94. -/
noncomputable def Ev2.simulate (E : Ev2) (S : Setup) (e : Env) (s : Random) :
    Res (Arr3 × Random) := do
  let (out, s) ← advancedSimulate S e E.ev.v E.ev.nx E.ev.dx E.ev.ny E.ev.dy E.ev.nz E.ev.dz
    E.ev.px E.ev.py E.ev.pz smoothing smoothing smoothing s
  let a ← reshapeF E.ev.nx E.ev.ny E.ev.nz out
  .ok (a, s)

/-- `_calculate_all_deltas`, empirical_variogram2.py lines 114-122. -/
def Ev2.deltas (E : Ev2) (grid : Arr3) : Res (List ℝ) := do
  let grid ← E.ev.reshape grid
  let g0 ← grid.get (0, 0, 0)
  deltasAt grid g0 (gridIndexes E.ev.nx E.ev.ny E.ev.nz)

/-- The elements of `d` at the positions `c`. -/
def takeAt (d : List ℝ) : List ℕ → Res (List ℝ)
  | [] => .ok []
  | i :: c => do
    let x ← rd d i
    let r ← takeAt d c
    .ok (x :: r)

/-- `np.mean` of a list; nan if it is empty. -/
noncomputable def npMean (l : List ℝ) : Option ℝ :=
  if l.isEmpty then none else some (l.sum / l.length)

/-- The loops over the classes, empirical_variogram2.py lines 106-110: one row of the array. -/
noncomputable def binRow (d : List ℝ) : List (List ℕ) → Res (List (Option ℝ))
  | [] => .ok []
  | c :: cs => do
    let x ← takeAt d c
    let r ← binRow d cs
    .ok (npMean x :: r)

/-- `_estimate_variogram_data` for given fields, empirical_variogram2.py lines 96-112: the rows of the
two arrays. -/
noncomputable def Ev2.data (E : Ev2) : List Arr3 →
    Res (List (List (Option ℝ)) × List (List (Option ℝ)))
  | [] => .ok ([], [])
  | s :: grids => do
    let deltas ← E.deltas s
    let d := deltas.map fun x => x ^ 2
    let short ← binRow (compress E.ixShort d) E.shortBins.groups
    let sample ← binRow (compress E.ixSample d) E.sampleBins.groups
    let (rs, rt) ← E.data grids
    .ok (short :: rs, sample :: rt)

/-- Column `j` of an array; nan if one of its elements is nan or missing. -/
def column (rows : List (List (Option ℝ))) (j : ℕ) : Option (List ℝ) :=
  rows.mapM fun r => (r[j]?).join

/-- `np.mean(data, axis=0)`, empirical_variogram2.py lines 59 and 60. -/
noncomputable def colMean (rows : List (List (Option ℝ))) (j : ℕ) : Option ℝ :=
  (column rows j).bind npMean

/-- `np.std(data, axis=0)`, empirical_variogram2.py lines 61 and 62: the root of the mean of the
squared deviations from the mean. -/
noncomputable def colStd (rows : List (List (Option ℝ))) (j : ℕ) : Option ℝ :=
  (column rows j).bind fun c => (npMean c).bind fun m =>
    (npMean (c.map fun x => |x - m| ^ 2)).map Real.sqrt

/-- What `estimate_variogram` returns for one of the two selections: distances, means, deviations. -/
noncomputable def summary (b : Bins) (rows : List (List (Option ℝ))) :
    List ℝ × List (Option ℝ) × List (Option ℝ) :=
  (b.dists, (List.range b.groups.length).map (colMean rows),
    (List.range b.groups.length).map (colStd rows))

/-- `estimate_variogram` for given fields, empirical_variogram2.py lines 55-63. -/
noncomputable def Ev2.estimate (E : Ev2) (grids : List Arr3) :
    Res ((List ℝ × List (Option ℝ) × List (Option ℝ)) ×
      (List ℝ × List (Option ℝ) × List (Option ℝ))) := do
  let (vdata_short, vdata_sample) ← E.data grids
  .ok (summary E.shortBins vdata_short, summary E.sampleBins vdata_sample)

/-- The `nmax` fields of `_estimate_variogram_data`, empirical_variogram2.py lines 99 and 100; `e k` is
the environment of the call number `k`. -/
noncomputable def Ev2.simulateMany (E : Ev2) (S : Setup) (e : ℕ → Env) :
    ℕ → ℕ → Random → Res (List Arr3 × Random)
  | _, 0, s => .ok ([], s)
  | k, n + 1, s => do
    let (g, s) ← E.simulate S (e k) s
    let (gs, s) ← E.simulateMany S e (k + 1) n s
    .ok (g :: gs, s)

/-- `estimate_variogram`, empirical_variogram2.py lines 55-63. -/
noncomputable def Ev2.estimateVariogram (E : Ev2) (S : Setup) (e : ℕ → Env) (nmax : ℕ) (s : Random) :
    Res (((List ℝ × List (Option ℝ) × List (Option ℝ)) ×
      (List ℝ × List (Option ℝ) × List (Option ℝ))) × Random) := do
  let (grids, s) ← E.simulateMany S e 0 nmax s
  let r ← E.estimate grids
  .ok (r, s)

end Verif.Py
