import Verif.Model.Outcome
import Verif.Model.Distr
import Verif.Model.StormGrid
import Mathlib.Analysis.SpecialFunctions.Log.Basic
import Mathlib.Analysis.SpecialFunctions.Exp

/-!
# Estimation of trends

Models functions of src/nrlib/trend/trendkit.cpp. Doubles are real numbers. Messages are left out. `1e-5`, `1e-4` and `1e-6` are the
decimal numbers.
-/

namespace Verif

open Classical

namespace TrendKit

/-- `RMISSING`, trendkit.hpp line 38. -/
def missing : ℝ := -99999

/-- The body of the loops of `EstimateConstantTrend`, trendkit.cpp lines 25-28. -/
noncomputable def addBlock (log : List ℝ) (k : ℕ) (s : ℝ × ℕ) : Res (ℝ × ℕ) := do
  let v ← rd log k
  .ok (if v ≠ missing then (s.1 + v, s.2 + 1) else s)

/-- The loop over the wells of `EstimateConstantTrend`, trendkit.cpp lines 22-32. `n` is the size of the first log. -/
noncomputable def addWells (n : ℕ) : List (List ℝ) → ℝ × ℕ → Res (ℝ × ℕ)
  | [], s => .ok s
  | log :: logs, s =>
    if log.length > 0 then do
      let s' ← forRange 0 n (addBlock log) s
      addWells n logs s'
    else addWells n logs s

/-- `EstimateConstantTrend`, trendkit.cpp lines 10-37. `trend` is the value before. -/
noncomputable def constantTrend (logs : List (List ℝ)) (trend : ℝ) : Res ℝ :=
  match logs with
  | [] => .ok trend
  | log :: _ => do
    let s ← addWells log.length logs (0, 0)
    (if s.2 > 0 then fdiv s.1 s.2 else .ok s.1 : Res ℝ)

/-- The loop of `CalculateVariance`, trendkit.cpp lines 1069-1075: the sum, the sum of squares and the number. -/
noncomputable def addSquare (s : ℝ × ℝ × ℕ) (x : ℝ) : ℝ × ℝ × ℕ :=
  if x ≠ missing then (s.1 + x, s.2.1 + x * x, s.2.2 + 1) else s

/-- `CalculateVariance`, trendkit.cpp lines 1062-1079. `n*(n - 1)` is an `int`. -/
noncomputable def variance (x : List ℝ) : Res ℝ :=
  let s := x.foldl addSquare (0, 0, 0)
  let n : ℤ := s.2.2
  if n * (n - 1) > 2147483647 then .ub "integer overflow"
  else do
    let a ← fdiv s.2.1 ((n - 1 : ℤ) : ℝ)
    let b ← fdiv (s.1 * s.1) ((n * (n - 1) : ℤ) : ℝ)
    .ok (a - b)

/-- `CheckIfVectorIsSorted`, trendkit.cpp lines 1007-1017: for an empty vector the last index is the greatest `size_t`. -/
noncomputable def isSorted (x : List ℝ) : Res Bool :=
  if x.length = 0 then .ub "read out of range"
  else forRange 0 (x.length - 1) (fun i b => do
    let u ← rd x i
    let v ← rd x (i + 1)
    .ok (if u > v then false else b)) true

/-- The loops of `FindLowerBoundInSortedVector`, trendkit.cpp lines 1382-1393: `j` is `low` plus half the distance to `upp`
throughout, and in every round one of the inner loops makes one step. -/
noncomputable def lowerLoop (x : List ℝ) (x0 : ℝ) (low upp : ℕ) : Res ℕ :=
  if h : upp - low > 1 then
    if hj : low + (upp - low) / 2 < x.length then
      if x[low + (upp - low) / 2] ≤ x0 then lowerLoop x x0 (low + (upp - low) / 2) upp
      else lowerLoop x x0 low (low + (upp - low) / 2)
    else .ub "read out of range"
  else .ok (low + (upp - low) / 2)
termination_by upp - low
decreasing_by all_goals omega

/-- `FindLowerBoundInSortedVector`, trendkit.cpp lines 1369-1396. -/
noncomputable def lowerBound (x : List ℝ) (x0 : ℝ) : Res ℕ := do
  let a ← rd x 0
  (if x0 ≤ a then .ok 0
  else do
    let b ← rd x (x.length - 1)
    (if x0 ≥ b then .ok (x.length - 1) else lowerLoop x x0 0 (x.length - 1) : Res ℕ) : Res ℕ)

/-- The loops of `FindUpperBoundInSortedVector`, trendkit.cpp lines 1411-1422. -/
noncomputable def upperLoop (x : List ℝ) (x0 : ℝ) (low upp : ℕ) : Res ℕ :=
  if h : upp - low > 1 then
    if hj : low + (upp - low) / 2 < x.length then
      if x[low + (upp - low) / 2] < x0 then upperLoop x x0 (low + (upp - low) / 2) upp
      else upperLoop x x0 low (low + (upp - low) / 2)
    else .ub "read out of range"
  else .ok (min (low + (upp - low) / 2 + 1) (x.length - 1))
termination_by upp - low
decreasing_by all_goals omega

/-- `FindUpperBoundInSortedVector`, trendkit.cpp lines 1398-1425. -/
noncomputable def upperBound (x : List ℝ) (x0 : ℝ) : Res ℕ := do
  let a ← rd x 0
  (if x0 ≤ a then .ok 0
  else do
    let b ← rd x (x.length - 1)
    (if x0 ≥ b then .ok (x.length - 1) else upperLoop x x0 0 (x.length - 1) : Res ℕ) : Res ℕ)

/-- The order of `std::pair<double, size_t>`. -/
def pairLe (a b : ℝ × ℕ) : Prop := a.1 < b.1 ∨ (a.1 = b.1 ∧ a.2 ≤ b.2)

/-- The order of `std::pair<size_t, size_t>`. -/
def pairLeN (a b : ℕ × ℕ) : Prop := a.1 < b.1 ∨ (a.1 = b.1 ∧ a.2 ≤ b.2)

/-- `SortOrderAndRank`, trendkit.cpp lines 1427-1461: the sorted numbers, their places and their ranks. `std::sort` gives the sorted
list; the pairs are different. -/
noncomputable def sortOrderAndRank (x : List ℝ) : List ℝ × List ℕ × List ℕ :=
  let s := (x.zip (List.range x.length)).mergeSort fun a b => decide (pairLe a b)
  let order := s.map Prod.snd
  let r := (order.zip (List.range x.length)).mergeSort fun a b => decide (pairLeN a b)
  (s.map Prod.fst, order, r.map Prod.snd)

/-- `InterpolateTrend1DValues`, trendkit.cpp lines 210-223. -/
noncomputable def interpolate1D (xi xi1 fxi fxi1 yj : ℝ) : Res ℝ := do
  let t ← fdiv (yj - xi1) (xi - xi1)
  .ok (fxi * t + fxi1 * (1 - t))

/-- The inner loop of `ResampleTrend1D`, trendkit.cpp lines 242-251, with at most `n` rounds. -/
noncomputable def resampleIn (xi xi1 fxi fxi1 : ℝ) (y : List ℝ) : ℕ → ℕ × List ℝ → Res (ℕ × List ℝ)
  | 0, s => .ok s
  | n + 1, (j, fy) =>
    if hj : j < y.length then
      if y[j] ≥ xi ∧ y[j] < xi1 then do
        let v ← interpolate1D xi xi1 fxi fxi1 y[j]
        let fy' ← wr fy j v
        resampleIn xi xi1 fxi fxi1 y n (j + 1, fy')
      else .ok (j, fy)
    else .ok (j, fy)

/-- The body of the outer loop of `ResampleTrend1D`, trendkit.cpp lines 242-253. -/
noncomputable def resampleAt (x fx y : List ℝ) (i : ℕ) (s : ℕ × List ℝ) : Res (ℕ × List ℝ) := do
  let xi ← rd x i
  let xi1 ← rd x (i + 1)
  let fxi ← rd fx i
  let fxi1 ← rd fx (i + 1)
  resampleIn xi xi1 fxi fxi1 y (y.length - s.1) s

/-- `ResampleTrend1D`, trendkit.cpp lines 227-255. The elements of `x` and `fx` are read in every round of the outer loop; they are in
range if `fx` is as long as `x`. -/
noncomputable def resample (x fx y fy : List ℝ) : Res (List ℝ) := do
  let s ← forRange 0 (x.length - 1) (resampleAt x fx y) (0, fy)
  .ok s.2

/-- `std::floor` and the conversion to an index. -/
noncomputable def floorSize (q : ℝ) : Res ℕ :=
  if 0 ≤ ⌊q⌋ ∧ ⌊q⌋ < 2 ^ 64 then .ok ⌊q⌋.toNat else .ub "conversion to size_t out of range"

/-- The weight of a place, e.g. trendkit.cpp line 476. -/
noncomputable def hat (x c scale : ℝ) : ℝ := max (1 - |x - c| * scale) 0

/-- The body of the loop of `LinearInterpolation`, trendkit.cpp lines 637-651. -/
noncomputable def linearAt (x y : List ℝ) (low upp scale x0 : ℝ) : Res ℝ :=
  if low - 1e-5 < x0 ∧ x0 < upp + 1e-5 then
    if x0 < low + 1e-5 then rd y 0
    else if x0 > upp - 1e-5 then rd y (y.length - 1)
    else do
      let j ← floorSize ((x0 - low) * scale)
      let c ← rd x j
      let u ← rd y j
      let v ← rd y (j + 1)
      .ok (hat x0 c scale * u + (1 - hat x0 c scale) * v)
  else .ok missing

/-- The loop of `LinearInterpolation`, trendkit.cpp lines 636-652. -/
noncomputable def linearAll (x y : List ℝ) (low upp scale : ℝ) : List ℝ → Res (List ℝ)
  | [] => .ok []
  | x0 :: xs => do
    let v ← linearAt x y low upp scale x0
    let vs ← linearAll x y low upp scale xs
    .ok (v :: vs)

/-- `LinearInterpolation`, trendkit.cpp lines 622-653. -/
noncomputable def linearInterpolation (x y x0 : List ℝ) : Res (List ℝ) := do
  let low ← rd x 0
  let upp ← rd x (x.length - 1)
  let x1 ← rd x 1
  let scale ← fdiv 1 (x1 - low)
  linearAll x y low upp scale x0

/-- The cell of a place and the weight of its end, trendkit.cpp lines 1500-1511 and 1513-1524. -/
noncomputable def cellAt (n : ℕ) (first last inc scale x0 : ℝ) : Res (ℕ × ℝ) :=
  if x0 < first + 1e-5 then .ok (0, 0)
  else if x0 > last - 1e-5 then .ok (n - 2, 1)
  else do
    let k ← floorSize ((x0 - first) * scale)
    .ok (k, (x0 - first - k * inc) * scale)

/-- An element of a vector of vectors. -/
def rd2 (z : List (List ℝ)) (i j : ℕ) : Res ℝ := do
  let r ← rd z i
  rd r j

/-- `Interpolate`, trendkit.cpp lines 1477-1543. -/
noncomputable def interpolate (x y : List ℝ) (z : List (List ℝ)) (x0 y0 : ℝ) : Res ℝ := do
  let xf ← rd x 0
  let xl ← rd x (x.length - 1)
  let x1 ← rd x 1
  let xs ← fdiv 1 (x1 - xf)
  let yf ← rd y 0
  let yl ← rd y (y.length - 1)
  let y1 ← rd y 1
  let ys ← fdiv 1 (y1 - yf)
  (if xf - 1e-5 < x0 ∧ x0 < xl + 1e-5 ∧ yf - 1e-5 < y0 ∧ y0 < yl + 1e-5 then do
    let k ← cellAt x.length xf xl (x1 - xf) xs x0
    let l ← cellAt y.length yf yl (y1 - yf) ys y0
    let v00 ← rd2 z k.1 l.1
    let v10 ← rd2 z (k.1 + 1) l.1
    let v01 ← rd2 z k.1 (l.1 + 1)
    let v11 ← rd2 z (k.1 + 1) (l.1 + 1)
    (if v00 ≠ missing ∧ v10 ≠ missing ∧ v01 ≠ missing ∧ v11 ≠ missing then
      .ok (v00 * (1 - k.2) * (1 - l.2) + v10 * k.2 * (1 - l.2) + v01 * (1 - k.2) * l.2 + v11 * k.2 * l.2)
    else .ok missing : Res ℝ)
  else .ok missing : Res ℝ)

/-- Adds to an element. -/
def addTo (a : List ℝ) (j : ℕ) (v : ℝ) : Res (List ℝ) := do
  let o ← rd a j
  wr a j (o + v)

/-- One number in one bin: the weights and the weighted sums, e.g. trendkit.cpp lines 478-479. -/
def addBin (j : ℕ) (weight y : ℝ) (s : List ℝ × List ℝ) : Res (List ℝ × List ℝ) := do
  let w ← addTo s.1 j weight
  let v ← addTo s.2 j (weight * y)
  .ok (w, v)

/-- The body of the first loop of `MakeBinnedDataset1D`, trendkit.cpp lines 473-506. -/
noncomputable def binOne (g : List ℝ) (low upp scale x y : ℝ) (s : List ℝ × List ℝ) : Res (List ℝ × List ℝ) :=
  if x < low + 1e-5 then do
    let c ← rd g 0
    addBin 0 (hat x c scale) y s
  else if x > upp - 1e-5 then do
    let c ← rd g (g.length - 1)
    addBin (g.length - 1) (hat x c scale) y s
  else do
    let j ← floorSize ((x - low) * scale)
    let c ← rd g j
    let s' ← addBin j (hat x c scale) y s
    addBin (j + 1) (1 - hat x c scale) y s'

/-- The first loop of `MakeBinnedDataset1D`, trendkit.cpp lines 472-507. -/
noncomputable def binAll (g : List ℝ) (low upp scale : ℝ) : List (ℝ × ℝ) → List ℝ × List ℝ → Res (List ℝ × List ℝ)
  | [], s => .ok s
  | p :: ps, s => do
    let s' ← binOne g low upp scale p.1 p.2 s
    binAll g low upp scale ps s'

/-- The second loop of `MakeBinnedDataset1D`, trendkit.cpp lines 508-518. -/
noncomputable def meanOf (w v : ℝ) : ℝ := if w ≠ 0 then v / w else missing

/-- `MakeBinnedDataset1D` without weights, trendkit.cpp lines 443-521: the means and the weights of the bins. The places and the
values are given as pairs: `x` is as long as `y`. -/
noncomputable def bin1D (ps : List (ℝ × ℝ)) (g : List ℝ) : Res (List ℝ × List ℝ) := do
  let low ← rd g 0
  let upp ← rd g (g.length - 1)
  let g1 ← rd g 1
  let scale ← fdiv 1 (g1 - low)
  let s ← binAll g low upp scale ps (List.replicate g.length 0, List.replicate g.length 0)
  .ok (List.zipWith meanOf s.1 s.2, s.1)

/-- An observation with its weight, as it is used in `LocalLinearRegression1D`. -/
structure Obs where
  x : ℝ
  y : ℝ
  w : ℝ

/-- The sums of `LocalLinearRegression1D`, trendkit.cpp lines 573-589. -/
noncomputable def sums (l : List Obs) : ℝ × ℝ × ℝ × ℝ × ℝ :=
  l.foldl (fun a o => (a.1 + o.w, a.2.1 + o.x * o.w, a.2.2.1 + o.x * o.x * o.w, a.2.2.2.1 + o.y * o.w,
    a.2.2.2.2 + o.x * o.y * o.w)) (0, 0, 0, 0, 0)

/-- The fitted value at a place from the observations used, trendkit.cpp lines 571-612: `none` is missing. -/
noncomputable def fit (l : List Obs) (x0 : ℝ) : Option ℝ :=
  let a := sums l
  let a00 := a.1
  let a01 := a.2.1
  let a11 := a.2.2.1 * (1 + 1e-4)
  let c0 := a.2.2.2.1
  let c1 := a.2.2.2.2
  let det := a00 * a11 - a01 * a01
  if det > 1e-6 then some ((a11 * c0 + -a01 * c1) / det + x0 * (-a01 * c0 + a00 * c1) / det) else none

/-- The observations used at a place, trendkit.cpp lines 556-569: `k` runs over the places of the sorted window. -/
noncomputable def used (x y w : List ℝ) (order : List ℕ) (bandwidth x0 : ℝ) : List ℕ → Res (List Obs)
  | [] => .ok []
  | j :: js => do
    let k ← rd order j
    let xk ← rd x k
    let yk ← rd y k
    let wk ← rd w k
    let rest ← used x y w order bandwidth x0 js
    let delta := (x0 - xk) * (x0 - xk) * (1 / (bandwidth * bandwidth))
    .ok (if delta < 2 * Real.log 1e5 ∧ yk ≠ missing then ⟨xk, yk, wk * Real.exp (-0.5 * delta)⟩ :: rest else rest)

/-- `LocalLinearRegression1D` at one place that is missing before, trendkit.cpp lines 523-620. The bandwidth is not 0. -/
noncomputable def regressAt (x y w : List ℝ) (bandwidth size x0 : ℝ) : Res (Option ℝ) := do
  let s := sortOrderAndRank x
  let t := √(Real.log 1e5) * bandwidth
  let lo ← lowerBound s.1 (x0 - t)
  let up ← upperBound s.1 (x0 + t)
  let l ← used x y w s.2.1 bandwidth x0 (List.range' lo (up + 1 - lo))
  .ok (if (l.map Obs.w).sum > size then fit l x0 else none)

end TrendKit
end Verif
