import Verif.Model.Outcome
import Verif.Model.Distr
import Verif.Model.TrendKit

/-!
# Trends in one, two and three dimensions

Models functions of src/nrlib/trend/trend.cpp. Doubles are real numbers. A trend is the list of its numbers; in two dimensions the number
at `(i, j)` is at place `i + j*ns1`, in three dimensions the one at `(i, j, k)` is at place `i + j*ni + k*ni*nj`. The sizes fit an
`int`. The loops over the numbers of trends in two and three dimensions visit each once; they are modelled as operations on lists.
-/

namespace Verif

open Classical

namespace Trend

/-- `static_cast<int>(floor(q))`, and the next `int`, which is always computed, e.g. trend.cpp lines 31-34. -/
noncomputable def floorInt (q : ℝ) : Res ℤ :=
  if -2147483648 ≤ ⌊q⌋ ∧ ⌊q⌋ < 2147483647 then .ok ⌊q⌋ else .ub "int out of range"

/-- `t*u + (1 - t)*v` for two elements. -/
def mix (trend : List ℝ) (t : ℝ) (a b : ℕ) : Res ℝ := do
  let u ← rd trend a
  let v ← rd trend b
  .ok (t * u + (1 - t) * v)

/-- The lines of `Trend1D::GetValue` after the choice of the coordinate, trend.cpp lines 265-277. -/
noncomputable def value1D (trend : List ℝ) (i : ℝ) : Res ℝ := do
  let i1 ← floorInt i
  (if i1 < 0 then rd trend 0
  else if i1 + 1 > (trend.length : ℤ) - 1 then rd trend (trend.length - 1)
  else mix trend (i - i1) (i1.toNat + 1) i1.toNat : Res ℝ)

/-- `Trend1D::GetValue`, trend.cpp lines 253-279. -/
noncomputable def getValue1D (trend : List ℝ) (reference : ℕ) (invInc s1 s2 s3 : ℝ) : Res ℝ :=
  value1D trend (if reference = 1 then s1 * invInc else if reference = 2 then s2 * invInc else if reference = 3 then s3 * invInc else 0)

/-- The choice by the second index in `Trend::GetValue2D` for one first index `a`, e.g. trend.cpp lines 40-45: the rows are at a
distance of `ns1`. -/
noncomputable def column (trend : List ℝ) (ns1 ns2 a : ℕ) (j : ℤ) (t : ℝ) : Res ℝ :=
  if j < 0 then rd trend a
  else if j + 1 > (ns2 : ℤ) - 1 then rd trend (a + (ns2 - 1) * ns1)
  else mix trend t (a + (j.toNat + 1) * ns1) (a + j.toNat * ns1)

/-- `Trend::GetValue2D` after the first lines, trend.cpp lines 31-67, and `Trend2D::GetValue`, trend.cpp lines 545-583: `p` and `q` are
`i_frac` and `j_frac`. -/
noncomputable def value2D (trend : List ℝ) (ns1 ns2 start : ℕ) (p q : ℝ) : Res ℝ := do
  let i0 ← floorInt p
  let j0 ← floorInt q
  (if i0 < 0 then column trend ns1 ns2 start j0 (q - j0)
  else if i0 + 1 > (ns1 : ℤ) - 1 then column trend ns1 ns2 (start + ns1 - 1) j0 (q - j0)
  else if j0 < 0 then mix trend (p - i0) (start + (i0.toNat + 1)) (start + i0.toNat)
  else if j0 + 1 > (ns2 : ℤ) - 1 then
    mix trend (p - i0) (start + (i0.toNat + 1) + (ns2 - 1) * ns1) (start + i0.toNat + (ns2 - 1) * ns1)
  else do
    let v1 ← mix trend (p - i0) (start + (i0.toNat + 1) + j0.toNat * ns1) (start + i0.toNat + j0.toNat * ns1)
    let v2 ← mix trend (p - i0) (start + (i0.toNat + 1) + (j0.toNat + 1) * ns1) (start + i0.toNat + (j0.toNat + 1) * ns1)
    .ok ((q - j0) * v2 + (1 - (q - j0)) * v1) : Res ℝ)

/-- `Trend2D::GetValue`, trend.cpp lines 542-583. -/
noncomputable def getValue2D (trend : List ℝ) (ns1 ns2 : ℕ) (inv1 inv2 s1 s2 : ℝ) : Res ℝ :=
  value2D trend ns1 ns2 0 (s1 * inv1) (s2 * inv2)

/-- `Trend3D::GetValue`, trend.cpp lines 771-802, for coordinates from 0 to 1, as the assertions say. -/
noncomputable def getValue3D (trend : List ℝ) (ni nj nk : ℕ) (s1 s2 s3 : ℝ) : Res ℝ := do
  let kf := s3 * ((nk : ℝ) - 1)
  let k0 ← TrendKit.floorSize kf
  let top ← value2D trend ni nj (k0 * ni * nj) (s1 * ((ni : ℝ) - 1)) (s2 * ((nj : ℝ) - 1))
  let bot ← (if k0 + 1 = nk then .ok top
    else value2D trend ni nj ((k0 + 1) * ni * nj) (s1 * ((ni : ℝ) - 1)) (s2 * ((nj : ℝ) - 1)) : Res ℝ)
  .ok ((kf - k0) * top + (1 - (kf - k0)) * bot)

/-- A relative coordinate is moved into the unit interval, trend.cpp lines 820-832. -/
noncomputable def unit (s : ℝ) : ℝ :=
  let s := if s < 0 then 0 else s
  if s > 1 then 1 else s

/-- `Trend3D::GetValue` in a volume, trend.cpp lines 804-837. -/
noncomputable def getValue3DIn (trend : List ℝ) (ni nj nk : ℕ) (lx ly lz s1 s2 s3 : ℝ) : Res ℝ := do
  let a ← fdiv s1 lx
  let b ← fdiv s2 ly
  let c ← fdiv s3 lz
  getValue3D trend ni nj nk (unit a) (unit b) (unit c)

/-- One number of `Truncate`, e.g. trend.cpp lines 229-234. -/
noncomputable def truncOne (lo hi v : ℝ) : ℝ :=
  let v := if v < lo then lo else v
  if v > hi then hi else v

/-- `Truncate`, trend.cpp lines 91-97, 226-236, 481-492 and 756-769. -/
noncomputable def truncate (trend : List ℝ) (lo hi : ℝ) : List ℝ := trend.map (truncOne lo hi)

/-- `AddConstant`, trend.cpp lines 218-224, 472-479 and 746-754. -/
noncomputable def addConstant (trend : List ℝ) (c : ℝ) : List ℝ := trend.map (· + c)

/-- `GetMaxValue`, trend.cpp lines 332-342, 640-651 and 869-882. -/
noncomputable def maxValue : List ℝ → Res ℝ
  | [] => .ub "assertion failed"
  | v :: vs => .ok (vs.foldl (fun m x => if x > m then x else m) v)

/-- `GetMinValue`, trend.cpp lines 344-354, 654-665 and 884-897. -/
noncomputable def minValue : List ℝ → Res ℝ
  | [] => .ub "assertion failed"
  | v :: vs => .ok (vs.foldl (fun m x => if x < m then x else m) v)

/-- `Trend1D::GetMeanValue`, trend.cpp lines 355-364: the loop begins at 1. -/
noncomputable def mean1D (trend : List ℝ) : Res ℝ :=
  if trend = [] then .ub "assertion failed" else fdiv ((trend.drop 1).foldl (· + ·) 0) trend.length

/-- `Trend2D::GetMeanValue` and `Trend3D::GetMeanValue`, trend.cpp lines 668-678 and 899-910. -/
noncomputable def mean (trend : List ℝ) : Res ℝ :=
  if trend = [] then .ub "assertion failed" else fdiv (trend.foldl (· + ·) 0) trend.length

/-- `ScaleToAverage`, trend.cpp lines 366-373, 680-687 and 912-926, for a function for the mean. -/
noncomputable def scaleTo (mean : List ℝ → Res ℝ) (trend : List ℝ) (target : ℝ) : Res (List ℝ) := do
  let avg ← mean trend
  let scale ← fdiv target avg
  .ok (trend.map (· * scale))

/-- `Trend1D::CheckForNegative`, trend.cpp lines 375-384: the loop begins at 1. -/
noncomputable def check1D (trend : List ℝ) : Bool := (trend.drop 1).foldl (fun ok v => if v < 0 then false else ok) true

/-- `Trend2D::CheckForNegative` and `Trend3D::CheckForNegative`, trend.cpp lines 689-699 and 928-939. -/
noncomputable def check (trend : List ℝ) : Bool := trend.foldl (fun ok v => if v < 0 then false else ok) true

end Trend
end Verif
