import Verif.Model.Outcome
import Mathlib.Data.Real.Basic

/-!
# Statistics

Models src/nrlib/statistics/statistics.hpp for sequences of doubles, which are real numbers without
rounding. A sequence has fewer than 2^31 elements, so that the counters, which are `int`, do not overflow.
-/

namespace Verif.Stat

/-- `Count`, statistics.hpp lines 139-143. -/
def count (xs : List ℝ) : ℕ := xs.length

/-- `Count` with missing values, statistics.hpp lines 146-156. -/
def countM (miss : ℝ → Bool) (xs : List ℝ) : ℕ :=
  xs.foldl (fun n x => if miss x = false then n + 1 else n) 0

/-- The loop of `MaxElement`, statistics.hpp lines 177-181: `it` is the index of the first element of the
list, `max` the index of the greatest element so far and `top` the element. -/
noncomputable def maxLoop (miss : ℝ → Bool) : ℕ → ℕ → ℝ → List ℝ → ℕ
  | _, max, _, [] => max
  | it, max, top, x :: xs =>
    if miss x = false ∧ x > top then maxLoop miss (it + 1) it x xs else maxLoop miss (it + 1) max top xs

/-- `MaxElement` with missing values, statistics.hpp lines 166-183: the index of the element found, and the
length of the sequence for `end`. -/
noncomputable def maxElementM (miss : ℝ → Bool) (xs : List ℝ) : ℕ :=
  let it := (xs.takeWhile miss).length
  match xs.dropWhile miss with
  | [] => it
  | x :: rest => maxLoop miss (it + 1) it x rest

/-- The loop of `MinElement`, statistics.hpp lines 204-208. -/
noncomputable def minLoop (miss : ℝ → Bool) : ℕ → ℕ → ℝ → List ℝ → ℕ
  | _, min, _, [] => min
  | it, min, low, x :: xs =>
    if miss x = false ∧ x < low then minLoop miss (it + 1) it x xs else minLoop miss (it + 1) min low xs

/-- `MinElement` with missing values, statistics.hpp lines 193-210. -/
noncomputable def minElementM (miss : ℝ → Bool) (xs : List ℝ) : ℕ :=
  let it := (xs.takeWhile miss).length
  match xs.dropWhile miss with
  | [] => it
  | x :: rest => minLoop miss (it + 1) it x rest

/-- `Sum`, statistics.hpp lines 213-221. -/
noncomputable def sum (xs : List ℝ) : ℝ := xs.foldl (fun s x => s + x) 0.0

/-- `Sum` with missing values, statistics.hpp lines 224-234. -/
noncomputable def sumM (miss : ℝ → Bool) (xs : List ℝ) : ℝ :=
  xs.foldl (fun s x => if miss x = false then s + x else s) 0.0

/-- What is done without data, for instance statistics.hpp lines 241-248. -/
def noData {α : Type} (mayThrow : Bool) (zero : α) : Res α :=
  if mayThrow then .throws "No input data" else .ok zero

/-- `Mean`, statistics.hpp lines 237-250. -/
noncomputable def mean (xs : List ℝ) (mayThrow : Bool) : Res ℝ :=
  let c := count xs
  if c = 0 then noData mayThrow 0.0 else .ok (sum xs / c)

/-- `Mean` with missing values, statistics.hpp lines 252-265. -/
noncomputable def meanM (miss : ℝ → Bool) (xs : List ℝ) (mayThrow : Bool) : Res ℝ :=
  let c := countM miss xs
  if c = 0 then noData mayThrow 0.0 else .ok (sumM miss xs / c)

/-- `Var`, statistics.hpp lines 268-291. -/
noncomputable def var (xs : List ℝ) (mayThrow : Bool) : Res ℝ :=
  let c := count xs
  if c = 0 then noData mayThrow 0.0
  else if c = 1 then .ok 0.0
  else do
    let mean ← mean xs mayThrow
    let sum := xs.foldl (fun s x => s + (x - mean) * (x - mean)) 0.0
    .ok (sum / ((c - 1 : ℕ) : ℝ))

/-- `Var` with missing values, statistics.hpp lines 294-319. -/
noncomputable def varM (miss : ℝ → Bool) (xs : List ℝ) (mayThrow : Bool) : Res ℝ :=
  let c := countM miss xs
  if c = 0 then noData mayThrow 0.0
  else if c = 1 then .ok 0.0
  else do
    let mean ← meanM miss xs mayThrow
    let sum := xs.foldl (fun s x => if miss x = false then s + (x - mean) * (x - mean) else s) 0.0
    .ok (sum / ((c - 1 : ℕ) : ℝ))

/-- `Cov`, statistics.hpp lines 321-355. The loop over two sequences of the same length is a loop over
pairs. Without a case for a single pair, the last line divides 0 by 0 there. -/
noncomputable def cov (xs ys : List ℝ) (mayThrow : Bool) : Res ℝ :=
  let cA := count xs
  let cB := count ys
  if cA ≠ cB then noData mayThrow 0.0
  else if cA = 0 then noData mayThrow 0.0
  else do
    let meanA ← mean xs mayThrow
    let meanB ← mean ys mayThrow
    let sum := (xs.zip ys).foldl (fun s p => s + (p.1 - meanA) * (p.2 - meanB)) 0.0
    if cA - 1 = 0 then .nonfinite "division by zero" else .ok (sum / ((cA - 1 : ℕ) : ℝ))

end Verif.Stat
