import Verif.Model.PadAnalyzer

/-!
# The resource extrapolator

Models gaussianfft/util/resource_extrapolator.py lines 1-47 (the rest is a script that plots). What is outside the program is
explicit: the readings of the clock (`clock k` is what call number `k` of `perf_counter` returns), and what the simulations get
(`Env`). The lines that are printed are not modelled. Python's floats are real numbers.
-/

namespace Verif.Py

/-- The members of `ResourceExtrapolator`, resource_extrapolator.py lines 7-15. -/
structure Extrapolator where
  nmin : ℤ
  nmax : ℤ
  nstep : ℤ
  ndims : ℤ

/-- Python's `range(lo, hi, step)`. -/
def pyRange (lo hi step : ℤ) : Res (List ℤ) :=
  if step = 0 then .throws "ValueError"
  else if 0 < step then .ok ((List.range ((hi - lo + step - 1) / step).toNat).map fun k : ℕ => lo + k * step)
  else .ok ((List.range ((lo - hi - step - 1) / (-step)).toNat).map fun k : ℕ => lo + k * step)

namespace Extrapolator

/-- `_simulate`, resource_extrapolator.py lines 36-47. pybind11 does not convert a negative number to `size_t`, nor a number that
is too large to `int`. -/
noncomputable def simulate (R : Extrapolator) (S : Setup) (e : Env) (v : Variogram) (n : ℤ) (s : Random) : Res Random :=
  if n = 1 then .throws "ZeroDivisionError"
  else if n < 0 ∨ 2 ^ 31 ≤ n then .throws "TypeError"
  else
    let d := 1000.0 / ((n : ℝ) - 1)
    (advancedSimulate S e v n.toNat d (if R.ndims > 1 then n.toNat else 1) d (if R.ndims > 2 then n.toNat else 1) d n n n
      1.0 1.0 1.0 s).bind fun r => .ok r.2

/-- The loop of `generate`, resource_extrapolator.py lines 28-33; `k` is the number of turns made. -/
noncomputable def loop (R : Extrapolator) (S : Setup) (e : ℕ → Env) (clock : ℕ → ℝ) (v : Variogram) :
    ℕ → List ℤ → Random → Res (List (ℤ × ℝ) × Random)
  | _, [], s => .ok ([], s)
  | k, n :: ns, s => do
    let t0 := clock (2 * k)
    let s ← R.simulate S (e k) v n s
    let t1 := clock (2 * k + 1) - t0
    let (data, s) ← R.loop S e clock v (k + 1) ns s
    .ok ((n, t1) :: data, s)

/-- `generate`, resource_extrapolator.py lines 25-34. -/
noncomputable def generate (R : Extrapolator) (S : Setup) (e : ℕ → Env) (clock : ℕ → ℝ) (vtype : TypeArg) (s : Random) :
    Res (List (ℤ × ℝ) × Random) := do
  let v ← variogram vtype 500.0 (-1.0) (-1.0) 0.0 0.0 1.5
  let ns ← pyRange R.nmin (R.nmax + 1) R.nstep
  R.loop S e clock v 0 ns s

/-- `x ** m` of a NumPy array of floats, one entry. -/
noncomputable def power (m : ℤ) (n : ℤ) : Res ℝ :=
  if n = 0 ∧ m < 0 then .nonfinite "0.0 to a negative power" else .ok ((n : ℝ) ^ m)

/-- `data_array[:, 0] ** self.ndims`, resource_extrapolator.py line 20. -/
noncomputable def powers (m : ℤ) : List (ℤ × ℝ) → Res (List ℝ)
  | [] => .ok []
  | p :: ps => do
    let x ← power m p.1
    let xs ← powers m ps
    .ok (x :: xs)

/-- `np.linalg.lstsq(x.reshape(x.size, 1), y)[0][0]` as documented: the least squares solution, the shortest if there are several. -/
noncomputable def lstsq (x y : List ℝ) : ℝ := (List.zipWith (· * ·) x y).sum / (x.map (· ^ 2)).sum

/-- `extrapolate`, resource_extrapolator.py lines 17-23. An empty array has one dimension only, and cannot be indexed with two
indices. Division by zero in `lstsq` gives 0, the shortest solution for `x = 0`. -/
noncomputable def extrapolate (R : Extrapolator) (S : Setup) (e : ℕ → Env) (clock : ℕ → ℝ) (_ex_nmax : ℤ) (vtype : TypeArg)
    (s : Random) : Res ((List ℝ × List ℝ × ℝ) × Random) := do
  let (data, s) ← R.generate S e clock vtype s
  if data = [] then .throws "IndexError" else
  let x ← powers R.ndims data
  let y := data.map fun p => p.2
  .ok ((x, y, lstsq x y), s)

end Extrapolator

end Verif.Py
