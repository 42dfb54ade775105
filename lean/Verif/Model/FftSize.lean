import Verif.Model.Outcome
import Verif.Model.Ieee
import Mathlib.Analysis.SpecialFunctions.Log.Basic

/-!
# FFT size selection

Models `NRLib::FindNewSizeWithPadding`, `src/nrlib/fft/fft.cpp` lines 50-82, with the rounding of its
floating-point numbers.
-/

namespace Verif

/-- What the code inherits from the platform.

* `overflow`: what a conversion double → `size_t` of a value of 2^64 or more does. The C++ standard
  makes it undefined (`none`); a concrete compiler returns some value (`some v`; x86-64 code of
  gcc/clang gives 0, saturating hardware gives 2^64-1).
* `log`: the mathematical library's logarithm of a `float` as fft.cpp calls it. Unqualified `log` of a
  `float` is the single- or the double-precision function, depending on the headers, and neither is
  guaranteed to be correctly rounded. -/
structure Platform where
  overflow : Option ℕ
  log : ℝ → ℝ

/-- The library's logarithm is within a relative error `ε` of the exact one, for the argument 1 and
arguments of at least 2. (Half a unit in the last place is a relative error of at most 2^-53 in double and 2^-24 in single
precision.) -/
def LogAcc (p : Platform) (ε : ℝ) : Prop := 
  ∀ x : ℝ, x = 1 ∨ 2 ≤ x → |p.log x - Real.log x| ≤ ε * Real.log x

/-- `static_cast<size_t>(x)` for a non-negative double (used in fft.cpp lines 65 and 74). -/
noncomputable def toSizeT (p : Platform) (x : ℝ) : Res ℕ :=
  if x < 2 ^ 64 then .ok ⌊x⌋₊
  else match p.overflow with
    | none => .ub "double to size_t conversion out of range"
    | some v => .ok v

/-- `pow(Pf, e)` for a small integer `P` and an `int` exponent, evaluated in double precision (fft.cpp lines
65, 74 and 75). Simplified: correctly rounded; all that matters below is that it is exact up to 2^53 and off by
less than a part in 2^53 beyond. -/
noncomputable def powf (P e : ℕ) : ℝ := rnd64 (P ^ e)

/-- fft.cpp lines 53-81: the search, for given largest exponents `a2 a3 a5 a7`
(`maxant2`, `maxant3`, `maxant5`, `maxant7`). `maxant11 = maxant13 = 0` (lines 63-64),
the loops over `m` and `n` are kept. -/
noncomputable def findNewSizeWith (p : Platform) (a2 a3 a5 a7 minSize : ℕ) (mustBeEven : Bool) :
    Res ℕ := do
  let minant2 := if mustBeEven then 1 else 0
  let maxant11 := 0
  let maxant13 := 0
  let closestprod ← toSizeT p (powf 2 a2)
  forRange minant2 (a2 + 1) (fun i closestprod =>
    forRange 0 (a3 + 1) (fun j closestprod =>
      forRange 0 (a5 + 1) (fun k closestprod =>
        forRange 0 (a7 + 1) (fun l closestprod =>
          forRange 0 (maxant11 + 1) (fun m closestprod =>
            forRange maxant11 (maxant13 + 1) (fun n closestprod => do
              let factor ← toSizeT p (rnd64 (rnd64 (rnd64 (rnd64 (rnd64 (powf 2 i * powf 3 j) * powf 5 k) *
                powf 7 l) * powf 11 m) * powf 13 n))
              if factor ≥ minSize ∧ factor < closestprod then
                .ok factor
              else
                .ok closestprod) closestprod) closestprod) closestprod) closestprod) closestprod)
    closestprod

/-- fft.cpp lines 59-62: `static_cast<int>(ceil((double)log((float)(minSize))/log(Pf)))`. The size is
rounded to `float`, the quotient to `double`.
Simplified: a negative value (only possible if the library's `log` is negative for a number of at least
one) is taken as zero. -/
noncomputable def maxant (p : Platform) (P : ℕ) (minSize : ℕ) : ℕ :=
  ⌈rnd64 (p.log (rnd32 minSize) / p.log P)⌉₊

/-- fft.cpp lines 50-82. `log(0)` is `-inf` and its conversion to `int` is undefined. -/
noncomputable def findNewSize (p : Platform) (minSize : ℕ) (mustBeEven : Bool) : Res ℕ :=
  if minSize = 0 then .ub "int conversion of -inf"
  else findNewSizeWith p (maxant p 2 minSize) (maxant p 3 minSize) (maxant p 5 minSize)
    (maxant p 7 minSize) minSize mustBeEven

end Verif
