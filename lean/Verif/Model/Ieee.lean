import Mathlib.Data.Real.Basic
import Mathlib.Data.Int.Log
import Mathlib.Data.Real.Archimedean

/-!
# Rounding of floating-point numbers

The result of an arithmetic operation (or of a conversion) in IEEE 754 `float` or `double`, in the default
rounding mode: the exact result, rounded to the nearest number of the format, ties to even. Overflow is not
represented: a result beyond the largest finite number is rounded as if the format had larger exponents.
-/

namespace Verif

namespace Ieee

/-- Nearest integer, ties to even (IEEE 754-2019, 4.3.1). -/
noncomputable def rne (x : ℝ) : ℤ :=
  if x - ⌊x⌋ < 1 / 2 then ⌊x⌋
  else if 1 / 2 < x - ⌊x⌋ then ⌊x⌋ + 1
  else if Even ⌊x⌋ then ⌊x⌋ else ⌊x⌋ + 1

/-- Exponent of the last place of `x` in the format with `p` digits and least exponent `emin`. -/
noncomputable def expo (p : ℕ) (emin : ℤ) (x : ℝ) : ℤ := max (Int.log 2 |x| - (p - 1)) emin

/-- `x` rounded to the format. -/
noncomputable def rnd (p : ℕ) (emin : ℤ) (x : ℝ) : ℝ := rne (x / 2 ^ expo p emin x) * 2 ^ expo p emin x

end Ieee

/-- Rounding to `float`. -/
noncomputable def rnd32 : ℝ → ℝ := Ieee.rnd 24 (-149)

/-- Rounding to `double`. -/
noncomputable def rnd64 : ℝ → ℝ := Ieee.rnd 53 (-1074)

end Verif
