import Mathlib.Data.Real.Sqrt
import Mathlib.Algebra.Order.Floor.Ring
import Verif.Model.SegyCheck

/-!
The comparison of two traces when a header format is tried: `src/nrlib/segy/segy.cpp` lines 147-210 (`CompareTraces`).

Integers are without overflow, doubles are real numbers.
-/

namespace Verif.SegyCheck

open Verif

/-- `std::fmod` of two numbers that are not negative. -/
noncomputable def fmodR (x y : ℝ) : ℝ := x - y * (⌊x / y⌋ : ℤ)

open Classical in
/-- segy.cpp 171, 183 and 202: the test of the unit `k`, with `help`. -/
noncomputable def goodUnit (k : ℝ) : Bool :=
  let help := fmodR k 6.25
  decide (k / 6.25 < 8.5 ∧ k / 6.25 > 0.5 ∧ (help ≤ 1 ∨ 6.25 - help ≤ 1))

/-- segy.cpp 197-206: the loop over `i`, downwards. The root of a negative number is not a number, and its conversion
to an integer is undefined behaviour. The divisor in line 200 is positive, as `i` and the difference of inlines are.
`p` is `prodSumSqRelXL`, `rel` is `deltailxlRelSq`. -/
noncomputable def search (dist p rel : ℝ) (il2 xl2 : ℤ) : ℕ → Res Bool
  | 0 => .ok false
  | i + 1 =>
    let r := p - ((i + 1 : ℕ) : ℝ) * ((i + 1 : ℕ) : ℝ) * rel
    if r < 0 then .ub "conversion of a value that is not a number"
    else
      let j0 : ℤ := ⌊Real.sqrt r⌋
      let k := fun j : ℤ => dist / Real.sqrt ((((i + 1 : ℕ) : ℤ) * ((i + 1 : ℕ) : ℤ) * il2 + j * j * xl2 : ℤ) : ℝ)
      if goodUnit (k j0) || goodUnit (k (j0 + 1)) then .ok true else search dist p rel il2 xl2 i

/-- segy.cpp 147-210: `CompareTraces`. The result and `delta`, which is `none` when it is not assigned. -/
noncomputable def compare (a b : Header) : Res (Bool × Option ℤ) :=
  let dx := |a.x - b.x|
  let dy := |a.y - b.y|
  let dil : ℤ := |a.il - b.il|
  let dxl : ℤ := |a.xl - b.xl|
  let dist := Real.sqrt (dx * dx + dy * dy)
  if dil = 0 ∧ dxl = 0 then .ok (false, none)
  else if dx = 0 ∧ dy = 0 then .ok (false, none)
  else if dil = 0 then
    if goodUnit (dist / (dxl : ℝ)) then .ok (true, some 1) else .ok (false, some 0)
  else if dxl = 0 then
    if goodUnit (dist / (dil : ℝ)) then .ok (true, some 2) else .ok (false, some 0)
  else
    let prodSum := dist / 6.25
    let p := prodSum * prodSum / ((dxl * dxl : ℤ) : ℝ)
    let rel : ℝ := (((dil * dil) / (dxl * dxl) : ℤ) : ℝ)
    let i : ℤ := ⌊0.5 + prodSum / (dil : ℝ)⌋
    (search dist p rel (dil * dil) (dxl * dxl) i.toNat).bind fun ok => .ok (ok, some 0)

end Verif.SegyCheck
