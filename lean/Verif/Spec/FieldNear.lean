import Verif.Spec.Field

/-!
# Fields with rounding errors

The sum of the squared differences between the field in `data` and the specified one.
-/

namespace Verif.Spec

open Finset

/-- One dimension. -/
noncomputable def sqErr1 (nx tx : ℕ) (c w : ℕ → ℝ) (data : List ℝ) : ℝ :=
  ∑ i ∈ range nx, (data.getD i 0 - field1 tx c w i) ^ 2

/-- Two dimensions; cell `(i, j)` is at position `i + nx * j`. -/
noncomputable def sqErr2 (nx ny tx ty : ℕ) (c w : ℕ → ℕ → ℝ) (data : List ℝ) : ℝ :=
  ∑ i ∈ range nx, ∑ j ∈ range ny, (data.getD (i + nx * j) 0 - field2 tx ty c w i j) ^ 2

/-- Three dimensions; cell `(i, j, k)` is at position `i + nx * (j + ny * k)`. -/
noncomputable def sqErr3 (nx ny nz tx ty tz : ℕ) (c w : ℕ → ℕ → ℕ → ℝ) (data : List ℝ) : ℝ :=
  ∑ i ∈ range nx, ∑ j ∈ range ny, ∑ k ∈ range nz,
    (data.getD (i + nx * (j + ny * k)) 0 - field3 tx ty tz c w i j k) ^ 2

end Verif.Spec
