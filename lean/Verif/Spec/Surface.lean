import Mathlib.Data.Real.Basic
import Mathlib.Algebra.BigOperators.Group.Finset.Basic

/-!
# What a surface is meant to be

A surface is known at the nodes of a regular grid; some of the nodes have no value. Between the
nodes it is the average of the values at the surrounding nodes that have one, with the weights of
bilinear interpolation. Nothing here refers to the code.
-/

namespace Verif

/-- The hat function: 1 at 0, linear down to 0 at distance 1. -/
noncomputable def hat (t : ℝ) : ℝ := max 0 (1 - |t|)

/-- The weight in bilinear interpolation at `(x, y)` of a node at `(a, b)`, with node distances
`dx` and `dy`. -/
noncomputable def nodeWeight (dx dy x y a b : ℝ) : ℝ := hat ((x - a) / dx) * hat ((y - b) / dy)

open Classical in
/-- The total weight at `(x, y)` of the nodes that have a value: `X i` and `Y j` are the coordinates
of the nodes, `valid i j` says that node `(i, j)` has a value. -/
noncomputable def totalWeight (ni nj : ℕ) (X Y : ℕ → ℝ) (dx dy : ℝ) (valid : ℕ → ℕ → Prop)
    (x y : ℝ) : ℝ :=
  ∑ i ∈ Finset.range ni, ∑ j ∈ Finset.range nj,
    if valid i j then nodeWeight dx dy x y (X i) (Y j) else 0

open Classical in
/-- The weighted sum at `(x, y)` of the values of the nodes that have one. -/
noncomputable def weightedSum (ni nj : ℕ) (X Y : ℕ → ℝ) (dx dy : ℝ) (valid : ℕ → ℕ → Prop)
    (z : ℕ → ℕ → ℝ) (x y : ℝ) : ℝ :=
  ∑ i ∈ Finset.range ni, ∑ j ∈ Finset.range nj,
    if valid i j then nodeWeight dx dy x y (X i) (Y j) * z i j else 0

end Verif
