import Verif.Model.Outcome
import Mathlib.Data.Nat.Notation
import Mathlib.Data.Int.Notation

/-!
# `Grid2D` and `Grid`

Models src/nrlib/grid/grid2d.hpp and src/nrlib/grid/grid.hpp. The element type is a parameter.
The `assert`s of the source are part of the model: a failing one is `ub`, as the behaviour
with assertions compiled out is not specified by the code. Products of sizes are natural numbers
(a product that wraps in `size_t` cannot be allocated).
-/

namespace Verif

/-- grid2d.hpp lines 81-85. -/
structure Grid2D (α : Type) where
  ni : ℕ
  nj : ℕ
  data : List α

namespace Grid2D
variable {α : Type}

/-- Constructor, grid2d.hpp lines 95-100; also `Resize` and `Assign`, lines 106-125, which forget
all old values. -/
def mk' (ni nj : ℕ) (val : α) : Grid2D α := ⟨ni, nj, List.replicate (ni * nj) val⟩

/-- `GetIndex`, grid2d.hpp lines 159-166. -/
def getIndex (g : Grid2D α) (i j : ℕ) : Res ℕ :=
  if i < g.ni ∧ j < g.nj then .ok (i + j * g.ni) else .ub "assert in Grid2D::GetIndex"

/-- `operator()(i,j)` read, grid2d.hpp lines 144-148. -/
def get (g : Grid2D α) (i j : ℕ) : Res α := (g.getIndex i j).bind (rd g.data)

/-- `operator()(i,j)` as the target of an assignment, grid2d.hpp lines 128-132. -/
def set (g : Grid2D α) (i j : ℕ) (x : α) : Res (Grid2D α) :=
  (g.getIndex i j).bind fun k => (wr g.data k x).bind fun d => .ok { g with data := d }

/-- `GetIJ`, grid2d.hpp lines 168-175. Division by a zero `ni_` cannot happen after the assert. -/
def getIJ (g : Grid2D α) (index : ℕ) : Res (ℕ × ℕ) :=
  if index < g.data.length then
    let i := index % g.ni
    let j := (index - i) / g.ni % g.nj
    .ok (i, j)
  else .ub "assert in Grid2D::GetIJ"

/-- `IsValidIndex`, grid2d.hpp lines 178-186. -/
def isValidIndex (g : Grid2D α) (i j : ℤ) : Bool :=
  decide (0 ≤ i ∧ i < g.ni ∧ 0 ≤ j ∧ j < g.nj)

end Grid2D

/-- grid.hpp lines 87-93. -/
structure Grid3D (α : Type) where
  ni : ℕ
  nj : ℕ
  nk : ℕ
  data : List α

namespace Grid3D
variable {α : Type}

/-- Constructor, grid.hpp lines 103-109; also `Resize` and `Assign`, lines 115-145. -/
def mk' (ni nj nk : ℕ) (val : α) : Grid3D α := ⟨ni, nj, nk, List.replicate (ni * nj * nk) val⟩

/-- `GetIndex`, grid.hpp lines 187-193. -/
def getIndex (g : Grid3D α) (i j k : ℕ) : Res ℕ :=
  if i < g.ni ∧ j < g.nj ∧ k < g.nk then .ok (i + j * g.ni + k * g.ni * g.nj)
  else .ub "assert in Grid::GetIndex"

/-- `operator()(i,j,k)` and `GetValue` read, grid.hpp lines 168-185. -/
def get (g : Grid3D α) (i j k : ℕ) : Res α := (g.getIndex i j k).bind (rd g.data)

/-- `operator()(i,j,k)` as the target of an assignment, `SetValue`, grid.hpp lines 148-152,
205-209. -/
def set (g : Grid3D α) (i j k : ℕ) (x : α) : Res (Grid3D α) :=
  (g.getIndex i j k).bind fun n => (wr g.data n x).bind fun d => .ok { g with data := d }

/-- `GetIJK`, grid.hpp lines 195-203. -/
def getIJK (g : Grid3D α) (index : ℕ) : Res (ℕ × ℕ × ℕ) :=
  if index < g.data.length then
    let i := index % g.ni
    let j := (index - i) / g.ni % g.nj
    let k := (index - j * g.ni - i) / g.ni / g.nj
    .ok (i, j, k)
  else .ub "assert in Grid::GetIJK"

end Grid3D

end Verif
