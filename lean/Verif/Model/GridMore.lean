import Verif.Model.Grid
import Mathlib.Data.Real.Basic

/-!
# `Grid4D`, `Grid2DGeneral`, and the smallest and largest values of grids

Models src/nrlib/grid/grid4d.hpp, src/nrlib/grid/grid2dgeneral.hpp and the rest of
src/nrlib/grid/grid2d.hpp and src/nrlib/grid/grid.hpp. As in `Model/Grid`, a failing `assert` is
`ub`. `size_t` is a natural number where no subtraction can go below zero.

src/nrlib/grid/grid5d.hpp is not modelled: line 115 lacks a semicolon, so that no program that
includes it compiles.
-/

namespace Verif

/-- grid4d.hpp lines 71-78. -/
structure Grid4D (α : Type) where
  ni : ℕ
  nj : ℕ
  nk : ℕ
  nl : ℕ
  data : List α

namespace Grid4D
variable {α : Type}

/-- Constructor, grid4d.hpp lines 89-96; also `Resize`, lines 104-114, which forgets all old
values. -/
def mk' (ni nj nk nl : ℕ) (val : α) : Grid4D α :=
  ⟨ni, nj, nk, nl, List.replicate (ni * nj * nk * nl) val⟩

/-- `GetIndex`, grid4d.hpp lines 149-155. -/
def getIndex (g : Grid4D α) (i j k l : ℕ) : Res ℕ :=
  if i < g.ni ∧ j < g.nj ∧ k < g.nk ∧ l < g.nl then
    .ok (i + j * g.ni + k * g.ni * g.nj + l * g.ni * g.nj * g.nk)
  else .ub "assert in Grid4D::GetIndex"

/-- `operator()(i,j,k,l)` read, grid4d.hpp lines 133-137. -/
def get (g : Grid4D α) (i j k l : ℕ) : Res α := (g.getIndex i j k l).bind (rd g.data)

/-- `operator()(i,j,k,l)` as the target of an assignment, grid4d.hpp lines 117-121. -/
def set (g : Grid4D α) (i j k l : ℕ) (x : α) : Res (Grid4D α) :=
  (g.getIndex i j k l).bind fun n => (wr g.data n x).bind fun d => .ok { g with data := d }

/-- `GetIJKL`, grid4d.hpp lines 157-166. The subtractions do not go below zero. -/
def getIJKL (g : Grid4D α) (index : ℕ) : Res (ℕ × ℕ × ℕ × ℕ) :=
  if index < g.data.length then
    let i := index % g.ni
    let j := (index - i) / g.ni % g.nj
    let k := (index - j * g.ni - i) / g.ni / g.nj
    let l := (index - k * g.ni * g.nj) / g.ni / g.nj / g.nk
    .ok (i, j, k, l)
  else .ub "assert in Grid4D::GetIJKL"

/-- `Swap`, grid4d.hpp lines 168-176: both objects after the call. -/
def swap (g h : Grid4D α) : Grid4D α × Grid4D α :=
  ({ ni := h.ni, nj := h.nj, nk := h.nk, nl := h.nl, data := h.data },
   { ni := g.ni, nj := g.nj, nk := g.nk, nl := g.nl, data := g.data })

end Grid4D

/-- grid2dgeneral.hpp lines 81-90. -/
structure Grid2DGeneral (α : Type) where
  ni : ℕ
  nj : ℕ
  data : List α
  iMin : ℕ
  iMax : ℕ
  jMin : ℕ
  jMax : ℕ

namespace Grid2DGeneral
variable {α : Type}

/-- Constructor, grid2dgeneral.hpp lines 106-116; also `Resize`, lines 121-134. Bounds in the wrong
order make `i_max_ - i_min_` wrap around to a size that cannot be allocated, except for
`i_max = i_min - 1`, which gives an empty grid. -/
def mk' (i_min i_max j_min j_max : ℕ) (val : α) : Res (Grid2DGeneral α) :=
  if i_min ≤ i_max + 1 ∧ j_min ≤ j_max + 1 then
    .ok ⟨i_max + 1 - i_min, j_max + 1 - j_min,
      List.replicate ((i_max + 1 - i_min) * (j_max + 1 - j_min)) val, i_min, i_max, j_min, j_max⟩
  else .throws "too large"

/-- `GetIndex`, grid2dgeneral.hpp lines 164-173. -/
def getIndex (g : Grid2DGeneral α) (i j : ℕ) : Res ℕ :=
  if g.iMin ≤ i ∧ i ≤ g.iMax ∧ g.jMin ≤ j ∧ j ≤ g.jMax then
    .ok ((i - g.iMin) + (j - g.jMin) * g.ni)
  else .ub "assert in Grid2DGeneral::GetIndex"

/-- `operator()(i,j)` read, grid2dgeneral.hpp lines 150-154. -/
def get (g : Grid2DGeneral α) (i j : ℕ) : Res α := (g.getIndex i j).bind (rd g.data)

/-- `operator()(i,j)` as the target of an assignment, grid2dgeneral.hpp lines 136-140. -/
def set (g : Grid2DGeneral α) (i j : ℕ) (x : α) : Res (Grid2DGeneral α) :=
  (g.getIndex i j).bind fun n => (wr g.data n x).bind fun d => .ok { g with data := d }

/-- `GetIJ`, grid2dgeneral.hpp lines 175-184. The row goes through `int`: a row from `2^31` on is
`ub` here (implementation-defined in C++). -/
def getIJ (g : Grid2DGeneral α) (index : ℕ) : Res (ℕ × ℕ) :=
  if index < g.data.length then
    if index / g.ni < 2 ^ 31 then .ok (index % g.ni + g.iMin, index / g.ni + g.jMin)
    else .ub "conversion to int"
  else .ub "assert in Grid2DGeneral::GetIJ"

/-- `IsValidIndex`, grid2dgeneral.hpp lines 186-193. -/
def isValidIndex (g : Grid2DGeneral α) (i j : ℕ) : Bool :=
  decide (i ≥ g.iMin ∧ i ≤ g.iMax ∧ j ≥ g.jMin ∧ j ≤ g.jMax)

/-- `Swap`, grid2dgeneral.hpp lines 195-201: both objects after the call. The bounds are not
exchanged. -/
def swap (g h : Grid2DGeneral α) : Grid2DGeneral α × Grid2DGeneral α :=
  ({ g with ni := h.ni, nj := h.nj, data := h.data },
   { h with ni := g.ni, nj := g.nj, data := g.data })

end Grid2DGeneral

open Classical in
/-- The loop of `FindMin`, grid2d.hpp lines 202-205, grid2dgeneral.hpp lines 208-211. -/
noncomputable def findMinLoop (missing : ℝ) (start : ℝ) (data : List ℝ) : ℝ :=
  data.foldl (fun m x => if (m = missing ∨ x < m) ∧ x ≠ missing then x else m) start

open Classical in
/-- The loop of `FindMax`, grid2d.hpp lines 218-221, grid2dgeneral.hpp lines 220-223. -/
noncomputable def findMaxLoop (missing : ℝ) (start : ℝ) (data : List ℝ) : ℝ :=
  data.foldl (fun m x => if (m = missing ∨ x > m) ∧ x ≠ missing then x else m) start

/-- `Grid2DGeneral::FindMin`, grid2dgeneral.hpp lines 203-213. -/
noncomputable def Grid2DGeneral.findMin (g : Grid2DGeneral ℝ) (missing : ℝ) : Res ℝ :=
  (rd g.data 0).bind fun s => .ok (findMinLoop missing s g.data)

/-- `Grid2DGeneral::FindMax`, grid2dgeneral.hpp lines 215-225. -/
noncomputable def Grid2DGeneral.findMax (g : Grid2DGeneral ℝ) (missing : ℝ) : Res ℝ :=
  (rd g.data 0).bind fun s => .ok (findMaxLoop missing s g.data)

/-- `Grid2D::FindMin`, grid2d.hpp lines 197-207; `big` is the greatest number of the type. -/
noncomputable def Grid2D.findMin (g : Grid2D ℝ) (big missing : ℝ) : ℝ :=
  findMinLoop missing big g.data

/-- `Grid2D::FindMax`, grid2d.hpp lines 209-223, for signed types. -/
noncomputable def Grid2D.findMax (g : Grid2D ℝ) (big missing : ℝ) : ℝ :=
  findMaxLoop missing (-big) g.data

open Classical in
/-- `if (value < min) min = value`, grid.hpp lines 259-260; `none` is the infinity at the start. -/
noncomputable def lessOf (v : ℝ) (o : Option ℝ) : Option ℝ :=
  match o with
  | none => some v
  | some m => if v < m then some v else some m

open Classical in
/-- `if (value > max) max = value`, grid.hpp lines 256-257. -/
noncomputable def moreOf (v : ℝ) (o : Option ℝ) : Option ℝ :=
  match o with
  | none => some v
  | some m => if v > m then some v else some m

open Classical in
/-- The loop of `GetAvgMinMaxWithMissing`, grid.hpp lines 252-263: sum, number, least and greatest
value. -/
noncomputable def avgLoop (missing : ℝ) (data : List ℝ) : ℝ × ℕ × Option ℝ × Option ℝ :=
  data.foldl (fun st v =>
    if v ≠ missing then
      (st.1 + v, st.2.1 + 1, lessOf v st.2.2.1, moreOf v st.2.2.2)
    else st) (0.0, 0, none, none)

open Classical in
/-- `Grid::GetAvgMinMaxWithMissing`, grid.hpp lines 242-266: average, least and greatest value. -/
noncomputable def Grid3D.avgMinMaxMissing (g : Grid3D ℝ) (missing : ℝ) :
    Res (ℝ × Option ℝ × Option ℝ) :=
  let r := avgLoop missing g.data
  if r.2.1 = 0 then .nonfinite "0 / 0" else .ok (r.1 / r.2.1, r.2.2.1, r.2.2.2)

end Verif
