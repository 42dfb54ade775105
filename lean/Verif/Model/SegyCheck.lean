import Mathlib.Data.List.Sort
import Mathlib.Data.Int.Notation
import Mathlib.Data.Real.Basic
import Verif.Model.Outcome
import Verif.Model.Distr

/-!
Checks of traces of SegY files: `src/nrlib/segy/segy.cpp` lines 1611-1765 (`SetBogusILXLUndefined`) and
1853-1927 (the control with a fourth trace and `FindDeltaILXL`); `src/nrlib/segy/traceheader.cpp` lines 724-730.

Numbers of inlines and crosslines are integers without overflow, doubles are real numbers. The messages of the log
(segy.cpp 1745-1763) are not in the model.
-/

namespace Verif.SegyCheck

open Verif

/-- A trace header, as far as the checks use it: inline, crossline and position
(traceheader.hpp: `GetInline`, `GetCrossline`, `GetUtmx`, `GetUtmy`). -/
structure Header where
  il : ℤ
  xl : ℤ
  x : ℝ
  y : ℝ

/-- traceheader.cpp 724-730: `IsHeaderOK`. -/
noncomputable def headerOk (t : Header) : Bool :=
  if t.xl < 0 ∨ t.il < 0 ∨ t.x < 0 ∨ t.y < 0 then false else true

/-- segy.cpp 1899-1927: `FindDeltaILXL` for one coordinate; the coordinate is chosen by the flag `x`.
The result is `(dil, dxl)`; a division by zero gives a value that is not finite. -/
noncomputable def findDelta (t1 t2 t3 : Header) (x : Bool) : Res (ℝ × ℝ) := do
  let x1 := if x then t1.x else t1.y
  let x2 := if x then t2.x else t2.y
  let x3 := if x then t3.x else t3.y
  let teller : ℝ := ((t2.xl - t1.xl : ℤ) : ℝ) * (x3 - x1) - ((t3.xl - t1.xl : ℤ) : ℝ) * (x2 - x1)
  let nevner : ℝ := (((t2.xl - t1.xl) * (t3.il - t1.il) + (t3.xl - t1.xl) * (t2.il - t1.il) : ℤ) : ℝ)
  let dil ← fdiv teller nevner
  let dxl ← fdiv ((x2 - x1) - ((t2.il - t1.il : ℤ) : ℝ) * dil) ((t2.xl - t1.xl : ℤ) : ℝ)
  pure (dil, dxl)

/-- segy.cpp 1853-1856 and 1886-1894: the steps from three traces and the control with a fourth. How the third and
fourth trace are chosen (lines 1801-1884) is not in the model. -/
noncomputable def control (t1 t2 t3 t4 : Header) : Res Bool := do
  let dx ← findDelta t1 t2 t3 true
  let dy ← findDelta t1 t2 t3 false
  let x4 := t1.x + ((t4.xl - t1.xl : ℤ) : ℝ) * dx.2 + ((t4.il - t1.il : ℤ) : ℝ) * dx.1
  if |x4 - t4.x| > 5 then pure false
  else
    let y4 := t1.y + ((t4.xl - t1.xl : ℤ) : ℝ) * dy.2 + ((t4.il - t1.il : ℤ) : ℝ) * dy.1
    if |y4 - t4.y| > 5 then pure false
    else pure true

/-- segy.cpp 1629-1636: each number once, in order of appearance. -/
def tabulate (l : List ℤ) : List ℤ :=
  l.foldl (fun acc v => if v ∈ acc then acc else acc ++ [v]) []

/-- segy.cpp 1641-1648: the numbers in increasing order. -/
def numbers (l : List ℤ) : List ℤ := (tabulate l).insertionSort (· ≤ ·)

/-- segy.cpp 1657-1658 and 1666-1667: the steps between numbers that follow each other. -/
def stepsOf : List ℤ → List ℤ
  | a :: b :: r => (b - a) :: stepsOf (b :: r)
  | _ => []

/-- segy.cpp 1659-1662 and 1668-1671: a step is counted in the map, which is in the order of its keys. -/
def addStep : List (ℤ × ℕ) → ℤ → List (ℤ × ℕ)
  | [], s => [(s, 1)]
  | (k, c) :: r, s =>
    if s < k then (s, 1) :: (k, c) :: r
    else if s = k then (k, c + 1) :: r
    else (k, c) :: addStep r s

/-- segy.cpp 1653-1673: the map of steps and how often they occur. -/
def stepMap (l : List ℤ) : List (ℤ × ℕ) := (stepsOf l).foldl addStep []

/-- segy.cpp 1679-1688 and 1690-1698: the most frequent step. -/
def frequent (m : List (ℤ × ℕ)) : ℤ :=
  (m.foldl (fun (st : ℤ × ℕ) e => if st.2 < e.2 then (e.1, e.2) else st) (0, 0)).1

/-- segy.cpp 1706-1715 and 1716-1725: the numbers that do not match the step. -/
def wrong (step : ℤ) : List ℤ → List ℤ
  | a :: b :: c :: r =>
    (if b - a ≠ step then [a] else if c - b ≠ step then [c] else []) ++ wrong step (b :: c :: r)
  | _ => []

/-- segy.cpp 1611-1765: `SetBogusILXLUndefined`. A trace is a pair of inline and crossline, `none` when they have been
set undefined. -/
def setBogus (tr : List (ℤ × ℤ)) : List (Option (ℤ × ℤ)) :=
  let ils := numbers (tr.map Prod.fst)
  let xls := numbers (tr.map Prod.snd)
  if 1 < (stepMap ils).length ∨ 1 < (stepMap xls).length then
    let ilWrong := wrong (frequent (stepMap ils)) ils
    let xlWrong := wrong (frequent (stepMap xls)) xls
    tr.map fun t => if t.1 ∈ ilWrong ∨ t.2 ∈ xlWrong then none else some t
  else tr.map some

end Verif.SegyCheck
