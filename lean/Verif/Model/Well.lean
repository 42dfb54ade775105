import Verif.Model.StormGrid
import Verif.Model.Variogram

/-!
# Wells and their blocking

Models src/nrlib/well/well.{hpp,cpp} without files, and welloperations.hpp. Names are lists of
characters, doubles are real numbers, and a failing `assert` is `ub`.
-/

namespace Verif

open Classical

/-- The name of a log. -/
abbrev LogName := List Char

/-- A `std::map` from names: the pairs in the order of the names. Names are compared character by
character. -/
abbrev LogMap (V : Type) := List (LogName × V)

namespace LogMap
variable {V : Type}

/-- `std::map::find`. -/
def find (m : LogMap V) (n : LogName) : Option V := List.lookup n m

/-- Assignment to `std::map::operator[]`: replaces the value of the name, or inserts it before the
first greater name. -/
def set : LogMap V → LogName → V → LogMap V
  | [], n, v => [(n, v)]
  | p :: m, n, v =>
    if n = p.1 then (n, v) :: m else if n < p.1 then (n, v) :: p :: m else p :: set m n v

/-- `std::map::erase`. -/
def erase (m : LogMap V) (n : LogName) : LogMap V := m.filter fun p => p.1 ≠ n

end LogMap

/-- `Well`, well.hpp lines 30 and 141-166. Members that the constructors leave without a value are
`none`. -/
structure Well where
  cont : LogMap (List ℝ)
  disc : LogMap (List ℤ)
  name : LogName
  rmissing : ℝ
  imissing : ℤ
  deviated : Option Bool
  nData : Option ℕ

namespace Well

/-- The constructor with a name, well.cpp lines 45-52; `Well()`, lines 38-42, is the case of an
empty name and -999. -/
def named (name : LogName) (rmissing : ℝ) (imissing : ℤ) : Well :=
  { cont := [], disc := [], name := name, rmissing := rmissing, imissing := imissing
    deviated := none, nData := none }

/-- The constructor with logs, well.cpp lines 55-64. -/
noncomputable def ofLogs (cont : LogMap (List ℝ)) (disc : LogMap (List ℤ)) (name : LogName) : Well :=
  { cont := cont, disc := disc, name := name, rmissing := -999.0, imissing := -999
    deviated := none, nData := none }

/-- `AddContLog`, well.cpp lines 93-97. -/
def addContLog (w : Well) (n : LogName) (log : List ℝ) : Well := { w with cont := w.cont.set n log }

/-- `AddDiscLog`, well.cpp lines 144-148. -/
def addDiscLog (w : Well) (n : LogName) (log : List ℤ) : Well := { w with disc := w.disc.set n log }

/-- `HasContLog`, well.cpp lines 109-116. -/
def hasContLog (w : Well) (n : LogName) : Bool := (w.cont.find n).isSome

/-- `HasDiscLog`, well.cpp lines 99-107. -/
def hasDiscLog (w : Well) (n : LogName) : Bool := (w.disc.find n).isSome

/-- The `assert` after a search in a map. -/
def found {V : Type} : Option V → Res V
  | some v => .ok v
  | none => .ub "assert: no log of this name"

/-- `GetContLog`, well.cpp lines 119-133. -/
def getContLog (w : Well) (n : LogName) : Res (List ℝ) := found (w.cont.find n)

/-- `GetDiscLog`, well.cpp lines 151-166. -/
def getDiscLog (w : Well) (n : LogName) : Res (List ℤ) := found (w.disc.find n)

/-- `RemoveContLog`, well.cpp lines 137-141. -/
def removeContLog (w : Well) (n : LogName) : Well := { w with cont := w.cont.erase n }

/-- `RemoveDiscLog`, well.cpp lines 169-173. -/
def removeDiscLog (w : Well) (n : LogName) : Well := { w with disc := w.disc.erase n }

/-- The loops of `MakeLogsUppercase`, well.cpp lines 178-183 and 186-191. -/
def upperLogs {V : Type} : LogMap V → LogMap V → Res (LogMap V)
  | [], out => .ok out
  | p :: m, out => do
    let u ← uppercase p.1
    upperLogs m (out.set u p.2)

/-- `MakeLogsUppercase`, well.cpp lines 175-193. -/
def makeLogsUppercase (w : Well) : Res Well := do
  let d ← upperLogs w.disc []
  let c ← upperLogs w.cont []
  .ok { w with disc := d, cont := c }

/-- `IsMissing(double)`, well.cpp lines 201-207. -/
def isMissingC (w : Well) (x : ℝ) : Prop := x = w.rmissing

/-- `IsMissing(int)`, well.cpp lines 209-215. -/
def isMissingD (w : Well) (n : ℤ) : Prop := n = w.imissing

/-- `SetMissing`, well.hpp line 102. -/
noncomputable def setMissing (w : Well) (value : ℝ) : Res Well := do
  let i ← toInt32 (truncZ value)
  .ok { w with rmissing := value, imissing := i }

/-- `GetDiscValue`, well.cpp lines 218-225. -/
def getDiscValue (w : Well) (i : ℕ) (n : LogName) : Res ℤ := do
  let log ← w.getDiscLog n
  rd log i

/-- `GetContValue`, well.cpp lines 228-235. -/
def getContValue (w : Well) (i : ℕ) (n : LogName) : Res ℝ := do
  let log ← w.getContLog n
  rd log i

/-- `SetDiscValue`, well.cpp lines 238-244. -/
def setDiscValue (w : Well) (value : ℤ) (i : ℕ) (n : LogName) : Res Well := do
  let log ← w.getDiscLog n
  let log ← wr log i value
  .ok { w with disc := w.disc.set n log }

/-- `SetContValue`, well.cpp lines 247-253. -/
def setContValue (w : Well) (value : ℝ) (i : ℕ) (n : LogName) : Res Well := do
  let log ← w.getContLog n
  let log ← wr log i value
  .ok { w with cont := w.cont.set n log }

/-- `GetNlog`, well.cpp lines 256-259. -/
def getNlog (w : Well) : ℕ := w.cont.length + w.disc.length

/-- `GetNContLog`, well.cpp lines 262-265. -/
def getNContLog (w : Well) : ℕ := w.cont.length

/-- `GetContLogLength`, well.cpp lines 268-274. -/
def getContLogLength (w : Well) (n : LogName) : Res ℕ := do
  let log ← w.getContLog n
  .ok log.length

/-- `IsDeviated`, well.hpp line 92. -/
def isDeviated (w : Well) : Res Bool :=
  match w.deviated with
  | some b => .ok b
  | none => .ub "member without a value"

/-- `SetDeviated`, well.hpp line 100. -/
def setDeviated (w : Well) (b : Bool) : Well := { w with deviated := some b }

/-- `GetNData`, well.hpp line 96. -/
def getNData (w : Well) : Res ℕ :=
  match w.nData with
  | some n => .ok n
  | none => .ub "member without a value"

/-- `SetNumberOfData`, well.hpp line 134, for a number that is not negative. -/
def setNumberOfData (w : Well) (n : ℕ) : Well := { w with nData := some n }

end Well

/-! ### Blocking -/

/-- Sums and numbers of values for each log and each cell: `contlogs` and `nocont`, or `disclogs`
and `nodisc`. A vector of vectors is a function; all indices are loop variables below its sizes.
The counters are natural numbers. -/
structure BlockAcc (α : Type) where
  sum : ℕ → ℕ → α
  cnt : ℕ → ℕ → ℕ

/-- Assignment to an element of a vector of vectors. -/
def setCell {α : Type} (f : ℕ → ℕ → α) (j k : ℕ) (v : α) : ℕ → ℕ → α :=
  fun j' k' => if j' = j ∧ k' = k then v else f j' k'

/-- One log in the loops of welloperations.hpp lines 124-130 and 131-137. -/
noncomputable def blockAdd {α : Type} (add : α → α → Res α) (miss : α → Prop) (k j : ℕ) (v : α)
    (a : BlockAcc α) : Res (BlockAcc α) :=
  if miss v then .ok a
  else do
    let s ← add (a.sum j k) v
    .ok ⟨setCell a.sum j k s, setCell a.cnt j k (a.cnt j k + 1)⟩

/-- The loop over the logs, welloperations.hpp lines 124-130 and 131-137. -/
noncomputable def blockLogs {α : Type} (add : α → α → Res α) (miss : α → Prop)
    (names : List LogName) (get : LogName → Res α) (k : ℕ) (a : BlockAcc α) : Res (BlockAcc α) :=
  forRange 0 names.length (fun j a => do
    let n ← rd names j
    let v ← get n
    blockAdd add miss k j v a) a

/-- `+=` for doubles. -/
noncomputable def addReal (x y : ℝ) : Res ℝ := .ok (x + y)

/-- `+=` for `int`. -/
def addInt (x y : ℤ) : Res ℤ :=
  if -2 ^ 31 ≤ x + y ∧ x + y < 2 ^ 31 then .ok (x + y) else .ub "signed overflow"

/-- One position of the well and one cell, welloperations.hpp lines 123-138. -/
noncomputable def blockCell (w : Well) (i ci : ℕ) (vals : List ℕ) (k : ℕ)
    (a : BlockAcc ℝ × BlockAcc ℤ) : Res (BlockAcc ℝ × BlockAcc ℤ) := do
  let vk ← rd vals k
  (if ci = vk then do
    let c ← blockLogs addReal w.isMissingC (w.cont.map Prod.fst) (w.getContValue i) k a.1
    let d ← blockLogs addInt w.isMissingD (w.disc.map Prod.fst) (w.getDiscValue i) k a.2
    .ok (c, d)
  else .ok a : Res (BlockAcc ℝ × BlockAcc ℤ))

/-- One position of the well, welloperations.hpp lines 122-139. -/
noncomputable def blockPos (w : Well) (index vals : List ℕ) (i : ℕ)
    (a : BlockAcc ℝ × BlockAcc ℤ) : Res (BlockAcc ℝ × BlockAcc ℤ) := do
  let ci ← rd index i
  forRange 0 vals.length (blockCell w i ci vals) a

/-- The cells of the positions, welloperations.hpp lines 56-61. -/
noncomputable def blockIndex (w : Well) (findIndex : ℝ → ℝ → ℝ → Res ℕ) (n : ℕ) : Res (List ℕ) :=
  forRange 0 n (fun i idx => do
    let x ← w.getContValue i ['x']
    let y ← w.getContValue i ['y']
    let z ← w.getContValue i ['z']
    let c ← findIndex x y z
    wr idx i c) (List.replicate n 0)

/-- The different cells, welloperations.hpp lines 63-74. -/
def blockValues (index : List ℕ) : Res (List ℕ) := do
  let i0 ← rd index 0
  forRange 0 index.length (fun i vals => do
    let c ← rd index i
    .ok (if c ∈ vals then vals else vals ++ [c])) [i0]

/-- The new continuous log with number `j`, welloperations.hpp lines 141-147. -/
noncomputable def blockCont (w : Well) (nv : ℕ) (a : BlockAcc ℝ) (j : ℕ) : List ℝ :=
  (List.range nv).map fun k => if a.cnt j k = 0 then w.rmissing else a.sum j k / a.cnt j k

/-- The new discrete log with number `j`, welloperations.hpp lines 148-153: division of `int`. -/
def blockDisc (w : Well) (nv : ℕ) (a : BlockAcc ℤ) (j : ℕ) : List ℤ :=
  (List.range nv).map fun k => if a.cnt j k = 0 then w.imissing else (a.sum j k).tdiv (a.cnt j k)

/-- The new maps, welloperations.hpp lines 156-163. -/
def blockMap {V : Type} (names : List LogName) (log : ℕ → V) : LogMap V :=
  names.zipIdx.foldl (fun m p => LogMap.set m p.1 (log p.2)) []

/-- `BlockWell`, welloperations.hpp lines 46-166, for a grid with the given `FindIndex`. The vector
`no`, lines 77-85, is not used. -/
noncomputable def blockWell (w : Well) (findIndex : ℝ → ℝ → ℝ → Res ℕ) : Res Well := do
  let n ← w.getContLogLength ['x']
  let index ← blockIndex w findIndex n
  let vals ← blockValues index
  let a ← forRange 0 n (blockPos w index vals)
    (⟨fun _ _ => 0, fun _ _ => 0⟩, ⟨fun _ _ => 0, fun _ _ => 0⟩)
  .ok (Well.ofLogs (blockMap (w.cont.map Prod.fst) (blockCont w vals.length a.1))
    (blockMap (w.disc.map Prod.fst) (blockDisc w vals.length a.2)) (w.name ++ "blocked".toList))

end Verif
