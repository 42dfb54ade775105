import Verif.Model.Ieee
import Verif.Model.Outcome
import Mathlib.Analysis.SpecialFunctions.Pow.Real
import Mathlib.Analysis.SpecialFunctions.Trigonometric.Basic

/-!
# Variograms

Models `src/nrlib/variogram/variogram.hpp`, `variogram.cpp`, `variogramtypes.hpp`, and
the factory `CreateVariogram` of `src/gaussfft.cpp`.
Doubles are real numbers.
-/

namespace Verif

/-- variogram.hpp line 39: `enum Type` (without the counter `N_TYPES`). -/
inductive VType where
  | constant | exponential | spherical | gaussian | generalExponential
  | matern32 | matern52 | matern72
  deriving DecidableEq

/-- variogram.hpp lines 128-142 (fields of `Variogram`), together with the dynamic type and
the field `power_` of `GenExpVario` (variogramtypes.hpp line 186). -/
structure Variogram where
  type : VType
  power : ℝ
  rangeX : ℝ
  rangeY : ℝ
  rangeZ : ℝ
  azimuth : ℝ
  dip : ℝ
  var : ℝ
  txx : ℝ
  tyy : ℝ
  tzz : ℝ
  txy : ℝ
  txz : ℝ
  tyz : ℝ

namespace Variogram

/-- variogram.cpp lines 239-269. A zero range makes `1.0/(r*r)` infinite. -/
noncomputable def estimateFactors (v : Variogram) : Res Variogram :=
  let cosRot := Real.cos v.azimuth
  let sinRot := Real.sin v.azimuth
  let cosDip := Real.cos v.dip
  let sinDip := Real.sin v.dip
  if v.rangeX = 0 ∨ v.rangeY = 0 ∨ v.rangeZ = 0 then .nonfinite "1/0 in EstimateFactors"
  else
    let fac1 := 1.0 / (v.rangeX * v.rangeX)
    let fac2 := 1.0 / (v.rangeY * v.rangeY)
    let fac3 := 1.0 / (v.rangeZ * v.rangeZ)
    .ok { v with
      txx := cosRot*cosRot*cosDip*cosDip*fac1
        + sinRot*sinRot*fac2
        + cosRot*cosRot*sinDip*sinDip*fac3
      tyy := sinRot*sinRot*cosDip*cosDip*fac1
        + cosRot*cosRot*fac2
        + sinRot*sinRot*sinDip*sinDip*fac3
      tzz := sinDip*sinDip*fac1 + cosDip*cosDip*fac3
      txy := 2*(cosDip*cosDip*cosRot*sinRot*fac1
        - sinRot*cosRot*fac2
        + sinDip*sinDip*cosRot*sinRot*fac3)
      txz := 2*(cosRot*cosDip*sinDip*fac1
        - cosRot*cosDip*sinDip*fac3)
      tyz := 2*(sinRot*cosDip*sinDip*fac1
        - sinRot*cosDip*sinDip*fac3) }

/-- variogram.cpp lines 32-46 (constructor) and 61-90 (`Create`, which only chooses the class).
`power` is passed to `GenExpVario` only; the other classes have no such field. The six factors
are uninitialised memory before `EstimateFactors`; they are given as 0 here and overwritten. -/
noncomputable def create (type : VType) (power rangeX rangeY rangeZ azimuth dip stdDev : ℝ) :
    Res Variogram :=
  estimateFactors
    { type := type, power := power, rangeX := rangeX, rangeY := rangeY, rangeZ := rangeZ,
      azimuth := azimuth, dip := dip, var := stdDev * stdDev,
      txx := 0, tyy := 0, tzz := 0, txy := 0, txz := 0, tyz := 0 }

/-- `Corr1D` of the eight classes, variogramtypes.hpp lines 58, 87-88, 116-120, 149-150, 182-183,
212-215, 243-246, 274-277. For `GenExpVario`, `pow(0, power)` with negative power is `+inf` in
C++ and `exp(-inf)` is 0; that case is written out. -/
noncomputable def corr1D (type : VType) (power dist : ℝ) : ℝ :=
  match type with
  | .constant => 1.0
  | .exponential => Real.exp (-3.0 * dist)
  | .spherical => if dist < 1.0 then 1.0 - dist * (1.5 - (0.5 * dist * dist)) else 0.0
  | .gaussian => Real.exp (-3.0 * dist * dist)
  | .generalExponential =>
    if dist = 0 ∧ power < 0 then 0 else Real.exp (-3.0 * dist ^ power)
  | .matern32 =>
    let sd := 4.744 * dist
    Real.exp (-sd) * (1.0 + sd)
  | .matern52 =>
    let sd := 5.918 * dist
    Real.exp (-sd) * (1.0 + sd + sd * sd / 3.0)
  | .matern72 =>
    let sd := 6.877 * dist
    Real.exp (-sd) * (1.0 + sd + 2.0 / 5.0 * sd ^ 2 + sd ^ 3 / 15.0)

/-- `GetMinimumRangeToGridRatio` of the eight classes, variogramtypes.hpp lines 56, 85, 114, 147,
180, 210, 241, 272, as double-precision numbers. -/
noncomputable def rangeToGridRatio (v : Variogram) : ℝ :=
  match v.type with
  | .constant => 1.0
  | .exponential => rnd64 2.33
  | .spherical => rnd64 1.92
  | .gaussian => rnd64 6.67
  | .generalExponential => rnd64 (4.0 + rnd64 (rnd64 (v.power - 1.5) * rnd64 5.34))
  | .matern32 => 4.0
  | .matern52 => rnd64 4.76
  | .matern72 => rnd64 5.26

/-- variogram.hpp lines 119-120, the argument of the square root. -/
def quad3 (v : Variogram) (dx dy dz : ℝ) : ℝ :=
  v.txx*dx*dx + v.tyy*dy*dy + v.tzz*dz*dz + v.txy*dx*dy + v.txz*dx*dz + v.tyz*dy*dz

/-- variogram.hpp line 123, the argument of the square root. -/
def quad2 (v : Variogram) (dx dy : ℝ) : ℝ := v.txx*dx*dx + v.tyy*dy*dy + v.txy*dx*dy

/-- variogram.hpp line 126, the argument of the square root. -/
def quad1 (v : Variogram) (dx : ℝ) : ℝ := v.txx*dx*dx

/-- `Distance`, variogram.hpp lines 118-120. `Real.sqrt` of a negative number is 0 where C++
gives NaN; the argument is proved non-negative (`quad3_nonneg`). -/
noncomputable def distance3 (v : Variogram) (dx dy dz : ℝ) : ℝ := √(v.quad3 dx dy dz)

/-- `Distance`, variogram.hpp lines 122-123. -/
noncomputable def distance2 (v : Variogram) (dx dy : ℝ) : ℝ := √(v.quad2 dx dy)

/-- `Distance`, variogram.hpp lines 125-126. -/
noncomputable def distance1 (v : Variogram) (dx : ℝ) : ℝ := √(v.quad1 dx)

/-- `GetCorr(dx,dy,dz)`, variogram.cpp lines 203-208. -/
noncomputable def corr3 (v : Variogram) (dx dy dz : ℝ) : ℝ :=
  corr1D v.type v.power (v.distance3 dx dy dz)

/-- `GetCorr(dx,dy)`, variogram.cpp lines 210-215. -/
noncomputable def corr2 (v : Variogram) (dx dy : ℝ) : ℝ :=
  corr1D v.type v.power (v.distance2 dx dy)

/-- `GetCorr(dx)`, variogram.cpp lines 216-221. -/
noncomputable def corr (v : Variogram) (dx : ℝ) : ℝ :=
  corr1D v.type v.power (v.distance1 dx)

/-- `GetVariogram`, variogram.cpp lines 224-227. -/
noncomputable def getVariogram3 (v : Variogram) (dx dy dz : ℝ) : ℝ := v.var * (1 - v.corr3 dx dy dz)

/-- `GetVariogram`, variogram.cpp lines 229-232. -/
noncomputable def getVariogram2 (v : Variogram) (dx dy : ℝ) : ℝ := v.var * (1 - v.corr2 dx dy)

/-- `GetVariogram`, variogram.cpp lines 234-237. -/
noncomputable def getVariogram1 (v : Variogram) (dx : ℝ) : ℝ := v.var * (1 - v.corr dx)

/-- `GetCov`, variogram.hpp line 96. -/
noncomputable def cov3 (v : Variogram) (dx dy dz : ℝ) : ℝ := v.var * v.corr3 dx dy dz

/-- `GetCov`, variogram.hpp line 98. -/
noncomputable def cov2 (v : Variogram) (dx dy : ℝ) : ℝ := v.var * v.corr2 dx dy

/-- `GetCov`, variogram.hpp line 100. -/
noncomputable def cov1 (v : Variogram) (dx : ℝ) : ℝ := v.var * v.corr dx

/-- `GetCorrpoint`, variogram.hpp line 83. -/
noncomputable def corrpoint3 (v : Variogram) (x1 y1 z1 x2 y2 z2 : ℝ) : ℝ :=
  v.corr3 (x2 - x1) (y2 - y1) (z2 - z1)

/-- `GetCovpoint`, variogram.hpp line 102. -/
noncomputable def covpoint3 (v : Variogram) (x1 y1 z1 x2 y2 z2 : ℝ) : ℝ :=
  v.var * v.corr3 (x2 - x1) (y2 - y1) (z2 - z1)

/-! ### Setters

A setter returns the object afterwards and the outcome, so that the state after an
exception is visible. -/

/-- Calls of the setters of `Variogram`. -/
inductive Setter where
  | setAngles (azimuth dip : ℝ)
  | rotateAngles (rot dip : ℝ)
  | setStdDev (sd : ℝ)
  | setRanges (x y z : ℝ)
  | setRangeX (r : ℝ)
  | setRangeY (r : ℝ)
  | setRangeZ (r : ℝ)
  | limitRangeX (limit : ℝ)
  | limitRangeY (limit : ℝ)
  | limitRangeZ (limit : ℝ)

/-- Assign fields, then `EstimateFactors()`. -/
noncomputable def reestimate (v : Variogram) : Variogram × Res Unit :=
  match v.estimateFactors with
  | .ok v' => (v', .ok ())
  | .throws m => (v, .throws m)
  | .ub m => (v, .ub m)
  | .nonfinite m => (v, .nonfinite m)
  | .diverges => (v, .diverges)

/-- `SetRangeX`, variogram.cpp lines 157-164. -/
noncomputable def setRangeX (v : Variogram) (r : ℝ) : Variogram × Res Unit :=
  if r ≤ 0.0 then (v, .throws "Negative ranges are not allowed.\n")
  else reestimate { v with rangeX := r }

/-- `SetRangeY`, variogram.cpp lines 166-173. -/
noncomputable def setRangeY (v : Variogram) (r : ℝ) : Variogram × Res Unit :=
  if r ≤ 0.0 then (v, .throws "Negative ranges are not allowed.\n")
  else reestimate { v with rangeY := r }

/-- `SetRangeZ`, variogram.cpp lines 175-182. -/
noncomputable def setRangeZ (v : Variogram) (r : ℝ) : Variogram × Res Unit :=
  if r ≤ 0.0 then (v, .throws "Negative ranges are not allowed.\n")
  else reestimate { v with rangeZ := r }

/-- One setter call: variogram.cpp lines 103-108 (`SetAngles`), 116-120 (`RotateAngles`),
129-131 (`SetStdDev`), 147-155 (`SetRanges`), 157-182 (`SetRangeX/Y/Z`),
184-200 (`LimitRangeX/Y/Z`). -/
noncomputable def step (v : Variogram) : Setter → Variogram × Res Unit
  | .setAngles a d => reestimate { v with azimuth := a, dip := d }
  | .rotateAngles a d => reestimate { v with azimuth := v.azimuth + a, dip := v.dip + d }
  | .setStdDev sd => ({ v with var := sd * sd }, .ok ())
  | .setRanges x y z =>
    if x ≤ 0.0 ∨ y ≤ 0.0 ∨ z ≤ 0.0 then (v, .throws "Negative ranges are not allowed.\n")
    else reestimate { v with rangeX := x, rangeY := y, rangeZ := z }
  | .setRangeX r => setRangeX v r
  | .setRangeY r => setRangeY v r
  | .setRangeZ r => setRangeZ v r
  | .limitRangeX l => if v.rangeX > l then setRangeX v l else (v, .ok ())
  | .limitRangeY l => if v.rangeY > l then setRangeY v l else (v, .ok ())
  | .limitRangeZ l => if v.rangeZ > l then setRangeZ v l else (v, .ok ())

/-- The object after a sequence of setter calls, exceptions being caught by the caller. -/
noncomputable def steps (v : Variogram) (ops : List Setter) : Variogram :=
  ops.foldl (fun v op => (v.step op).1) v

end Variogram

/-! ### Factory -/

/-- `std::toupper` on one byte in the "C" locale, as used by `NRLib::Uppercase`
(src/nrlib/iotools/stringtools.cpp line 161). A `char` of 128 or more is negative on the
usual platforms, and then the call is undefined. Characters stand for bytes. -/
def toUpperByte (c : Char) : Res Char :=
  if 128 ≤ c.toNat then .ub "toupper of a negative char"
  else if 'a' ≤ c ∧ c ≤ 'z' then .ok (Char.ofNat (c.toNat - 32))
  else .ok c

/-- `NRLib::Uppercase`, stringtools.cpp lines 156-163. -/
def uppercase : List Char → Res (List Char)
  | [] => .ok []
  | c :: cs => do
    let u ← toUpperByte c
    let us ← uppercase cs
    .ok (u :: us)

/-- gaussfft.cpp lines 73-90. -/
def typeOfUpper (utype : List Char) : VType :=
  if utype = "CONSTANT".toList then .constant
  else if utype = "EXPONENTIAL".toList then .exponential
  else if utype = "GAUSSIAN".toList then .gaussian
  else if utype = "GENERAL_EXPONENTIAL".toList then .generalExponential
  else if utype = "MATERN32".toList then .matern32
  else if utype = "MATERN52".toList then .matern52
  else if utype = "MATERN72".toList then .matern72
  else if utype = "SPHERICAL".toList then .spherical
  else .spherical

/-- `NRLib::Degree`, src/nrlib/math/constants.cpp line 34. Simplified: exactly π/180. -/
noncomputable def degree : ℝ := Real.pi / 180

/-- `GaussFFT::CreateVariogram`, src/gaussfft.cpp lines 55-93 (the Python function `variogram`). -/
noncomputable def createVariogram (type : List Char)
    (rangeX rangeY rangeZ azimuth dip power : ℝ) : Res Variogram := do
  let rangeY := if rangeY < 0.0 then rangeX else rangeY
  let rangeZ := if rangeZ < 0.0 then rangeX else rangeZ
  let azimuth := azimuth * degree
  let dip := dip * degree
  let utype ← uppercase type
  let t := typeOfUpper utype
  Variogram.create t power rangeX rangeY rangeZ azimuth dip 1.0

/-- The default values of the Python binding, src/gaussfftinterface.cpp lines 211-219. -/
noncomputable def createVariogramDefault (type : List Char) (mainRange : ℝ) : Res Variogram :=
  createVariogram type mainRange (-1.0) (-1.0) 0.0 0.0 1.5

end Verif
