import Verif.Model.Variogram

/-!
# Correlation functions in double arithmetic

The same functions as in `Verif/Model/Variogram.lean` (`EstimateFactors`, `Distance`, `Corr1D`, `GetCorr` of
`src/nrlib/variogram`), with every operation rounded to a double. The mathematical library is a parameter:
IEEE 754 fixes the result of `sqrt` but not of `sin`, `cos`, `exp` and `pow`. Overflow is not represented, nor are
fused multiply-add operations, which a compiler may use on some processors.
-/

namespace Verif

/-- `sin`, `cos`, `exp` and `pow` of the mathematical library. -/
structure Libm where
  sin : ℝ → ℝ
  cos : ℝ → ℝ
  exp : ℝ → ℝ
  pow : ℝ → ℝ → ℝ

namespace Fl

/-- Product, rounded. -/
noncomputable def mul (a b : ℝ) : ℝ := rnd64 (a * b)

/-- Sum, rounded. -/
noncomputable def add (a b : ℝ) : ℝ := rnd64 (a + b)

/-- Difference, rounded. -/
noncomputable def sub (a b : ℝ) : ℝ := rnd64 (a - b)

/-- Quotient, rounded. -/
noncomputable def div (a b : ℝ) : ℝ := rnd64 (a / b)

@[inherit_doc] scoped infixl:70 " *ᶠ " => mul
@[inherit_doc] scoped infixl:70 " /ᶠ " => div
@[inherit_doc] scoped infixl:65 " +ᶠ " => add
@[inherit_doc] scoped infixl:65 " -ᶠ " => sub

end Fl

open scoped Fl

namespace Variogram

/-- variogram.cpp lines 239-269. A range whose square is rounded to zero makes `1.0/(r*r)` infinite. -/
noncomputable def estimateFactorsFl (lm : Libm) (v : Variogram) : Res Variogram :=
  let cosRot := lm.cos v.azimuth
  let sinRot := lm.sin v.azimuth
  let cosDip := lm.cos v.dip
  let sinDip := lm.sin v.dip
  if v.rangeX *ᶠ v.rangeX = 0 ∨ v.rangeY *ᶠ v.rangeY = 0 ∨ v.rangeZ *ᶠ v.rangeZ = 0 then
    .nonfinite "1/0 in EstimateFactors"
  else
    let fac1 := 1.0 /ᶠ (v.rangeX *ᶠ v.rangeX)
    let fac2 := 1.0 /ᶠ (v.rangeY *ᶠ v.rangeY)
    let fac3 := 1.0 /ᶠ (v.rangeZ *ᶠ v.rangeZ)
    .ok { v with
      txx := cosRot *ᶠ cosRot *ᶠ cosDip *ᶠ cosDip *ᶠ fac1
        +ᶠ sinRot *ᶠ sinRot *ᶠ fac2
        +ᶠ cosRot *ᶠ cosRot *ᶠ sinDip *ᶠ sinDip *ᶠ fac3
      tyy := sinRot *ᶠ sinRot *ᶠ cosDip *ᶠ cosDip *ᶠ fac1
        +ᶠ cosRot *ᶠ cosRot *ᶠ fac2
        +ᶠ sinRot *ᶠ sinRot *ᶠ sinDip *ᶠ sinDip *ᶠ fac3
      tzz := sinDip *ᶠ sinDip *ᶠ fac1 +ᶠ cosDip *ᶠ cosDip *ᶠ fac3
      txy := 2 *ᶠ (cosDip *ᶠ cosDip *ᶠ cosRot *ᶠ sinRot *ᶠ fac1
        -ᶠ sinRot *ᶠ cosRot *ᶠ fac2
        +ᶠ sinDip *ᶠ sinDip *ᶠ cosRot *ᶠ sinRot *ᶠ fac3)
      txz := 2 *ᶠ (cosRot *ᶠ cosDip *ᶠ sinDip *ᶠ fac1
        -ᶠ cosRot *ᶠ cosDip *ᶠ sinDip *ᶠ fac3)
      tyz := 2 *ᶠ (sinRot *ᶠ cosDip *ᶠ sinDip *ᶠ fac1
        -ᶠ sinRot *ᶠ cosDip *ᶠ sinDip *ᶠ fac3) }

/-- variogram.cpp lines 32-46 and 61-90, as `create`. -/
noncomputable def createFl (lm : Libm) (type : VType)
    (power rangeX rangeY rangeZ azimuth dip stdDev : ℝ) : Res Variogram :=
  estimateFactorsFl lm
    { type := type, power := power, rangeX := rangeX, rangeY := rangeY, rangeZ := rangeZ,
      azimuth := azimuth, dip := dip, var := stdDev *ᶠ stdDev,
      txx := 0, tyy := 0, tzz := 0, txy := 0, txz := 0, tyz := 0 }

/-- `Corr1D` of the eight classes, variogramtypes.hpp lines 58, 87-88, 116-120, 149-150, 182-183,
212-215, 243-246, 274-277. For `GenExpVario`, `pow(0, power)` with negative power is `+inf` in
C++ and `exp(-inf)` is 0; that case is written out. -/
noncomputable def corr1DFl (lm : Libm) (type : VType) (power dist : ℝ) : ℝ :=
  match type with
  | .constant => 1.0
  | .exponential => lm.exp (-3.0 *ᶠ dist)
  | .spherical => if dist < 1.0 then 1.0 -ᶠ dist *ᶠ (1.5 -ᶠ (0.5 *ᶠ dist *ᶠ dist)) else 0.0
  | .gaussian => lm.exp (-3.0 *ᶠ dist *ᶠ dist)
  | .generalExponential =>
    if dist = 0 ∧ power < 0 then 0 else lm.exp (-3.0 *ᶠ lm.pow dist power)
  | .matern32 =>
    let sd := rnd64 4.744 *ᶠ dist
    lm.exp (-sd) *ᶠ (1.0 +ᶠ sd)
  | .matern52 =>
    let sd := rnd64 5.918 *ᶠ dist
    lm.exp (-sd) *ᶠ (1.0 +ᶠ sd +ᶠ sd *ᶠ sd /ᶠ 3.0)
  | .matern72 =>
    let sd := rnd64 6.877 *ᶠ dist
    lm.exp (-sd) *ᶠ (1.0 +ᶠ sd +ᶠ 2.0 /ᶠ 5.0 *ᶠ lm.pow sd 2 +ᶠ lm.pow sd 3 /ᶠ 15.0)

/-- variogram.hpp lines 119-120, the argument of the square root. -/
noncomputable def quad3Fl (v : Variogram) (dx dy dz : ℝ) : ℝ :=
  v.txx *ᶠ dx *ᶠ dx +ᶠ v.tyy *ᶠ dy *ᶠ dy +ᶠ v.tzz *ᶠ dz *ᶠ dz +ᶠ v.txy *ᶠ dx *ᶠ dy +ᶠ v.txz *ᶠ dx *ᶠ dz +ᶠ v.tyz *ᶠ dy *ᶠ dz

/-- variogram.hpp line 123, the argument of the square root. -/
noncomputable def quad2Fl (v : Variogram) (dx dy : ℝ) : ℝ :=
  v.txx *ᶠ dx *ᶠ dx +ᶠ v.tyy *ᶠ dy *ᶠ dy +ᶠ v.txy *ᶠ dx *ᶠ dy

/-- variogram.hpp line 126, the argument of the square root. -/
noncomputable def quad1Fl (v : Variogram) (dx : ℝ) : ℝ := v.txx *ᶠ dx *ᶠ dx

/-- `std::sqrt`: correctly rounded; NaN for a negative number. -/
noncomputable def sqrtFl (q : ℝ) : Res ℝ :=
  if q < 0 then .nonfinite "square root of a negative number" else .ok (rnd64 (√q))

/-- `GetCorr(dx,dy,dz)`, variogram.cpp lines 203-208. -/
noncomputable def corr3Fl (lm : Libm) (v : Variogram) (dx dy dz : ℝ) : Res ℝ := do
  let dist ← sqrtFl (v.quad3Fl dx dy dz)
  .ok (corr1DFl lm v.type v.power dist)

/-- `GetCorr(dx,dy)`, variogram.cpp lines 210-215. -/
noncomputable def corr2Fl (lm : Libm) (v : Variogram) (dx dy : ℝ) : Res ℝ := do
  let dist ← sqrtFl (v.quad2Fl dx dy)
  .ok (corr1DFl lm v.type v.power dist)

/-- `GetCorr(dx)`, variogram.cpp lines 216-221. -/
noncomputable def corrFl (lm : Libm) (v : Variogram) (dx : ℝ) : Res ℝ := do
  let dist ← sqrtFl (v.quad1Fl dx)
  .ok (corr1DFl lm v.type v.power dist)

end Variogram

/-- `NRLib::Degree` as a double, src/nrlib/math/constants.cpp line 34. -/
noncomputable def degreeFl : ℝ := rnd64 0.01745329251994329576924

/-- `GaussFFT::CreateVariogram`, src/gaussfft.cpp lines 55-93 (the Python function `variogram`). -/
noncomputable def createVariogramFl (lm : Libm) (type : List Char)
    (rangeX rangeY rangeZ azimuth dip power : ℝ) : Res Variogram := do
  let rangeY := if rangeY < 0.0 then rangeX else rangeY
  let rangeZ := if rangeZ < 0.0 then rangeX else rangeZ
  let azimuth := azimuth *ᶠ degreeFl
  let dip := dip *ᶠ degreeFl
  let utype ← uppercase type
  let t := typeOfUpper utype
  Variogram.createFl lm t power rangeX rangeY rangeZ azimuth dip 1.0

end Verif
