import Verif.Model.Random
import Mathlib.Analysis.SpecialFunctions.Pow.Real

/-!
# Distributions

The classes of `nrlib/random` with `Pdf`, `Cdf`, `Quantile` and `Draw`. Doubles are real numbers, as in
the rest of the model; an operation that gives an infinite value or NaN is the outcome `nonfinite`. An
`assert` is no instruction (release build): what it asserts is a hypothesis of the theorems. The two
functions `Draw` (global generator, generator object) differ in the generator only, which is an argument
here.
-/

namespace Verif

/-- Division of doubles. -/
noncomputable def fdiv (x y : ℝ) : Res ℝ := if y = 0 then .nonfinite "division by zero" else .ok (x / y)

/-- `std::sqrt`. -/
noncomputable def fsqrt (x : ℝ) : Res ℝ := if x < 0 then .nonfinite "root of a negative number" else .ok √x

/-- `std::log`. -/
noncomputable def flog (x : ℝ) : Res ℝ :=
  if x ≤ 0 then .nonfinite "logarithm of a number that is not positive" else .ok (Real.log x)

open Classical in
/-- `std::pow`: a negative base is allowed with an integral exponent only, base 0 with a non-negative
one. -/
noncomputable def fpow (x y : ℝ) : Res ℝ :=
  if x < 0 ∧ ¬ ∃ n : ℤ, y = n then .nonfinite "power of a negative number"
  else if x = 0 ∧ y < 0 then .nonfinite "negative power of zero"
  else .ok (x ^ y)

/-- `Distribution::Draw`, distribution.hpp lines 51-61. -/
def drawQuantile {σ α : Type} (quantile : ℝ → Res α) (unif : σ → Res (ℝ × σ)) (s : σ) :
    Res (α × σ) := do
  let (q, s) ← unif s
  let x ← quantile q
  .ok (x, s)

/-- The members of `Uniform`, uniform.hpp lines 46-47. -/
structure Uniform where
  minVal : ℝ
  maxVal : ℝ

namespace Uniform

/-- `Uniform()`, uniform.cpp lines 26-28. -/
def default : Uniform := ⟨0.0, 1.0⟩

/-- `Pdf`, uniform.hpp lines 60-66. -/
noncomputable def pdf (d : Uniform) (x : ℝ) : Res ℝ :=
  if x ≥ d.minVal ∧ x ≤ d.maxVal then fdiv 1.0 (d.maxVal - d.minVal) else .ok 0.0

/-- `Cdf`, uniform.hpp lines 69-80. -/
noncomputable def cdf (d : Uniform) (x : ℝ) : Res ℝ :=
  if x ≥ d.minVal then
    if x < d.maxVal then fdiv (x - d.minVal) (d.maxVal - d.minVal) else .ok 1.0
  else .ok 0.0

/-- `Quantile`, uniform.hpp lines 83-86. -/
def quantile (d : Uniform) (p : ℝ) : Res ℝ := .ok (d.minVal + p * (d.maxVal - d.minVal))

end Uniform

/-- The members of `Triangular`, triangular.hpp lines 47-49. -/
structure Triangular where
  minVal : ℝ
  mode : ℝ
  maxVal : ℝ

namespace Triangular

/-- `Triangular()`, triangular.cpp lines 26-28. -/
def default : Triangular := ⟨-1.0, 0.0, 1.0⟩

/-- `Pdf`, triangular.hpp lines 63-79. -/
noncomputable def pdf (d : Triangular) (x : ℝ) : Res ℝ :=
  if x < d.minVal ∨ x > d.maxVal then .ok 0.0
  else if x = d.minVal then
    if d.mode = d.minVal then fdiv 2.0 (d.maxVal - d.minVal) else .ok 0.0
  else if x = d.maxVal then
    if d.mode = d.maxVal then fdiv 2.0 (d.maxVal - d.minVal) else .ok 0.0
  else if x ≤ d.mode then
    fdiv (2.0 * (x - d.minVal)) ((d.mode - d.minVal) * (d.maxVal - d.minVal))
  else fdiv (2.0 * (d.maxVal - x)) ((d.maxVal - d.mode) * (d.maxVal - d.minVal))

/-- `Cdf`, triangular.hpp lines 82-96. -/
noncomputable def cdf (d : Triangular) (x : ℝ) : Res ℝ :=
  if x > d.minVal then
    if x ≤ d.mode then
      fdiv ((x - d.minVal) * (x - d.minVal)) ((d.mode - d.minVal) * (d.maxVal - d.minVal))
    else if x < d.maxVal then do
      let q ← fdiv ((d.maxVal - x) * (d.maxVal - x)) ((d.maxVal - d.mode) * (d.maxVal - d.minVal))
      .ok (1.0 - q)
    else .ok 1.0
  else .ok 0.0

/-- `Quantile`, triangular.hpp lines 99-118. -/
noncomputable def quantile (d : Triangular) (p : ℝ) : Res ℝ :=
  if p = 0.0 then .ok d.minVal
  else if p = 1.0 then .ok d.maxVal
  else do
    let p0 ← fdiv (d.mode - d.minVal) (d.maxVal - d.minVal)
    if p < p0 then do
      let r ← fsqrt ((d.maxVal - d.minVal) * (d.mode - d.minVal) * p)
      .ok (r + d.minVal)
    else if p = p0 then .ok d.mode
    else do
      let r ← fsqrt ((d.maxVal - d.minVal) * (d.maxVal - d.mode) * (1.0 - p))
      .ok (d.maxVal - r)

end Triangular

/-- The members of `SplitUniform`, splituniform.hpp lines 48-50. -/
structure SplitUniform where
  minVal : ℝ
  meanVal : ℝ
  maxVal : ℝ

namespace SplitUniform

/-- `SplitUniform()`, splituniform.cpp lines 26-28. -/
noncomputable def default : SplitUniform := ⟨0.0, 0.5, 1.0⟩

/-- `Pdf`, splituniform.hpp lines 67-79. -/
noncomputable def pdf (d : SplitUniform) (x : ℝ) : Res ℝ :=
  if x ≥ d.minVal ∧ x < d.meanVal then fdiv 0.5 (d.meanVal - d.minVal)
  else if x > d.meanVal ∧ x > d.maxVal then fdiv 0.5 (d.maxVal - d.meanVal)
  else if x = d.meanVal then do
    let l ← fdiv 0.25 (d.meanVal - d.minVal)
    let r ← fdiv 0.25 (d.maxVal - d.meanVal)
    .ok (l + r)
  else .ok 0.0

/-- `Cdf`, splituniform.hpp lines 82-96. -/
noncomputable def cdf (d : SplitUniform) (x : ℝ) : Res ℝ :=
  if x ≥ d.minVal then
    if x ≤ d.meanVal then fdiv (0.5 * (x - d.minVal)) (d.meanVal - d.minVal)
    else if x < d.maxVal then do
      let q ← fdiv (0.5 * (x - d.meanVal)) (d.maxVal - d.meanVal)
      .ok (0.5 + q)
    else .ok 1.0
  else .ok 0.0

/-- `Quantile`, splituniform.hpp lines 99-105. -/
noncomputable def quantile (d : SplitUniform) (p : ℝ) : Res ℝ :=
  if p ≤ 0.5 then .ok (d.minVal + 2.0 * p * (d.meanVal - d.minVal))
  else .ok (d.meanVal + (2.0 * p - 1.0) * (d.maxVal - d.meanVal))

end SplitUniform

/-- The member of `Delta`, delta.hpp line 49. -/
structure Delta where
  val : ℝ

namespace Delta

/-- `Pdf`, delta.hpp lines 60-65. -/
noncomputable def pdf (d : Delta) (x : ℝ) : Res ℝ :=
  if x = d.val then .nonfinite "infinite density" else .ok 0.0

/-- `Cdf`, delta.hpp lines 68-74. -/
noncomputable def cdf (d : Delta) (x : ℝ) : Res ℝ := if x ≥ d.val then .ok 1.0 else .ok 0.0

/-- `Quantile`, delta.hpp lines 77-79. -/
def quantile (d : Delta) (_p : ℝ) : Res ℝ := .ok d.val

end Delta

/-- The members of `Fractal`, fractal.hpp lines 48-53. -/
structure Fractal where
  min : ℝ
  max : ℝ
  dim : ℝ
  minFractal : ℝ
  maxFractal : ℝ

namespace Fractal

/-- `Fractal(min, max, dim)`, fractal.cpp lines 27-34. Simplification: in the code a member may be
infinite or NaN and the constructor returns; here it does not. So the convention that a negative `max`
means "no maximum" (fractal.cpp lines 52-53) is only modelled for integral dimensions. -/
noncomputable def create (min max dim : ℝ) : Res Fractal := do
  let minFractal ← fpow min (-dim)
  let maxFractal ← fpow max (-dim)
  .ok ⟨min, max, dim, minFractal, maxFractal⟩

/-- `Pdf`, fractal.hpp lines 58-65. -/
noncomputable def pdf (d : Fractal) (x : ℝ) : Res ℝ :=
  if x > d.min ∧ x < d.max then do
    let constant ← fdiv d.dim (d.minFractal - d.maxFractal)
    let p ← fpow x (-d.dim - 1.0)
    .ok (constant * p)
  else .ok 0.0

/-- `Cdf`, fractal.hpp lines 68-79. -/
noncomputable def cdf (d : Fractal) (x : ℝ) : Res ℝ :=
  if x ≤ d.min then .ok 0.0
  else if x < d.max then do
    let p ← fpow x (-d.dim)
    fdiv (d.minFractal - p) (d.minFractal - d.maxFractal)
  else .ok 1.0

/-- `Quantile`, fractal.hpp lines 82-87. -/
noncomputable def quantile (d : Fractal) (p : ℝ) : Res ℝ := do
  let e := (1.0 - p) * d.minFractal + p * d.maxFractal
  let i ← fdiv (-1.0) d.dim
  fpow e i

/-- The maximum used by the three functions below, fractal.cpp lines 51-53, 70-72, 84-86. -/
noncomputable def dMax (d : Fractal) : ℝ := if d.max < 0.0 then 0.0 else d.maxFractal

/-- `DrawFromUpperQuantile`, fractal.cpp lines 45-63. `limit` is `none` if `has_limit_info` is false. -/
noncomputable def drawFromUpperQuantile {σ : Type} (d : Fractal) (qu : ℝ) (limit : Option ℝ)
    (unif : σ → Res (ℝ × σ)) (s : σ) : Res (ℝ × σ) := do
  let (unif01, s) ← unif s
  let dMin ← match limit with
    | some l => if l ≥ d.min then fpow l (-d.dim) else .ok d.minFractal
    | none => .ok d.minFractal
  let i ← fdiv (-1.0) d.dim
  let r ← fpow (d.dMax + unif01 * (dMin - d.dMax) * (1.0 - qu)) i
  .ok (r, s)

/-- `DrawFromLowerQuantile`, fractal.cpp lines 66-77. -/
noncomputable def drawFromLowerQuantile {σ : Type} (d : Fractal) (ql : ℝ)
    (unif : σ → Res (ℝ × σ)) (s : σ) : Res (ℝ × σ) := do
  let (unif01, s) ← unif s
  let i ← fdiv (-1.0) d.dim
  let r ← fpow (d.minFractal - unif01 * (d.minFractal - d.dMax) * ql) i
  .ok (r, s)

/-- `DrawFromMiddleQuantile`, fractal.cpp lines 79-91. -/
noncomputable def drawFromMiddleQuantile {σ : Type} (d : Fractal) (ql qu : ℝ)
    (unif : σ → Res (ℝ × σ)) (s : σ) : Res (ℝ × σ) := do
  let (unif01, s) ← unif s
  let i ← fdiv (-1.0) d.dim
  let r ← fpow (d.minFractal + (ql + unif01 * (qu - ql)) * (d.dMax - d.minFractal)) i
  .ok (r, s)

end Fractal

/-- The members of `GeneralDiscrete`, generaldiscrete.hpp lines 49-50. -/
structure GeneralDiscrete where
  hist : List ℝ
  cumHist : List ℝ

namespace GeneralDiscrete

/-- `NormalizeHist`, generaldiscrete.cpp lines 42-50. -/
noncomputable def normalizeHist (hist : List ℝ) : Res (List ℝ) := do
  let sum ← forRange 0 hist.length (fun i sum => do
    let h ← rd hist i
    .ok (sum + h)) 0.0
  forRange 0 hist.length (fun i (hist : List ℝ) => do
    let h ← rd hist i
    let q ← fdiv h sum
    wr hist i q) hist

/-- `MakeCumHist`, generaldiscrete.cpp lines 52-61. -/
noncomputable def makeCumHist (hist : List ℝ) : Res (List ℝ) := do
  let cum := List.replicate hist.length 0.0
  let (_, cum) ← forRange 0 hist.length (fun i (s : ℝ × List ℝ) => do
    let h ← rd hist i
    let sum := s.1 + h
    let cum ← wr s.2 i sum
    .ok (sum, cum)) (0.0, cum)
  .ok cum

/-- `GeneralDiscrete(hist)`, generaldiscrete.cpp lines 26-31. -/
noncomputable def create (hist : List ℝ) : Res GeneralDiscrete := do
  let hist ← normalizeHist hist
  let cum ← makeCumHist hist
  .ok ⟨hist, cum⟩

/-- `Pdf`, generaldiscrete.hpp line 39. A negative argument is an index out of range too. -/
def pdf (d : GeneralDiscrete) (i : ℤ) : Res ℝ :=
  if i < 0 then .ub "read out of range" else rd d.hist i.toNat

/-- `Cdf`, generaldiscrete.hpp line 40. -/
def cdf (d : GeneralDiscrete) (i : ℤ) : Res ℝ :=
  if i < 0 then .ub "read out of range" else rd d.cumHist i.toNat

/-- A round of the loop in generaldiscrete.hpp lines 58-60. -/
noncomputable def quantileRound (d : GeneralDiscrete) (p : ℝ) (i : ℕ) : Res (Option ℤ × ℕ) := do
  let c ← rd d.cumHist i
  .ok (if c < p then (none, i + 1) else (some i, i))

/-- `Quantile`, generaldiscrete.hpp lines 55-62. That `i` does not overflow is clear for arrays of less
than 2^31 elements; longer ones are not modelled. -/
noncomputable def quantile (d : GeneralDiscrete) (p : ℝ) : Res ℤ := do
  let r ← untilLoop (d.quantileRound p) 0
  .ok r.1

end GeneralDiscrete

end Verif
