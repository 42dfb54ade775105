import Verif.Model.Distr
import Verif.Model.Loop
import Mathlib.Analysis.SpecialFunctions.Gaussian.GaussianIntegral

/-!
# Normal and log-normal distributions

Models `Normal` and `LogNormal` of src/nrlib/random and the comparisons of src/nrlib/math/mathutility.hpp. Doubles
are real numbers, `NRLib::Pi`, `NRLib::Sqrt2` and `NRLib::Sqrt1_2` are the numbers they stand for. An `assert` is no
instruction (release build). The functions with and without a generator object differ in the generator only, which is
an argument here.
-/

namespace Verif

open Real

/-- `erfc`, functions.cpp lines 38-228 and 492-495: the complementary error function. The rational approximations
are taken to be exact. -/
noncomputable def erfc (z : ℝ) : ℝ := 2 / √π * ∫ t in Set.Ioi z, exp (-t ^ 2)

/-- `erfc_inv`, functions.cpp lines 231-483 and 524-546: the inverse of `erfc`. The rational approximations are taken
to be exact. -/
noncomputable def erfcInv (z : ℝ) : Res ℝ :=
  if z ≤ 0 ∨ z ≥ 2 then .throws "Parameter error in inverse complementary error function."
  else .ok (Function.invFun erfc z)

/-- `IsEqual`, mathutility.hpp lines 17-22. -/
def IsEqual (lhs rhs : ℝ) (tol : ℝ := 1.0e-6) : Prop :=
  |lhs - rhs| ≤ if |lhs| < 1.0 then tol else |lhs| * tol

/-- `IsZero`, mathutility.hpp lines 27-29. -/
def IsZero (a : ℝ) (tol : ℝ := 1.0e-6) : Prop := IsEqual a 0.0 tol

/-- The members of `Normal`, normal.hpp lines 68-69. -/
structure NormalD where
  mean : ℝ
  stdDev : ℝ

namespace NormalD

/-- `Normal()`, normal.cpp lines 30-32. -/
def default : NormalD := ⟨0.0, 1.0⟩

/-- `SetParameters`, normal.hpp lines 96-99. -/
def setParameters (_ : NormalD) (mean stdDev : ℝ) : NormalD := ⟨mean, stdDev⟩

/-- `Pdf`, normal.hpp lines 102-105. -/
noncomputable def pdf (d : NormalD) (x : ℝ) : Res ℝ := do
  let var := d.stdDev * d.stdDev
  let q ← fdiv (-(x - d.mean) * (x - d.mean)) (2.0 * var)
  let r ← fsqrt (2.0 * π * var)
  fdiv (exp q) r

/-- `Cdf`, normal.hpp lines 108-111. -/
noncomputable def cdf (d : NormalD) (x : ℝ) : Res ℝ := do
  let z ← fdiv (x - d.mean) d.stdDev
  .ok (erfc (-z * √(1 / 2)) / 2.0)

/-- `Quantile`, normal.hpp lines 114-117. -/
noncomputable def quantile (d : NormalD) (p : ℝ) : Res ℝ := do
  let e ← erfcInv (2 * p)
  .ok (d.mean + d.stdDev * √2 * (-e))

/-- `Quantile01`, normal.hpp lines 176-180. -/
noncomputable def quantile01 (p : ℝ) : Res ℝ := do
  let e ← erfcInv (2 * p)
  .ok (√2 * (-e))

/-- `Draw`, normal.hpp lines 120-130; `norm01` is `Norm01` of the generator. -/
def draw {σ : Type} (d : NormalD) (norm01 : σ → Res (ℝ × σ)) (s : σ) : Res (ℝ × σ) := do
  let (z, s) ← norm01 s
  .ok (d.mean + d.stdDev * z, s)

/-- `Potential`, normal.hpp lines 133-138. -/
noncomputable def potential (d : NormalD) (x : ℝ) : Res ℝ := do
  let var := d.stdDev * d.stdDev
  let y := x - d.mean
  let l ← flog (2.0 * π * var)
  let q ← fdiv (y * y) var
  .ok (0.5 * (l + q))

open Classical in
/-- `PotentialTwoSidedTruncated`, normal.hpp lines 141-151. -/
noncomputable def potentialTwoSidedTruncated (d : NormalD) (x min max : ℝ) : Res ℝ := do
  let b ← d.cdf max
  let a ← d.cdf min
  let scale := b - a
  if ¬ IsZero scale then do
    let v ← d.potential x
    let l ← flog scale
    .ok (v + l)
  else do
    let v ← d.potential x
    let l ← flog (max - min)
    .ok (v + l)

/-- `PotentialLowerTruncated`, normal.hpp lines 165-173. -/
noncomputable def potentialLowerTruncated (d : NormalD) (x min : ℝ) : Res ℝ := do
  let a ← d.cdf min
  let scale := 1.0 - a
  let v ← d.potential x
  if scale > 0.0 then do
    let l ← flog scale
    .ok (v + l)
  else .ok v

/-- `PotentialZeroTruncated`, normal.hpp lines 154-162. -/
noncomputable def potentialZeroTruncated (d : NormalD) (x : ℝ) : Res ℝ := do
  let a ← d.cdf 0.0
  let scale := 1.0 - a
  let v ← d.potential x
  if scale > 0.0 then do
    let l ← flog scale
    .ok (v + l)
  else .ok v

/-- One turn of normal.cpp lines 62-66; the state is `step`, `lower_limit` and `upper_limit`. -/
noncomputable def upStep (d : NormalD) (y : ℝ) (s : ℝ × ℝ × ℝ) : Res (Option (ℝ × ℝ) × ℝ × ℝ × ℝ) := do
  let c ← d.cdf s.2.2
  if c < y then .ok (none, s.1 * 10.0, s.2.2, d.mean + s.1 * 10.0)
  else .ok (some (s.2.1, s.2.2), s)

/-- One turn of normal.cpp lines 72-76; the state is `step`, `lower_limit` and `upper_limit`. -/
noncomputable def downStep (d : NormalD) (y : ℝ) (s : ℝ × ℝ × ℝ) : Res (Option (ℝ × ℝ) × ℝ × ℝ × ℝ) := do
  let c ← d.cdf s.2.1
  if c > y then .ok (none, s.1 * 10.0, d.mean - s.1 * 10.0, s.2.1)
  else .ok (some (s.2.1, s.2.2), s)

/-- The variables of the loop of `RootPHI`, normal.cpp lines 138-152. -/
structure Root where
  xl : ℝ
  xh : ℝ
  rts : ℝ
  dxold : ℝ
  dx : ℝ
  f : ℝ
  df : ℝ

/-- The bisection step and the Newton step, normal.cpp lines 155-170: the new `rts` and `dx`, and whether the function
returns. -/
noncomputable def rootMove (s : Root) : Res (ℝ × ℝ × Bool) :=
  if ((s.rts - s.xh) * s.df - s.f) * ((s.rts - s.xl) * s.df - s.f) ≥ 0.0 ∨
      |2.0 * s.f| > |s.dxold * s.df| then
    let dx := 0.5 * (s.xh - s.xl)
    let rts := s.xl + dx
    .ok (rts, dx, decide (s.xl = rts))
  else do
    let dx ← fdiv s.f s.df
    let rts := s.rts - dx
    .ok (rts, dx, decide (s.rts = rts))

open Classical in
/-- The loop of `RootPHI`, normal.cpp lines 154-180, with the number of rounds that are left. -/
noncomputable def rootLoop (d : NormalD) (xacc y : ℝ) : ℕ → Root → Res ℝ
  | 0, _ => .throws "Maximum number of iterations exceeded in NRLib::Normal::RootPHI"
  | n + 1, s => do
    let m ← rootMove s
    if m.2.2 then .ok m.1
    else if IsZero m.2.1 xacc then .ok m.1
    else do
      let c ← d.cdf m.1
      let df ← d.pdf m.1
      if c - y < 0.0 then rootLoop d xacc y n ⟨m.1, s.xh, m.1, s.dx, m.2.1, c - y, df⟩
      else rootLoop d xacc y n ⟨s.xl, m.1, m.1, s.dx, m.2.1, c - y, df⟩

open Classical in
/-- `RootPHI`, normal.cpp lines 121-181. -/
noncomputable def rootPhi (d : NormalD) (lower upper xacc : ℝ) (maxIt : ℕ) (y : ℝ) : Res ℝ := do
  let cl ← d.cdf lower
  let ch ← d.cdf upper
  let fl := cl - y
  let fh := ch - y
  if IsZero fl then .ok lower
  else if IsZero fh then .ok upper
  else if fl * fh ≥ 0.0 then .throws "Root must be bracketed in NRLib::Normal::RootPHI"
  else do
    let rts := 0.5 * (lower + upper)
    let c ← d.cdf rts
    let df ← d.pdf rts
    let dx := |upper - lower|
    if fl < 0.0 then rootLoop d xacc y maxIt ⟨lower, upper, rts, dx, dx, c - y, df⟩
    else rootLoop d xacc y maxIt ⟨upper, lower, rts, dx, dx, c - y, df⟩

open Classical in
/-- The part of `PhiInverse` after the search for limits, normal.cpp lines 81-87. -/
noncomputable def phiBetween (d : NormalD) (y lower upper : ℝ) : Res ℝ := do
  let cu ← d.cdf upper
  if IsEqual cu y then .ok upper
  else do
    let cl ← d.cdf lower
    if IsEqual cl y then .ok lower
    else d.rootPhi lower upper 1.0e-10 1000 y

/-- `PhiInverse`, normal.cpp lines 47-88. `exp(1000.0)` is not finite. -/
noncomputable def phiInverse (d : NormalD) (y : ℝ) : Res ℝ :=
  if y < 0.0 ∨ y > 1.0 then .throws "y in PhiInverse must be in [0,1]\n"
  else if y = 0.0 then .nonfinite "- exp(1000.0)"
  else if y = 1.0 then .nonfinite "exp(1000.0)"
  else if y > 0.5 then do
    let (l, _) ← untilLoop (d.upStep y) (d.stdDev, d.mean, d.mean + d.stdDev)
    d.phiBetween y l.1 l.2
  else if y < 0.5 then do
    let (l, _) ← untilLoop (d.downStep y) (d.stdDev, d.mean - d.stdDev, d.mean)
    d.phiBetween y l.1 l.2
  else .ok d.mean

/-- The loop of `DrawLowerTruncatedAcceptReject`, normal.cpp lines 313-327, with the number of attempts that are left;
`none` is `!ok` after the loop. -/
noncomputable def lowerLoop {σ : Type} (unif : σ → Res (ℝ × σ)) (mu sigma lower phiLower phiUpper : ℝ) :
    ℕ → ℝ → σ → Res (Option ℝ × σ)
  | 0, _, s => .ok (none, s)
  | n + 1, ordinate, s => do
    let z ← (NormalD.mk 0 1).phiInverse ordinate
    let out := z * sigma + mu
    if out < lower then do
      let (u, s) ← unif s
      lowerLoop unif mu sigma lower phiLower phiUpper n (phiLower + u * (phiUpper - phiLower)) s
    else .ok (some out, s)

open Classical in
/-- `DrawLowerTruncatedAcceptReject`, normal.cpp lines 289-341; `unif` is `Unif01Open` of the generator. -/
noncomputable def lowerAcceptReject {σ : Type} (unif : σ → Res (ℝ × σ)) (mu sigma lower : ℝ) (s : σ) :
    Res (ℝ × σ) := do
  let xL ← fdiv (lower - mu) sigma
  let phiLower ← (NormalD.mk 0 1).cdf xL
  let phiUpper : ℝ := 1.0
  let (u, s) ← unif s
  if IsEqual phiUpper phiLower then .ok (lower, s)
  else do
    let (out, s) ← lowerLoop unif mu sigma lower phiLower phiUpper 99999 (phiLower + u * (phiUpper - phiLower)) s
    match out with
    | some out => .ok (out, s)
    | none => do
      let p ← (NormalD.mk 0 1).pdf xL
      let t ← fdiv (sigma * p) (phiUpper - phiLower)
      let tm := mu + t
      let (u, s) ← unif s
      .ok (lower + u * 2 * (tm - lower), s)

open Classical in
/-- `DrawLowerTruncated`, normal.cpp lines 184-210. -/
noncomputable def drawLowerTruncated {σ : Type} (d : NormalD) (unif : σ → Res (ℝ × σ)) (lower : ℝ) (s : σ) :
    Res (ℝ × σ) :=
  if IsZero d.stdDev then
    if d.mean ≥ lower then .ok (d.mean, s)
    else .throws "Cannot draw from a truncated distribution with zero variance"
  else lowerAcceptReject unif d.mean d.stdDev lower s

open Classical in
/-- `DrawUpperTruncated`, normal.cpp lines 213-244. -/
noncomputable def drawUpperTruncated {σ : Type} (d : NormalD) (unif : σ → Res (ℝ × σ)) (upper : ℝ) (s : σ) :
    Res (ℝ × σ) :=
  if IsZero d.stdDev then
    if d.mean ≤ upper then .ok (d.mean, s)
    else .throws "Cannot draw from a truncated distribution with zero variance"
  else do
    let (out, s) ← lowerAcceptReject unif d.mean d.stdDev (2 * d.mean - upper) s
    .ok (2 * d.mean - out, s)

/-- The loop of `DrawTwoSidedTruncatedAcceptReject`, normal.cpp lines 369-388, with the number of attempts that are
left; `none` is `attempts == max_attempts` after the loop. -/
noncomputable def twoSidedLoop {σ : Type} (unif : σ → Res (ℝ × σ)) (mu sigma lower upper phiLower phiUpper : ℝ) :
    ℕ → ℝ → σ → Res (Option ℝ × σ)
  | 0, _, s => .ok (none, s)
  | n + 1, ordinate, s => do
    let out ← (if ordinate = 1.0 then .ok upper else do
      let z ← (NormalD.mk 0 1).phiInverse ordinate
      .ok (z * sigma + mu) : Res ℝ)
    if out < lower ∨ out > upper then do
      let (u, s) ← unif s
      twoSidedLoop unif mu sigma lower upper phiLower phiUpper n (phiLower + u * (phiUpper - phiLower)) s
    else .ok (some out, s)

open Classical in
/-- `DrawTwoSidedTruncatedAcceptReject`, normal.cpp lines 343-395; `unif` is `Unif01Open` of the generator. -/
noncomputable def twoSidedAcceptReject {σ : Type} (unif : σ → Res (ℝ × σ)) (mu sigma lower upper : ℝ) (s : σ) :
    Res (ℝ × σ) := do
  let xL ← fdiv (lower - mu) sigma
  let xU ← fdiv (upper - mu) sigma
  let phiLower ← (NormalD.mk 0 1).cdf xL
  let phiUpper ← (NormalD.mk 0 1).cdf xU
  let (u, s) ← unif s
  if IsEqual phiUpper phiLower then .ok ((upper + lower) / 2.0, s)
  else do
    let (out, s) ← twoSidedLoop unif mu sigma lower upper phiLower phiUpper 99999
      (phiLower + u * (phiUpper - phiLower)) s
    match out with
    | some out => .ok (out, s)
    | none => .ok ((upper + lower) / 2.0, s)

open Classical in
/-- `DrawTwoSidedTruncated`, normal.cpp lines 247-286. -/
noncomputable def drawTwoSidedTruncated {σ : Type} (d : NormalD) (unif : σ → Res (ℝ × σ)) (lower upper : ℝ) (s : σ) :
    Res (ℝ × σ) :=
  if lower > upper then .throws "Wrong input to truncated normal, should have min <= max)."
  else if IsZero d.stdDev then
    if lower ≤ d.mean ∧ d.mean ≤ upper then .ok (d.mean, s)
    else .throws "Can not draw from a truncated distribution with zero variance"
  else twoSidedAcceptReject unif d.mean d.stdDev lower upper s

end NormalD

/-- The members of `LogNormal`, lognormal.hpp lines 54-58. `exp_` and `std_dev_` are written and never read. -/
structure LogNormalD where
  normal : NormalD
  mu : ℝ
  sigma : ℝ
  expected : ℝ
  stdDev : ℝ

namespace LogNormalD

/-- `LogNormal()`, lognormal.cpp lines 31-38. -/
noncomputable def default : LogNormalD :=
  ⟨NormalD.default, 0.0, 0.0, exp 0.5, √((exp 1.0 - 1.0) * exp 1.0)⟩

/-- `LogNormal(mu, sigma)`, lognormal.cpp lines 40-47. -/
noncomputable def create (mu sigma : ℝ) : LogNormalD :=
  ⟨⟨mu, sigma⟩, mu, sigma, exp (mu + 0.5 * sigma * sigma),
    √((exp (sigma * sigma) - 1.0) * exp (2.0 * mu + sigma * sigma))⟩

/-- `SetParameters`, lognormal.hpp lines 61-70. -/
noncomputable def setParameters (d : LogNormalD) (mu sigma : ℝ) : LogNormalD :=
  ⟨d.normal.setParameters d.mu d.sigma, mu, sigma, exp (mu + 0.5 * sigma * sigma),
    √((exp (sigma * sigma) - 1.0) * exp (2.0 * mu + sigma * sigma))⟩

/-- `Draw`, lognormal.hpp lines 72-82; `norm01` is `Norm01` of the generator. -/
noncomputable def draw {σ : Type} (d : LogNormalD) (norm01 : σ → Res (ℝ × σ)) (s : σ) : Res (ℝ × σ) := do
  let (z, s) ← d.normal.draw norm01 s
  .ok (exp z, s)

/-- `Pdf`, lognormal.hpp lines 84-87. -/
noncomputable def pdf (d : LogNormalD) (x : ℝ) : Res ℝ := do
  let var := d.sigma * d.sigma
  let l ← flog x
  let q ← fdiv (-(l - d.mu) * (l - d.mu)) (2.0 * var)
  fdiv (exp q) (√(2.0 * π) * d.sigma * x)

/-- `Cdf`, lognormal.hpp lines 89-92. -/
noncomputable def cdf (d : LogNormalD) (x : ℝ) : Res ℝ := do
  let l ← flog x
  let z ← fdiv (l - d.mu) d.sigma
  .ok (erfc (-z * √(1 / 2)) / 2.0)

/-- `Quantile`, lognormal.hpp lines 94-97. -/
noncomputable def quantile (d : LogNormalD) (p : ℝ) : Res ℝ := do
  let e ← erfcInv (2 * p)
  .ok (exp (d.mu + d.sigma * √2 * (-e)))

end LogNormalD

end Verif
