import Verif.Model.Distr
import Verif.Model.Loop
import Mathlib.Analysis.SpecialFunctions.Pow.Real

/-!
# The incomplete gamma function and the chi-squared distribution

Models src/nrlib/random/gamma.cpp and chisquared.{hpp,cpp}. Doubles are real numbers. The
global variable `gln` is the value of `gammln` where it is used; that it keeps that value after the
call is left out.
-/

namespace Verif
namespace Gam

/-- `EPS`, gamma.cpp line 35: the distance from 1 to the next double. -/
noncomputable def EPS : ℝ := 1 / 2 ^ 52

/-- `FPMIN`, gamma.cpp line 36: the least normal double divided by `EPS`. -/
noncomputable def FPMIN : ℝ := 1 / 2 ^ 970

/-- The nodes `y`, gamma.cpp lines 39-45. -/
noncomputable def nodes : List ℝ := [0.0021695375159141994,
  0.011413521097787704, 0.027972308950302116, 0.051727015600492421,
  0.082502225484340941, 0.12007019910960293, 0.16415283300752470,
  0.21442376986779355, 0.27051082840644336, 0.33199876341447887,
  0.39843234186401943, 0.46931971407375483, 0.54413605556657973,
  0.62232745288031077, 0.70331500465597174, 0.78649910768313447,
  0.87126389619061517, 0.95698180152629142]

/-- The weights `w`, gamma.cpp lines 47-53. -/
noncomputable def weights : List ℝ := [0.0055657196642445571,
  0.012915947284065419, 0.020181515297735382, 0.027298621498568734,
  0.034213810770299537, 0.040875750923643261, 0.047235083490265582,
  0.053244713977759692, 0.058860144245324798, 0.064039797355015485,
  0.068745323835736408, 0.072941885005653087, 0.076598410645870640,
  0.079687828912071670, 0.082187266704339706, 0.084078218979661945,
  0.085346685739338721, 0.085983275670394821]

/-- The coefficients `cof`, gamma.cpp lines 63-67. -/
noncomputable def cof : List ℝ := [57.1562356658629235, -59.5979603554754912,
  14.1360979747417471, -0.491913816097620199, 0.339946499848118887e-4,
  0.465236289270485756e-4, -0.983744753048795646e-4, 0.158088703224912494e-3,
  -0.210264441724104883e-3, 0.217439618115212643e-3, -0.164318106536763890e-3,
  0.844182239838527433e-4, -0.261908384015814087e-4, 0.368991826595316234e-5]

/-- The loop of `gammln`, gamma.cpp lines 76-80. -/
noncomputable def serLoop : List ℝ → ℝ → ℝ → Res ℝ
  | [], _, ser => .ok ser
  | c :: cs, y, ser => do
    let y := y + 1
    let q ← fdiv c y
    serLoop cs y (ser + q)

/-- `gammln`, gamma.cpp lines 55-82. -/
noncomputable def gammln (xx : ℝ) : Res ℝ :=
  if xx ≤ 0 then .throws "Bad argument in gammln"
  else do
    let tmp := xx + 5.24218750000000000
    let l ← flog tmp
    let tmp := (xx + 0.5) * l - tmp
    let ser ← serLoop cof xx 0.999999999999997092
    let q ← fdiv (2.5066282746310005 * ser) xx
    let l2 ← flog q
    .ok (tmp + l2)

/-- A round of the loop of `gser`, gamma.cpp lines 110-117, with `ap`, `del` and `sum`. -/
noncomputable def gserRound (x : ℝ) (s : ℝ × ℝ × ℝ) : Res (Option ℝ × (ℝ × ℝ × ℝ)) := do
  let ap := s.1 + 1
  let q ← fdiv x ap
  let del := s.2.1 * q
  let sum := s.2.2 + del
  (if |del| < |sum| * EPS then .ok (some sum, (ap, del, sum)) else .ok (none, (ap, del, sum)) :
    Res (Option ℝ × (ℝ × ℝ × ℝ)))

/-- `gser`, gamma.cpp lines 99-118. -/
noncomputable def gser (a x : ℝ) : Res ℝ := do
  let gln ← gammln a
  let del ← fdiv 1 a
  let r ← untilLoop (gserRound x) (a, del, del)
  let l ← flog x
  .ok (r.1 * Real.exp (-x + a * l - gln))

/-- A number that is too close to zero is replaced, gamma.cpp lines 138-139 and 143-144. -/
noncomputable def away (d : ℝ) : ℝ := if |d| < FPMIN then FPMIN else d

/-- The variables of the loop of `gcf`. -/
structure Frac where
  i : ℕ
  b : ℝ
  c : ℝ
  d : ℝ
  h : ℝ

/-- A round of the loop of `gcf`, gamma.cpp lines 132-152. Counting beyond the range of `int` is
undefined. -/
noncomputable def gcfRound (a : ℝ) (s : Frac) : Res (Option ℝ × Frac) := do
  let an := -(s.i : ℝ) * (s.i - a)
  let b := s.b + 2
  let d := away (an * s.d + b)
  let q ← fdiv an s.c
  let c := away (b + q)
  let d ← fdiv 1 d
  let del := d * c
  let h := s.h * del
  (if |del - 1| ≤ EPS then .ok (some h, ⟨s.i, b, c, d, h⟩)
  else if s.i + 1 < 2 ^ 31 then .ok (none, ⟨s.i + 1, b, c, d, h⟩)
  else .ub "int overflow" : Res (Option ℝ × Frac))

/-- `gcf`, gamma.cpp lines 120-154. -/
noncomputable def gcf (a x : ℝ) : Res ℝ := do
  let gln ← gammln a
  let b := x + 1 - a
  let c ← fdiv 1 FPMIN
  let d ← fdiv 1 b
  let r ← untilLoop (gcfRound a) ⟨1, b, c, d, d⟩
  let l ← flog x
  .ok (Real.exp (-x + a * l - gln) * r.1)

/-- The loop of `gammpapprox`, gamma.cpp lines 178-182. The exponential function is an argument because
the one of doubles is zero below -746, which matters here. -/
noncomputable def quadLoop (ex : ℝ → ℝ) (a1 lna1 x xu : ℝ) : List (ℝ × ℝ) → ℝ → Res ℝ
  | [], sum => .ok sum
  | p :: ps, sum => do
    let t := x + (xu - x) * p.1
    let l ← flog t
    quadLoop ex a1 lna1 x xu ps (sum + p.2 * ex (-(t - a1) + a1 * (l - lna1)))

/-- `gammpapprox`, gamma.cpp lines 156-199, with the exponential function as an argument. -/
noncomputable def gammpapproxWith (ex : ℝ → ℝ) (a x : ℝ) (psig : ℤ) : Res ℝ := do
  let a1 := a - 1
  let lna1 ← flog a1
  let sqrta1 ← fsqrt a1
  let gln ← gammln a
  let xu := if x > a1 then max (a1 + 11.5 * sqrta1) (x + 6 * sqrta1)
    else max 0.0 (min (a1 - 7.5 * sqrta1) (x - 5 * sqrta1))
  let sum ← quadLoop ex a1 lna1 x xu (nodes.zip weights) 0
  let ans := sum * (xu - x) * ex (a1 * (lna1 - 1) - gln)
  (if psig = 1 then
    if ans > 0 then .ok (1 - ans) else .ok (-ans)
  else
    if ans ≥ 0 then .ok ans else .ok (1 + ans) : Res ℝ)

/-- `gammp`, gamma.cpp lines 84-97, with the exponential function of `gammpapprox` as an argument. -/
noncomputable def gammpWith (ex : ℝ → ℝ) (a x : ℝ) : Res ℝ :=
  if x < 0 ∨ a ≤ 0 then .throws "Bad arguments"
  else if x = 0 then .ok 0
  else if a ≥ 100 then gammpapproxWith ex a x 1
  else if x < a + 1 then gser a x
  else do
    let q ← gcf a x
    .ok (1 - q)

/-- `gammp` with the exponential function of real numbers. -/
noncomputable def gammp (a x : ℝ) : Res ℝ := gammpWith Real.exp a x

/-- The first guess of `invgammp` for `a > 1`, gamma.cpp lines 221-229. -/
noncomputable def invStart (p a : ℝ) : Res ℝ := do
  let pp := if p < 0.5 then p else 1.0 - p
  let l ← flog pp
  let t ← fsqrt (-2.0 * l)
  let q ← fdiv (2.30753 + t * 0.27061) (1. + t * (0.99229 + t * 0.04481))
  let x := q - t
  let x := if p < 0.5 then -x else x
  let u ← fdiv 1.0 (9.0 * a)
  let r ← fsqrt a
  let v ← fdiv x (3.0 * r)
  .ok (max 1.e-3 (a * (1.0 - u - v) ^ 3))

/-- The first guess of `invgammp` for `a ≤ 1`, gamma.cpp lines 233-237. -/
noncomputable def invStart1 (p a : ℝ) : Res ℝ := do
  let t := 1.0 - a * (0.253 + a * 0.12)
  if p < t then
    let q ← fdiv p t
    let e ← fdiv 1.0 a
    fpow q e
  else
    let q ← fdiv (p - t) (1.0 - t)
    let l ← flog (1.0 - q)
    .ok (1.0 - l)

/-- The density at `x`, gamma.cpp lines 244-247. -/
noncomputable def invDens (a a1 lna1 afac gln x : ℝ) : Res ℝ := do
  let l ← flog x
  (if a > 1.0 then .ok (afac * Real.exp (-(x - a1) + a1 * (l - lna1)))
  else .ok (Real.exp (-x + a1 * l - gln)) : Res ℝ)

/-- At most `n` rounds of the loop of `invgammp`, gamma.cpp lines 239-255. -/
noncomputable def invLoop (p a a1 lna1 afac gln : ℝ) : ℕ → ℝ → Res ℝ
  | 0, x => .ok x
  | n + 1, x =>
    if x ≤ 0.0 then .ok 0.0
    else do
      let g ← gammp a x
      let err := g - p
      let t ← invDens a a1 lna1 afac gln x
      let u ← fdiv err t
      let v ← fdiv (a - 1.0) x
      let t ← fdiv u (1.0 - 0.5 * min 1.0 (u * (v - 1)))
      let x := x - t
      let x := if x ≤ 0.0 then 0.5 * (x + t) else x
      if |t| < 1.e-8 * x then .ok x else invLoop p a a1 lna1 afac gln n x

/-- `invgammp`, gamma.cpp lines 201-256. -/
noncomputable def invgammp (p a : ℝ) : Res ℝ := do
  let a1 := a - 1
  let gln ← gammln a
  if a ≤ 0.0 then .throws "a must be positive in invgammap"
  else if p ≥ 1.0 then do
    let r ← fsqrt a
    .ok (max 100.0 (a + 100.0 * r))
  else if p ≤ 0.0 then .ok 0.0
  else if a > 1.0 then do
    let lna1 ← flog a1
    let afac := Real.exp (a1 * (lna1 - 1.0) - gln)
    let x ← invStart p a
    invLoop p a a1 lna1 afac gln 12 x
  else do
    let x ← invStart1 p a
    invLoop p a a1 0.0 0.0 gln 12 x

/-- `bico`, gamma.cpp lines 259-271. -/
noncomputable def bico (n k : ℤ) : Res ℝ :=
  if n < 0 ∨ k < 0 ∨ k > n then .throws "Bad args in bico"
  else if n = k ∨ k = 0 then .ok 1.0
  else do
    let u ← gammln (n + 1)
    let v ← gammln (k + 1)
    let w ← gammln (n - k + 1.0)
    .ok ⌊0.5 + Real.exp (u - v - w)⌋

/-- `ChiSquared`, chisquared.hpp lines 34-50. -/
structure ChiSquared where
  df : ℝ
  fac : ℝ

namespace ChiSquared

/-- The constructor, chisquared.cpp lines 27-34. -/
noncomputable def create (df : ℝ) : Res ChiSquared :=
  if df < 0 then .throws "Need degrees of freedom greater than 0."
  else do
    let g ← gammln (0.5 * df)
    .ok ⟨df, 0.693147180559945309 * (0.5 * df) + g⟩

/-- `Pdf`, chisquared.hpp lines 55-61. At zero the logarithm is minus infinity: the result is 0 for
more than two degrees of freedom, infinite for fewer and not a number for two. -/
noncomputable def pdf (d : ChiSquared) (x : ℝ) : Res ℝ :=
  if x < 0 then .ok 0.0
  else if x = 0 then
    if d.df > 2 then .ok 0 else .nonfinite "logarithm of zero"
  else do
    let l ← flog x
    .ok (Real.exp (-0.5 * (x - (d.df - 2) * l) - d.fac))

/-- `Cdf`, chisquared.hpp lines 64-70. -/
noncomputable def cdf (d : ChiSquared) (x : ℝ) : Res ℝ :=
  if x < 0 then .ok 0.0 else gammp (0.5 * d.df) (0.5 * x)

/-- `Quantile`, chisquared.hpp lines 73-78. The `assert` is no instruction, see `Model/Distr`. -/
noncomputable def quantile (d : ChiSquared) (q : ℝ) : Res ℝ := do
  let x ← invgammp q (0.5 * d.df)
  .ok (2 * x)

end ChiSquared

end Gam
end Verif
