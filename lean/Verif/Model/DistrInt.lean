import Verif.Model.Distr
import Verif.Model.CovLookup
import Verif.Model.Loop

/-!
# Distributions of integers

`Binomial` and `Poisson` of `nrlib/random`. The functions `bico` (binomial coefficient) and `gammp`
(incomplete gamma function) of gamma.cpp are arguments: their values come from series whose accuracy is not
modelled.
-/

namespace Verif

open CovTable (int32 rdInt wrInt)

/-- The members of `Binomial`, binomial.hpp lines 47-49. -/
structure Binomial where
  n : ℤ
  p : ℝ
  cdfTable : List ℝ

namespace Binomial

/-- `Pdf`, binomial.cpp lines 54-71. -/
noncomputable def pdfOf (bico : ℤ → ℤ → Res ℝ) (n : ℤ) (p : ℝ) (x : ℤ) : Res ℝ :=
  if x < 0 ∨ x > n then .ok 0.0
  else if p = 1.0 ∧ x = n then .ok 1.0
  else if p = 0.0 ∧ x = 0 then .ok 1.0
  else if p = 1.0 ∧ x < n then .ok 0.0
  else if p = 0.0 ∧ x > 0 then .ok 0.0
  else do
    let c ← bico n x
    let l ← flog p
    let l' ← flog (1.0 - p)
    .ok (c * Real.exp (x * l + (n - x) * l'))

/-- `Pdf` of an object. -/
noncomputable def pdf (bico : ℤ → ℤ → Res ℝ) (d : Binomial) (x : ℤ) : Res ℝ := pdfOf bico d.n d.p x

/-- A round of the loop in binomial.cpp lines 37-38. -/
noncomputable def createRound (bico : ℤ → ℤ → Res ℝ) (n : ℤ) (p : ℝ) (i : ℕ) (cdf : List ℝ) :
    Res (List ℝ) := do
  let c ← rdInt cdf (i - 1)
  let f ← pdfOf bico n p i
  wrInt cdf i (c + f)

/-- `Binomial(n, p)`, binomial.cpp lines 29-40. A negative size is an exception. -/
noncomputable def create (bico : ℤ → ℤ → Res ℝ) (n : ℤ) (p : ℝ) : Res Binomial := do
  let m ← int32 (n + 1)
  if m < 0 then .throws "length_error"
  else do
    let cdf := List.replicate m.toNat 0.0
    let f ← pdfOf bico n p 0
    let cdf ← wrInt cdf 0 f
    let cdf ← forRange 1 m.toNat (createRound bico n p) cdf
    .ok ⟨n, p, cdf⟩

/-- `Cdf`, binomial.cpp lines 74-82. -/
noncomputable def cdf (d : Binomial) (x : ℤ) : Res ℝ :=
  if x < 0 then .ok 0.0
  else if x > d.n then .ok 1.0
  else rdInt d.cdfTable x

/-- A round of the loop in binomial.cpp lines 93-101. The state is `(low, high)`. -/
noncomputable def quantileRound (d : Binomial) (q : ℝ) (s : ℤ × ℤ) : Res (Option Unit × ℤ × ℤ) :=
  if s.2 - s.1 > 1 then do
    let t ← int32 (s.2 + s.1)
    let middle := t >>> 1
    let c ← rdInt d.cdfTable middle
    .ok (none, if c ≤ q then (middle, s.2) else (s.1, middle))
  else .ok (some (), s)

/-- `Quantile`, binomial.cpp lines 85-110. -/
noncomputable def quantile (d : Binomial) (q : ℝ) : Res ℤ := do
  let (_, low, high) ← untilLoop (d.quantileRound q) (0, d.n)
  if high = low then .ok low
  else do
    let ch ← rdInt d.cdfTable high
    if ch > q then do
      let cl ← rdInt d.cdfTable low
      .ok (if cl ≤ q then high else low)
    else .ok low

end Binomial

/-- The members of `Poisson`, poisson.hpp lines 48-54. A member that may be infinite or NaN keeps this
outcome until it is used. -/
structure Poisson where
  lambda : ℝ
  expMean : ℝ
  smu : Res ℝ
  a : Res ℝ
  b : Res ℝ
  invAlpha : Res ℝ
  vr : Res ℝ

namespace Poisson

/-- `poisson_table`, poisson.cpp lines 29-39. -/
noncomputable def table : List ℝ := [0.0, 0.0, 0.69314718055994529, 1.7917594692280550, 3.1780538303479458,
  4.7874917427820458, 6.5792512120101012, 8.5251613610654147, 10.604602902745251, 12.801827480081469]

/-- `Poisson(lambda)`, poisson.cpp lines 42-53. -/
noncomputable def create (lambda : ℝ) : Poisson where
  lambda := lambda
  expMean := Real.exp (-lambda)
  smu := fsqrt lambda
  b := do
    let s ← fsqrt lambda
    .ok (0.931 + 2.53 * s)
  a := do
    let s ← fsqrt lambda
    .ok (-0.059 + 0.02483 * (0.931 + 2.53 * s))
  invAlpha := do
    let s ← fsqrt lambda
    let q ← fdiv 1.1328 (0.931 + 2.53 * s - 3.4)
    .ok (1.1239 + q)
  vr := do
    let s ← fsqrt lambda
    let q ← fdiv 3.6224 (0.931 + 2.53 * s - 2)
    .ok (0.9277 - q)

/-- A round of the loops in poisson.cpp lines 71-74 and 84-87. The state is `(i, x_fac)`. -/
def facRound (x : ℤ) (s : ℤ × ℤ) : Res (Option Unit × ℤ × ℤ) :=
  if s.1 < x then do
    let i ← int32 (s.1 + 1)
    let f ← int32 (s.2 * i)
    .ok (none, i, f)
  else .ok (some (), s)

/-- The factorial of poisson.cpp lines 69-74 and 82-87. -/
noncomputable def fac (x : ℤ) : Res ℤ := do
  let (_, _, f) ← untilLoop (facRound x) (1, 1)
  .ok f

/-- `Pdf`, poisson.cpp lines 67-77. -/
noncomputable def pdf (d : Poisson) (x : ℤ) : Res ℝ := do
  let f ← fac x
  let l ← flog d.lambda
  fdiv (Real.exp (x * l - d.lambda)) f

/-- `Cdf`, poisson.cpp lines 80-92. -/
noncomputable def cdf (gammp : ℝ → ℝ → Res ℝ) (d : Poisson) (x : ℤ) : Res ℝ := do
  let f ← fac x
  let x1 : ℝ := x + 1.0
  let g ← gammp x1 d.lambda
  fdiv g f

/-- A round of the loop in poisson.cpp lines 99-100. -/
noncomputable def quantileRound (gammp : ℝ → ℝ → Res ℝ) (d : Poisson) (q : ℝ) (i : ℤ) :
    Res (Option ℤ × ℤ) := do
  let c ← d.cdf gammp i
  if c < q then do
    let i ← int32 (i + 1)
    .ok (none, i)
  else .ok (some i, i)

/-- `Quantile`, poisson.cpp lines 95-102. -/
noncomputable def quantile (gammp : ℝ → ℝ → Res ℝ) (d : Poisson) (q : ℝ) : Res ℤ := do
  let r ← untilLoop (d.quantileRound gammp q) 0
  .ok r.1

/-- A round of the loop in poisson.cpp lines 113-117 (and 177-181). The state is `(u, p, x)`. The
increment of `x` is not checked for overflow: for uniform numbers that are multiples of 2^-52 there are
fewer than 70 rounds, which is a theorem. -/
noncomputable def drawRound (lambda : ℝ) (s : ℝ × ℝ × ℤ) : Res (Option ℤ × ℝ × ℝ × ℤ) :=
  if s.1 > s.2.1 then do
    let x := s.2.2 + 1
    let p ← fdiv (lambda * s.2.1) x
    .ok (none, s.1 - s.2.1, p, x)
  else .ok (some s.2.2, s)

/-- `static_cast<int>(floor(x))`. -/
noncomputable def floorInt (x : ℝ) : Res ℤ := int32 ⌊x⌋

/-- A round of the loop in poisson.cpp lines 122-164 (and 186-228). -/
noncomputable def ptrsRound {σ : Type} (d : Poisson) (unif : σ → Res (ℝ × σ)) (s : σ) :
    Res (Option ℤ × σ) := do
  let (v, s) ← unif s
  let vr ← d.vr
  let a ← d.a
  let b ← d.b
  if v ≤ 0.86 * vr then do
    let q ← fdiv v vr
    let u := q - 0.43
    let t ← fdiv (2 * a) (0.5 - |u|)
    let k ← floorInt ((t + b) * u + d.lambda + 0.445)
    .ok (some k, s)
  else do
    let (u, v, s) ← if v ≥ vr then do
        let (w, s) ← unif s
        .ok (w - 0.5, v, s)
      else do
        let q ← fdiv v vr
        let u := q - 0.93
        let u := (if u < 0 then -0.5 else 0.5) - u
        let (w, s) ← unif s
        .ok (u, w * vr, s)
    let us := 0.5 - |u|
    if us < 0.013 ∧ v > us then .ok (none, s)
    else do
      let t ← fdiv (2 * a) us
      let k : ℤ := ⌊(t + b) * u + d.lambda + 0.445⌋
      let ia ← d.invAlpha
      let t ← fdiv a (us * us)
      let v ← fdiv (v * ia) (t + b)
      if k ≥ 10 then do
        let smu ← d.smu
        let l ← flog (v * smu)
        let l' ← flog (d.lambda / k)
        if l ≤ (k + 0.5) * l' - d.lambda - 0.91893853320467267 + k
            - (1 / 12 - (1 / 360 - 1 / (1260 * k * k)) / (k * k)) / k then do
          let k ← int32 k
          .ok (some k, s)
        else .ok (none, s)
      else if k ≥ 0 then do
        let l ← flog v
        let l' ← flog d.lambda
        let c ← rdInt table k
        if l ≤ k * l' - d.lambda - c then .ok (some k, s) else .ok (none, s)
      else .ok (none, s)

/-- `Draw`, poisson.cpp lines 106-166 (and 170-230 for a generator object). -/
noncomputable def draw {σ : Type} (d : Poisson) (unif : σ → Res (ℝ × σ)) (s : σ) : Res (ℤ × σ) :=
  if d.lambda < 10 then do
    let (u, s) ← unif s
    let r ← untilLoop (drawRound d.lambda) (u, d.expMean, 0)
    .ok (r.1, s)
  else untilLoop (d.ptrsRound unif) s

end Poisson

end Verif
