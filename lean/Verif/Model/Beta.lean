import Verif.Model.Distr
import Verif.Model.Loop
import Verif.Model.CovLookup
import Verif.Model.Surface

/-!
# The beta distribution, and the beta distribution with mass at the ends

Models src/nrlib/random/beta.{hpp,cpp} and betawithendmass.{hpp,cpp}. Doubles are real numbers. Assertions are not
compiled. Objects of the default constructors, whose members have no values, are not modelled.
-/

namespace Verif

open Real CovTable

/-- The members of `Beta`, beta.hpp lines 49-60. -/
structure BetaD where
  minVal : ℝ
  maxVal : ℝ
  a : ℝ
  b : ℝ
  nx : ℕ
  dx : ℝ
  pdfTable : List ℝ
  cdfTable : List ℝ
  quantileTable : List ℝ

namespace BetaD

/-- The first loop of `ComputePdfAndCdf`, beta.cpp lines 73-79, one turn: `log_pdf` and `max_log_pdf`. -/
noncomputable def logStep (a b : ℝ) (nx : ℕ) (i : ℕ) (s : List ℝ × ℝ) : Res (List ℝ × ℝ) := do
  let x ← fdiv (i + 0.5) nx
  let l ← flog x
  let l' ← flog (1 - x)
  let v := (a - 1.0) * l + (b - 1.0) * l'
  let log_pdf ← wr s.1 i v
  .ok (log_pdf, if v > s.2 then v else s.2)

/-- The second loop, beta.cpp lines 82-85, one turn: `pdf_` and `normF`. -/
noncomputable def expStep (log_pdf : List ℝ) (max_log_pdf : ℝ) (i : ℕ) (s : List ℝ × ℝ) : Res (List ℝ × ℝ) := do
  let v ← rd log_pdf i
  let e := exp (v - max_log_pdf)
  let pdf ← wr s.1 i e
  .ok (pdf, s.2 + e)

/-- The third loop, beta.cpp lines 93-97, one turn: `pdf_` and `cdf_`. -/
def cumStep (invCdfNormF invPdfNormF : ℝ) (i : ℕ) (s : List ℝ × List ℝ) : Res (List ℝ × List ℝ) := do
  let c ← rd s.2 (i - 1)
  let p ← rd s.1 i
  let cdf ← wr s.2 i (c + p * invCdfNormF)
  let pdf ← wr s.1 i (p * invPdfNormF)
  .ok (pdf, cdf)

/-- `ComputePdfAndCdf`, beta.cpp lines 63-98: `pdf_` and `cdf_`. -/
noncomputable def computePdfAndCdf (a b : ℝ) (nx : ℕ) (dx : ℝ) : Res (List ℝ × List ℝ) := do
  let (log_pdf, max_log_pdf) ← forRange 0 nx (logStep a b nx) (List.replicate nx 0.0, -1e+30)
  let (pdf, normF) ← forRange 0 nx (expStep log_pdf max_log_pdf) (List.replicate nx 0.0, 0.0)
  let invCdfNormF ← fdiv 1.0 normF
  let invPdfNormF ← fdiv 1.0 (normF * dx)
  let p ← rd pdf 0
  let cdf ← wr (List.replicate nx 0.0) 0 (p * invCdfNormF)
  let pdf ← wr pdf 0 (p * invPdfNormF)
  forRange 1 nx (cumStep invCdfNormF invPdfNormF) (pdf, cdf)

/-- The search in `ComputeQuantile`, beta.cpp lines 115-116, one turn. -/
noncomputable def searchStep (cdf : List ℝ) (nx : ℕ) (target : ℝ) (k : ℕ) : Res (Option Unit × ℕ) := do
  let c ← rd cdf k
  if c < target ∧ k + 1 < nx then .ok (none, k + 1) else .ok (some (), k)

/-- The variables of `ComputeQuantile`, beta.cpp lines 104-111, and `quantile_`. -/
structure Quant where
  k : ℕ
  lowX : ℝ
  lowP : ℝ
  table : List ℝ

/-- The loop of `ComputeQuantile`, beta.cpp lines 113-134, one turn. -/
noncomputable def quantStep (minVal dx dp : ℝ) (nx : ℕ) (cdf : List ℝ) (i : ℕ) (s : Quant) : Res Quant := do
  let (_, k) ← untilLoop (searchStep cdf nx (dp * (i + 1))) s.k
  let (lowP, lowX) ← (if k > 0 then do
      let c ← rd cdf (k - 1)
      .ok (c, minVal + k * dx)
    else .ok (s.lowP, s.lowX) : Res (ℝ × ℝ))
  let k := if k ≥ nx then nx - 1 else k
  let highP ← rd cdf k
  let highX := minVal + (k + 1) * dx
  let w ← (if highP ≤ lowP then .ok 1.0 else fdiv (dp * (i + 1) - lowP) (highP - lowP) : Res ℝ)
  let table ← wr s.table i ((1 - w) * lowX + w * highX)
  .ok ⟨k, lowX, lowP, table⟩

/-- `ComputeQuantile`, beta.cpp lines 101-135. -/
noncomputable def computeQuantile (minVal dx : ℝ) (nx : ℕ) (cdf : List ℝ) : Res (List ℝ) := do
  let dp ← fdiv 1.0 nx
  let s ← forRange 0 nx (quantStep minVal dx dp nx cdf) ⟨0, minVal, 0.0, List.replicate nx 0.0⟩
  .ok s.table

/-- `Beta(min_val, max_val, a, b, nx)`, beta.cpp lines 29-47; a vector cannot get a negative size. -/
noncomputable def create (minVal maxVal a b : ℝ) (nx : ℤ) : Res BetaD :=
  if nx < 0 then .throws "vector::_M_default_append" else do
  let n := nx.toNat
  let dx ← fdiv (maxVal - minVal) n
  let (pdf, cdf) ← computePdfAndCdf a b n dx
  let q ← computeQuantile minVal dx n cdf
  .ok ⟨minVal, maxVal, a, b, n, dx, pdf, cdf, q⟩

/-- `Pdf`, beta.hpp lines 66-76. -/
noncomputable def pdf (d : BetaD) (x : ℝ) : Res ℝ := do
  let t ← fdiv (x - d.minVal) (d.maxVal - d.minVal)
  let ix ← toInt32 (truncZ (t * d.nx - 0.5))
  if x ≥ d.minVal ∧ x ≤ d.maxVal then rdInt d.pdfTable ix else .ok 0.0

/-- `Cdf`, beta.hpp lines 78-107. -/
noncomputable def cdf (d : BetaD) (x : ℝ) : Res ℝ := do
  let t ← fdiv (x - d.minVal) d.dx
  let ix ← toInt32 (truncZ t)
  if x ≤ d.minVal then .ok 0.0
  else if x ≥ d.maxVal then .ok 1.0
  else do
    let lowP ← (if ix = 0 then .ok 0.0 else rdInt d.cdfTable (ix - 1) : Res ℝ)
    let highP ← rdInt d.cdfTable ix
    let w := t - ix
    .ok ((1 - w) * lowP + w * highP)

/-- `Quantile`, beta.hpp lines 109-140. -/
noncomputable def quantile (d : BetaD) (p : ℝ) : Res ℝ := do
  let ip ← toInt32 (truncZ (p * d.nx))
  if p ≤ 0 then .ok d.minVal
  else if p ≥ 1.0 then .ok d.maxVal
  else do
    let lowX ← (if ip = 0 then .ok d.minVal else rdInt d.quantileTable (ip - 1) : Res ℝ)
    let highX ← rdInt d.quantileTable ip
    let w := p * d.nx - ip
    .ok ((1 - w) * lowX + w * highX)

/-- `Draw`, which `Beta` inherits. -/
noncomputable def draw {σ : Type} (d : BetaD) (unif : σ → Res (ℝ × σ)) (s : σ) : Res (ℝ × σ) :=
  drawQuantile d.quantile unif s

end BetaD

/-- The members of `BetaWithEndMass`, betawithendmass.hpp lines 53-56; `nx_` is not used. -/
structure BetaEndD where
  beta : BetaD
  pMin : ℝ
  pMax : ℝ

namespace BetaEndD

/-- `BetaWithEndMass(min_val, max_val, p_min, p_max, a, b, nx)`, betawithendmass.cpp lines 30-43. -/
noncomputable def create (minVal maxVal pMin pMax a b : ℝ) (nx : ℤ) : Res BetaEndD := do
  let beta ← BetaD.create minVal maxVal a b nx
  .ok ⟨beta, pMin, pMax⟩

open Classical in
/-- `Pdf`, betawithendmass.hpp lines 61-80; `infinity()` is not a number. -/
noncomputable def pdf (d : BetaEndD) (x : ℝ) : Res ℝ :=
  if x = d.beta.minVal then .nonfinite "infinity" else
  if x = d.beta.maxVal then .nonfinite "infinity" else
  if x > d.beta.minVal ∧ x < d.beta.maxVal then do
    let p ← d.beta.pdf x
    .ok (p * (1 - d.pMin - d.pMax))
  else .ok 0.0

/-- `Cdf`, betawithendmass.hpp lines 82-100. -/
noncomputable def cdf (d : BetaEndD) (x : ℝ) : Res ℝ :=
  if x < d.beta.minVal then .ok 0.0
  else if x ≥ d.beta.maxVal then .ok 1.0
  else do
    let p ← d.beta.cdf x
    .ok (p * (1 - d.pMin - d.pMax) + d.pMin)

/-- `Quantile`, betawithendmass.hpp lines 102-122. -/
noncomputable def quantile (d : BetaEndD) (p : ℝ) : Res ℝ :=
  if p ≤ d.pMin then .ok d.beta.minVal
  else if p ≥ 1.0 - d.pMax then .ok d.beta.maxVal
  else do
    let p2 ← fdiv (p - d.pMin) (1 - d.pMin - d.pMax)
    d.beta.quantile p2

/-- `Draw`, which `BetaWithEndMass` inherits. -/
noncomputable def draw {σ : Type} (d : BetaEndD) (unif : σ → Res (ℝ × σ)) (s : σ) : Res (ℝ × σ) :=
  drawQuantile d.quantile unif s

end BetaEndD

end Verif
