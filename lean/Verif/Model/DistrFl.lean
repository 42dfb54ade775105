import Verif.Model.Distr
import Verif.Model.VariogramFl

/-!
# Uniform numbers and histograms in double arithmetic

The same functions as in `Verif/Model/Distr.lean` (`Uniform`, `GeneralDiscrete` of `src/nrlib/random`), with every
operation rounded to a double. Overflow is not represented, nor are fused multiply-add operations.
-/

namespace Verif

open scoped Fl

/-- Division, rounded. -/
noncomputable def fdivFl (x y : ℝ) : Res ℝ := if y = 0 then .nonfinite "division by zero" else .ok (x /ᶠ y)

/-- `Uniform::Quantile`, uniform.hpp lines 83-86. -/
noncomputable def Uniform.quantileFl (d : Uniform) (p : ℝ) : Res ℝ :=
  .ok (d.minVal +ᶠ p *ᶠ (d.maxVal -ᶠ d.minVal))

namespace GeneralDiscrete

/-- `NormalizeHist`, generaldiscrete.cpp lines 42-50. -/
noncomputable def normalizeHistFl (hist : List ℝ) : Res (List ℝ) := do
  let sum ← forRange 0 hist.length (fun i sum => do
    let h ← rd hist i
    .ok (sum +ᶠ h)) 0.0
  forRange 0 hist.length (fun i (hist : List ℝ) => do
    let h ← rd hist i
    let q ← fdivFl h sum
    wr hist i q) hist

/-- `MakeCumHist`, generaldiscrete.cpp lines 52-61. -/
noncomputable def makeCumHistFl (hist : List ℝ) : Res (List ℝ) := do
  let cum := List.replicate hist.length 0.0
  let (_, cum) ← forRange 0 hist.length (fun i (s : ℝ × List ℝ) => do
    let h ← rd hist i
    let sum := s.1 +ᶠ h
    let cum ← wr s.2 i sum
    .ok (sum, cum)) (0.0, cum)
  .ok cum

/-- `GeneralDiscrete(hist)`, generaldiscrete.cpp lines 26-31. The other functions only read and compare: they are
those of `Verif/Model/Distr.lean`. -/
noncomputable def createFl (hist : List ℝ) : Res GeneralDiscrete := do
  let hist ← normalizeHistFl hist
  let cum ← makeCumHistFl hist
  .ok ⟨hist, cum⟩

end GeneralDiscrete

end Verif
