import Verif.Spec.Noise
import Mathlib.Analysis.SpecialFunctions.Log.Basic

/-!
# Specification of the normal sampler (Marsaglia and Bray)

What a normal number is as a function of the uniform numbers `u 0`, `u 1`, ... it is made from, and
how many of them are used.
-/

namespace Verif.Spec

/-- The (scaled) density of the third part of the mixture. -/
noncomputable def wedge (x : ℝ) : ℝ :=
  17.49731196 * Real.exp (-(x ^ 2) / 2)
    - (if |x| < 1 then 2 * 2.36785163 * (3 - x ^ 2) else 2.36785163 * (3 - |x|) ^ 2)
    - (if |x| < 1.5 then 2.15787544 * (1.5 - |x|) else 0)

/-- Squared distance from the centre of the point of the square [-1, 1)² given by two uniforms. -/
noncomputable def disc (u1 u2 : ℝ) : ℝ := (2 * u1 - 1) ^ 2 + (2 * u2 - 1) ^ 2

/-- The factor by which a point in the disc is moved outwards. -/
noncomputable def stretch (u1 u2 : ℝ) : ℝ := √((9 - 2 * Real.log (disc u1 u2)) / disc u1 u2)

/-- The pair is used: it lies in the disc, not in its centre, and one of its stretched coordinates
exceeds 3. -/
def TailAccept (u1 u2 : ℝ) : Prop :=
  0 < disc u1 u2 ∧ disc u1 u2 < 1 ∧
    (3 < |stretch u1 u2 * (2 * u1 - 1)| ∨ 3 < |stretch u1 u2 * (2 * u2 - 1)|)

open Classical in
/-- The number made from such a pair. -/
noncomputable def tailValue (u1 u2 : ℝ) : ℝ :=
  if 3 < |stretch u1 u2 * (2 * u1 - 1)| then stretch u1 u2 * (2 * u1 - 1)
  else stretch u1 u2 * (2 * u2 - 1)

/-- `NormOut u x m`: from the uniforms `u` the normal number `x` is made with the first `m` of
them. -/
inductive NormOut (u : ℕ → ℝ) : ℝ → ℕ → Prop
  | sum3 : u 0 < 0.8638 → NormOut u (2 * (u 1 + u 2 + u 3) - 3) 4
  | sum2 : 0.8638 ≤ u 0 → u 0 < 0.9745 → NormOut u (1.5 * (u 1 + u 2 - 1)) 3
  | wedge (k : ℕ) : 0.9745 ≤ u 0 → u 0 < 0.9973002039 →
      (∀ i < k, wedge (6 * u (2 * i + 1) - 3) < 0.358 * u (2 * i + 2)) →
      0.358 * u (2 * k + 2) ≤ wedge (6 * u (2 * k + 1) - 3) →
      NormOut u (6 * u (2 * k + 1) - 3) (2 * k + 3)
  | tail (k : ℕ) : 0.9973002039 ≤ u 0 →
      (∀ i < k, ¬ TailAccept (u (2 * i + 1)) (u (2 * i + 2)) ∧
        disc (u (2 * i + 1)) (u (2 * i + 2)) ≠ 0) →
      TailAccept (u (2 * k + 1)) (u (2 * k + 2)) →
      NormOut u (tailValue (u (2 * k + 1)) (u (2 * k + 2))) (2 * k + 3)

/-- The tail sampler hits the centre of the disc before a pair is accepted. -/
def NormNaN (u : ℕ → ℝ) : Prop :=
  0.9973002039 ≤ u 0 ∧ ∃ k, disc (u (2 * k + 1)) (u (2 * k + 2)) = 0 ∧
    ∀ i < k, ¬ TailAccept (u (2 * i + 1)) (u (2 * i + 2)) ∧
      disc (u (2 * i + 1)) (u (2 * i + 2)) ≠ 0

end Verif.Spec
