import Mathlib.Data.Nat.Prime.Basic

/-! Specification of FFT-friendly sizes. -/

namespace Verif.Spec

/-- All prime factors are 2, 3, 5 or 7. -/
def Smooth7 (m : ℕ) : Prop := m ≠ 0 ∧ ∀ p, p.Prime → p ∣ m → p ≤ 7

/-- The acceptable FFT sizes for a minimum size. -/
def Admissible (minSize : ℕ) (even : Bool) (m : ℕ) : Prop :=
  minSize ≤ m ∧ Smooth7 m ∧ (even = true → 2 ∣ m)

end Verif.Spec
