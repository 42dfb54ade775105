import Verif.Model.Fft

/-!
# FFTW in double arithmetic

`Fftw.Laws` says that FFTW computes exact sums. `Fftw.Near ε` is the corresponding assumption about a library that
rounds: the errors are small in the root of the sum of squares.
-/

namespace Verif

open Finset Spec ComplexConjugate

/-- The root of the sum of the squares. -/
noncomputable def l2 {ι : Type} (s : Finset ι) (f : ι → ℂ) : ℝ := √(∑ i ∈ s, ‖f i‖ ^ 2)

/-- A transform library with relative error `ε`. Forward: the error is at most `ε` times the norm of the exact result
(the root of the number of cells times the norm of the input). Backward: the input `z` need not be the half of a
Hermitian array `Z`, only close to one; the distance may be doubled on top of the relative error (each stored value
stands for at most two). The small absolute term allows for underflow. -/
structure Fftw.Near (F : Fftw) (ε : ℝ) : Prop where
  r2c1_length : ∀ n a, 0 < n → a.length = n → (F.r2c1 n a).length = n / 2 + 1
  r2c1_near : ∀ n a, 0 < n → a.length = n →
    l2 (range (n / 2 + 1)) (fun k => (F.r2c1 n a).getD k 0 - dft1 n (fun x => (a.getD x 0 : ℂ)) k)
      ≤ ε * √(n : ℝ) * l2 (range n) (fun x => (a.getD x 0 : ℂ)) + 2⁻¹ ^ 960
  c2r1_length : ∀ n z, 0 < n → n / 2 + 1 ≤ z.length →
    (F.c2r1 n z).1.length = n ∧ (F.c2r1 n z).2.length = z.length
  c2r1_near : ∀ n z (Z : ℕ → ℂ), 0 < n → n / 2 + 1 ≤ z.length →
    (∀ k < n, Z (opp n k) = conj (Z k)) →
    l2 (range n) (fun x => ((F.c2r1 n z).1.getD x 0 : ℂ) - idft1 n Z x)
      ≤ 2 * √(n : ℝ) * l2 (range (n / 2 + 1)) (fun k => z.getD k 0 - Z k)
        + ε * √(n : ℝ) * l2 (range n) Z + 2⁻¹ ^ 960
  r2c2_length : ∀ n0 n1 a, 0 < n0 → 0 < n1 → a.length = n0 * n1 →
    (F.r2c2 n0 n1 a).length = n0 * (n1 / 2 + 1)
  r2c2_near : ∀ n0 n1 a, 0 < n0 → 0 < n1 → a.length = n0 * n1 →
    l2 (range n0 ×ˢ range (n1 / 2 + 1)) (fun k => (F.r2c2 n0 n1 a).getD (k.1 * (n1 / 2 + 1) + k.2) 0
        - dft2 n0 n1 (fun x0 x1 => (a.getD (x0 * n1 + x1) 0 : ℂ)) k.1 k.2)
      ≤ ε * √((n0 * n1 : ℕ) : ℝ)
          * l2 (range n0 ×ˢ range n1) (fun x => (a.getD (x.1 * n1 + x.2) 0 : ℂ)) + 2⁻¹ ^ 960
  c2r2_length : ∀ n0 n1 z, 0 < n0 → 0 < n1 → z.length = n0 * (n1 / 2 + 1) →
    (F.c2r2 n0 n1 z).1.length = n0 * n1 ∧ (F.c2r2 n0 n1 z).2.length = z.length
  c2r2_near : ∀ n0 n1 z (Z : ℕ → ℕ → ℂ), 0 < n0 → 0 < n1 → z.length = n0 * (n1 / 2 + 1) →
    (∀ k0 < n0, ∀ k1 < n1, Z (opp n0 k0) (opp n1 k1) = conj (Z k0 k1)) →
    l2 (range n0 ×ˢ range n1) (fun x => ((F.c2r2 n0 n1 z).1.getD (x.1 * n1 + x.2) 0 : ℂ)
        - idft2 n0 n1 Z x.1 x.2)
      ≤ 2 * √((n0 * n1 : ℕ) : ℝ) * l2 (range n0 ×ˢ range (n1 / 2 + 1))
          (fun k => z.getD (k.1 * (n1 / 2 + 1) + k.2) 0 - Z k.1 k.2)
        + ε * √((n0 * n1 : ℕ) : ℝ) * l2 (range n0 ×ˢ range n1) (fun k => Z k.1 k.2) + 2⁻¹ ^ 960
  r2c3_length : ∀ n0 n1 n2 a, 0 < n0 → 0 < n1 → 0 < n2 → a.length = n0 * n1 * n2 →
    (F.r2c3 n0 n1 n2 a).length = n0 * n1 * (n2 / 2 + 1)
  r2c3_near : ∀ n0 n1 n2 a, 0 < n0 → 0 < n1 → 0 < n2 → a.length = n0 * n1 * n2 →
    l2 (range n0 ×ˢ range n1 ×ˢ range (n2 / 2 + 1)) (fun k =>
        (F.r2c3 n0 n1 n2 a).getD ((k.1 * n1 + k.2.1) * (n2 / 2 + 1) + k.2.2) 0
        - dft3 n0 n1 n2 (fun x0 x1 x2 => (a.getD ((x0 * n1 + x1) * n2 + x2) 0 : ℂ)) k.1 k.2.1 k.2.2)
      ≤ ε * √((n0 * (n1 * n2) : ℕ) : ℝ) * l2 (range n0 ×ˢ range n1 ×ˢ range n2)
          (fun x => (a.getD ((x.1 * n1 + x.2.1) * n2 + x.2.2) 0 : ℂ)) + 2⁻¹ ^ 960
  c2r3_length : ∀ n0 n1 n2 z, 0 < n0 → 0 < n1 → 0 < n2 → z.length = n0 * n1 * (n2 / 2 + 1) →
    (F.c2r3 n0 n1 n2 z).1.length = n0 * n1 * n2 ∧ (F.c2r3 n0 n1 n2 z).2.length = z.length
  c2r3_near : ∀ n0 n1 n2 z (Z : ℕ → ℕ → ℕ → ℂ), 0 < n0 → 0 < n1 → 0 < n2 →
    z.length = n0 * n1 * (n2 / 2 + 1) →
    (∀ k0 < n0, ∀ k1 < n1, ∀ k2 < n2, Z (opp n0 k0) (opp n1 k1) (opp n2 k2) = conj (Z k0 k1 k2)) →
    l2 (range n0 ×ˢ range n1 ×ˢ range n2)
        (fun x => ((F.c2r3 n0 n1 n2 z).1.getD ((x.1 * n1 + x.2.1) * n2 + x.2.2) 0 : ℂ)
          - idft3 n0 n1 n2 Z x.1 x.2.1 x.2.2)
      ≤ 2 * √((n0 * (n1 * n2) : ℕ) : ℝ) * l2 (range n0 ×ˢ range n1 ×ˢ range (n2 / 2 + 1))
          (fun k => z.getD ((k.1 * n1 + k.2.1) * (n2 / 2 + 1) + k.2.2) 0 - Z k.1 k.2.1 k.2.2)
        + ε * √((n0 * (n1 * n2) : ℕ) : ℝ)
          * l2 (range n0 ×ˢ range n1 ×ˢ range n2) (fun k => Z k.1 k.2.1 k.2.2) + 2⁻¹ ^ 960

end Verif
