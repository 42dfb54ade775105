import Verif.Lemmas.Fourier
import Verif.Spec.FftwNear
import Mathlib.Analysis.InnerProductSpace.PiL2

/-! Helper lemmas: root of the sum of squares, Parseval's identity. -/

namespace Verif

open Finset ComplexConjugate

section
variable {ι : Type} {s t : Finset ι} {f g : ι → ℂ}

theorem l2_nonneg : 0 ≤ l2 s f := Real.sqrt_nonneg _

theorem l2_sq : l2 s f ^ 2 = ∑ i ∈ s, ‖f i‖ ^ 2 :=
  Real.sq_sqrt (Finset.sum_nonneg fun _ _ => by positivity)

theorem l2_eq_norm (s : Finset ι) (f : ι → ℂ) :
    l2 s f = ‖(WithLp.toLp 2 fun i : s => f i : EuclideanSpace ℂ s)‖ := by
  rw [EuclideanSpace.norm_eq]
  unfold l2
  congr 1
  exact (Finset.sum_coe_sort s fun i => ‖f i‖ ^ 2).symm

theorem l2_add_le (s : Finset ι) (f g : ι → ℂ) : l2 s (fun i => f i + g i) ≤ l2 s f + l2 s g := by
  rw [l2_eq_norm, l2_eq_norm s f, l2_eq_norm s g]
  exact norm_add_le (WithLp.toLp 2 fun i : s => f i : EuclideanSpace ℂ s)
    (WithLp.toLp 2 fun i : s => g i)

theorem l2_mono (h : ∀ i ∈ s, ‖f i‖ ≤ ‖g i‖) : l2 s f ≤ l2 s g :=
  Real.sqrt_le_sqrt (Finset.sum_le_sum fun i hi => pow_le_pow_left₀ (norm_nonneg _) (h i hi) 2)

theorem l2_congr (h : ∀ i ∈ s, f i = g i) : l2 s f = l2 s g := by
  unfold l2
  rw [Finset.sum_congr rfl fun i hi => by rw [h i hi]]

theorem l2_sub_set (h : s ⊆ t) : l2 s f ≤ l2 t f :=
  Real.sqrt_le_sqrt (Finset.sum_le_sum_of_subset_of_nonneg h fun _ _ _ => by positivity)

theorem l2_const_mul {c : ℝ} (hc : 0 ≤ c) (s : Finset ι) (f : ι → ℂ) :
    l2 s (fun i => (c : ℂ) * f i) = c * l2 s f := by
  unfold l2
  rw [← Real.sqrt_sq hc, ← Real.sqrt_mul (sq_nonneg c), Finset.mul_sum, Real.sqrt_sq hc]
  congr 1
  refine Finset.sum_congr rfl fun i _ => ?_
  rw [norm_mul, Complex.norm_real, Real.norm_of_nonneg hc, mul_pow]

theorem norm_le_l2 {i : ι} (hi : i ∈ s) : ‖f i‖ ≤ l2 s f := by
  apply Real.le_sqrt_of_sq_le
  exact Finset.single_le_sum (f := fun i => ‖f i‖ ^ 2) (fun _ _ => by positivity) hi

/-- Elementwise bounds by several functions. -/
theorem l2_le_of {c e : ℝ} (hc : 0 ≤ c) (he : 0 ≤ e) (h : ∀ i ∈ s, ‖f i‖ ≤ c * ‖g i‖ + e) :
    l2 s f ≤ c * l2 s g + √(s.card : ℝ) * e := by
  have h1 : l2 s f ≤ l2 s (fun i => (((c : ℂ) * (‖g i‖ : ℂ)) + (e : ℂ))) := by
    refine l2_mono fun i hi => (h i hi).trans ?_
    rw [show ((c : ℂ) * (‖g i‖ : ℂ)) + (e : ℂ) = ((c * ‖g i‖ + e : ℝ) : ℂ) by push_cast; rfl,
      Complex.norm_real]
    exact le_abs_self _
  refine h1.trans ((l2_add_le s (fun i => (c : ℂ) * (‖g i‖ : ℂ)) fun _ => (e : ℂ)).trans ?_)
  rw [l2_const_mul hc]
  have e1 : l2 s (fun i => ((‖g i‖ : ℝ) : ℂ)) = l2 s g := by
    unfold l2
    simp
  have e2 : l2 s (fun _ => (e : ℂ)) = √(s.card : ℝ) * e := by
    unfold l2
    rw [Finset.sum_const, nsmul_eq_mul, Complex.norm_real, Real.norm_of_nonneg he,
      Real.sqrt_mul (Nat.cast_nonneg _), Real.sqrt_sq he]
  rw [e1, e2]

theorem l2_real (w : ι → ℝ) : l2 s (fun i => (w i : ℂ)) = √(∑ i ∈ s, w i ^ 2) := by
  unfold l2
  simp

end

namespace Pairing

variable {G : Type} [AddCommGroup G] (P : Pairing G)

theorem card_box : P.box.card = P.N := by
  have h := P.ortho 0
  rw [if_pos P.per_zero, Finset.sum_congr rfl fun x _ => P.zero_e x, Finset.sum_const, nsmul_eq_mul, mul_one] at h
  exact_mod_cast h

theorem conj_e_mul (k x : G) : conj (P.e k x) * P.e k x = 1 := by
  rw [P.conj_e, P.e_neg_mul]

theorem norm_e (k x : G) : ‖P.e k x‖ = 1 := by
  have h := congrArg norm (P.conj_e_mul k x)
  rw [norm_mul, RCLike.norm_conj, norm_one] at h
  have h0 := norm_nonneg (P.e k x)
  nlinarith

/-- Parseval's identity. -/
theorem sum_sq_dft (a : G → ℂ) : ∑ k ∈ P.box, ‖P.dft a k‖ ^ 2 = P.N * ∑ x ∈ P.box, ‖a x‖ ^ 2 := by
  have h : (∑ k ∈ P.box, P.dft a k * conj (P.dft a k) : ℂ) = P.N * ∑ x ∈ P.box, a x * conj (a x) := by
    have h1 : ∀ k, P.dft a k * conj (P.dft a k) = ∑ x ∈ P.box, conj (a x) * (P.dft a k * P.e k x) := by
      intro k
      conv_lhs => rw [show conj (P.dft a k) = ∑ x ∈ P.box, conj (a x) * P.e k x by
        unfold dft
        rw [map_sum]
        refine Finset.sum_congr rfl fun x _ => ?_
        rw [map_mul, P.conj_e, neg_neg]]
      rw [Finset.mul_sum]
      exact Finset.sum_congr rfl fun x _ => by ring
    rw [Finset.sum_congr rfl fun k _ => h1 k, Finset.sum_comm, Finset.mul_sum]
    refine Finset.sum_congr rfl fun x hx => ?_
    rw [← Finset.mul_sum]
    have := P.idft_dft a hx
    unfold idft at this
    rw [this]
    ring
  have h2 : ∀ z : ℂ, z * conj z = ((‖z‖ ^ 2 : ℝ) : ℂ) := by
    intro z
    rw [Complex.mul_conj, Complex.normSq_eq_norm_sq]
  simp only [h2] at h
  exact_mod_cast h

theorem sum_sq_idft (Z : G → ℂ) : ∑ x ∈ P.box, ‖P.idft Z x‖ ^ 2 = P.N * ∑ k ∈ P.box, ‖Z k‖ ^ 2 := by
  have h := P.sum_sq_dft (P.idft Z)
  rw [Finset.sum_congr rfl fun k hk => by rw [P.dft_idft Z hk]] at h
  have hN := P.N_posR
  have e : ∑ k ∈ P.box, ‖(P.N : ℂ) * Z k‖ ^ 2 = P.N ^ 2 * ∑ k ∈ P.box, ‖Z k‖ ^ 2 := by
    rw [Finset.mul_sum]
    refine Finset.sum_congr rfl fun k _ => ?_
    rw [norm_mul, mul_pow, Complex.norm_natCast]
  rw [e] at h
  have : (P.N : ℝ) * (P.N * ∑ k ∈ P.box, ‖Z k‖ ^ 2) = P.N * ∑ x ∈ P.box, ‖P.idft Z x‖ ^ 2 := by
    rw [← h]
    ring
  exact (mul_left_cancel₀ hN.ne' this).symm

theorem l2_dft (a : G → ℂ) : l2 P.box (P.dft a) = √(P.N : ℝ) * l2 P.box a := by
  unfold l2
  rw [P.sum_sq_dft, Real.sqrt_mul (Nat.cast_nonneg _)]

theorem l2_idft (Z : G → ℂ) : l2 P.box (P.idft Z) = √(P.N : ℝ) * l2 P.box Z := by
  unfold l2
  rw [P.sum_sq_idft, Real.sqrt_mul (Nat.cast_nonneg _)]

theorem dft_sub (a b : G → ℂ) (k : G) : P.dft (fun x => a x - b x) k = P.dft a k - P.dft b k := by
  unfold dft
  rw [← Finset.sum_sub_distrib]
  exact Finset.sum_congr rfl fun x _ => by ring

theorem idft_sub (a b : G → ℂ) (k : G) : P.idft (fun x => a x - b x) k = P.idft a k - P.idft b k := by
  unfold idft
  rw [← Finset.sum_sub_distrib]
  exact Finset.sum_congr rfl fun x _ => by ring

end Pairing

end Verif
