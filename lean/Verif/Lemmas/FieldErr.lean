import Verif.Lemmas.L2
import Verif.Lemmas.FlApprox

/-! Helper lemmas: how rounding errors pass through the convolution. -/

namespace Verif

open Finset ComplexConjugate Fl

/-- The absolute error allowed for underflow. -/
noncomputable def tau : ℝ := 2⁻¹ ^ 960

theorem tau_pos : 0 < tau := by unfold tau; positivity

theorem rnd_err (x : ℝ) : |rnd64 x - x| ≤ u * |x| + tau := by
  refine (rnd64_abs_err x).trans ?_
  unfold tau u
  have : (2⁻¹ : ℝ) ^ 53 ≤ 2⁻¹ ^ 52 := by norm_num
  have := mul_le_mul_of_nonneg_left this (abs_nonneg x)
  rw [mul_comm (2⁻¹ ^ 52)]
  exact add_le_add this (pow_le_pow_of_le_one (by norm_num) (by norm_num) (by norm_num))

attribute [local irreducible] Fl.u tau

theorem norm_le_of_parts {e z : ℂ} {c t : ℝ} (hc : 0 ≤ c) (ht : 0 ≤ t) (h1 : |e.re| ≤ c * |z.re| + t)
    (h2 : |e.im| ≤ c * |z.im| + t) : ‖e‖ ≤ c * ‖z‖ + 2 * t := by
  have z0 := norm_nonneg z
  apply le_of_sq_le_sq _ (by positivity)
  have e1 : ‖e‖ ^ 2 = |e.re| ^ 2 + |e.im| ^ 2 := by
    rw [← Complex.normSq_eq_norm_sq, Complex.normSq_apply, sq_abs, sq_abs]; ring
  have e2 : ‖z‖ ^ 2 = |z.re| ^ 2 + |z.im| ^ 2 := by
    rw [← Complex.normSq_eq_norm_sq, Complex.normSq_apply, sq_abs, sq_abs]; ring
  have p1 := pow_le_pow_left₀ (abs_nonneg e.re) h1 2
  have p2 := pow_le_pow_left₀ (abs_nonneg e.im) h2 2
  have r1 := Complex.abs_re_le_norm z
  have r2 := Complex.abs_im_le_norm z
  have ct : 0 ≤ c * t := mul_nonneg hc ht
  have q1 := mul_le_mul_of_nonneg_left r1 ct
  have q2 := mul_le_mul_of_nonneg_left r2 ct
  have e3 : c ^ 2 * ‖z‖ ^ 2 = c ^ 2 * |z.re| ^ 2 + c ^ 2 * |z.im| ^ 2 := by rw [e2]; ring
  rw [e1]
  nlinarith [sq_nonneg t]

section
variable {G : Type} [AddCommGroup G] (P : Pairing G)

/-- The data of a simulation with errors. `ε` bounds the errors of the transforms. -/
structure ErrRun (half : Finset G) (ε : ℝ) (f w : G → ℝ) (s' : ℝ) (a : G → ℝ) (A' : G → ℂ) (f' : G → ℝ)
    (B' : G → ℂ) (Y' X' : G → ℝ) : Prop where
  half_sub : half ⊆ P.box
  eps_u : u ≤ ε
  eps_le : ε ≤ 2⁻¹ ^ 20
  N_le : (P.N : ℝ) ≤ 2 ^ 100
  per : ∀ k l, P.per (k - l) → f k = f l
  neg : ∀ k, f (-k) = f k
  f_le : ∀ k, |f k| ≤ √(P.N : ℝ)
  scale : |s' - 1 / √(P.N : ℝ)| ≤ 3 * u * (1 / √(P.N : ℝ))
  ha : ∀ x ∈ P.box, |a x - w x * s'| ≤ u * |w x * s'| + tau
  hA : l2 half (fun k => A' k - P.dft (fun x => (a x : ℂ)) k)
    ≤ ε * √(P.N : ℝ) * l2 P.box (fun x => (a x : ℂ)) + tau
  f'_le : ∀ k ∈ half, |f' k| ≤ 3 * √(P.N : ℝ)
  hB : ∀ k ∈ half, ‖B' k - A' k * f' k‖ ≤ 2 * u * ‖A' k * f' k‖ + 6 * tau
  hY : ∀ Z : G → ℂ, (∀ k l, P.per (k - l) → Z k = Z l) → (∀ k, Z (-k) = conj (Z k)) →
    l2 P.box (fun x => (Y' x : ℂ) - P.idft Z x)
      ≤ 2 * √(P.N : ℝ) * l2 half (fun k => B' k - Z k) + ε * √(P.N : ℝ) * l2 P.box Z + tau
  hX : ∀ x ∈ P.box, |X' x - Y' x * s'| ≤ u * |Y' x * s'| + tau

namespace ErrRun

variable {P} {half : Finset G} {ε : ℝ} {f w : G → ℝ} {s' : ℝ} {a : G → ℝ} {A' : G → ℂ} {f' : G → ℝ}
  {B' : G → ℂ} {Y' X' : G → ℝ} (H : ErrRun P half ε f w s' a A' f' B' Y' X')
include H

theorem R_one : 1 ≤ √(P.N : ℝ) := by
  rw [Real.one_le_sqrt]
  exact_mod_cast P.N_pos

theorem R_le : √(P.N : ℝ) ≤ 2 ^ 50 := by
  rw [Real.sqrt_le_iff]
  exact ⟨by positivity, H.N_le.trans (by norm_num)⟩

theorem card_half : √(half.card : ℝ) ≤ √(P.N : ℝ) := by
  apply Real.sqrt_le_sqrt
  have := Finset.card_le_card H.half_sub
  rw [P.card_box] at this
  exact_mod_cast this

theorem card_box' : √(P.box.card : ℝ) = √(P.N : ℝ) := by rw [P.card_box]

theorem u_small : u ≤ 2⁻¹ ^ 20 := H.eps_u.trans H.eps_le

/-- Error of the scaled noise. -/
theorem a_err : l2 P.box (fun x => ((a x : ℂ) - (w x : ℂ) * (1 / √(P.N : ℝ) : ℝ)))
    ≤ 5 * u * (1 / √(P.N : ℝ)) * l2 P.box (fun x => (w x : ℂ)) + √(P.N : ℝ) * tau := by
  set s := 1 / √(P.N : ℝ) with hs
  have s0 : 0 < s := by have := H.R_one; positivity
  have u0 := u_pos
  have us := H.u_small
  rw [← H.card_box']
  refine l2_le_of (by positivity) tau_pos.le fun x hx => ?_
  rw [← Complex.ofReal_mul, ← Complex.ofReal_sub, Complex.norm_real, Complex.norm_real, Real.norm_eq_abs, Real.norm_eq_abs]
  have h1 := H.ha x hx
  have h2 : |w x * s' - w x * s| ≤ 3 * u * s * |w x| := by
    rw [← mul_sub, abs_mul, mul_comm]
    exact mul_le_mul_of_nonneg_right H.scale (abs_nonneg _)
  have h3 : |w x * s'| ≤ (1 + 3 * u) * s * |w x| := by
    have : |w x * s| = s * |w x| := by rw [abs_mul, abs_of_pos s0, mul_comm]
    have := abs_sub_abs_le_abs_sub (w x * s') (w x * s)
    linarith
  have h4 := abs_sub_le (a x) (w x * s') (w x * s)
  have h5 : u * |w x * s'| ≤ u * ((1 + 3 * u) * s * |w x|) := mul_le_mul_of_nonneg_left h3 u0.le
  have h6 : u * ((1 + 3 * u) * s * |w x|) ≤ 2 * u * s * |w x| := by
    have : (1 + 3 * u) ≤ 2 := by norm_num at us ⊢; linarith
    have := mul_le_mul_of_nonneg_right this (show 0 ≤ u * (s * |w x|) by positivity)
    linarith
  linarith

theorem a_norm : √(P.N : ℝ) * l2 P.box (fun x => (a x : ℂ))
    ≤ 2 * l2 P.box (fun x => (w x : ℂ)) + √(P.N : ℝ) ^ 2 * tau := by
  have R1 := H.R_one
  set R := √(P.N : ℝ) with hR
  set W := l2 P.box (fun x => (w x : ℂ)) with hW
  have W0 : 0 ≤ W := l2_nonneg
  have h := H.a_err
  have h1 := l2_add_le P.box (fun x => ((a x : ℂ) - (w x : ℂ) * (1 / R : ℝ))) (fun x => ((1 / R : ℝ) : ℂ) * (w x : ℂ))
  rw [l2_const_mul (by positivity), l2_congr (g := fun x => (a x : ℂ)) (by intro i _; ring)] at h1
  have us := H.u_small
  have h2 : l2 P.box (fun x => (a x : ℂ)) ≤ 5 * u * (1 / R) * W + R * tau + 1 / R * W := by linarith
  have h3 := mul_le_mul_of_nonneg_left h2 (show (0 : ℝ) ≤ R by linarith)
  have e : R * (5 * u * (1 / R) * W + R * tau + 1 / R * W) = (1 + 5 * u) * W + R ^ 2 * tau := by
    field_simp
    ring
  rw [e] at h3
  have : (1 + 5 * u) * W ≤ 2 * W := mul_le_mul_of_nonneg_right (by norm_num at us ⊢; linarith) W0
  linarith

/-- Error of the transformed noise. -/
theorem A_err : l2 half (fun k => A' k - P.dft (fun x => (w x : ℂ)) k * (1 / √(P.N : ℝ) : ℝ))
    ≤ 7 * ε * l2 P.box (fun x => (w x : ℂ)) + 3 * √(P.N : ℝ) ^ 2 * tau := by
  have R1 := H.R_one
  set R := √(P.N : ℝ) with hR
  set W := l2 P.box (fun x => (w x : ℂ)) with hW
  have W0 : 0 ≤ W := l2_nonneg
  have t0 := tau_pos
  have u0 := u_pos
  have eu := H.eps_u
  have e1 := H.eps_le
  have h1 := l2_add_le half (fun k => A' k - P.dft (fun x => (a x : ℂ)) k)
    (fun k => P.dft (fun x => (a x : ℂ)) k - P.dft (fun x => (w x : ℂ)) k * (1 / R : ℝ))
  rw [l2_congr (g := fun k => A' k - P.dft (fun x => (w x : ℂ)) k * (1 / R : ℝ)) (by intro i _; ring)] at h1
  have h2 : l2 half (fun k => P.dft (fun x => (a x : ℂ)) k - P.dft (fun x => (w x : ℂ)) k * (1 / R : ℝ))
      ≤ R * (5 * u * (1 / R) * W + R * tau) := by
    refine (l2_sub_set H.half_sub).trans ?_
    rw [l2_congr (g := P.dft (fun x => (a x : ℂ) - (w x : ℂ) * (1 / R : ℝ)))
      (by
        intro k _
        rw [P.dft_sub]
        congr 1
        unfold Pairing.dft
        rw [Finset.sum_mul]
        exact Finset.sum_congr rfl fun x _ => by ring), P.l2_dft]
    exact mul_le_mul_of_nonneg_left H.a_err (by linarith)
  have e2 : R * (5 * u * (1 / R) * W + R * tau) = 5 * u * W + R ^ 2 * tau := by
    field_simp
  rw [e2] at h2
  have h3 := H.hA
  have h4 := H.a_norm
  have h5 : ε * R * l2 P.box (fun x => (a x : ℂ)) ≤ ε * (2 * W + R ^ 2 * tau) := by
    rw [mul_assoc]
    exact mul_le_mul_of_nonneg_left h4 (by linarith)
  have h6 : ε * (R ^ 2 * tau) ≤ 1 * (R ^ 2 * tau) := mul_le_mul_of_nonneg_right (by norm_num at e1 ⊢; linarith) (by positivity)
  have h7 : u * W ≤ ε * W := mul_le_mul_of_nonneg_right eu W0
  have h8 : 1 * tau ≤ R ^ 2 * tau := mul_le_mul_of_nonneg_right (one_le_pow₀ R1) t0.le
  linarith

theorem A_norm : l2 half (fun k => P.dft (fun x => (w x : ℂ)) k * (1 / √(P.N : ℝ) : ℝ))
    ≤ l2 P.box (fun x => (w x : ℂ)) := by
  have R1 := H.R_one
  refine (l2_sub_set H.half_sub).trans (le_of_eq ?_)
  rw [l2_congr (g := fun k => ((1 / √(P.N : ℝ) : ℝ) : ℂ) * P.dft (fun x => (w x : ℂ)) k) (by intro i _; ring),
    l2_const_mul (by positivity), P.l2_dft]
  field_simp

theorem A'_norm : l2 half A' ≤ 2 * l2 P.box (fun x => (w x : ℂ)) + 3 * √(P.N : ℝ) ^ 2 * tau := by
  have h1 := H.A_err
  have h2 := H.A_norm
  have h3 := l2_add_le half (fun k => A' k - P.dft (fun x => (w x : ℂ)) k * (1 / √(P.N : ℝ) : ℝ))
    (fun k => P.dft (fun x => (w x : ℂ)) k * (1 / √(P.N : ℝ) : ℝ))
  rw [l2_congr (g := A') (by intro i _; ring)] at h3
  have W0 : 0 ≤ l2 P.box (fun x => (w x : ℂ)) := l2_nonneg
  have e1 := H.eps_le
  have : 7 * ε * l2 P.box (fun x => (w x : ℂ)) ≤ 1 * l2 P.box (fun x => (w x : ℂ)) :=
    mul_le_mul_of_nonneg_right (by norm_num at e1 ⊢; linarith) W0
  linarith

/-- Error of the product spectrum. -/
theorem B_err : l2 half (fun k => B' k - (f k : ℂ) * (P.dft (fun x => (w x : ℂ)) k * (1 / √(P.N : ℝ) : ℝ)))
    ≤ l2 half (fun k => ((f' k - f k : ℝ) : ℂ) * (P.dft (fun x => (w x : ℂ)) k * (1 / √(P.N : ℝ) : ℝ)))
      + 33 * ε * √(P.N : ℝ) * l2 P.box (fun x => (w x : ℂ)) + 36 * √(P.N : ℝ) ^ 3 * tau := by
  have R1 := H.R_one
  have cb := H.card_half
  have hAe := H.A_err
  have hA' := H.A'_norm
  set R := √(P.N : ℝ) with hR
  set W := l2 P.box (fun x => (w x : ℂ)) with hW
  set A := fun k => P.dft (fun x => (w x : ℂ)) k * ((1 / R : ℝ) : ℂ) with hAdef
  have W0 : 0 ≤ W := l2_nonneg
  have t0 := tau_pos
  have u0 := u_pos
  have eu := H.eps_u
  have e1 := H.eps_le
  have h1 : l2 half (fun k => B' k - A' k * f' k) ≤ (6 * u * R) * l2 half A' + R * (6 * tau) := by
    refine (l2_le_of (c := 6 * u * R) (e := 6 * tau) (g := A') (by positivity) (by positivity) fun k hk => ?_).trans ?_
    · refine (H.hB k hk).trans ?_
      rw [norm_mul, Complex.norm_real, Real.norm_eq_abs]
      have := mul_le_mul_of_nonneg_left (H.f'_le k hk) (show 0 ≤ 2 * u * ‖A' k‖ by positivity)
      linarith
    · exact add_le_add_right (mul_le_mul_of_nonneg_right cb (by positivity)) _
  have h2 : l2 half (fun k => A' k * f' k - A k * f' k) ≤ 3 * R * l2 half (fun k => A' k - A k) + √(half.card : ℝ) * 0 := by
    refine l2_le_of (by positivity) le_rfl fun k hk => ?_
    rw [← sub_mul, norm_mul, Complex.norm_real, Real.norm_eq_abs]
    have := mul_le_mul_of_nonneg_left (H.f'_le k hk) (norm_nonneg (A' k - A k))
    linarith
  have h3 := l2_add_le half (fun k => B' k - A' k * f' k) (fun k => A' k * f' k - A k * f' k)
  have h4 := l2_add_le half (fun k => B' k - A' k * f' k + (A' k * f' k - A k * f' k))
    (fun k => ((f' k - f k : ℝ) : ℂ) * A k)
  rw [l2_congr (g := fun k => B' k - (f k : ℂ) * A k) (by intro i _; push_cast; ring)] at h4
  have h5 : 3 * R * l2 half (fun k => A' k - A k) ≤ 3 * R * (7 * ε * W + 3 * R ^ 2 * tau) :=
    mul_le_mul_of_nonneg_left hAe (by linarith)
  have h6 : (6 * u * R) * l2 half A' ≤ (6 * u * R) * (2 * W + 3 * R ^ 2 * tau) :=
    mul_le_mul_of_nonneg_left hA' (by positivity)
  have h7 : u * (R * W) ≤ ε * (R * W) := mul_le_mul_of_nonneg_right eu (by positivity)
  have us := H.u_small
  have h8 : u * (R ^ 3 * tau) ≤ 1 * (R ^ 3 * tau) := mul_le_mul_of_nonneg_right (by norm_num at us ⊢; linarith) (by positivity)
  have h9 : R * tau ≤ R ^ 3 * tau := by
    refine mul_le_mul_of_nonneg_right ?_ t0.le
    nlinarith [mul_self_nonneg (R - 1)]
  nlinarith

theorem Z_per (k l : G) (h : P.per (k - l)) :
    (f k : ℂ) * (P.dft (fun x => (w x : ℂ)) k * (1 / √(P.N : ℝ) : ℝ))
      = (f l : ℂ) * (P.dft (fun x => (w x : ℂ)) l * (1 / √(P.N : ℝ) : ℝ)) := by
  rw [H.per k l h, P.dft_congr h]

theorem Z_herm (k : G) :
    (f (-k) : ℂ) * (P.dft (fun x => (w x : ℂ)) (-k) * (1 / √(P.N : ℝ) : ℝ))
      = conj ((f k : ℂ) * (P.dft (fun x => (w x : ℂ)) k * (1 / √(P.N : ℝ) : ℝ))) := by
  rw [H.neg, P.dft_neg (by simp), map_mul, map_mul, Complex.conj_ofReal, Complex.conj_ofReal]

theorem Z_norm : l2 P.box (fun k => (f k : ℂ) * (P.dft (fun x => (w x : ℂ)) k * (1 / √(P.N : ℝ) : ℝ)))
    ≤ √(P.N : ℝ) * l2 P.box (fun x => (w x : ℂ)) := by
  have R1 := H.R_one
  have := l2_le_of (s := P.box) (f := fun k => (f k : ℂ) * (P.dft (fun x => (w x : ℂ)) k * (1 / √(P.N : ℝ) : ℝ)))
    (g := P.dft (fun x => (w x : ℂ))) (c := 1) (e := 0) zero_le_one le_rfl (fun k _ => by
      rw [norm_mul, norm_mul, Complex.norm_real, Complex.norm_real, Real.norm_eq_abs,
        Real.norm_of_nonneg (by positivity), one_mul, add_zero]
      have h := mul_le_mul_of_nonneg_right (H.f_le k)
        (show 0 ≤ ‖P.dft (fun x => (w x : ℂ)) k‖ * (1 / √(P.N : ℝ)) by positivity)
      refine h.trans (le_of_eq ?_)
      field_simp)
  rw [P.l2_dft, one_mul, mul_zero, add_zero] at this
  exact this

/-- **The error of the whole convolution.** -/
theorem field_err : l2 P.box (fun x => (X' x : ℂ) -
      P.idft (fun k => (f k : ℂ) * P.dft (fun y => (w y : ℂ)) k) x / P.N)
    ≤ 2.1 * l2 half (fun k => ((f' k - f k : ℝ) : ℂ) * (P.dft (fun x => (w x : ℂ)) k * (1 / √(P.N : ℝ) : ℝ)))
      + 73 * ε * √(P.N : ℝ) * l2 P.box (fun x => (w x : ℂ)) + 2⁻¹ ^ 800 := by
  have R1 := H.R_one
  have R2 := H.R_le
  have hB := H.B_err
  have hZ := H.Z_norm
  have hY := H.hY _ H.Z_per H.Z_herm
  have hNR : (P.N : ℝ) = √(P.N : ℝ) ^ 2 := (Real.sq_sqrt (Nat.cast_nonneg _)).symm
  set R := √(P.N : ℝ) with hR
  set W := l2 P.box (fun x => (w x : ℂ)) with hW
  set Z := fun k => (f k : ℂ) * (P.dft (fun x => (w x : ℂ)) k * ((1 / R : ℝ) : ℂ)) with hZdef
  set D := l2 half (fun k => ((f' k - f k : ℝ) : ℂ) * (P.dft (fun x => (w x : ℂ)) k * ((1 / R : ℝ) : ℂ))) with hD
  have D0 : 0 ≤ D := l2_nonneg
  have W0 : 0 ≤ W := l2_nonneg
  have t0 := tau_pos
  have u0 := u_pos
  have eu := H.eps_u
  have e1 := H.eps_le
  have us := H.u_small
  have R0 : 0 < R := by linarith
  -- the exact result
  have hX : ∀ x, P.idft (fun k => (f k : ℂ) * P.dft (fun y => (w y : ℂ)) k) x / P.N = P.idft Z x * ((1 / R : ℝ) : ℂ) := by
    intro x
    unfold Pairing.idft
    rw [Finset.sum_div, Finset.sum_mul]
    refine Finset.sum_congr rfl fun k _ => ?_
    have e : (P.N : ℂ) = (R : ℂ) ^ 2 := by
      have := congrArg (fun r : ℝ => (r : ℂ)) hNR
      push_cast at this
      exact this
    rw [e, hZdef]
    have : (R : ℂ) ≠ 0 := by exact_mod_cast R0.ne'
    push_cast
    field_simp
  rw [l2_congr (g := fun x => (X' x : ℂ) - P.idft Z x * ((1 / R : ℝ) : ℂ)) (fun x _ => by rw [hX x])]
  -- the inverse transform
  have y1 : l2 P.box (fun x => (Y' x : ℂ) - P.idft Z x) ≤ 2 * R * D + 67 * ε * R ^ 2 * W + 73 * R ^ 4 * tau := by
    have a1 := mul_le_mul_of_nonneg_left hB (show 0 ≤ 2 * R by linarith)
    have a2 := mul_le_mul_of_nonneg_left hZ (show 0 ≤ ε * R by have := u0.le.trans eu; positivity)
    have a3 : 1 * tau ≤ R ^ 4 * tau := mul_le_mul_of_nonneg_right (one_le_pow₀ R1) t0.le
    nlinarith
  have y2 : l2 P.box (fun x => (Y' x : ℂ)) ≤ R ^ 2 * W + l2 P.box (fun x => (Y' x : ℂ) - P.idft Z x) := by
    have a1 := l2_add_le P.box (fun x => (Y' x : ℂ) - P.idft Z x) (P.idft Z)
    rw [l2_congr (g := fun x => (Y' x : ℂ)) (by intro i _; ring), P.l2_idft] at a1
    have a2 := mul_le_mul_of_nonneg_left hZ R0.le
    nlinarith
  -- the last scaling
  have x1 : l2 P.box (fun x => (X' x : ℂ) - (Y' x : ℂ) * ((1 / R : ℝ) : ℂ))
      ≤ 5 * u * (1 / R) * l2 P.box (fun x => (Y' x : ℂ)) + R * tau := by
    have s0 : 0 < 1 / R := by positivity
    have cb := H.card_box'
    rw [show R = √(P.box.card : ℝ) by rw [cb]] 
    rw [cb, ← hR]
    refine (l2_le_of (c := 5 * u * (1 / R)) (e := tau) (g := fun x => (Y' x : ℂ)) (by positivity) t0.le fun x hx => ?_).trans
      (le_of_eq (by rw [cb]))
    rw [← Complex.ofReal_mul, ← Complex.ofReal_sub, Complex.norm_real, Complex.norm_real, Real.norm_eq_abs, Real.norm_eq_abs]
    have h1 := H.hX x hx
    have h2 : |Y' x * s' - Y' x * (1 / R)| ≤ 3 * u * (1 / R) * |Y' x| := by
      rw [← mul_sub, abs_mul, mul_comm]
      exact mul_le_mul_of_nonneg_right H.scale (abs_nonneg _)
    have h3 : |Y' x * s'| ≤ (1 + 3 * u) * (1 / R) * |Y' x| := by
      have : |Y' x * (1 / R)| = (1 / R) * |Y' x| := by rw [abs_mul, abs_of_pos s0, mul_comm]
      have := abs_sub_abs_le_abs_sub (Y' x * s') (Y' x * (1 / R))
      linarith
    have h4 := abs_sub_le (X' x) (Y' x * s') (Y' x * (1 / R))
    have h5 : u * |Y' x * s'| ≤ u * ((1 + 3 * u) * (1 / R) * |Y' x|) := mul_le_mul_of_nonneg_left h3 u0.le
    have h6 : u * ((1 + 3 * u) * (1 / R) * |Y' x|) ≤ 2 * u * (1 / R) * |Y' x| := by
      have : (1 + 3 * u) ≤ 2 := by norm_num at us ⊢; linarith
      have := mul_le_mul_of_nonneg_right this (show 0 ≤ u * ((1 / R) * |Y' x|) by positivity)
      linarith
    linarith
  have x2 := l2_add_le P.box (fun x => (X' x : ℂ) - (Y' x : ℂ) * ((1 / R : ℝ) : ℂ))
    (fun x => ((1 / R : ℝ) : ℂ) * ((Y' x : ℂ) - P.idft Z x))
  rw [l2_const_mul (by positivity), l2_congr (g := fun x => (X' x : ℂ) - P.idft Z x * ((1 / R : ℝ) : ℂ))
    (by intro i _; ring)] at x2
  generalize l2 P.box (fun x => (Y' x : ℂ) - P.idft Z x) = E at *
  generalize l2 P.box (fun x => (Y' x : ℂ)) = Yn at *
  generalize l2 P.box (fun x => (X' x : ℂ) - (Y' x : ℂ) * ((1 / R : ℝ) : ℂ)) = X1 at *
  refine x2.trans ?_
  have z1 : 5 * u * (1 / R) * Yn ≤ 5 * u * (1 / R) * (R ^ 2 * W + E) := mul_le_mul_of_nonneg_left y2 (by positivity)
  have z2 : 5 * u * (1 / R) * (R ^ 2 * W + E) = 5 * (u * (R * W)) + 5 * u * (1 / R * E) := by
    field_simp
  have z3 : 1 / R * E ≤ 2 * D + 67 * ε * R * W + 73 * R ^ 3 * tau := by
    rw [one_div, inv_mul_le_iff₀ R0]
    nlinarith
  have z4 : u * (R * W) ≤ ε * (R * W) := mul_le_mul_of_nonneg_right eu (by positivity)
  have z5 : (1 + 5 * u) * (1 / R * E) ≤ 1.01 * (2 * D + 67 * ε * R * W + 73 * R ^ 3 * tau) := by
    have ee := u0.le.trans eu
    refine (mul_le_mul_of_nonneg_left z3 (by positivity)).trans (mul_le_mul_of_nonneg_right ?_ (by positivity))
    norm_num at us ⊢
    linarith
  have R3 : R ^ 3 ≤ 2 ^ 150 := (pow_le_pow_left₀ R0.le R2 3).trans (by norm_num)
  have z6 : R * tau ≤ R ^ 3 * tau := by
    refine mul_le_mul_of_nonneg_right ?_ t0.le
    nlinarith [mul_self_nonneg (R - 1)]
  have z7 : 80 * (R ^ 3 * tau) ≤ 2⁻¹ ^ 800 := by
    have a1 : R ^ 3 * tau ≤ 2 ^ 150 * tau := mul_le_mul_of_nonneg_right R3 t0.le
    have a2 : (2 : ℝ) ^ 150 * tau = 2⁻¹ ^ 810 := by
      unfold tau
      rw [show 960 = 150 + 810 from rfl, pow_add, ← mul_assoc, ← mul_pow]
      norm_num
    have a3 : (2⁻¹ : ℝ) ^ 810 = 2⁻¹ ^ 10 * 2⁻¹ ^ 800 := by rw [← pow_add]
    have a4 : (0 : ℝ) < 2⁻¹ ^ 800 := by positivity
    rw [a2, a3] at a1
    have a5 : 80 * ((2⁻¹ : ℝ) ^ 10 * 2⁻¹ ^ 800) ≤ 1 * 2⁻¹ ^ 800 := by
      rw [← mul_assoc]
      exact mul_le_mul_of_nonneg_right (by norm_num) a4.le
    linarith
  have z8 : 0 ≤ ε * (R * W) := by have := u0.le.trans eu; positivity
  have z9 : 0 ≤ R ^ 3 * tau := by positivity
  have z10 : 1 / R * E + 5 * u * (1 / R * E) = (1 + 5 * u) * (1 / R * E) := by ring
  generalize (2⁻¹ : ℝ) ^ 800 = q at z7 ⊢
  have z11 : X1 + 1 / R * E ≤ 5 * (ε * (R * W)) + 1.01 * (2 * D + 67 * ε * R * W + 73 * R ^ 3 * tau) + R ^ 3 * tau := by
    linarith only [x1, z1, z2, z4, z5, z6, z10]
  linarith only [z7, z8, z9, z11, D0]

end ErrRun

end

end Verif
