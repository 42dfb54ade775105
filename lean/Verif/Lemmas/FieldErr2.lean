import Verif.Lemmas.FieldErr

/-! Helper lemmas: the error of the filter, and the resulting error of a field. -/

namespace Verif

open Finset ComplexConjugate Fl

attribute [local irreducible] Fl.u tau

theorem abs_sqrt_max_sub (a b : ℝ) : |√(max a 0) - √(max b 0)| ≤ √|a - b| := by
  wlog h : b ≤ a generalizing a b
  · rw [abs_sub_comm, abs_sub_comm a b]
    exact this b a (le_of_not_ge h)
  have hm : max b 0 ≤ max a 0 := max_le_max_right 0 h
  rw [abs_of_nonneg (sub_nonneg.2 (Real.sqrt_le_sqrt hm)), sub_le_iff_le_add]
  have b0 := le_max_right b 0
  have b1 := le_max_left b 0
  have s1 := Real.sqrt_nonneg |a - b|
  have s2 := Real.sqrt_nonneg (max b 0)
  rw [Real.sqrt_le_iff]
  refine ⟨by positivity, ?_⟩
  rw [add_sq, Real.sq_sqrt (abs_nonneg _), Real.sq_sqrt b0, abs_of_nonneg (sub_nonneg.2 h)] at *
  have := mul_nonneg s1 s2
  refine max_le ?_ ?_
  · linarith
  · linarith

section
variable {G : Type} [AddCommGroup G] (P : Pairing G)

/-- The data of a filter with errors. -/
structure ErrFilter (half : Finset G) (ε δ : ℝ) (c c' : G → ℝ) (z' : G → ℂ) (f' : G → ℝ) : Prop where
  half_sub : half ⊆ P.box
  eps_u : u ≤ ε
  eps_le : ε ≤ 2⁻¹ ^ 20
  d_nonneg : 0 ≤ δ
  d_le : δ ≤ 2⁻¹
  c_le : ∀ x ∈ P.box, |c x| ≤ 1
  hc : ∀ x ∈ P.box, |c' x - c x| ≤ δ
  hz : l2 half (fun k => z' k - P.dft (fun x => (c' x : ℂ)) k)
    ≤ ε * √(P.N : ℝ) * l2 P.box (fun x => (c' x : ℂ)) + tau
  hf : ∀ k ∈ half, f' k = rnd64 √(max (z' k).re 0)

namespace ErrFilter
variable {P} {half : Finset G} {ε δ : ℝ} {c c' : G → ℝ} {z' : G → ℂ} {f' : G → ℝ}
  (H : ErrFilter P half ε δ c c' z' f')
include H

theorem eps_pos : 0 < ε := lt_of_lt_of_le u_pos H.eps_u

theorem eta_le : δ + 2 * ε ≤ 1 := by
  have := H.eps_le
  have := H.d_le
  norm_num at *
  linarith

omit H in
theorem l2_le_N {g : G → ℝ} {d : ℝ} (hd : 0 ≤ d) (h : ∀ x ∈ P.box, |g x| ≤ d) :
    √(P.N : ℝ) * l2 P.box (fun x => (g x : ℂ)) ≤ P.N * d := by
  have h1 : l2 P.box (fun x => (g x : ℂ)) ≤ √(P.N : ℝ) * d := by
    have := l2_le_of (s := P.box) (f := fun x => (g x : ℂ)) (g := fun _ => 0) (le_refl (0 : ℝ)) hd
      (fun x hx => by
        rw [norm_zero, mul_zero, zero_add, Complex.norm_real]
        exact h x hx)
    rwa [zero_mul, zero_add, P.card_box] at this
  have h2 := mul_le_mul_of_nonneg_left h1 (Real.sqrt_nonneg (P.N : ℝ))
  rwa [← mul_assoc, Real.mul_self_sqrt (Nat.cast_nonneg _)] at h2

theorem z_err : l2 half (fun k => z' k - P.dft (fun x => (c x : ℂ)) k) ≤ P.N * (δ + 2 * ε) := by
  have e0 := H.eps_pos
  have h1 := l2_add_le half (fun k => z' k - P.dft (fun x => (c' x : ℂ)) k)
    (fun k => P.dft (fun x => ((c' x - c x : ℝ) : ℂ)) k)
  have e1 : (fun k => z' k - P.dft (fun x => (c' x : ℂ)) k + P.dft (fun x => ((c' x - c x : ℝ) : ℂ)) k)
      = fun k => z' k - P.dft (fun x => (c x : ℂ)) k := by
    funext k
    have := P.dft_sub (fun x => (c' x : ℂ)) (fun x => (c x : ℂ)) k
    simp only [Complex.ofReal_sub]
    rw [this]; ring
  rw [e1] at h1
  have h2 : l2 half (fun k => P.dft (fun x => ((c' x - c x : ℝ) : ℂ)) k) ≤ P.N * δ := by
    refine (l2_sub_set H.half_sub).trans ?_
    have := P.l2_dft (fun x => ((c' x - c x : ℝ) : ℂ))
    rw [show (fun k => P.dft (fun x => ((c' x - c x : ℝ) : ℂ)) k)
      = P.dft (fun x => ((c' x - c x : ℝ) : ℂ)) from rfl, this]
    exact l2_le_N H.d_nonneg H.hc
  have h3 : √(P.N : ℝ) * l2 P.box (fun x => (c' x : ℂ)) ≤ P.N * 1.5 := by
    refine l2_le_N (by norm_num) fun x hx => ?_
    have a1 := H.c_le x hx
    have a2 := H.hc x hx
    have a3 := abs_sub_abs_le_abs_sub (c' x) (c x)
    have := H.d_le
    norm_num at this ⊢
    linarith
  have h4 := mul_le_mul_of_nonneg_left h3 e0.le
  have h5 : tau ≤ 0.5 * (ε * P.N) := by
    have a1 : tau ≤ 0.5 * u := by
      have : (2⁻¹ : ℝ) ^ 960 ≤ 2⁻¹ ^ 53 := pow_le_pow_of_le_one (by norm_num) (by norm_num) (by norm_num)
      unfold tau u
      refine this.trans (by norm_num)
    have a2 : (1 : ℝ) ≤ P.N := by exact_mod_cast P.N_pos
    have a3 := mul_le_mul_of_nonneg_left a2 e0.le
    have := H.eps_u
    linarith
  have := H.hz
  linarith

theorem re_err {k : G} (hk : k ∈ half) : |(z' k).re - P.spec c k| ≤ P.N * (δ + 2 * ε) := by
  refine le_trans ?_ H.z_err
  refine le_trans ?_ (norm_le_l2 (f := fun k => z' k - P.dft (fun x => (c x : ℂ)) k) hk)
  have := Complex.abs_re_le_norm (z' k - P.dft (fun x => (c x : ℂ)) k)
  rwa [Complex.sub_re] at this

omit H in
theorem norm_e_le {a : G → ℝ} (h : ∀ x ∈ P.box, |a x| ≤ 1) (k : G) : |P.spec a k| ≤ P.N := by
  unfold Pairing.spec
  refine (Complex.abs_re_le_norm _).trans ?_
  unfold Pairing.dft
  refine (norm_sum_le _ _).trans ?_
  have : ∀ x ∈ P.box, ‖(a x : ℂ) * P.e k (-x)‖ ≤ 1 := fun x hx => by
    rw [norm_mul, P.norm_e, mul_one, Complex.norm_real]
    exact h x hx
  have := Finset.sum_le_card_nsmul _ _ _ this
  rwa [P.card_box, nsmul_eq_mul, mul_one] at this

theorem spec_le (k : G) : |P.spec c k| ≤ P.N := norm_e_le H.c_le k

theorem amp_le (k : G) : |P.amp c k| ≤ √(P.N : ℝ) := by
  unfold Pairing.amp
  rw [abs_of_nonneg (Real.sqrt_nonneg _)]
  apply Real.sqrt_le_sqrt
  exact max_le ((le_abs_self _).trans (H.spec_le k)) (Nat.cast_nonneg _)

theorem sqrt_re_le {k : G} (hk : k ∈ half) : √(max (z' k).re 0) ≤ 2 * √(P.N : ℝ) := by
  have h1 := H.re_err hk
  have h2 := H.spec_le k
  have N0 : (0 : ℝ) ≤ P.N := Nat.cast_nonneg _
  have h3 : (z' k).re ≤ 4 * P.N := by
    have a1 := mul_le_mul_of_nonneg_left H.eta_le N0
    have a2 := abs_le.1 h1
    have a3 := abs_le.1 h2
    linarith [a2.2, a3.2]
  have : √(4 * P.N : ℝ) = 2 * √(P.N : ℝ) := by
    rw [Real.sqrt_mul (by norm_num), show (4 : ℝ) = 2 ^ 2 by norm_num, Real.sqrt_sq (by norm_num)]
  rw [← this]
  exact Real.sqrt_le_sqrt (max_le h3 (by linarith))

omit H in
theorem one_le_R : 1 ≤ √(P.N : ℝ) := by
  rw [Real.one_le_sqrt]
  exact_mod_cast P.N_pos

theorem rnd_f {k : G} (hk : k ∈ half) : |f' k - √(max (z' k).re 0)| ≤ 3 * u * √(P.N : ℝ) := by
  rw [H.hf k hk]
  refine (rnd_err _).trans ?_
  rw [abs_of_nonneg (Real.sqrt_nonneg _)]
  have h1 := mul_le_mul_of_nonneg_left (H.sqrt_re_le hk) u_pos.le
  have h2 : tau ≤ u := by
    unfold tau u
    exact pow_le_pow_of_le_one (by norm_num) (by norm_num) (by norm_num)
  have h3 := mul_le_mul_of_nonneg_left (one_le_R (P := P)) u_pos.le
  linarith

theorem f'_le {k : G} (hk : k ∈ half) : |f' k| ≤ 3 * √(P.N : ℝ) := by
  have h1 := H.rnd_f hk
  have h2 := H.sqrt_re_le hk
  have h3 := H.eps_u.trans H.eps_le
  have h4 := abs_sub_abs_le_abs_sub (f' k) (√(max (z' k).re 0))
  rw [abs_of_nonneg (Real.sqrt_nonneg _)] at h4
  have R1 := one_le_R (P := P)
  have h5 : 3 * u * √(P.N : ℝ) ≤ 1 * √(P.N : ℝ) := by
    apply mul_le_mul_of_nonneg_right _ (by linarith)
    norm_num at h3
    linarith
  linarith

theorem f_err {k : G} (hk : k ∈ half) :
    |f' k - P.amp c k| ≤ √|(z' k).re - P.spec c k| + 3 * u * √(P.N : ℝ) := by
  have h1 := H.rnd_f hk
  have h2 := abs_sqrt_max_sub (z' k).re (P.spec c k)
  have h3 := abs_sub_le (f' k) (√(max (z' k).re 0)) (P.amp c k)
  unfold Pairing.amp at *
  linarith

theorem f_err' {k : G} (hk : k ∈ half) :
    |f' k - P.amp c k| ≤ √(P.N * (δ + 2 * ε)) + 3 * u * √(P.N : ℝ) := by
  have := H.f_err hk
  have := Real.sqrt_le_sqrt (H.re_err hk)
  linarith

/-- The sum of the squared errors of the filter. -/
theorem sum_f_err : ∑ k ∈ half, (f' k - P.amp c k) ^ 2
    ≤ 2 * (P.N * √(P.N : ℝ)) * (δ + 2 * ε) + 18 * ε ^ 2 * P.N ^ 2 := by
  have e0 := H.eps_pos
  have u0 := u_pos
  set N : ℝ := (P.N : ℝ) with hN
  have N0 : 0 ≤ N := Nat.cast_nonneg _
  set q := fun k => z' k - P.dft (fun x => (c x : ℂ)) k with hq
  have h1 : ∀ k ∈ half, (f' k - P.amp c k) ^ 2 ≤ 2 * ‖q k‖ + 18 * ε ^ 2 * N := fun k hk => by
    have a1 := H.f_err hk
    have a2 : |(z' k).re - P.spec c k| ≤ ‖q k‖ := by
      have := Complex.abs_re_le_norm (q k)
      rwa [hq, Complex.sub_re] at this
    have a3 := (abs_nonneg _).trans a2
    have a4 : √|(z' k).re - P.spec c k| ≤ √‖q k‖ := Real.sqrt_le_sqrt a2
    have a5 : 3 * u * √N ≤ 3 * ε * √N := by
      have := mul_le_mul_of_nonneg_right H.eps_u (Real.sqrt_nonneg N)
      linarith
    have a6 : |f' k - P.amp c k| ≤ √‖q k‖ + 3 * ε * √N := by linarith
    rw [← sq_abs]
    have a7 := pow_le_pow_left₀ (abs_nonneg _) a6 2
    have a8 := Real.sq_sqrt a3
    have a9 := Real.sq_sqrt N0
    nlinarith [sq_nonneg (√‖q k‖ - 3 * ε * √N)]
  refine (Finset.sum_le_sum h1).trans ?_
  rw [Finset.sum_add_distrib, ← Finset.mul_sum, Finset.sum_const, nsmul_eq_mul]
  have hcard : (half.card : ℝ) ≤ N := by
    have := Finset.card_le_card H.half_sub
    rw [P.card_box] at this
    rw [hN]
    exact_mod_cast this
  have h2 : ∑ k ∈ half, ‖q k‖ ≤ √N * (N * (δ + 2 * ε)) := by
    have b1 := Finset.sum_mul_sq_le_sq_mul_sq half (fun _ => (1 : ℝ)) (fun k => ‖q k‖)
    simp only [one_mul, one_pow, Finset.sum_const, nsmul_eq_mul, mul_one] at b1
    rw [← l2_sq] at b1
    have b2 : ∑ k ∈ half, ‖q k‖ ≤ √N * l2 half q := by
      apply le_of_sq_le_sq _ (mul_nonneg (Real.sqrt_nonneg _) l2_nonneg)
      rw [mul_pow, Real.sq_sqrt N0]
      exact b1.trans (mul_le_mul_of_nonneg_right hcard (sq_nonneg _))
    exact b2.trans (mul_le_mul_of_nonneg_left H.z_err (Real.sqrt_nonneg _))
  have h3 : (half.card : ℝ) * (18 * ε ^ 2 * N) ≤ N * (18 * ε ^ 2 * N) :=
    mul_le_mul_of_nonneg_right hcard (by positivity)
  linarith

end ErrFilter

variable {P} {half : Finset G} {ε δ : ℝ} {c c' : G → ℝ} {z' : G → ℂ} {f' : G → ℝ} {w : G → ℝ} {s' : ℝ}
  {a : G → ℝ} {A' : G → ℂ} {B' : G → ℂ} {Y' X' : G → ℝ}


/-- A bound for the error of a field: `g` is the error of the filter, `w` the noise. -/
noncomputable def errBound (P : Pairing G) (half : Finset G) (ε : ℝ) (g w : G → ℝ) : ℝ :=
  2.1 * l2 half (fun k => ((g k : ℝ) : ℂ) * (P.dft (fun x => (w x : ℂ)) k * (1 / √(P.N : ℝ) : ℝ)))
    + 73 * ε * √(P.N : ℝ) * l2 P.box (fun x => (w x : ℂ)) + 2⁻¹ ^ 800

theorem errBound_congr {g w w' : G → ℝ} (h : ∀ x ∈ P.box, w x = w' x) :
    errBound P half ε g w = errBound P half ε g w' := by
  unfold errBound
  have e1 : P.dft (fun x => (w x : ℂ)) = P.dft (fun x => (w' x : ℂ)) := by
    funext k
    unfold Pairing.dft
    exact Finset.sum_congr rfl fun x hx => by simp only [h x hx]
  have e2 : l2 P.box (fun x => (w x : ℂ)) = l2 P.box (fun x => (w' x : ℂ)) := l2_congr fun x hx => by rw [h x hx]
  rw [e1, e2]

theorem ErrRun.field_err_bound (H : ErrRun P half ε (P.amp c) w s' a A' f' B' Y' X') :
    l2 P.box (fun x => (X' x : ℂ) - P.idft (fun k => (P.amp c k : ℂ) * P.dft (fun x => (w x : ℂ)) k) x / P.N)
      ≤ errBound P half ε (fun k => f' k - P.amp c k) w := H.field_err


/-- The error of a field, for any noise. -/
theorem errBound_det (K : ErrFilter P half ε δ c c' z' f') :
    errBound P half ε (fun k => f' k - P.amp c k) w
      ≤ 3 * √(P.N * (δ + 2 * ε)) * l2 P.box (fun x => (w x : ℂ)) + 2⁻¹ ^ 800 := by
  have e0 := K.eps_pos
  have u0 := u_pos
  have R1 := ErrFilter.one_le_R (P := P)
  set R := √(P.N : ℝ) with hR
  have R0 : 0 < R := by linarith
  set W := l2 P.box (fun x => (w x : ℂ)) with hW
  have W0 : 0 ≤ W := l2_nonneg
  set q := √(P.N * (δ + 2 * ε)) with hq
  have q0 : 0 ≤ q := Real.sqrt_nonneg _
  have h2 : l2 half (fun k => ((f' k - P.amp c k : ℝ) : ℂ) * (P.dft (fun x => (w x : ℂ)) k * (1 / R : ℝ)))
      ≤ (q + 3 * u * R) * W := by
    have a1 : l2 half (fun k => ((f' k - P.amp c k : ℝ) : ℂ) * (P.dft (fun x => (w x : ℂ)) k * (1 / R : ℝ)))
        ≤ l2 half (fun k => (((q + 3 * u * R) * (1 / R) : ℝ) : ℂ) * P.dft (fun x => (w x : ℂ)) k) := by
      refine l2_mono fun k hk => ?_
      rw [norm_mul, norm_mul, norm_mul, Complex.norm_real, Complex.norm_real, Complex.norm_real,
        Real.norm_eq_abs, Real.norm_eq_abs, Real.norm_eq_abs]
      have b1 := K.f_err' hk
      have b2 : |(q + 3 * u * R) * (1 / R)| = (q + 3 * u * R) * |1 / R| := by
        rw [abs_mul, abs_of_nonneg (show 0 ≤ q + 3 * u * R by positivity)]
      rw [b2]
      have b3 := mul_le_mul_of_nonneg_right b1
        (show 0 ≤ |1 / R| * ‖P.dft (fun x => (w x : ℂ)) k‖ by positivity)
      linarith
    refine a1.trans ?_
    rw [l2_const_mul (by positivity)]
    have a2 : l2 half (fun k => P.dft (fun x => (w x : ℂ)) k) ≤ R * W :=
      (l2_sub_set K.half_sub).trans (P.l2_dft _).le
    have a3 := mul_le_mul_of_nonneg_left a2 (show 0 ≤ (q + 3 * u * R) * (1 / R) by positivity)
    refine a3.trans (le_of_eq ?_)
    field_simp
  have h3 : 80 * ε * R ≤ 0.2 * q := by
    have b1 : ε * P.N ≤ P.N * (δ + 2 * ε) := by
      have := mul_nonneg (Nat.cast_nonneg (α := ℝ) P.N) (add_nonneg K.d_nonneg e0.le)
      linarith
    have b2 : √ε * R ≤ q := by
      rw [hR, ← Real.sqrt_mul e0.le]
      exact Real.sqrt_le_sqrt b1
    have b3 : √ε ≤ 2⁻¹ ^ 10 := by
      rw [Real.sqrt_le_iff]
      exact ⟨by positivity, K.eps_le.trans (by norm_num)⟩
    have b4 : ε = √ε * √ε := (Real.mul_self_sqrt e0.le).symm
    have b5 : ε * R ≤ 2⁻¹ ^ 10 * q := by
      rw [b4, mul_assoc]
      exact mul_le_mul b3 b2 (by positivity) (by positivity)
    norm_num at b5 ⊢
    linarith
  have h4 : u * R * W ≤ ε * R * W :=
    mul_le_mul_of_nonneg_right (mul_le_mul_of_nonneg_right K.eps_u R0.le) W0
  have h5 := mul_le_mul_of_nonneg_right h3 W0
  have h6 := mul_nonneg q0 W0
  unfold errBound
  generalize (2⁻¹ : ℝ) ^ 800 = t
  have h7 : 0 ≤ ε * R * W := by positivity
  linarith only [h2, h4, h5, h6, h7]

end

end Verif
