import Verif.Lemmas.FieldErr2
import Verif.Lemmas.Noise

/-! Helper lemmas: the mean of the squared error bound, for uncorrelated noise. -/

namespace Verif

open Finset Spec MeasureTheory ProbabilityTheory

variable {Ω : Type} [MeasurableSpace Ω] {μ : Measure Ω} [IsProbabilityMeasure μ] {w : ℕ → Ω → ℝ}

theorem Spec.WhiteNoise.sq_lin {ι : Type} (h : WhiteNoise μ w) {S : Finset ι} (α : ι → ℝ) (f : ι → ℕ)
    (hf : Set.InjOn f S) :
    Integrable (fun ω => (∑ p ∈ S, α p * w (f p) ω) ^ 2) μ ∧
      ∫ ω, (∑ p ∈ S, α p * w (f p) ω) ^ 2 ∂μ = ∑ p ∈ S, α p ^ 2 := by
  have hm := h.memLp_lin S α f
  refine ⟨hm.integrable_sq, ?_⟩
  have h1 := h.cov_lin_same S α α f hf
  rw [covariance_self hm.1.aemeasurable, variance_of_integral_eq_zero hm.1.aemeasurable (h.mean_lin S α f)] at h1
  rw [h1]
  exact Finset.sum_congr rfl fun p _ => by ring

variable {G : Type} [AddCommGroup G] {P : Pairing G}

theorem dft_normSq (W : G → ℝ) (k : G) : ‖P.dft (fun x => (W x : ℂ)) k‖ ^ 2
    = (∑ x ∈ P.box, (P.e k (-x)).re * W x) ^ 2 + (∑ x ∈ P.box, (P.e k (-x)).im * W x) ^ 2 := by
  rw [← Complex.normSq_eq_norm_sq, Complex.normSq_apply]
  unfold Pairing.dft
  rw [Complex.re_sum, Complex.im_sum]
  have e1 : ∀ x, ((W x : ℂ) * P.e k (-x)).re = (P.e k (-x)).re * W x := by intro x; simp [mul_comm]
  have e2 : ∀ x, ((W x : ℂ) * P.e k (-x)).im = (P.e k (-x)).im * W x := by intro x; simp [mul_comm]
  simp only [e1, e2]
  ring

theorem dft_mean (h : WhiteNoise μ w) (f : G → ℕ) (hf : Set.InjOn f P.box) (k : G) :
    Integrable (fun ω => ‖P.dft (fun x => (w (f x) ω : ℂ)) k‖ ^ 2) μ ∧
      ∫ ω, ‖P.dft (fun x => (w (f x) ω : ℂ)) k‖ ^ 2 ∂μ = P.N := by
  have e := fun ω => dft_normSq (P := P) (fun x => w (f x) ω) k
  simp only [e]
  obtain ⟨i1, m1⟩ := h.sq_lin (S := P.box) (fun x => (P.e k (-x)).re) f hf
  obtain ⟨i2, m2⟩ := h.sq_lin (S := P.box) (fun x => (P.e k (-x)).im) f hf
  refine ⟨i1.add i2, ?_⟩
  rw [integral_add i1 i2, m1, m2, ← Finset.sum_add_distrib]
  have : ∀ x, (P.e k (-x)).re ^ 2 + (P.e k (-x)).im ^ 2 = 1 := by
    intro x
    have h1 := P.norm_e k (-x)
    have h2 := Complex.normSq_eq_norm_sq (P.e k (-x))
    rw [h1, Complex.normSq_apply] at h2
    nlinarith
  simp only [this, Finset.sum_const, P.card_box, nsmul_eq_mul, mul_one]

theorem errBound_mean {half : Finset G} {ε : ℝ} {g : G → ℝ} (h : WhiteNoise μ w) (f : G → ℕ)
    (hf : Set.InjOn f P.box) :
    ∃ Q : Ω → ℝ, Integrable Q μ ∧ (∀ ω, errBound P half ε g (fun x => w (f x) ω) ^ 2 ≤ Q ω) ∧
      ∫ ω, Q ω ∂μ = 3 * (4.41 * ∑ k ∈ half, g k ^ 2 + 5329 * ε ^ 2 * P.N ^ 2) + 3 * (2⁻¹ ^ 800) ^ 2 := by
  have N0 : (0 : ℝ) < P.N := by exact_mod_cast P.N_pos
  set Q : Ω → ℝ := fun ω => 3 * (4.41 * ∑ k ∈ half, g k ^ 2 * (1 / P.N) * ‖P.dft (fun x => (w (f x) ω : ℂ)) k‖ ^ 2
    + 5329 * ε ^ 2 * P.N * ∑ x ∈ P.box, w (f x) ω ^ 2) + 3 * (2⁻¹ ^ 800) ^ 2 with hQ
  have le : ∀ ω, errBound P half ε g (fun x => w (f x) ω) ^ 2 ≤ Q ω := by
    intro ω
    unfold errBound
    set A := l2 half (fun k => ((g k : ℝ) : ℂ) * (P.dft (fun x => (w (f x) ω : ℂ)) k * (1 / √(P.N : ℝ) : ℝ))) with hA
    set B := l2 P.box (fun x => (w (f x) ω : ℂ)) with hB
    have eA : A ^ 2 = ∑ k ∈ half, g k ^ 2 * (1 / P.N) * ‖P.dft (fun x => (w (f x) ω : ℂ)) k‖ ^ 2 := by
      rw [hA, l2_sq]
      refine Finset.sum_congr rfl fun k _ => ?_
      rw [norm_mul, norm_mul, Complex.norm_real, Complex.norm_real, mul_pow, mul_pow, Real.norm_eq_abs, sq_abs,
        Real.norm_eq_abs, sq_abs, div_pow, Real.sq_sqrt N0.le]
      ring
    have eB : B ^ 2 = ∑ x ∈ P.box, w (f x) ω ^ 2 := by
      rw [hB, l2_sq]
      refine Finset.sum_congr rfl fun x _ => ?_
      rw [Complex.norm_real, Real.norm_eq_abs, sq_abs]
    have eR : √(P.N : ℝ) ^ 2 = P.N := Real.sq_sqrt N0.le
    simp only [hQ]
    rw [← eA, ← eB]
    generalize (2⁻¹ : ℝ) ^ 800 = t
    generalize √(P.N : ℝ) = R at *
    rw [← eR]
    nlinarith only [sq_nonneg (2.1 * A - 73 * ε * R * B), sq_nonneg (2.1 * A - t), sq_nonneg (73 * ε * R * B - t)]
  have iQ : Integrable Q μ := by
    refine Integrable.add (Integrable.const_mul (Integrable.add (Integrable.const_mul
      (integrable_finsetSum _ fun k _ => ((dft_mean h f hf k).1.const_mul _)) _)
      (Integrable.const_mul (integrable_finsetSum _ fun x _ => (h.memLp (f x)).integrable_sq) _)) _)
      (integrable_const _)
  have mQ : ∫ ω, Q ω ∂μ = 3 * (4.41 * ∑ k ∈ half, g k ^ 2 + 5329 * ε ^ 2 * P.N ^ 2) + 3 * (2⁻¹ ^ 800) ^ 2 := by
    have j1 : Integrable (fun ω => ∑ k ∈ half, g k ^ 2 * (1 / P.N) * ‖P.dft (fun x => (w (f x) ω : ℂ)) k‖ ^ 2) μ :=
      integrable_finsetSum _ fun k _ => ((dft_mean h f hf k).1.const_mul _)
    have j2 : Integrable (fun ω => ∑ x ∈ P.box, w (f x) ω ^ 2) μ :=
      integrable_finsetSum _ fun x _ => (h.memLp (f x)).integrable_sq
    have w2 : ∀ x, ∫ ω, w (f x) ω ^ 2 ∂μ = 1 := by
      intro x
      have := (h.sq_lin (S := {x}) (fun _ => 1) f (by simp)).2
      simpa using this
    have j3 : Integrable (fun ω => 4.41 * ∑ k ∈ half, g k ^ 2 * (1 / P.N) * ‖P.dft (fun x => (w (f x) ω : ℂ)) k‖ ^ 2
        + 5329 * ε ^ 2 * P.N * ∑ x ∈ P.box, w (f x) ω ^ 2) μ := (j1.const_mul _).add (j2.const_mul _)
    simp only [hQ]
    rw [integral_add (j3.const_mul _) (integrable_const _), integral_const_mul,
      integral_add (j1.const_mul _) (j2.const_mul _), integral_const_mul, integral_const_mul,
      integral_finsetSum _ (fun k _ => ((dft_mean h f hf k).1.const_mul _)),
      integral_finsetSum _ (fun x _ => (h.memLp (f x)).integrable_sq)]
    simp only [integral_const_mul, (dft_mean h f hf _).2, w2, Finset.sum_const, P.card_box, nsmul_eq_mul, mul_one,
      integral_const, probReal_univ, smul_eq_mul, one_mul]
    have : ∀ k, g k ^ 2 * (1 / (P.N : ℝ)) * P.N = g k ^ 2 := by intro k; field_simp
    simp only [this]
    ring
  exact ⟨Q, iQ, le, mQ⟩

/-- With the error of the filter. -/
theorem errFilter_mean {half : Finset G} {ε δ : ℝ} {c c' : G → ℝ} {z' : G → ℂ} {f' : G → ℝ}
    (K : ErrFilter P half ε δ c c' z' f') (h : WhiteNoise μ w) (f : G → ℕ)
    (hf : Set.InjOn f P.box) :
    ∃ Q : Ω → ℝ, Integrable Q μ ∧
      (∀ ω, errBound P half ε (fun k => f' k - P.amp c k) (fun x => w (f x) ω) ^ 2 ≤ Q ω) ∧
      ∫ ω, Q ω ∂μ ≤ P.N * (27 * √P.N * (δ + 2 * ε) + 17000 * P.N * ε ^ 2) + 2⁻¹ ^ 1000 := by
  obtain ⟨Q, q1, q2, q3⟩ := errBound_mean (half := half) (ε := ε) (g := fun k => f' k - P.amp c k) h f hf
  refine ⟨Q, q1, q2, q3.le.trans ?_⟩
  have h1 := K.sum_f_err
  have h2 : 3 * ((2⁻¹ : ℝ) ^ 800) ^ 2 ≤ 2⁻¹ ^ 1000 := by
    have e : ((2⁻¹ : ℝ) ^ 800) ^ 2 = 2⁻¹ ^ 600 * 2⁻¹ ^ 1000 := by rw [← pow_mul, ← pow_add]
    have e2 : (2⁻¹ : ℝ) ^ 600 ≤ 2⁻¹ ^ 2 := pow_le_pow_of_le_one (by norm_num) (by norm_num) (by norm_num)
    rw [e]
    have e3 : (0 : ℝ) < 2⁻¹ ^ 1000 := by positivity
    generalize (2⁻¹ : ℝ) ^ 600 = a at *
    generalize (2⁻¹ : ℝ) ^ 1000 = b at *
    norm_num at e2
    nlinarith
  generalize 3 * ((2⁻¹ : ℝ) ^ 800) ^ 2 = a at *
  generalize (2⁻¹ : ℝ) ^ 1000 = b at *
  have e0 := K.eps_pos
  have d0 := K.d_nonneg
  have N0 : (0 : ℝ) ≤ P.N := Nat.cast_nonneg _
  have z1 : 0 ≤ (P.N : ℝ) * √P.N * (δ + 2 * ε) := by positivity
  have z2 : 0 ≤ ε ^ 2 * (P.N : ℝ) ^ 2 := by positivity
  nlinarith only [h1, h2, z1, z2]

end Verif
