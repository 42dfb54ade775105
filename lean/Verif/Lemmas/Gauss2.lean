import Verif.Lemmas.BestLinear

/-! Helper lemma: the Gaussian correlation matrix of different points of the plane is positive definite. -/

namespace Verif

open Finset

/-- A direction in which the points of the plane are apart. -/
theorem exists_direction {n : ℕ} {p : Fin n → ℝ × ℝ} (hp : Function.Injective p) :
    ∃ s : ℝ, Function.Injective fun a => (p a).1 + s * (p a).2 := by
  classical
  let bad : Finset ℝ := (univ : Finset (Fin n × Fin n)).image fun q => -((p q.1).1 - (p q.2).1) / ((p q.1).2 - (p q.2).2)
  obtain ⟨s, hs⟩ := Infinite.exists_notMem_finset bad
  refine ⟨s, fun a b hab => ?_⟩
  by_contra hne
  dsimp only at hab
  by_cases hw : (p a).2 = (p b).2
  · rw [hw] at hab
    exact hne (hp (Prod.ext (by linarith) hw))
  · apply hs
    refine mem_image.2 ⟨(a, b), mem_univ _, ?_⟩
    have : (p a).2 - (p b).2 ≠ 0 := sub_ne_zero.2 hw
    dsimp only
    rw [div_eq_iff this]
    linarith

theorem gauss2_posDef {n : ℕ} {t : ℝ} (ht : 0 < t) {p : Fin n → ℝ × ℝ} (hp : Function.Injective p) :
    (Matrix.of fun a b : Fin n => Real.exp (-t * (((p a).1 - (p b).1) ^ 2 + ((p a).2 - (p b).2) ^ 2))).PosDef := by
  refine Matrix.PosDef.of_dotProduct_mulVec_pos ?_ ?_
  · ext a b
    simp only [Matrix.conjTranspose_apply, Matrix.of_apply, star_trivial]
    congr 1
    ring
  · intro c hc
    let d : Fin n → ℝ := fun a => c a * Real.exp (-t * ((p a).1 ^ 2 + (p a).2 ^ 2))
    have hs : ∀ y : ℝ, HasSum (fun k : ℕ => ((k.factorial : ℝ)⁻¹) * y ^ k) (Real.exp y) := by
      intro y
      have := NormedSpace.exp_series_hasSum_exp' (𝕂 := ℝ) y
      rw [← Real.exp_eq_exp_ℝ] at this
      simpa [smul_eq_mul] using this
    have hsum : HasSum (fun k : ℕ => ((k.factorial : ℝ)⁻¹) * (2 * t) ^ k *
          ∑ m ∈ range (k + 1), (k.choose m : ℝ) * (∑ a, d a * ((p a).1 ^ m * (p a).2 ^ (k - m))) ^ 2)
        (star c ⬝ᵥ (Matrix.of fun a b : Fin n => Real.exp (-t * (((p a).1 - (p b).1) ^ 2 + ((p a).2 - (p b).2) ^ 2))).mulVec c) := by
      have h1 : HasSum (fun k : ℕ => ∑ a, ∑ b, d a * d b * (((k.factorial : ℝ)⁻¹) *
            (2 * t * ((p a).1 * (p b).1 + (p a).2 * (p b).2)) ^ k))
          (∑ a, ∑ b, d a * d b * Real.exp (2 * t * ((p a).1 * (p b).1 + (p a).2 * (p b).2))) :=
        hasSum_sum fun a _ => hasSum_sum fun b _ => (hs _).mul_left _
      convert h1 using 1
      · funext k
        have e : ∀ a b : Fin n, ((p a).1 * (p b).1 + (p a).2 * (p b).2) ^ k
            = ∑ m ∈ range (k + 1), (k.choose m : ℝ) * (((p a).1 ^ m * (p a).2 ^ (k - m)) * ((p b).1 ^ m * (p b).2 ^ (k - m))) := by
          intro a b
          rw [add_pow]
          refine sum_congr rfl fun m _ => ?_
          rw [mul_pow, mul_pow]
          ring
        have e2 : ∀ m : ℕ, (∑ a, d a * ((p a).1 ^ m * (p a).2 ^ (k - m))) ^ 2
            = ∑ a, ∑ b, d a * d b * (((p a).1 ^ m * (p a).2 ^ (k - m)) * ((p b).1 ^ m * (p b).2 ^ (k - m))) := by
          intro m
          rw [pow_two, sum_mul_sum]
          refine sum_congr rfl fun a _ => sum_congr rfl fun b _ => ?_
          ring
        simp only [e2, mul_pow (2 * t), e]
        simp only [mul_sum]
        rw [sum_comm]
        refine sum_congr rfl fun a _ => ?_
        rw [sum_comm]
        refine sum_congr rfl fun b _ => sum_congr rfl fun m _ => ?_
        ring
      · rw [dotProduct]
        refine sum_congr rfl fun a _ => ?_
        rw [Matrix.mulVec, dotProduct, mul_sum]
        refine sum_congr rfl fun b _ => ?_
        simp only [Pi.star_apply, star_trivial, Matrix.of_apply, d]
        have : Real.exp (-t * (((p a).1 - (p b).1) ^ 2 + ((p a).2 - (p b).2) ^ 2))
            = Real.exp (-t * ((p a).1 ^ 2 + (p a).2 ^ 2)) * Real.exp (-t * ((p b).1 ^ 2 + (p b).2 ^ 2))
              * Real.exp (2 * t * ((p a).1 * (p b).1 + (p a).2 * (p b).2)) := by
          rw [← Real.exp_add, ← Real.exp_add]
          congr 1
          ring
        rw [this]
        ring
    have hnn : ∀ k : ℕ, 0 ≤ ((k.factorial : ℝ)⁻¹) * (2 * t) ^ k *
          ∑ m ∈ range (k + 1), (k.choose m : ℝ) * (∑ a, d a * ((p a).1 ^ m * (p a).2 ^ (k - m))) ^ 2 := fun k => by positivity
    by_contra hneg
    have h0 : star c ⬝ᵥ (Matrix.of fun a b : Fin n => Real.exp (-t * (((p a).1 - (p b).1) ^ 2 + ((p a).2 - (p b).2) ^ 2))).mulVec c = 0 :=
      le_antisymm (not_lt.1 hneg) (hsum.nonneg hnn)
    rw [h0] at hsum
    have hz := (hasSum_zero_iff_of_nonneg hnn).1 hsum
    have hmom : ∀ k m : ℕ, m ≤ k → ∑ a, d a * ((p a).1 ^ m * (p a).2 ^ (k - m)) = 0 := by
      intro k m hm
      have := congrFun hz k
      simp only [Pi.zero_apply] at this
      rcases mul_eq_zero.1 this with h | h
      · exact absurd h (by positivity)
      · have h2 := (sum_eq_zero_iff_of_nonneg fun m _ => by positivity).1 h m (mem_range.2 (by omega))
        rcases mul_eq_zero.1 h2 with h3 | h3
        · exact absurd (by exact_mod_cast h3) (Nat.choose_pos hm).ne'
        · exact pow_eq_zero_iff two_ne_zero |>.1 h3
    obtain ⟨s, hinj⟩ := exists_direction hp
    have hd : d = 0 := by
      refine Matrix.eq_zero_of_forall_pow_sum_mul_pow_eq_zero hinj fun i => ?_
      have e : ∀ a, d a * ((p a).1 + s * (p a).2) ^ (i : ℕ)
          = ∑ m ∈ range ((i : ℕ) + 1), s ^ ((i : ℕ) - m) * ((i : ℕ).choose m : ℝ) * (d a * ((p a).1 ^ m * (p a).2 ^ ((i : ℕ) - m))) := by
        intro a
        rw [add_pow, mul_sum]
        refine sum_congr rfl fun m _ => ?_
        rw [mul_pow]
        ring
      simp only [e]
      rw [sum_comm]
      refine sum_eq_zero fun m hm => ?_
      rw [← mul_sum, hmom i m (by have := mem_range.1 hm; omega), mul_zero]
    apply hc
    ext a
    have := congrFun hd a
    simp only [d, Pi.zero_apply] at this
    rcases mul_eq_zero.1 this with h | h
    · exact h
    · exact absurd h (Real.exp_pos _).ne'

/-- The same for a distance given by a positive definite quadratic form. -/
theorem gauss_quad_posDef {n : ℕ} {t A B C : ℝ} (ht : 0 < t) (hA : 0 < A) (hdet : C ^ 2 < 4 * A * B) {p : Fin n → ℝ × ℝ}
    (hp : Function.Injective p) :
    (Matrix.of fun a b : Fin n => Real.exp (-t * (A * ((p a).1 - (p b).1) ^ 2 + B * ((p a).2 - (p b).2) ^ 2
      + C * ((p a).1 - (p b).1) * ((p a).2 - (p b).2)))).PosDef := by
  have hD : 0 < B - C ^ 2 / (4 * A) := by
    rw [sub_pos, div_lt_iff₀ (by positivity)]
    linarith
  have h1 : √A ^ 2 = A := Real.sq_sqrt hA.le
  have h2 : √(B - C ^ 2 / (4 * A)) ^ 2 = B - C ^ 2 / (4 * A) := Real.sq_sqrt hD.le
  have h := gauss2_posDef ht (p := fun a => (√A * ((p a).1 + C / (2 * A) * (p a).2), √(B - C ^ 2 / (4 * A)) * (p a).2)) (by
    intro a b hab
    rw [Prod.mk.injEq] at hab
    have e2 := mul_left_cancel₀ (Real.sqrt_pos.2 hD).ne' hab.2
    have e1 := mul_left_cancel₀ (Real.sqrt_pos.2 hA).ne' hab.1
    rw [e2] at e1
    exact hp (Prod.ext (by linarith) e2))
  convert h using 3
  funext b
  congr 2
  dsimp only
  rw [← mul_sub, ← mul_sub, mul_pow, mul_pow, h1, h2]
  field_simp
  ring

end Verif
