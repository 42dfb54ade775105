import Verif.Lemmas.Cholesky
import Verif.Lemmas.PostNormal

/-! The loops of `Potential`; the moments of draws. -/

namespace Verif

open Matrix

theorem forRange_add {n : ℕ} {body : ℕ → ℝ → Res ℝ} {f : ℕ → ℝ} (h : ∀ i < n, ∀ s, body i s = .ok (s + f i)) (s : ℝ) :
    forRange 0 n body s = .ok (s + ∑ i ∈ Finset.range n, f i) := by
  obtain ⟨t, e, ht⟩ := forRange_sat (fun j t => t = s + ∑ i ∈ Finset.range j, f i) (Nat.zero_le n) (body := body) (s := s) (by simp) (by
    intro i t _ hi ht
    rw [h i hi, Res.sat_ok, ht, Finset.sum_range_succ]
    ring)
  rw [e, ht]

theorem forRange_mul {n : ℕ} {body : ℕ → ℝ → Res ℝ} {f : ℕ → ℝ} (h : ∀ i < n, ∀ s, body i s = .ok (s * f i)) (s : ℝ) :
    forRange 0 n body s = .ok (s * ∏ i ∈ Finset.range n, f i) := by
  obtain ⟨t, e, ht⟩ := forRange_sat (fun j t => t = s * ∏ i ∈ Finset.range j, f i) (Nat.zero_le n) (body := body) (s := s) (by simp) (by
    intro i t _ hi ht
    rw [h i hi, Res.sat_ok, ht, Finset.prod_range_succ]
    ring)
  rw [e, ht]

theorem potSum_ok {n : ℕ} {diff inv : List ℝ} (em : ℕ → ℕ → ℝ) (hd : diff.length = n) (hi : inv.length = n) :
    forRange 0 n (MultiNormal.potOuter n diff inv em) 0.0 = .ok (∑ j ∈ Finset.range n,
      (∑ i ∈ Finset.range n, em i j * diff.getD i 0) ^ 2 * inv.getD j 0) := by
  have h3 : ∀ (i j : ℕ) (c : ℝ) (s : ℝ), forRange 0 n (MultiNormal.potInner diff em c j) s =
      .ok (s + ∑ k ∈ Finset.range n, c * diff.getD k 0 * em k j) := by
    intro i j c s
    refine forRange_add (fun k hk s => ?_) s
    rw [MultiNormal.potInner, rd_getD (by omega)]
    rfl
  have h2 : ∀ (i : ℕ) (r : ℝ) (s : ℝ), forRange 0 n (MultiNormal.potMiddle n diff inv em r i) s =
      .ok (s + ∑ j ∈ Finset.range n, ∑ k ∈ Finset.range n, r * em i j * inv.getD j 0 * diff.getD k 0 * em k j) := by
    intro i r s
    refine forRange_add (fun j hj s => ?_) s
    rw [MultiNormal.potMiddle, rd_getD (by omega)]
    exact h3 i j _ s
  rw [forRange_add (f := fun i => ∑ j ∈ Finset.range n, ∑ k ∈ Finset.range n, diff.getD i 0 * em i j * inv.getD j 0 * diff.getD k 0 * em k j)
    (fun i hi s => by
      rw [MultiNormal.potOuter, rd_getD (by omega)]
      exact h2 i _ s)]
  have z : (0.0 : ℝ) = 0 := by norm_num
  rw [z, zero_add, Finset.sum_comm]
  congr 1
  refine Finset.sum_congr rfl fun j _ => ?_
  rw [sq, Finset.sum_mul_sum, Finset.sum_mul]
  refine Finset.sum_congr rfl fun i _ => ?_
  rw [Finset.sum_mul]
  exact Finset.sum_congr rfl fun k _ => by ring

/-- The eigenvalues and orthonormal eigenvectors of the symmetric matrix `K`, as LAPACK's `syev` returns them. -/
structure IsEigen (n : ℕ) (K : SymMat) (ev : List ℝ) (em : ℕ → ℕ → ℝ) : Prop where
  len : ev.length = n
  orth : ∀ j k : Fin n, ∑ i : Fin n, em i j * em i k = if j = k then 1 else 0
  eig : ∀ a b : Fin n, K (min a b) (max a b) = ∑ j : Fin n, em a j * ev.getD j 0 * em b j

theorem eigen_pos {n : ℕ} {K : SymMat} {ev : List ℝ} {em : ℕ → ℕ → ℝ} (h : IsEigen n K ev em) (hK : (symUp n K).PosDef) (j : Fin n) :
    0 < ev.getD j 0 := by
  let v : Fin n → ℝ := fun i => em i j
  have hv : v ≠ 0 := by
    intro h0
    have := h.orth j j
    rw [if_pos rfl] at this
    have h1 : ∑ i : Fin n, em i j * em i j = 0 := Finset.sum_eq_zero fun i _ => by
      have : em i j = 0 := congrFun h0 i
      rw [this, zero_mul]
    rw [h1] at this
    norm_num at this
  have hq := hK.dotProduct_mulVec_pos hv
  have e : star v ⬝ᵥ (symUp n K).mulVec v = ev.getD j 0 := by
    have h1 : ∀ a, (symUp n K).mulVec v a = ev.getD j 0 * em a j := by
      intro a
      rw [mulVec, dotProduct]
      calc ∑ b, symUp n K a b * v b = ∑ b : Fin n, (∑ k : Fin n, em a k * ev.getD k 0 * em b k) * em b j :=
            Finset.sum_congr rfl fun b _ => by rw [← h.eig]; rfl
        _ = ∑ k : Fin n, em a k * ev.getD k 0 * ∑ b : Fin n, em b k * em b j := by
            simp only [Finset.sum_mul, Finset.mul_sum]
            rw [Finset.sum_comm]
            exact Finset.sum_congr rfl fun k _ => Finset.sum_congr rfl fun b _ => by ring
        _ = _ := by
            simp only [h.orth]
            simp
            ring
    rw [dotProduct]
    simp only [h1]
    calc _ = ev.getD j 0 * ∑ a : Fin n, em a j * em a j := by
          rw [Finset.mul_sum]
          exact Finset.sum_congr rfl fun a _ => by
            show em a j * _ = _
            ring
      _ = _ := by simp [h.orth]
  rwa [e] at hq

theorem eigen_forms {n : ℕ} {K : SymMat} {ev : List ℝ} {em : ℕ → ℕ → ℝ} (h : IsEigen n K ev em) (hpos : ∀ j : Fin n, 0 < ev.getD j 0) :
    (symUp n K).det = ∏ j : Fin n, ev.getD j 0 ∧
    ∀ v : Fin n → ℝ, v ⬝ᵥ ((symUp n K)⁻¹).mulVec v = ∑ j : Fin n, (∑ i : Fin n, em i j * v i) ^ 2 / ev.getD j 0 := by
  let Q : Matrix (Fin n) (Fin n) ℝ := of fun a j => em a j
  let D : Matrix (Fin n) (Fin n) ℝ := diagonal fun j => ev.getD j 0
  let E : Matrix (Fin n) (Fin n) ℝ := diagonal fun j => (ev.getD j 0)⁻¹
  have hQ : Q.transpose * Q = 1 := by
    ext j k
    rw [mul_apply, one_apply]
    exact h.orth j k
  have hQ' : Q * Q.transpose = 1 := mul_eq_one_comm.1 hQ
  have hK : symUp n K = Q * D * Q.transpose := by
    ext a b
    rw [mul_apply]
    simp only [D, mul_diagonal]
    exact h.eig a b
  have hDE : D * E = 1 := by
    rw [diagonal_mul_diagonal, ← diagonal_one]
    congr 1
    funext j
    exact mul_inv_cancel₀ (hpos j).ne'
  have hinv : (symUp n K)⁻¹ = Q * E * Q.transpose := by
    refine inv_eq_right_inv ?_
    rw [hK]
    calc Q * D * Q.transpose * (Q * E * Q.transpose) = Q * D * (Q.transpose * Q) * E * Q.transpose := by simp only [Matrix.mul_assoc]
      _ = Q * (D * E) * Q.transpose := by rw [hQ, Matrix.mul_one]; simp only [Matrix.mul_assoc]
      _ = 1 := by rw [hDE, Matrix.mul_one, hQ']
  constructor
  · rw [hK, det_mul, det_mul, det_transpose, det_diagonal]
    have : Q.det * Q.det = 1 := by
      have := congrArg det hQ
      rwa [det_mul, det_transpose, det_one] at this
    calc _ = (Q.det * Q.det) * ∏ j : Fin n, ev.getD j 0 := by ring
      _ = _ := by rw [this, one_mul]
  · intro v
    rw [hinv, ← mulVec_mulVec, dotProduct_mulVec, ← mulVec_transpose, transpose_mul, ← mulVec_mulVec, dotProduct]
    refine Finset.sum_congr rfl fun j _ => ?_
    have h1 : Q.transpose.mulVec v j = ∑ i : Fin n, em i j * v i := rfl
    have h2 : E.transpose.mulVec (Q.transpose.mulVec v) j = (ev.getD j 0)⁻¹ * Q.transpose.mulVec v j := by
      rw [diagonal_transpose, mulVec_diagonal]
    rw [h2, h1]
    field_simp

end Verif
