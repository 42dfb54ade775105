import Verif.Model.MultiNormal
import Verif.Lemmas.Kriging
import Mathlib.Analysis.Matrix.LDL
import Mathlib.Algebra.Order.Star.Real
import Mathlib.LinearAlgebra.Matrix.Block

/-! Existence and uniqueness of the Cholesky factor. -/

namespace Verif

open Matrix

theorem exists_chol {n : ℕ} {M : Matrix (Fin n) (Fin n) ℝ} (hM : M.PosDef) :
    ∃ U : Matrix (Fin n) (Fin n) ℝ, (∀ a b, b < a → U a b = 0) ∧ (∀ a, 0 < U a a) ∧ U.transpose * U = M := by
  set L := LDL.lower hM with hL
  have htri : (LDL.lowerInv hM).BlockTriangular OrderDual.toDual := fun i j hij => LDL.lowerInv_triangular hM hij
  have hLt : L.BlockTriangular OrderDual.toDual := blockTriangular_inv_of_blockTriangular htri
  have hL0 : ∀ a b, a < b → L a b = 0 := fun a b hab => hLt hab
  have hprod : L * LDL.diag hM * L.transpose = M := by
    have := LDL.lower_conj_diag hM
    rwa [conjTranspose_eq_transpose_of_trivial] at this
  have hdet : (LDL.lowerInv hM).det ≠ 0 := (isUnit_det_of_invertible (LDL.lowerInv hM)).ne_zero
  have hdetL : L.det ≠ 0 := by
    rw [hL, LDL.lower, det_nonsing_inv]
    simpa using hdet
  have hLd : ∀ a, L a a ≠ 0 := by
    intro a h
    apply hdetL
    rw [det_of_lowerTriangular L hLt]
    exact Finset.prod_eq_zero (Finset.mem_univ a) h
  have hD : ∀ a, 0 < LDL.diagEntries hM a := by
    have : (LDL.diag hM).PosDef := by
      rw [LDL.diag_eq_lowerInv_conj]
      refine hM.mul_mul_conjTranspose_same ?_
      rw [vecMul_injective_iff_isUnit]
      exact isUnit_of_invertible _
    intro a
    have h := this.diag_pos (i := a)
    simpa [LDL.diag] using h
  refine ⟨of fun k b => SignType.sign (L k k) * √(LDL.diagEntries hM k) * L b k, fun a b hab => ?_, fun a => ?_, ?_⟩
  · simp [hL0 b a hab]
  · have : (SignType.sign (L a a) : ℝ) * √(LDL.diagEntries hM a) * L a a = √(LDL.diagEntries hM a) * |L a a| := by
      rw [← sign_mul_self (L a a)]
      ring
    simp only [of_apply]
    rw [this]
    exact mul_pos (Real.sqrt_pos.2 (hD a)) (abs_pos.2 (hLd a))
  · refine Eq.trans ?_ hprod
    ext a b
    rw [mul_apply, mul_apply]
    refine Finset.sum_congr rfl fun k _ => ?_
    have s2 : (SignType.sign (L k k) : ℝ) * SignType.sign (L k k) = 1 := by
      rcases lt_or_gt_of_ne (hLd k) with h | h
      · simp [sign_neg h]
      · simp [sign_pos h]
    rw [transpose_apply, transpose_apply, of_apply, of_apply, LDL.diag, mul_diagonal]
    calc _ = ((SignType.sign (L k k) : ℝ) * SignType.sign (L k k)) * (√(LDL.diagEntries hM k) * √(LDL.diagEntries hM k)) * (L a k * L b k) := by ring
      _ = _ := by
        rw [s2, Real.mul_self_sqrt (hD k).le]
        ring

theorem chol_unique {n : ℕ} {U V : Matrix (Fin n) (Fin n) ℝ} (hU : ∀ a b, b < a → U a b = 0) (hV : ∀ a b, b < a → V a b = 0)
    (pU : ∀ a, 0 < U a a) (pV : ∀ a, 0 < V a a) (h : U.transpose * U = V.transpose * V) : U = V := by
  have key : ∀ k : Fin n, ∀ b, U k b = V k b := by
    intro k
    induction k using WellFoundedLT.induction with
    | ind k ih =>
      have e : ∀ b, U k k * U k b = V k k * V k b := by
        intro b
        have := congrFun (congrFun h k) b
        rw [mul_apply, mul_apply, ← sub_eq_zero, ← Finset.sum_sub_distrib, Finset.sum_eq_single k] at this
        · simpa [sub_eq_zero] using this
        · intro i _ hik
          rcases lt_or_gt_of_ne hik with hlt | hlt
          · rw [transpose_apply, transpose_apply, ih i hlt k, ih i hlt b, sub_self]
          · rw [transpose_apply, transpose_apply, hU i k hlt, hV i k hlt]
            ring
        · simp
      have d : U k k = V k k := by
        have := e k
        nlinarith [pU k, pV k]
      intro b
      have := e b
      rw [d] at this
      exact mul_left_cancel₀ (pV k).ne' this
  ext a b
  exact key a b

theorem chol_posDef {n : ℕ} {U : Matrix (Fin n) (Fin n) ℝ} (hU : ∀ a b, b < a → U a b = 0) (pU : ∀ a, 0 < U a a) :
    (U.transpose * U).PosDef := by
  have hdet : U.det ≠ 0 := by
    rw [det_of_upperTriangular (fun i j hij => hU i j hij)]
    exact Finset.prod_ne_zero_iff.2 fun a _ => (pU a).ne'
  rw [← conjTranspose_eq_transpose_of_trivial]
  refine PosDef.conjTranspose_mul_self U ?_
  rw [mulVec_injective_iff_isUnit, isUnit_iff_isUnit_det]
  exact hdet.isUnit

theorem upTri_zero {n : ℕ} (S : SymMat) {a b : Fin n} (h : b < a) : upTri n S a b = 0 := by
  simp [upTri, not_le.2 h]

theorem upTri_le {n : ℕ} (S : SymMat) {a b : Fin n} (h : a ≤ b) : upTri n S a b = S a b := by
  simp [upTri, h]

/-- A factor exists exactly for the positive definite matrices. -/
theorem isChol_iff {n : ℕ} {K : SymMat} : (∃ S, IsChol n K S) ↔ (symUp n K).PosDef := by
  constructor
  · rintro ⟨S, h⟩
    rw [← h.fac]
    exact chol_posDef (fun a b hab => upTri_zero S hab) fun a => by
      rw [upTri_le S le_rfl]
      exact h.pos a a.2
  · intro h
    obtain ⟨U, h0, h1, h2⟩ := exists_chol h
    refine ⟨fun a b => if hb : min a b < n ∧ max a b < n then U ⟨min a b, hb.1⟩ ⟨max a b, hb.2⟩ else 0, ?_, ?_, ?_⟩
    · intro a b
      simp only [min_comm a b, max_comm a b]
    · intro a ha
      simp only [min_self, max_self, ha, and_self, dif_pos]
      exact h1 _
    · have : upTri n (fun a b => if hb : min a b < n ∧ max a b < n then U ⟨min a b, hb.1⟩ ⟨max a b, hb.2⟩ else 0) = U := by
        ext a b
        by_cases hab : a ≤ b
        · rw [upTri_le _ hab]
          have hab' : (a : ℕ) ≤ b := hab
          simp only [min_eq_left hab', max_eq_right hab', a.2, b.2, and_self, dif_pos]
        · rw [upTri_zero _ (not_le.1 hab), h0 _ _ (not_le.1 hab)]
      rw [this, h2]

theorem isChol_unique {n : ℕ} {K S T : SymMat} (hS : IsChol n K S) (hT : IsChol n K T) : ∀ a < n, ∀ b < n, S a b = T a b := by
  have h := chol_unique (fun a b => upTri_zero S) (fun a b => upTri_zero T)
    (fun a => by rw [upTri_le S le_rfl]; exact hS.pos a a.2) (fun a => by rw [upTri_le T le_rfl]; exact hT.pos a a.2)
    (hS.fac.trans hT.fac.symm)
  have key : ∀ a < n, ∀ b < n, a ≤ b → S a b = T a b := by
    intro a ha b hb hab
    have := congrFun (congrFun h ⟨a, ha⟩) ⟨b, hb⟩
    rwa [upTri_le S (show (⟨a, ha⟩ : Fin n) ≤ ⟨b, hb⟩ from hab), upTri_le T (show (⟨a, ha⟩ : Fin n) ≤ ⟨b, hb⟩ from hab)] at this
  intro a ha b hb
  rcases le_total a b with hab | hab
  · exact key a ha b hb hab
  · rw [hS.symm, hT.symm, key b hb a ha hab]

theorem copyUpper_ok (n : ℕ) (A : SymMat) : ∃ M, copyUpper n A = .ok M ∧ ∀ a < n, ∀ b < n, M a b = if a ≤ b then A a b else 0 := by
  have inner : ∀ (j : ℕ) (M : ℕ → ℕ → ℝ), (forRange 0 (j + 1) (fun i M => .ok (fun a b => if a = i ∧ b = j then A i j else M a b)) M :
      Res (ℕ → ℕ → ℝ)).Sat fun M' => ∀ a b, M' a b = if b = j ∧ a ≤ j then A a b else M a b := by
    intro j M
    refine (forRange_sat (fun i M' => ∀ a b, M' a b = if b = j ∧ a < i then A a b else M a b) (Nat.zero_le _) (by simp) ?_).mono ?_
    · intro i M' _ _ h
      rw [Res.sat_ok]
      intro a b
      by_cases hb : b = j
      · subst hb
        by_cases ha : a = i
        · subst ha
          simp
        · have : a < i + 1 ↔ a < i := by omega
          simp [ha, h, this]
      · simp [hb, h]
    · intro M' h a b
      rw [h a b]
      simp [Nat.lt_succ_iff]
  have outer := forRange_sat (fun j (M : ℕ → ℕ → ℝ) => ∀ a < n, ∀ b < n, M a b = if b < j ∧ a ≤ b then A a b else 0) (Nat.zero_le n)
    (body := fun j M => forRange 0 (j + 1) (fun i M => .ok (fun a b => if a = i ∧ b = j then A i j else M a b)) M)
    (s := fun _ _ => 0) (by simp) (by
      intro j M _ _ h
      refine (inner j M).mono fun M' h' a ha b hb => ?_
      rw [h' a b]
      by_cases hbj : b = j
      · subst hbj
        by_cases hab : a ≤ b
        · simp [hab]
        · simp [hab, h a ha b hb]
      · have : b < j + 1 ↔ b < j := by omega
        rw [if_neg (by simp [hbj]), h a ha b hb]
        simp [this])
  obtain ⟨M, e, h⟩ := outer
  refine ⟨M, e, fun a ha b hb => ?_⟩
  rw [h a ha b hb]
  simp [hb]

end Verif
