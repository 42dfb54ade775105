import Verif.Model.PostNormal
import Verif.Lemmas.Kriging
import Verif.Lemmas.BestLinear
import Verif.Lemmas.CondGauss

/-! Lemmas on the filling of matrices and on the conditional distribution. -/

namespace Verif.PostNormal

theorem fillMat_ok {rows cols : ℕ} {f : ℕ → ℕ → Res ℝ} {g : ℕ → ℕ → ℝ} (h : ∀ i < cols, ∀ j < rows, f i j = .ok (g i j)) :
    ∃ M, fillMat rows cols f = .ok M ∧ ∀ i < cols, ∀ j < rows, M j i = g i j := by
  unfold fillMat
  have key := forRange_sat (lo := 0) (hi := cols)
    (body := fun i M => forRange 0 rows (fun j M => (f i j).bind fun v => .ok (fun a b => if a = j ∧ b = i then v else M a b)) M)
    (s := fun _ _ => 0) (fun i (M : ℕ → ℕ → ℝ) => ∀ a < i, ∀ b < rows, M b a = g a b) (Nat.zero_le _) (fun a ha => absurd ha (Nat.not_lt_zero _)) ?_
  · obtain ⟨M, h1, h2⟩ := key
    exact ⟨M, h1, h2⟩
  · intro i M _ hi hM
    have inner := forRange_sat (lo := 0) (hi := rows)
      (body := fun j M => (f i j).bind fun v => .ok (fun a b => if a = j ∧ b = i then v else M a b)) (s := M)
      (fun j (M : ℕ → ℕ → ℝ) => (∀ a < i, ∀ b < rows, M b a = g a b) ∧ ∀ b < j, M b i = g i b) (Nat.zero_le _)
      ⟨hM, fun b hb => absurd hb (Nat.not_lt_zero _)⟩ (by
        rintro j M' _ hj ⟨h1, h2⟩
        rw [h i hi j hj]
        refine ⟨_, rfl, fun a ha b hb => ?_, fun b hb => ?_⟩
        · simp only
          rw [if_neg (by omega)]
          exact h1 a ha b hb
        · simp only
          by_cases e : b = j
          · rw [if_pos (by simp [e]), e]
          · rw [if_neg (by omega)]
            exact h2 b (by omega))
    obtain ⟨M', h1, h2, h3⟩ := inner
    refine ⟨M', h1, fun a ha b hb => ?_⟩
    rcases Nat.lt_succ_iff_lt_or_eq.1 ha with h | rfl
    · exact h2 a h b hb
    · exact h3 b hb

theorem fillFull_ok {n : ℕ} {f : ℕ → ℕ → Res ℝ} {g : ℕ → ℕ → ℝ} (h : ∀ i < n, ∀ j < n, f i j = .ok (g i j)) :
    ∃ M, fillFull n f = .ok M ∧ ∀ i < n, ∀ j < n, M i j = g i j := by
  obtain ⟨M, h1, h2⟩ := forRange_sat (lo := 0) (hi := n)
    (body := fun i K => forRange 0 n (fun j K => (f i j).bind fun v => .ok (fun a b => if a = i ∧ b = j then v else K a b)) K)
    (s := fun _ _ => 0) (fun i (M : ℕ → ℕ → ℝ) => ∀ a < i, ∀ b < n, M a b = g a b) (Nat.zero_le _) (fun a ha => absurd ha (Nat.not_lt_zero _)) (by
      intro i M _ hi hM
      obtain ⟨M', h1, h2, h3⟩ := forRange_sat (lo := 0) (hi := n)
        (body := fun j M => (f i j).bind fun v => .ok (fun a b => if a = i ∧ b = j then v else M a b)) (s := M)
        (fun j (M : ℕ → ℕ → ℝ) => (∀ a < i, ∀ b < n, M a b = g a b) ∧ ∀ b < j, M i b = g i b) (Nat.zero_le _)
        ⟨hM, fun b hb => absurd hb (Nat.not_lt_zero _)⟩ (by
          rintro j M' _ hj ⟨h1, h2⟩
          rw [h i hi j hj]
          refine ⟨_, rfl, fun a ha b hb => ?_, fun b hb => ?_⟩
          · simp only
            rw [if_neg (by omega)]
            exact h1 a ha b hb
          · simp only
            by_cases e : b = j
            · rw [if_pos (by simp [e]), e]
            · rw [if_neg (by omega)]
              exact h2 b (by omega))
      refine ⟨M', h1, fun a ha b hb => ?_⟩
      rcases Nat.lt_succ_iff_lt_or_eq.1 ha with h | rfl
      · exact h2 a h b hb
      · exact h3 b hb)
  exact ⟨M, h1, h2⟩

theorem rd_getD' {α : Type} {l : List α} {i : ℕ} (d : α) (h : i < l.length) : rd l i = .ok (l.getD i d) := by
  unfold rd
  rw [List.getD_eq_getElem?_getD, List.getElem?_eq_getElem h]
  rfl

/-- The weights of the core function and what it returns. -/
theorem core_ok {nu nk : ℕ} (hnu : nu ≠ 0) (hnk : nk ≠ 0) {s11 s22 : SymMat} {s12 : ℕ → ℕ → ℝ} (hP : (s22.toMatrix nk).PosDef) :
    ∃ (w : Fin nu → Fin nk → ℝ) (C : SymMat), (∀ (a : Fin nu) (i : Fin nk), ∑ j, w a j * s22 j i = s12 a i) ∧
      (∀ mu delta, core nu nk s11 s12 s22 mu delta = .ok (List.ofFn (fun a => toVec nu mu a + ∑ i, w a i * toVec nk delta i), C)) ∧
      ∀ a b : Fin nu, a ≤ b → C a b = s11 a b - ∑ i, w a i * s12 b i := by
  have hu : IsUnit (s22.toMatrix nk).det := hP.isUnit.map Matrix.detMonoidHom
  set P := (s22.toMatrix nk)⁻¹ with hPdef
  set S12 : Matrix (Fin nu) (Fin nk) ℝ := Matrix.of fun a i => s12 a i with hS
  set help := S12 * (P * S12.transpose) with hh
  have hmul : P * s22.toMatrix nk = 1 := Matrix.nonsing_inv_mul _ hu
  refine ⟨fun a i => (S12 * P) a i, fun a b => if h : min a b < nu ∧ max a b < nu then s11 a b - help ⟨min a b, h.1⟩ ⟨max a b, h.2⟩ else 0,
    fun a i => ?_, fun mu delta => ?_, fun a b hab => ?_⟩
  · have : (S12 * P * s22.toMatrix nk) a i = S12 a i := by rw [Matrix.mul_assoc, hmul, Matrix.mul_one]
    rw [Matrix.mul_apply] at this
    exact this
  · unfold core
    rw [if_neg hnk, if_pos hP, if_neg hnu]
    simp only
    congr 2
    congr 1
    funext a
    rw [← hPdef, ← hS, Matrix.mulVec_mulVec]
    rfl
  · have hab' : (a : ℕ) ≤ b := hab
    have h1 : min (a : ℕ) b = a := min_eq_left hab'
    have h2 : max (a : ℕ) b = b := max_eq_right hab'
    simp only [h1, h2, a.2, b.2, and_self, dif_pos, Fin.eta]
    rw [hh, ← Matrix.mul_assoc, Matrix.mul_apply]
    rfl

theorem cov1_ok (vario : Variogram) {std1 std2 x1 x2 : List ℝ} {i j : ℕ} (h1 : i < std1.length) (h2 : j < std2.length) (h3 : i < x1.length)
    (h4 : j < x2.length) : cov1 vario std1 std2 x1 x2 i j = .ok (std1.getD i 0 * std2.getD j 0 * vario.corr (x1.getD i 0 - x2.getD j 0)) := by
  unfold cov1
  rw [rd_getD h1, rd_getD h2, rd_getD h3, rd_getD h4]
  rfl

theorem delta_ok {v e : List ℝ} {n : ℕ} (hv : v.length = n) (he : e.length = n) :
    delta v e n = .ok ((List.range n).map fun i => v.getD i 0 - e.getD i 0) := by
  unfold delta
  exact fillVec_ok fun i hi => by rw [rd_getD (by omega), rd_getD (by omega)]; rfl

theorem toVec_map {n : ℕ} (g : ℕ → ℝ) (a : Fin n) : toVec n ((List.range n).map g) a = g a := by
  unfold toVec
  simp [List.getD_eq_getElem?_getD, a.2]

end Verif.PostNormal
