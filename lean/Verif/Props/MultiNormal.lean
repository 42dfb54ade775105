import Verif.Lemmas.MultiNormal
import Verif.Lemmas.GaussDensity
import Mathlib.Analysis.Matrix.Spectrum

/-!
# Cholesky factors and normal vectors
-/

namespace Verif

open MeasureTheory ProbabilityTheory Matrix MultiNormal

/-- `CholeskyFactorize` leaves the upper triangular factor with a positive diagonal if the matrix is positive definite, and throws if not. -/
theorem factorize_spec {n : ℕ} (hn : n ≠ 0) (K : SymMat) :
    ((symUp n K).PosDef → ∃ S, choleskyFactorize n K = .ok S ∧ (∀ a b, S a b = S b a) ∧ (∀ a < n, 0 < S a a) ∧
      ∀ b < n, ∀ a ≤ b, K a b = ∑ k ∈ Finset.range (a + 1), S k a * S k b) ∧
    (¬(symUp n K).PosDef → ∃ w, choleskyFactorize n K = .throws w) := by
  constructor
  · intro h
    have hex := isChol_iff.2 h
    refine ⟨hex.choose, ?_, hex.choose_spec.symm, hex.choose_spec.pos, ?_⟩
    · unfold choleskyFactorize
      rw [if_neg hn, dif_pos hex]
    · intro b hb a hab
      have ha : a < n := by omega
      have := congrFun (congrFun hex.choose_spec.fac ⟨a, ha⟩) ⟨b, hb⟩
      have e : symUp n K ⟨a, ha⟩ ⟨b, hb⟩ = K a b := by
        simp [symUp, hab]
      rw [e, mul_apply] at this
      rw [← this, Finset.sum_fin_eq_sum_range]
      symm
      have hsub : Finset.range (a + 1) ⊆ Finset.range n := Finset.range_subset_range.2 (by omega)
      rw [← Finset.sum_subset hsub]
      · refine Finset.sum_congr rfl fun k hk => ?_
        have hka : k ≤ a := by
          have := Finset.mem_range.1 hk
          omega
        rw [dif_pos (by omega), transpose_apply, upTri_le _ (show (⟨k, by omega⟩ : Fin n) ≤ ⟨a, ha⟩ from hka),
          upTri_le _ (show (⟨k, by omega⟩ : Fin n) ≤ ⟨b, hb⟩ from hka.trans hab)]
      · intro k hk hk'
        have hkn := Finset.mem_range.1 hk
        have hka : a < k := by
          rw [Finset.mem_range] at hk'
          omega
        rw [dif_pos hkn, transpose_apply, upTri_zero _ (show (⟨a, ha⟩ : Fin n) < ⟨k, hkn⟩ from hka), zero_mul]
  · intro h
    unfold choleskyFactorize
    rw [if_neg hn, dif_neg fun hex => h (isChol_iff.1 hex)]
    exact ⟨_, rfl⟩

theorem isChol_of_ok {n : ℕ} {K S : SymMat} (h : choleskyFactorize n K = .ok S) : n ≠ 0 ∧ IsChol n K S := by
  unfold choleskyFactorize at h
  split at h
  · cases h
  · rename_i hn
    split at h
    · rename_i hex
      refine ⟨hn, ?_⟩
      cases h
      exact hex.choose_spec
    · cases h

theorem deFactorize_ok {n : ℕ} (hn : n ≠ 0) (S : SymMat) : ∃ T, choleskyDeFactorize n S = .ok T ∧ (∀ a b, T a b = T b a) ∧
    symUp n T = (upTri n S).transpose * upTri n S := by
  obtain ⟨M, e, h⟩ := copyUpper_ok n S
  refine ⟨fun a b => ∑ k : Fin n, M k (min a b) * M k (max a b), ?_, fun a b => ?_, ?_⟩
  · unfold choleskyDeFactorize
    rw [e, Res.monad_bind_eq, Res.bind_ok, if_neg hn]
  · simp only [min_comm a b, max_comm a b]
  · have hM : ∀ a b : Fin n, M a b = upTri n S a b := fun a b => by
      rw [h a a.2 b b.2]
      simp [upTri]
    ext a b
    rw [mul_apply]
    rcases le_total a b with hab | hab
    · have hab' : (a : ℕ) ≤ b := hab
      simp only [symUp, of_apply, min_eq_left hab', max_eq_right hab', hM, transpose_apply]
    · have hab' : (b : ℕ) ≤ a := hab
      simp only [symUp, of_apply, min_eq_right hab', max_eq_left hab', min_eq_left hab', max_eq_right hab', hM, transpose_apply]
      exact Finset.sum_congr rfl fun k _ => mul_comm _ _

theorem symUp_le {n : ℕ} (K : SymMat) {a b : ℕ} (ha : a < n) (hb : b < n) : symUp n K ⟨a, ha⟩ ⟨b, hb⟩ = K (min a b) (max a b) := by
  simp [symUp]

/-- `CholeskyDeFactorize` gives back the matrix that was factorized. -/
theorem deFactorize_factorize {n : ℕ} {K S : SymMat} (h : choleskyFactorize n K = .ok S) :
    ∃ T, choleskyDeFactorize n S = .ok T ∧ ∀ b < n, ∀ a ≤ b, T a b = K a b ∧ T b a = K a b := by
  obtain ⟨hn, hS⟩ := isChol_of_ok h
  obtain ⟨T, e, hs, hT⟩ := deFactorize_ok hn S
  rw [hS.fac] at hT
  refine ⟨T, e, fun b hb a hab => ?_⟩
  have := congrFun (congrFun hT ⟨a, by omega⟩) ⟨b, hb⟩
  rw [symUp_le, symUp_le, min_eq_left hab, max_eq_right hab] at this
  exact ⟨this, by rw [hs, this]⟩

/-- Every upper triangle with a positive diagonal is the factor of a matrix, and `CholeskyFactorize` finds it: no other factor is possible. -/
theorem factorize_deFactorize {n : ℕ} (hn : n ≠ 0) {S : SymMat} (hs : ∀ a b, S a b = S b a) (hp : ∀ a < n, 0 < S a a) :
    ∃ T S', choleskyDeFactorize n S = .ok T ∧ choleskyFactorize n T = .ok S' ∧ ∀ a < n, ∀ b < n, S' a b = S a b := by
  obtain ⟨T, e, hsT, hT⟩ := deFactorize_ok hn S
  have hc : IsChol n T S := ⟨hs, hp, hT.symm⟩
  obtain ⟨S', e', -⟩ := (factorize_spec hn T).1 (isChol_iff.1 ⟨S, hc⟩)
  exact ⟨T, S', e, e', isChol_unique (isChol_of_ok e').2 hc⟩

theorem pd45 : (symUp 2 (fun a b => if a = b then (if a = 0 then 4 else 5) else 2)).PosDef := by
  refine isChol_iff.1 ⟨fun a b => if a = b then 2 else 1, ⟨?_, ?_, ?_⟩⟩
  · intro a b
    simp only [eq_comm]
  · intro a _
    simp
  · ext a b
    fin_cases a <;> fin_cases b <;> norm_num [mul_apply, upTri, symUp, Fin.sum_univ_two]

/-- The factor of the matrix with rows (4, 2) and (2, 5): the hypotheses hold. -/
example : ∃ S, choleskyFactorize 2 (fun a b => if a = b then (if a = 0 then 4 else 5) else 2) = .ok S ∧ (∀ a b, S a b = S b a) ∧
    ∀ a < 2, 0 < S a a := by
  obtain ⟨S, e, h1, h2, -⟩ := (factorize_spec two_ne_zero _).1 pd45
  exact ⟨S, e, h1, h2⟩

/-- The standard normal numbers of a draw. -/
structure StdNormals {Ω : Type} [MeasurableSpace Ω] (P : Measure Ω) (n : ℕ) (Z : ℕ → Ω → ℝ) : Prop where
  indep : iIndepFun (fun i : Fin n => Z i) P
  law : ∀ i : Fin n, HasLaw (Z i) (gaussianReal 0 1) P

theorem StdNormals.gauss {Ω : Type} [MeasurableSpace Ω] {P : Measure Ω} {n : ℕ} {Z : ℕ → Ω → ℝ} (h : StdNormals P n Z) :
    HasGaussianLaw (fun ω (i : Fin n) => Z i ω) P :=
  h.indep.hasGaussianLaw fun i => (h.law i).hasGaussianLaw

theorem StdNormals.cov {Ω : Type} [MeasurableSpace Ω] {P : Measure Ω} {n : ℕ} {Z : ℕ → Ω → ℝ} (h : StdNormals P n Z) (i j : Fin n) :
    cov[Z i, Z j; P] = if i = j then 1 else 0 := by
  have m : ∀ i : Fin n, MemLp (Z i) 2 P := fun i => (h.gauss.eval i).memLp_two
  by_cases hij : i = j
  · subst hij
    rw [if_pos rfl, covariance_self (h.law i).aemeasurable, (h.law i).variance_eq, variance_id_gaussianReal]
    rfl
  · rw [if_neg hij]
    exact (h.indep.indepFun hij).covariance_eq_zero (m i) (m j)

theorem StdNormals.mean {Ω : Type} [MeasurableSpace Ω] {P : Measure Ω} {n : ℕ} {Z : ℕ → Ω → ℝ} (h : StdNormals P n Z) (i : Fin n) :
    ∫ ω, Z i ω ∂P = 0 := by
  rw [(h.law i).integral_eq, integral_id_gaussianReal]

/-- There are such numbers. -/
theorem stdNormals_exists (n : ℕ) : ∃ Z : ℕ → (Fin n → ℝ) → ℝ, StdNormals (Measure.pi fun _ : Fin n => gaussianReal 0 1) n Z := by
  refine ⟨fun i ω => if h : i < n then ω ⟨i, h⟩ else 0, ?_, fun i => ?_⟩
  · have := iIndepFun_pi (μ := fun _ : Fin n => gaussianReal 0 1) (X := fun _ x => x) fun i => aemeasurable_id'
    refine this.congr fun i => ?_
    simp
  · refine ⟨?_, ?_⟩
    · simp only [i.2, dif_pos]
      exact (measurable_pi_apply _).aemeasurable
    simp only [i.2, dif_pos]
    exact (measurePreserving_eval (fun _ : Fin n => gaussianReal 0 1) i).map_eq

/-- The draws. -/
noncomputable def drawn (exp : List ℝ) (S : SymMat) (z : ℕ → ℝ) (a : Fin exp.length) : ℝ :=
  exp.getD a 0 + ∑ k : Fin exp.length, S a k * z k

theorem draw_ok {exp : List ℝ} {K : SymMat} {m : MultiNormal} (hm : new exp exp.length K = .ok m) :
    IsChol exp.length K m.chol ∧ ∀ z, m.draw z = .ok (List.ofFn (drawn exp m.chol z)) := by
  unfold new at hm
  rw [Res.monad_bind_eq, Res.bind_eq_ok] at hm
  obtain ⟨c, hc, h⟩ := hm
  cases h
  obtain ⟨hn, hS⟩ := isChol_of_ok hc
  refine ⟨hS, fun z => ?_⟩
  unfold draw
  rw [if_neg hn, if_neg (by simp)]
  congr 2
  funext a
  unfold drawn
  congr 1
  refine Finset.sum_congr rfl fun k _ => ?_
  dsimp only
  rw [hS.symm k a, ite_self]

theorem drawn_moments {exp : List ℝ} {S : SymMat} {Ω : Type} [MeasurableSpace Ω] {P : Measure Ω} {Z : ℕ → Ω → ℝ}
    (hZ : StdNormals P exp.length Z) :
    HasGaussianLaw (fun ω => drawn exp S fun k => Z k ω) P ∧ (∀ a, ∫ ω, drawn exp S (fun k => Z k ω) a ∂P = exp.getD a 0) ∧
    ∀ a b, cov[fun ω => drawn exp S (fun k => Z k ω) a, fun ω => drawn exp S (fun k => Z k ω) b; P] = ∑ k : Fin exp.length, S a k * S b k := by
  have hG := hZ.gauss
  have := hG.isProbabilityMeasure
  have m2 : ∀ i : Fin exp.length, MemLp (Z i) 2 P := fun i => (hG.eval i).memLp_two
  have hsum : ∀ a : Fin exp.length, MemLp (fun ω => ∑ k : Fin exp.length, S a k * Z k ω) 2 P := fun a => memLp_finsetSum _ fun k _ => (m2 k).const_mul _
  have hsi : ∀ a : Fin exp.length, Integrable (fun ω => ∑ k : Fin exp.length, S a k * Z k ω) P := fun a => (hsum a).integrable (by norm_num)
  refine ⟨?_, fun a => ?_, fun a b => ?_⟩
  · let L : (Fin exp.length → ℝ) →L[ℝ] (Fin exp.length → ℝ) :=
      ContinuousLinearMap.pi fun a => ∑ k : Fin exp.length, S a k • ContinuousLinearMap.proj k
    have h1 := hG.map L
    have := h1.isGaussian_map
    have e : (fun ω => drawn exp S fun k => Z k ω) =
        (fun p : Fin exp.length → ℝ => p + fun a : Fin exp.length => exp.getD a 0) ∘ (L ∘ fun ω (i : Fin exp.length) => Z i ω) := by
      funext ω a
      simp [L, drawn]
      ring
    rw [e]
    refine ⟨?_⟩
    rw [← AEMeasurable.map_map_of_aemeasurable (by fun_prop) h1.aemeasurable]
    infer_instance
  · unfold drawn
    rw [integral_add (integrable_const _) (hsi a), integral_finsetSum _ fun k _ => ((m2 k).integrable (by norm_num)).const_mul _]
    simp [integral_const_mul, hZ.mean]
  · unfold drawn
    rw [covariance_const_add_left (hsi a), covariance_const_add_right (hsi b), covariance_fun_sum_left (fun k => (m2 k).const_mul _) (hsum b)]
    refine Finset.sum_congr rfl fun k _ => ?_
    rw [covariance_const_mul_left, covariance_fun_sum_right (fun l => (m2 l).const_mul _) (m2 k)]
    simp only [covariance_const_mul_right, hZ.cov]
    simp

theorem chol_diag {n : ℕ} {K S : SymMat} (hS : IsChol n K S) (a : Fin n) :
    ∑ k : Fin n, S a k * S a k = K a a + ∑ k : Fin n, if a < k then S a k ^ 2 else 0 := by
  have h := congrFun (congrFun hS.fac a) a
  have e : symUp n K a a = K a a := by simp [symUp]
  rw [e, mul_apply] at h
  rw [← h, ← Finset.sum_add_distrib]
  refine Finset.sum_congr rfl fun k _ => ?_
  rw [transpose_apply]
  by_cases hk : a < k
  · rw [upTri_zero _ hk, if_pos hk]
    ring
  · rw [upTri_le _ (not_lt.1 hk), if_neg hk, hS.symm k a]
    ring

/-- The factor is diagonal exactly if the matrix is. -/
theorem chol_diagonal_iff {n : ℕ} {K S : SymMat} (hS : IsChol n K S) :
    (∀ a b : Fin n, a < b → S a b = 0) ↔ ∀ a b : Fin n, a < b → K a b = 0 := by
  have hK : ∀ a b : Fin n, a < b → K a b = ((upTri n S).transpose * upTri n S) a b := by
    intro a b hab
    rw [hS.fac]
    have hab' : (a : ℕ) ≤ b := hab.le
    simp [symUp, min_eq_left hab', max_eq_right hab']
  constructor
  · intro h a b hab
    rw [hK a b hab, mul_apply]
    refine Finset.sum_eq_zero fun k _ => ?_
    rw [transpose_apply]
    rcases lt_trichotomy k a with hk | hk | hk
    · rw [upTri_le _ hk.le, h k a hk, zero_mul]
    · subst hk
      rw [upTri_le _ hab.le, h k b hab, mul_zero]
    · rw [upTri_zero _ hk, zero_mul]
  · intro h
    have hp : ∀ a : Fin n, 0 < K a a := by
      intro a
      have h1 := congrFun (congrFun hS.fac a) a
      have e : symUp n K a a = K a a := by simp [symUp]
      rw [e, mul_apply] at h1
      rw [← h1]
      have h2 : 0 < (upTri n S).transpose a a * upTri n S a a := by
        rw [transpose_apply, upTri_le _ le_rfl]
        exact mul_pos (hS.pos a a.2) (hS.pos a a.2)
      refine h2.trans_le (Finset.single_le_sum (f := fun k => (upTri n S).transpose a k * upTri n S k a) (fun k _ => ?_) (Finset.mem_univ a))
      rw [transpose_apply]
      exact mul_self_nonneg _
    have hD : IsChol n K (fun a b => if a = b then √(K a a) else 0) := by
      refine ⟨fun a b => ?_, fun a ha => ?_, ?_⟩
      · by_cases hab : a = b
        · subst hab
          rfl
        · rw [if_neg hab, if_neg (Ne.symm hab)]
      · rw [if_pos rfl]
        exact Real.sqrt_pos.2 (hp ⟨a, ha⟩)
      · have e : upTri n (fun a b => if a = b then √(K a a) else 0) = diagonal fun a : Fin n => √(K a a) := by
          ext a b
          by_cases hab : a = b
          · subst hab
            simp [upTri]
          · have hab' : (a : ℕ) ≠ b := fun h => hab (Fin.ext h)
            simp [upTri, hab, hab']
        rw [e, diagonal_transpose, diagonal_mul_diagonal]
        ext a b
        by_cases hab : a = b
        · subst hab
          simp [symUp, Real.mul_self_sqrt (hp a).le]
        · rw [diagonal_apply_ne _ hab]
          rcases lt_or_gt_of_ne hab with hlt | hlt
          · have h1 := h a b hlt
            have hle : (a : ℕ) ≤ b := hlt.le
            simp [symUp, min_eq_left hle, max_eq_right hle, h1]
          · have h1 := h b a hlt
            have hle : (b : ℕ) ≤ a := hlt.le
            simp [symUp, min_eq_right hle, max_eq_left hle, h1]
    intro a b hab
    rw [isChol_unique hS hD a a.2 b b.2, if_neg]
    exact fun h => hab.ne (Fin.ext h)

/-- The law of the draws: they are normal with the right expectations. The variance of a component is too large by the squares of the
other entries in its row of the factor, because the code multiplies by the symmetric matrix that holds the factor. The covariances are
right exactly if the covariance matrix is diagonal. -/
theorem draw_law_partial {exp : List ℝ} {K : SymMat} {m : MultiNormal} (hm : new exp exp.length K = .ok m) :
    ∃ X : (ℕ → ℝ) → Fin exp.length → ℝ, (∀ z, m.draw z = .ok (List.ofFn (X z))) ∧
      ∀ {Ω : Type} [MeasurableSpace Ω] (P : Measure Ω) (Z : ℕ → Ω → ℝ), StdNormals P exp.length Z →
        HasGaussianLaw (fun ω => X fun k => Z k ω) P ∧
        (∀ a, ∫ ω, X (fun k => Z k ω) a ∂P = exp.getD a 0) ∧
        (∀ a, Var[fun ω => X (fun k => Z k ω) a; P] = K a a + ∑ k : Fin exp.length, if a < k then m.chol a k ^ 2 else 0) ∧
        ((∀ a b, cov[fun ω => X (fun k => Z k ω) a, fun ω => X (fun k => Z k ω) b; P] = K (min a b) (max a b)) ↔
          ∀ a b : Fin exp.length, a < b → K a b = 0) := by
  obtain ⟨hS, hd⟩ := draw_ok hm
  refine ⟨drawn exp m.chol, hd, fun P Z hZ => ?_⟩
  obtain ⟨h1, h2, h3⟩ := drawn_moments (S := m.chol) hZ
  refine ⟨h1, h2, fun a => ?_, ?_⟩
  · rw [← covariance_self (h1.eval a).aemeasurable]
    exact (h3 a a).trans (chol_diag hS a)
  · rw [← chol_diagonal_iff hS]
    constructor
    · intro h a b hab
      have h4 := (h3 a a).symm.trans (h a a)
      rw [chol_diag hS a, min_self, max_self, add_eq_left, Finset.sum_eq_zero_iff_of_nonneg] at h4
      · have := h4 b (Finset.mem_univ b)
        rw [if_pos hab] at this
        exact pow_eq_zero_iff (two_ne_zero) |>.1 this
      · intro k _
        split
        · positivity
        · exact le_rfl
    · intro h a b
      rw [h3]
      have hoff : ∀ a b : Fin exp.length, a ≠ b → m.chol a b = 0 := by
        intro a b hab
        rcases lt_or_gt_of_ne hab with hlt | hlt
        · exact h a b hlt
        · rw [hS.symm, h b a hlt]
      have hK := (chol_diagonal_iff hS).1 h
      by_cases hab : a = b
      · subst hab
        rw [chol_diag hS a, min_self, max_self]
        rw [Finset.sum_eq_zero fun k _ => ?_, add_zero]
        split
        · rename_i hk
          rw [h a k hk]
          norm_num
        · rfl
      · rw [Finset.sum_eq_zero fun k _ => ?_]
        · rcases lt_or_gt_of_ne hab with hlt | hlt
          · have hle : (a : ℕ) ≤ b := hlt.le
            rw [min_eq_left hle, max_eq_right hle, hK a b hlt]
          · have hle : (b : ℕ) ≤ a := hlt.le
            rw [min_eq_right hle, max_eq_left hle, hK b a hlt]
        · by_cases hak : a = k
          · subst hak
            rw [hoff b a (Ne.symm hab), mul_zero]
          · rw [hoff a k hak, zero_mul]

/-- Covariances 2 and 1: the first component is drawn with the variance 2.5. -/
theorem draw_violation {m : MultiNormal} (hm : new [0, 0] 2 (fun a b => if a = b then 2 else 1) = .ok m) :
    ∃ X : (ℕ → ℝ) → Fin 2 → ℝ, (∀ z, m.draw z = .ok (List.ofFn (X z))) ∧
      ∀ {Ω : Type} [MeasurableSpace Ω] (P : Measure Ω) (Z : ℕ → Ω → ℝ), StdNormals P 2 Z → Var[fun ω => X (fun k => Z k ω) 0; P] = 5 / 2 := by
  obtain ⟨X, hX, h⟩ := draw_law_partial (exp := [0, 0]) hm
  have hS := (draw_ok (exp := [0, 0]) hm).1
  refine ⟨X, hX, fun P Z hZ => ?_⟩
  have hv := (h P Z hZ).2.2.1 (0 : Fin 2)
  refine hv.trans ?_
  have h00 : m.chol 0 0 * m.chol 0 0 = 2 := by
    have := congrFun (congrFun hS.fac (0 : Fin 2)) (0 : Fin 2)
    rw [mul_apply] at this
    change ∑ k : Fin 2, _ = _ at this
    rw [Fin.sum_univ_two] at this
    simpa [upTri, symUp] using this
  have h01 : m.chol 0 0 * m.chol 0 1 = 1 := by
    have := congrFun (congrFun hS.fac (0 : Fin 2)) (1 : Fin 2)
    rw [mul_apply] at this
    change ∑ k : Fin 2, _ = _ at this
    rw [Fin.sum_univ_two] at this
    simpa [upTri, symUp] using this
  have h2 : m.chol 0 1 ^ 2 = 1 / 2 := by
    have : (m.chol 0 0 * m.chol 0 0) * m.chol 0 1 ^ 2 = 1 := by
      calc _ = (m.chol 0 0 * m.chol 0 1) ^ 2 := by ring
        _ = 1 := by rw [h01]; norm_num
    rw [h00] at this
    linarith
  change (if (0 : ℕ) = 0 then (2 : ℝ) else 1) + ∑ k : Fin 2, (if (0 : Fin 2) < k then m.chol 0 k ^ 2 else 0) = 5 / 2
  rw [Fin.sum_univ_two]
  simp [h2]
  norm_num

/-- There is such an object. -/
example : ∃ m, new [0, 0] 2 (fun a b => if a = b then 2 else 1) = .ok m := by
  have hp : (symUp 2 (fun a b => if a = b then 2 else 1)).PosDef := by
    refine isChol_iff.1 ⟨fun a b => if a = b then (if a = 0 then √2 else √(3 / 2)) else 1 / √2, ⟨?_, ?_, ?_⟩⟩
    · intro a b
      by_cases hab : a = b
      · subst hab
        rfl
      · rw [if_neg hab, if_neg (Ne.symm hab)]
    · intro a _
      rw [if_pos rfl]
      split <;> positivity
    · ext a b
      have h2 : √2 * √2 = (2 : ℝ) := Real.mul_self_sqrt (by norm_num)
      have h3 : √(3 / 2) * √(3 / 2) = (3 / 2 : ℝ) := Real.mul_self_sqrt (by norm_num)
      have h4 : √2 ≠ 0 := by positivity
      fin_cases a <;> fin_cases b
      · simp [mul_apply, upTri, symUp, Fin.sum_univ_two]
      · simp [mul_apply, upTri, symUp]
      · simp [mul_apply, upTri, symUp, Fin.sum_univ_two]
      · have h5 : (√2)⁻¹ * (√2)⁻¹ = (1 / 2 : ℝ) := by
          rw [← mul_inv, h2]
          norm_num
        have : (√2)⁻¹ * (√2)⁻¹ + √(3 / 2) * √(3 / 2) = (2 : ℝ) := by
          rw [h5, h3]
          norm_num
        simpa [mul_apply, upTri, symUp, Fin.sum_univ_two] using this
  obtain ⟨S, e, -⟩ := (factorize_spec two_ne_zero _).1 hp
  unfold new
  rw [e]
  exact ⟨_, rfl⟩

/-- `SetParameters` does not change the covariances of the draws, and an object made with the constructor that takes no parameters
cannot draw at all. -/
theorem setParameters_violation (m : MultiNormal) (exp : List ℝ) (n n' : ℕ) (cov cov' : SymMat) (z : ℕ → ℝ) :
    (m.setParameters exp n cov).draw z = (m.setParameters exp n' cov').draw z ∧
    ∃ w, (MultiNormal.default.setParameters exp n cov).draw z = .ub w := by
  refine ⟨rfl, ?_⟩
  unfold draw setParameters MultiNormal.default
  rw [if_pos rfl]
  exact ⟨_, rfl⟩

/-- Eigenvalues and eigenvectors exist for all matrices. -/
theorem eigen_exists (n : ℕ) (K : SymMat) : ∃ ev em, IsEigen n K ev em := by
  have hH : (symUp n K).IsHermitian := by
    ext a b
    simp [symUp, min_comm, max_comm]
  refine ⟨List.ofFn hH.eigenvalues, fun a j => if h : a < n ∧ j < n then (hH.eigenvectorUnitary : Matrix (Fin n) (Fin n) ℝ) ⟨a, h.1⟩ ⟨j, h.2⟩ else 0,
    by simp, fun j k => ?_, fun a b => ?_⟩
  · have h := (Unitary.mem_iff.1 hH.eigenvectorUnitary.2).1
    have := congrFun (congrFun h j) k
    rw [mul_apply, one_apply] at this
    simpa using this
  · have h := hH.spectral_theorem
    have h2 := congrFun (congrFun h a) b
    have e : symUp n K a b = K (min a b) (max a b) := by simp [symUp]
    rw [e] at h2
    rw [h2, Unitary.conjStarAlgAut_apply, mul_apply]
    refine Finset.sum_congr rfl fun j _ => ?_
    rw [mul_diagonal]
    simp

theorem potential_ok {m : MultiNormal} {ev : List ℝ} {em : ℕ → ℕ → ℝ} (hn : m.dim ≠ 0) (he : m.exp.length = m.dim) (hev : ev.length = m.dim)
    (hnz : ∀ i < m.dim, ev.getD i 0 ≠ 0) (hdet : 0 < ∏ j : Fin m.dim, ev.getD j 0) {x : List ℝ} (hx : x.length = m.dim) :
    m.potential ev em x = .ok (1 / 2 * (m.dim * Real.log (2 * Real.pi) + Real.log (∏ j : Fin m.dim, ev.getD j 0) +
      ∑ j : Fin m.dim, (∑ i : Fin m.dim, em i j * (x.getD i 0 - m.exp.getD i 0)) ^ 2 / ev.getD j 0)) := by
  have z : (1.0 : ℝ) = 1 := by norm_num
  have h05 : (0.5 : ℝ) = 1 / 2 := by norm_num
  have h1 : forRange 0 m.dim (fun i det => (rd ev i).bind fun e => .ok (det * e)) 1.0 = .ok (∏ j : Fin m.dim, ev.getD j 0) := by
    rw [forRange_mul (f := fun i => ev.getD i 0) fun i hi s => by rw [rd_getD (by omega)]; rfl, z, one_mul, Finset.prod_range]
  have h2 : (fillVec m.exp.length fun i => (do
      let a ← rd x i
      let b ← rd m.exp i
      .ok (a - b) : Res ℝ)) = .ok ((List.range m.dim).map fun i => x.getD i 0 - m.exp.getD i 0) := by
    rw [he]
    exact fillVec_ok fun i hi => by
      rw [rd_getD (by omega), rd_getD (by omega)]
      rfl
  have h3 : (fillVec m.dim fun i => (rd ev i).bind fun e => fdiv 1.0 e) = .ok ((List.range m.dim).map fun i => 1 / ev.getD i 0) :=
    fillVec_ok fun i hi => by
      rw [rd_getD (by omega), Res.bind_ok, fdiv, if_neg (hnz i hi), z]
  have gD : ∀ (f : ℕ → ℝ) (i : Fin m.dim), ((List.range m.dim).map f).getD i 0 = f i := by
    intro f i
    simp
  unfold potential
  rw [if_neg hn, if_neg (by omega), h1, h2, h3]
  simp only [Res.monad_bind_eq, Res.bind_ok]
  rw [potSum_ok em (by simp) (by simp), Res.bind_ok, flog, if_neg (not_le.2 hdet), Res.bind_ok, h05]
  congr 3
  rw [Finset.sum_range]
  refine Finset.sum_congr rfl fun j _ => ?_
  rw [gD, Finset.sum_range, mul_one_div, Finset.sum_congr rfl fun i _ => by rw [gD]]

/-- `Potential` is minus the logarithm of the density of the normal vectors with this expectation and this covariance matrix. -/
theorem potential_spec {m : MultiNormal} {ev : List ℝ} {em : ℕ → ℕ → ℝ} (hn : m.dim ≠ 0) (he : m.exp.length = m.dim)
    (hK : (symUp m.dim m.cov).PosDef) (hE : IsEigen m.dim m.cov ev em) :
    ∃ p : (Fin m.dim → ℝ) → ℝ, (∀ x : List ℝ, x.length = m.dim → m.potential ev em x = .ok (p fun i => x.getD i 0)) ∧
      (∀ x, p x = 1 / 2 * (m.dim * Real.log (2 * Real.pi) + Real.log (symUp m.dim m.cov).det +
        (fun i => x i - m.exp.getD i 0) ⬝ᵥ ((symUp m.dim m.cov)⁻¹).mulVec fun i => x i - m.exp.getD i 0)) ∧
      ∀ {Ω : Type} [MeasurableSpace Ω] (P : Measure Ω) (X : Fin m.dim → Ω → ℝ), HasGaussianLaw (fun ω i => X i ω) P →
        (∀ i, ∫ ω, X i ω ∂P = m.exp.getD i 0) → (∀ a b, cov[X a, X b; P] = m.cov (min a b) (max a b)) →
          P.map (fun ω i => X i ω) = (volume : Measure (Fin m.dim → ℝ)).withDensity fun x => ENNReal.ofReal (Real.exp (-p x)) := by
  have hpos := eigen_pos hE hK
  obtain ⟨f1, f2⟩ := eigen_forms hE hpos
  refine ⟨fun x => 1 / 2 * (m.dim * Real.log (2 * Real.pi) + Real.log (∏ j : Fin m.dim, ev.getD j 0) +
      ∑ j : Fin m.dim, (∑ i : Fin m.dim, em i j * (x i - m.exp.getD i 0)) ^ 2 / ev.getD j 0), fun x hx => ?_, fun x => ?_, ?_⟩
  · exact potential_ok hn he hE.len (fun i hi => (hpos ⟨i, hi⟩).ne') (Finset.prod_pos fun j _ => hpos j) hx
  · rw [f1, f2]
  · intro Ω _ P X hG hm hc
    exact eigen_gauss_density (Q := of fun a j => em a j) hpos (by
      ext j k
      rw [mul_apply, one_apply]
      exact hE.orth j k) hG hm fun a b => (hc a b).trans (hE.eig a b)

/-- The hypotheses hold for covariances 4, 2 and 5. -/
example : ∃ (m : MultiNormal) (ev : List ℝ) (em : ℕ → ℕ → ℝ), m.dim ≠ 0 ∧ m.exp.length = m.dim ∧ (symUp m.dim m.cov).PosDef ∧
    IsEigen m.dim m.cov ev em := by
  obtain ⟨ev, em, h⟩ := eigen_exists 2 fun a b => if a = b then (if a = 0 then 4 else 5) else 2
  refine ⟨MultiNormal.default.setParameters [1, 2] 2 fun a b => if a = b then (if a = 0 then 4 else 5) else 2, ev, em, two_ne_zero, rfl, pd45, h⟩

/-- `Potential` accepts a matrix with an even number of negative eigenvalues, which `SetParameters` does not reject: with variances -1 the
result is below all bounds, so it is not minus the logarithm of any density. -/
theorem potential_violation : ∃ (m : MultiNormal) (ev : List ℝ) (em : ℕ → ℕ → ℝ),
    m = MultiNormal.default.setParameters [0, 0] 2 (fun a b => if a = b then -1 else 0) ∧ IsEigen m.dim m.cov ev em ∧
    ∀ x y : ℝ, m.potential ev em [x, y] = .ok (Real.log (2 * Real.pi) - (x ^ 2 + y ^ 2) / 2) := by
  have hE : IsEigen 2 (fun a b => if a = b then -1 else 0) [-1, -1] fun a b => if a = b then 1 else 0 := by
    refine ⟨rfl, fun j k => ?_, fun j k => ?_⟩
    · rw [Fin.sum_univ_two]
      fin_cases j <;> fin_cases k <;> norm_num
    · rw [Fin.sum_univ_two]
      fin_cases j <;> fin_cases k <;> norm_num
  refine ⟨_, [-1, -1], fun a b => if a = b then 1 else 0, rfl, hE, fun x y => ?_⟩
  · rw [potential_ok (by simp [setParameters]) rfl rfl]
    · change Res.ok (1 / 2 * ((2 : ℕ) * Real.log (2 * Real.pi) + Real.log (∏ j : Fin 2, ([-1, -1] : List ℝ).getD j 0) + ∑ j : Fin 2,
        (∑ i : Fin 2, (if (i : ℕ) = j then (1 : ℝ) else 0) * (([x, y] : List ℝ).getD i 0 - ([0, 0] : List ℝ).getD i 0)) ^ 2 /
          ([-1, -1] : List ℝ).getD j 0)) = _
      simp only [Fin.sum_univ_two, Fin.prod_univ_two]
      simp
      ring
    · intro i hi
      change i < 2 at hi
      interval_cases i <;> norm_num
    · change 0 < ∏ j : Fin 2, ([-1, -1] : List ℝ).getD j 0
      rw [Fin.prod_univ_two]
      norm_num
    · rfl

end Verif
