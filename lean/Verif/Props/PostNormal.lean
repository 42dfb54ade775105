import Verif.Lemmas.PostNormal
import Verif.Props.Kriging
import Mathlib.Probability.Distributions.Gaussian.Multivariate

/-!
# Conditional normal distributions
-/

namespace Verif

open MeasureTheory ProbabilityTheory PostNormal

/-- The law of a normal vector `(X, Y)`: expectations `m`, `n`, covariances `K` of `X`, `k` between `Y` and `X`, `S` of `Y`. -/
structure JointNormal {Ω ι κ : Type} [MeasurableSpace Ω] (P : Measure Ω) (X : ι → Ω → ℝ) (Y : κ → Ω → ℝ) (m : ι → ℝ) (n : κ → ℝ)
    (K : ι → ι → ℝ) (k : κ → ι → ℝ) (S : κ → κ → ℝ) : Prop where
  gauss : HasGaussianLaw (fun ω => (fun i => X i ω, fun a => Y a ω)) P
  meanX : ∀ i, ∫ ω, X i ω ∂P = m i
  meanY : ∀ a, ∫ ω, Y a ω ∂P = n a
  covX : ∀ i j, cov[X i, X j; P] = K i j
  covYX : ∀ a i, cov[Y a, X i; P] = k a i
  covY : ∀ a b, cov[Y a, Y b; P] = S a b

/-- Given the values of `X`, the law of `Y` is normal with expectation `e` of these values and covariances `C`: what remains of `Y` after
subtracting the expectation is independent of `X`, normal, with expectation zero and these covariances. -/
structure CondNormal {Ω ι κ : Type} [MeasurableSpace Ω] (P : Measure Ω) (X : ι → Ω → ℝ) (Y : κ → Ω → ℝ) (e : (ι → ℝ) → κ → ℝ)
    (C : κ → κ → ℝ) : Prop where
  indep : IndepFun (fun ω i => X i ω) (fun ω a => Y a ω - e (fun i => X i ω) a) P
  gauss : HasGaussianLaw (fun ω a => Y a ω - e (fun i => X i ω) a) P
  mean : ∀ a, ∫ ω, Y a ω - e (fun i => X i ω) a ∂P = 0
  cov : ∀ a b, cov[fun ω => Y a ω - e (fun i => X i ω) a, fun ω => Y b ω - e (fun i => X i ω) b; P] = C a b

theorem condNormal_of_weights {Ω ι κ : Type} [MeasurableSpace Ω] {P : Measure Ω} [Fintype ι] [Fintype κ] {X : ι → Ω → ℝ} {Y : κ → Ω → ℝ}
    {m : ι → ℝ} {n : κ → ℝ} {K : ι → ι → ℝ} {k : κ → ι → ℝ} {S : κ → κ → ℝ} (h : JointNormal P X Y m n K k S) {w : κ → ι → ℝ}
    (hw : ∀ a i, ∑ j, w a j * K j i = k a i) :
    CondNormal P X Y (fun x a => n a + ∑ i, w a i * (x i - m i)) (fun a b => S a b - ∑ i, w a i * k b i) := by
  have := h.gauss.isProbabilityMeasure
  have hG := residual_gauss h.gauss m n w
  obtain ⟨h1, h2, h3⟩ := residual_moments (w := w) (fun i => (h.gauss.fst.eval i).memLp_two) (fun a => (h.gauss.snd.eval a).memLp_two)
    h.meanX h.meanY h.covX h.covYX h.covY hw
  exact ⟨hG.indepFun_of_covariance_eval h2, hG.snd, h1, h3⟩

/-- There is such a vector for all covariances that can be. -/
theorem jointNormal_exists {ι κ : Type} [Fintype ι] [Fintype κ] (m : ι → ℝ) (n : κ → ℝ) {T : Matrix (ι ⊕ κ) (ι ⊕ κ) ℝ}
    (hT : T.PosSemidef) : ∃ (P : Measure (EuclideanSpace ℝ (ι ⊕ κ))),
      JointNormal P (fun i x => x (.inl i)) (fun a x => x (.inr a)) m n (fun i j => T (.inl i) (.inl j)) (fun a i => T (.inr a) (.inl i))
        (fun a b => T (.inr a) (.inr b)) := by
  classical
  set μ : EuclideanSpace ℝ (ι ⊕ κ) := WithLp.toLp 2 (Sum.elim m n) with hμ
  have hev : ∀ s : ι ⊕ κ, ∫ x : EuclideanSpace ℝ (ι ⊕ κ), x s ∂(multivariateGaussian μ T) = Sum.elim m n s := by
    intro s
    have h := integral_id_multivariateGaussian (μ := μ) (S := T)
    have h2 := (EuclideanSpace.proj (𝕜 := ℝ) s).integral_comp_comm (μ := multivariateGaussian μ T) (φ := fun x => x)
      (IsGaussian.integrable_id)
    rw [h] at h2
    exact h2
  refine ⟨multivariateGaussian μ T, ⟨?_, fun i => hev _, fun a => hev _, fun i j => covariance_eval_multivariateGaussian hT _ _,
    fun a i => covariance_eval_multivariateGaussian hT _ _, fun a b => covariance_eval_multivariateGaussian hT _ _⟩⟩
  have hid : HasGaussianLaw (fun x : EuclideanSpace ℝ (ι ⊕ κ) => x) (multivariateGaussian μ T) := ⟨by
    rw [Measure.map_id']
    infer_instance⟩
  let L : EuclideanSpace ℝ (ι ⊕ κ) →L[ℝ] (ι → ℝ) × (κ → ℝ) :=
    (ContinuousLinearMap.pi fun i => EuclideanSpace.proj (.inl i)).prod (ContinuousLinearMap.pi fun a => EuclideanSpace.proj (.inr a))
  exact hid.map_fun L

/-- The covariance matrix of the observations. -/
noncomputable def obsCov (x std : List ℝ) (vario : Variogram) : Matrix (Fin x.length) (Fin x.length) ℝ :=
  Matrix.of fun i j => std.getD i 0 * std.getD j 0 * vario.corr (x.getD i 0 - x.getD j 0)

theorem condDistr_weights {x_known x_unknown exp_known exp_unknown std_known std_unknown : List ℝ} (vario : Variogram)
    (hk : x_known ≠ []) (hu : x_unknown ≠ []) (h1 : exp_known.length = x_known.length) (h2 : std_known.length = x_known.length)
    (h3 : exp_unknown.length = x_unknown.length) (h4 : std_unknown.length = x_unknown.length)
    (hpos : (obsCov x_known std_known vario).PosDef) :
    ∃ (w : Fin x_unknown.length → Fin x_known.length → ℝ) (C : SymMat),
      (∀ a i, ∑ j, w a j * obsCov x_known std_known vario j i =
        std_unknown.getD a 0 * std_known.getD i 0 * vario.corr (x_unknown.getD a 0 - x_known.getD i 0)) ∧
      (∀ values : List ℝ, values.length = x_known.length →
        condDistr x_known values x_unknown exp_known exp_unknown std_known std_unknown vario =
          .ok (List.ofFn (fun a => exp_unknown.getD a 0 + ∑ i, w a i * (values.getD i 0 - exp_known.getD i 0)), C)) ∧
      ∀ a b : Fin x_unknown.length, a ≤ b → C a b = std_unknown.getD a 0 * std_unknown.getD b 0 * vario.corr (x_unknown.getD a 0 - x_unknown.getD b 0) -
        ∑ i, w a i * (std_unknown.getD b 0 * std_known.getD i 0 * vario.corr (x_unknown.getD b 0 - x_known.getD i 0)) := by
  have hk' : x_known.length ≠ 0 := by simpa using hk
  have hu' : x_unknown.length ≠ 0 := by simpa using hu
  obtain ⟨s11, e11, g11⟩ := fillSymm_ok (n := x_unknown.length) (f := cov1 vario std_unknown std_unknown x_unknown x_unknown)
    (g := fun i j => std_unknown.getD i 0 * std_unknown.getD j 0 * vario.corr (x_unknown.getD i 0 - x_unknown.getD j 0))
    (fun i hi j hj => cov1_ok vario (by omega) (by omega) (by omega) (by omega))
  obtain ⟨s22, e22, g22⟩ := fillSymm_ok (n := x_known.length) (f := cov1 vario std_known std_known x_known x_known)
    (g := fun i j => std_known.getD i 0 * std_known.getD j 0 * vario.corr (x_known.getD i 0 - x_known.getD j 0))
    (fun i hi j hj => cov1_ok vario (by omega) (by omega) (by omega) (by omega))
  obtain ⟨s12, e12, g12⟩ := fillMat_ok (rows := x_unknown.length) (cols := x_known.length) (f := cov1 vario std_known std_unknown x_known x_unknown)
    (g := fun i j => std_known.getD i 0 * std_unknown.getD j 0 * vario.corr (x_known.getD i 0 - x_unknown.getD j 0))
    (fun i hi j hj => cov1_ok vario (by omega) (by omega) (by omega) (by omega))
  have sym : ∀ (s x : List ℝ) (n : ℕ) (M : SymMat), (∀ a < n, ∀ b < n, M a b = s.getD (max a b) 0 * s.getD (min a b) 0 *
      vario.corr (x.getD (max a b) 0 - x.getD (min a b) 0)) → ∀ a < n, ∀ b < n, M a b = s.getD a 0 * s.getD b 0 * vario.corr (x.getD a 0 - x.getD b 0) := by
    intro s x n M h a ha b hb
    rw [h a ha b hb]
    rcases le_total a b with hab | hab
    · rw [max_eq_right hab, min_eq_left hab, ← corr_abs vario (x.getD a 0 - x.getD b 0), neg_sub]
      ring
    · rw [max_eq_left hab, min_eq_right hab]
  have k11 := sym _ _ _ _ g11
  have k22 := sym _ _ _ _ g22
  have hP : (s22.toMatrix x_known.length).PosDef := by
    rw [toMatrix_congr fun a b => k22 a a.2 b b.2]
    exact hpos
  obtain ⟨w, C, hw, hcore, hC⟩ := core_ok (s11 := s11) (s12 := s12) hu' hk' hP
  have k12 : ∀ (a : Fin x_unknown.length) (i : Fin x_known.length), s12 a i =
      std_unknown.getD a 0 * std_known.getD i 0 * vario.corr (x_unknown.getD a 0 - x_known.getD i 0) := by
    intro a i
    rw [g12 i i.2 a a.2, ← corr_abs vario (x_unknown.getD a 0 - x_known.getD i 0), neg_sub]
    ring
  refine ⟨w, C, fun a i => ?_, fun values hv => ?_, fun a b hab => ?_⟩
  · rw [← k12, ← hw]
    refine Finset.sum_congr rfl fun j _ => ?_
    rw [k22 j j.2 i i.2]
    rfl
  · unfold condDistr
    rw [if_neg hk', delta_ok hv h1, fillVec_ok (g := fun i => exp_unknown.getD i 0) fun i hi => rd_getD (by omega), e11, e22, e12]
    simp only [Res.monad_bind_eq, Res.bind_ok]
    rw [hcore]
    congr 2
    congr 1
    funext a
    simp only [toVec_map]
  · rw [hC a b hab, k11 a a.2 b b.2]
    congr 1
    exact Finset.sum_congr rfl fun i _ => by rw [k12]

/-- `CondDistrMultiNormal` with observations: the function returns, for all values of the observations, the conditional expectation and
the conditional covariances of every normal vector with the given expectations, standard deviations and correlations. -/
theorem condDistr_spec {x_known x_unknown exp_known exp_unknown std_known std_unknown : List ℝ} (vario : Variogram)
    (hk : x_known ≠ []) (hu : x_unknown ≠ []) (h1 : exp_known.length = x_known.length) (h2 : std_known.length = x_known.length)
    (h3 : exp_unknown.length = x_unknown.length) (h4 : std_unknown.length = x_unknown.length)
    (hpos : (obsCov x_known std_known vario).PosDef) :
    ∃ (e : (Fin x_known.length → ℝ) → Fin x_unknown.length → ℝ) (C : SymMat),
      (∀ values : List ℝ, values.length = x_known.length →
        condDistr x_known values x_unknown exp_known exp_unknown std_known std_unknown vario =
          .ok (List.ofFn (e fun i => values.getD i 0), C)) ∧
      ∀ {Ω : Type} [MeasurableSpace Ω] (P : Measure Ω) (X : Fin x_known.length → Ω → ℝ) (Y : Fin x_unknown.length → Ω → ℝ),
        JointNormal P X Y (fun i => exp_known.getD i 0) (fun a => exp_unknown.getD a 0)
          (fun i j => std_known.getD i 0 * std_known.getD j 0 * vario.corr (x_known.getD i 0 - x_known.getD j 0))
          (fun a i => std_unknown.getD a 0 * std_known.getD i 0 * vario.corr (x_unknown.getD a 0 - x_known.getD i 0))
          (fun a b => std_unknown.getD a 0 * std_unknown.getD b 0 * vario.corr (x_unknown.getD a 0 - x_unknown.getD b 0)) →
        CondNormal P X Y e (fun a b => C (min a b) (max a b)) := by
  obtain ⟨w, C, hw, hok, hC⟩ := condDistr_weights vario hk hu h1 h2 h3 h4 hpos
  refine ⟨fun x a => exp_unknown.getD a 0 + ∑ i, w a i * (x i - exp_known.getD i 0), C, hok, fun P X Y hJ => ?_⟩
  have := condNormal_of_weights hJ (w := w) hw
  refine ⟨this.indep, this.gauss, this.mean, fun a b => ?_⟩
  rcases le_total a b with hab | hab
  · have hab' : (a : ℕ) ≤ b := hab
    rw [this.cov a b, min_eq_left hab', max_eq_right hab', hC a b hab]
  · have hab' : (b : ℕ) ≤ a := hab
    rw [covariance_comm, this.cov b a, min_eq_right hab', max_eq_left hab', hC b a hab]

/-- A place that is an observed place, with the same expectation and standard deviation: the expectation is the observation and the
variance zero, and so are all the covariances. -/
theorem condDistr_exact {x_known x_unknown exp_known exp_unknown std_known std_unknown values : List ℝ} (vario : Variogram)
    (h1 : exp_known.length = x_known.length) (h2 : std_known.length = x_known.length)
    (h3 : exp_unknown.length = x_unknown.length) (h4 : std_unknown.length = x_unknown.length) (h5 : values.length = x_known.length)
    (hpos : (obsCov x_known std_known vario).PosDef) {a i : ℕ} (ha : a < x_unknown.length) (hi : i < x_known.length)
    (hx : x_unknown.getD a 0 = x_known.getD i 0) (he : exp_unknown.getD a 0 = exp_known.getD i 0)
    (hs : std_unknown.getD a 0 = std_known.getD i 0) :
    ∃ e C, condDistr x_known values x_unknown exp_known exp_unknown std_known std_unknown vario = .ok (e, C) ∧
      e.getD a 0 = values.getD i 0 ∧ ∀ b < x_unknown.length, C (min a b) (max a b) = 0 := by
  have hk : x_known ≠ [] := by rintro rfl; simp at hi
  have hu : x_unknown ≠ [] := by rintro rfl; simp at ha
  obtain ⟨w, C, hw, hok, hC⟩ := condDistr_weights (exp_known := exp_known) (exp_unknown := exp_unknown) vario hk hu h1 h2 h3 h4 hpos
  have hunit : IsUnit (obsCov x_known std_known vario) := hpos.isUnit
  have hwa : w ⟨a, ha⟩ = Pi.single ⟨i, hi⟩ 1 := by
    have hv : Matrix.vecMul (w ⟨a, ha⟩) (obsCov x_known std_known vario) =
        Matrix.vecMul (Pi.single ⟨i, hi⟩ 1) (obsCov x_known std_known vario) := by
      funext j
      rw [Matrix.single_one_vecMul]
      show ∑ k, w ⟨a, ha⟩ k * obsCov x_known std_known vario k j = _
      rw [hw ⟨a, ha⟩ j]
      show std_unknown.getD a 0 * _ * vario.corr (x_unknown.getD a 0 - _) = _
      rw [hx, hs]
      rfl
    exact Matrix.vecMul_injective_of_isUnit hunit hv
  refine ⟨_, C, hok values h5, ?_, fun b hb => ?_⟩
  · rw [List.getD_eq_getElem?_getD, List.getElem?_ofFn, dif_pos ha]
    simp only [Option.getD_some]
    rw [hwa, Finset.sum_eq_single ⟨i, hi⟩]
    · simp only [Pi.single_eq_same, he]
      ring
    · intro j _ hj
      rw [Pi.single_eq_of_ne hj, zero_mul]
    · intro h
      exact absurd (Finset.mem_univ _) h
  · rcases le_total a b with hab | hab
    · rw [min_eq_left hab, max_eq_right hab, hC ⟨a, ha⟩ ⟨b, hb⟩ hab, hwa, Finset.sum_eq_single ⟨i, hi⟩]
      · simp only [Pi.single_eq_same]
        rw [hx, hs, ← corr_abs vario (x_known.getD i 0 - x_unknown.getD b 0), neg_sub]
        ring
      · intro j _ hj
        rw [Pi.single_eq_of_ne hj, zero_mul]
      · intro h
        exact absurd (Finset.mem_univ _) h
    · rw [min_eq_right hab, max_eq_left hab, hC ⟨b, hb⟩ ⟨a, ha⟩ hab]
      simp only
      have hsym : ∑ j, w ⟨b, hb⟩ j * (std_unknown.getD a 0 * std_known.getD j 0 * vario.corr (x_unknown.getD a 0 - x_known.getD j 0)) =
          ∑ j, w ⟨b, hb⟩ j * obsCov x_known std_known vario j ⟨i, hi⟩ := by
        refine Finset.sum_congr rfl fun j _ => ?_
        show _ = _ * (std_known.getD j 0 * std_known.getD i 0 * vario.corr (x_known.getD j 0 - x_known.getD i 0))
        rw [hx, hs, ← corr_abs vario (x_known.getD i 0 - x_known.getD j 0), neg_sub]
        ring
      rw [hsym, hw ⟨b, hb⟩ ⟨i, hi⟩]
      simp only
      rw [hx, hs]
      ring

/-- Observations whose covariance matrix is not positive definite: the function throws. -/
theorem condDistr_singular {x_known x_unknown exp_known exp_unknown std_known std_unknown values : List ℝ} (vario : Variogram)
    (hk : x_known ≠ []) (h1 : exp_known.length = x_known.length) (h2 : std_known.length = x_known.length)
    (h3 : exp_unknown.length = x_unknown.length) (h4 : std_unknown.length = x_unknown.length) (h5 : values.length = x_known.length)
    (hpos : ¬ (obsCov x_known std_known vario).PosDef) :
    ∃ why, condDistr x_known values x_unknown exp_known exp_unknown std_known std_unknown vario = .throws why := by
  have hk' : x_known.length ≠ 0 := by simpa using hk
  obtain ⟨s11, e11, g11⟩ := fillSymm_ok (n := x_unknown.length) (f := cov1 vario std_unknown std_unknown x_unknown x_unknown)
    (g := fun i j => std_unknown.getD i 0 * std_unknown.getD j 0 * vario.corr (x_unknown.getD i 0 - x_unknown.getD j 0))
    (fun i hi j hj => cov1_ok vario (by omega) (by omega) (by omega) (by omega))
  obtain ⟨s22, e22, g22⟩ := fillSymm_ok (n := x_known.length) (f := cov1 vario std_known std_known x_known x_known)
    (g := fun i j => std_known.getD i 0 * std_known.getD j 0 * vario.corr (x_known.getD i 0 - x_known.getD j 0))
    (fun i hi j hj => cov1_ok vario (by omega) (by omega) (by omega) (by omega))
  obtain ⟨s12, e12, g12⟩ := fillMat_ok (rows := x_unknown.length) (cols := x_known.length) (f := cov1 vario std_known std_unknown x_known x_unknown)
    (g := fun i j => std_known.getD i 0 * std_unknown.getD j 0 * vario.corr (x_known.getD i 0 - x_unknown.getD j 0))
    (fun i hi j hj => cov1_ok vario (by omega) (by omega) (by omega) (by omega))
  have hP : ¬ (s22.toMatrix x_known.length).PosDef := by
    rw [toMatrix_congr (M := fun i j => std_known.getD i 0 * std_known.getD j 0 * vario.corr (x_known.getD i 0 - x_known.getD j 0)) ?_]
    · exact hpos
    · intro a b
      rw [g22 a a.2 b b.2]
      rcases le_total (a : ℕ) b with hab | hab
      · rw [max_eq_right hab, min_eq_left hab, ← corr_abs vario (x_known.getD a 0 - x_known.getD b 0), neg_sub]
        ring
      · rw [max_eq_left hab, min_eq_right hab]
  unfold condDistr
  rw [if_neg hk', delta_ok h5 h1, fillVec_ok (g := fun i => exp_unknown.getD i 0) fun i hi => rd_getD (by omega), e11, e22, e12]
  simp only [Res.monad_bind_eq, Res.bind_ok]
  unfold core
  rw [if_neg hk', if_neg hP]
  exact ⟨_, rfl⟩

/-- Two observations at one place: the function throws. -/
theorem condDistr_twice {x_known x_unknown exp_known exp_unknown std_known std_unknown values : List ℝ} (vario : Variogram)
    (h1 : exp_known.length = x_known.length) (h2 : std_known.length = x_known.length)
    (h3 : exp_unknown.length = x_unknown.length) (h4 : std_unknown.length = x_unknown.length) (h5 : values.length = x_known.length)
    {i j : ℕ} (hi : i < x_known.length) (hj : j < x_known.length) (hij : i ≠ j) (hx : x_known.getD i 0 = x_known.getD j 0) :
    ∃ why, condDistr x_known values x_unknown exp_known exp_unknown std_known std_unknown vario = .throws why := by
  refine condDistr_singular vario (by rintro rfl; simp at hi) h1 h2 h3 h4 h5 fun hpos => ?_
  have hrow : ∀ s, std_known.getD j 0 * obsCov x_known std_known vario s ⟨i, hi⟩ = std_known.getD i 0 * obsCov x_known std_known vario s ⟨j, hj⟩ := by
    intro s
    show std_known.getD j 0 * (std_known.getD s 0 * std_known.getD i 0 * vario.corr (x_known.getD s 0 - x_known.getD i 0)) =
      std_known.getD i 0 * (std_known.getD s 0 * std_known.getD j 0 * vario.corr (x_known.getD s 0 - x_known.getD j 0))
    rw [hx]
    ring
  have hne : (⟨i, hi⟩ : Fin x_known.length) ≠ ⟨j, hj⟩ := fun h => hij (Fin.mk.inj h)
  have hdi := hpos.diag_pos (i := ⟨i, hi⟩)
  have hsi : std_known.getD i 0 ≠ 0 := by
    intro h0
    have : obsCov x_known std_known vario ⟨i, hi⟩ ⟨i, hi⟩ = 0 := by
      show std_known.getD i 0 * std_known.getD i 0 * _ = 0
      rw [h0]
      ring
    rw [this] at hdi
    exact lt_irrefl _ hdi
  have hv : Matrix.mulVec (obsCov x_known std_known vario) (Pi.single ⟨i, hi⟩ (std_known.getD j 0)) =
      Matrix.mulVec (obsCov x_known std_known vario) (Pi.single ⟨j, hj⟩ (std_known.getD i 0)) := by
    funext s
    rw [Matrix.mulVec_single, Matrix.mulVec_single]
    simpa [mul_comm] using hrow s
  have := congrFun (Matrix.mulVec_injective_of_isUnit hpos.isUnit hv) ⟨j, hj⟩
  rw [Pi.single_eq_same, Pi.single_eq_of_ne hne.symm] at this
  exact hsi this.symm

/-- Without observations: the expectations and the covariances that were given. -/
theorem condDistr_none {x_unknown exp_unknown std_unknown values exp_known std_known : List ℝ} (vario : Variogram)
    (h3 : exp_unknown.length = x_unknown.length) (h4 : std_unknown.length = x_unknown.length) :
    ∃ C, condDistr [] values x_unknown exp_known exp_unknown std_known std_unknown vario = .ok (exp_unknown, C) ∧
      ∀ a < x_unknown.length, ∀ b < x_unknown.length,
        C a b = std_unknown.getD a 0 * std_unknown.getD b 0 * vario.corr (x_unknown.getD a 0 - x_unknown.getD b 0) := by
  obtain ⟨C, e, g⟩ := fillFull_ok (n := x_unknown.length) (f := cov1 vario std_unknown std_unknown x_unknown x_unknown)
    (g := fun i j => std_unknown.getD i 0 * std_unknown.getD j 0 * vario.corr (x_unknown.getD i 0 - x_unknown.getD j 0))
    (fun i hi j hj => cov1_ok vario (by omega) (by omega) (by omega) (by omega))
  refine ⟨C, ?_, g⟩
  unfold condDistr
  rw [if_pos List.length_nil, fillVec_ok (g := fun i => exp_unknown.getD i 0) fun i hi => rd_getD (by omega), e]
  simp only [Res.monad_bind_eq, Res.bind_ok]
  congr 2
  apply List.ext_getElem (by simp [h3])
  intro i h1 h2
  simp [List.getD_eq_getElem?_getD, h2]

/-- `Posterior1DNormal`: the conditional law of a normal variable given another one. -/
theorem posterior1D_spec {exp_prior cov_prior exp_obs cov_obs corr : ℝ} (h1 : 0 ≤ cov_prior) (h2 : 0 < cov_obs) :
    ∃ (e : ℝ → ℝ) (C : ℝ), (∀ obs, posterior1D exp_prior cov_prior exp_obs cov_obs corr obs = .ok (e obs, C)) ∧
      ∀ {Ω : Type} [MeasurableSpace Ω] (P : Measure Ω) (X Y : Unit → Ω → ℝ),
        JointNormal P X Y (fun _ => exp_obs) (fun _ => exp_prior) (fun _ _ => cov_obs) (fun _ _ => corr * √cov_prior * √cov_obs)
          (fun _ _ => cov_prior) → CondNormal P X Y (fun x _ => e (x ())) (fun _ _ => C) := by
  have hr : (0 : ℝ) ≤ cov_prior / cov_obs := by positivity
  have hs : √(cov_prior / cov_obs) * cov_obs = √cov_prior * √cov_obs := by
    rw [Real.sqrt_div' _ h2.le, div_mul_eq_mul_div, mul_div_assoc, Real.div_sqrt]
  refine ⟨fun obs => exp_prior + corr * √(cov_prior / cov_obs) * (obs - exp_obs), (1 - corr * corr) * cov_prior, fun obs => ?_, fun P X Y hJ => ?_⟩
  · unfold posterior1D fdiv
    rw [if_neg h2.ne']
    simp only [Res.monad_bind_eq, Res.bind_ok]
    unfold fsqrt
    rw [if_neg hr.not_gt]
    rfl
  · have := condNormal_of_weights hJ (w := fun _ _ => corr * √(cov_prior / cov_obs)) (fun a i => by
      rw [Fintype.sum_unique]
      rw [mul_assoc, hs]
      ring)
    simp only [Fintype.sum_unique] at this
    refine ⟨this.indep, this.gauss, this.mean, fun a b => ?_⟩
    rw [this.cov]
    have e1 : √(cov_prior / cov_obs) * (√cov_prior * √cov_obs) = cov_prior := by
      rw [← hs, ← mul_assoc, Real.mul_self_sqrt hr]
      field_simp
    linear_combination (-corr * corr) * e1

/-- Two observations and one unknown, and a normal vector with these expectations and covariances. -/
example : ∃ (e : (Fin 2 → ℝ) → Fin 1 → ℝ) (C : SymMat),
    (∀ u v : ℝ, condDistr [0, 1] [u, v] [2] [10, 20] [30] [1, 1] [1] expVario = .ok (List.ofFn (e ![u, v]), C)) ∧
      ∃ (Ω : Type) (_ : MeasurableSpace Ω) (P : Measure Ω) (X : Fin 2 → Ω → ℝ) (Y : Fin 1 → Ω → ℝ), P Set.univ = 1 ∧
        CondNormal P X Y e (fun a b => C (min a b) (max a b)) := by
  have hc : ∀ x y : ℝ, expVario.corr (x - y) = Real.exp (-3 * |x - y|) := by
    intro x y
    show Real.exp (-3.0 * √(1 * (x - y) * (x - y))) = _
    rw [one_mul, Real.sqrt_mul_self_eq_abs]
    norm_num
  have hmono : StrictMono (![0, 1, 2] : Fin 3 → ℝ) := by
    intro a b hab
    fin_cases a <;> fin_cases b <;> simp_all
  have h3 := exp_posDef (by norm_num : (0 : ℝ) < 3) hmono
  have hpos : (obsCov [0, 1] [1, 1] expVario).PosDef := by
    have h2 : StrictMono (![0, 1] : Fin 2 → ℝ) := by
      intro a b hab
      fin_cases a <;> fin_cases b <;> simp_all
    suffices hm : obsCov [0, 1] [1, 1] expVario = Matrix.of fun a b : Fin 2 => Real.exp (-3 * |(![0, 1] : Fin 2 → ℝ) a - (![0, 1] : Fin 2 → ℝ) b|) by
      rw [hm]
      exact exp_posDef (by norm_num : (0 : ℝ) < 3) h2
    ext i j
    show _ * _ * expVario.corr _ = Real.exp _
    rw [hc]
    fin_cases i <;> fin_cases j <;> simp
  obtain ⟨e, C, he, hC⟩ := condDistr_spec (x_known := [0, 1]) (x_unknown := [2]) (exp_known := [10, 20]) (exp_unknown := [30])
    (std_known := [1, 1]) (std_unknown := [1]) expVario (by simp) (by simp) rfl rfl rfl rfl hpos
  refine ⟨e, C, fun u v => ?_, ?_⟩
  · rw [he [u, v] rfl]
    congr 3
    congr 1
    funext i
    fin_cases i <;> rfl
  · let f : Fin 2 ⊕ Fin 1 → Fin 3 := Sum.elim ![0, 1] ![2]
    obtain ⟨P, hP⟩ := jointNormal_exists (fun i : Fin 2 => ([10, 20] : List ℝ).getD i 0) (fun a : Fin 1 => ([30] : List ℝ).getD a 0)
      ((h3.posSemidef).submatrix f)
    have := hP.gauss.isProbabilityMeasure
    refine ⟨_, _, P, fun i x => x (.inl i), fun a x => x (.inr a), measure_univ, hC P _ _ ?_⟩
    refine ⟨hP.gauss, hP.meanX, hP.meanY, fun i j => ?_, fun a i => ?_, fun a b => ?_⟩
    · rw [hP.covX, hc]
      fin_cases i <;> fin_cases j <;> simp [f]
    · rw [hP.covYX, hc]
      fin_cases a <;> fin_cases i <;> simp [f]
    · rw [hP.covY, hc]
      fin_cases a <;> fin_cases b <;> simp [f]

/-- Two observations at one place. -/
example : ∃ why, condDistr [0, 0] [1, 1] [2] [10, 20] [30] [1, 1] [1] expVario = .throws why :=
  condDistr_twice expVario rfl rfl rfl rfl rfl (i := 0) (j := 1) (by simp) (by simp) (by simp) rfl

/-- Half the standard deviation at the prior, correlation one half. -/
example : ∃ (e : ℝ → ℝ) (C : ℝ), ∀ obs, posterior1D 0 1 0 4 0.5 obs = .ok (e obs, C) :=
  let ⟨e, C, h, _⟩ := posterior1D_spec (exp_prior := 0) (exp_obs := 0) (corr := 0.5) (by norm_num : (0 : ℝ) ≤ 1) (by norm_num : (0 : ℝ) < 4)
  ⟨e, C, h⟩

end Verif
