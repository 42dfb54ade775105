import Verif.Props.Field
import Verif.Lemmas.FieldCov
import Verif.Lemmas.Noise

/-!
# C04 - C06: the probability law of the simulated fields

The draws of the generator are random variables. The result of the simulation functions is a
random field; its mean and covariance are computed here.
-/

namespace Verif

open Finset Spec Variogram MeasureTheory ProbabilityTheory

/-! ## Specification -/

/-- "The one-dimensional simulation returns a field with covariance `C`": for every generator
whose successive values are the random variables `w 0`, `w 1`, ..., the call returns normally;
uncorrelated draws with mean 0 and variance 1 give a field with mean 0 in which cells `i` and `i'`
have covariance `C (i - i')`; independent standard normal draws give a Gaussian field. -/
def HasFieldCov1 (F : Fftw) (p : Platform) (v : Variogram) (nx : ℕ) (dx : ℝ) (padx : ℤ) (sx : ℝ)
    (C : ℤ → ℝ) : Prop :=
  ∀ (Ω : Type) [MeasurableSpace Ω] (μ : Measure Ω) [IsProbabilityMeasure μ] (σ γ : Type)
    (newRg : γ → Res (σ × γ)) (norm01 : σ → Res (ℝ × σ)) (rg : Ω → Option σ) (glob glob' : Ω → γ)
    (s : Ω → σ) (w : ℕ → Ω → ℝ),
    (∀ ω, UsesGenerator newRg (rg ω) (glob ω) (s ω) (glob' ω)) →
    (∀ ω, Streams norm01 (s ω) fun a => w a ω) →
    ∃ X : ℕ → Ω → ℝ,
      (∀ ω, ∃ out s', simulate1D F p newRg norm01 v nx dx nx (rg ω) padx sx (glob ω)
          = .ok (out, s', glob' ω) ∧ out.length = nx ∧ ∀ i < nx, out[i]? = some (X i ω)) ∧
      (WhiteNoise μ w → (∀ i < nx, MemLp (X i) 2 μ ∧ ∫ ω, X i ω ∂μ = 0) ∧
        ∀ i < nx, ∀ i' < nx, cov[X i, X i'; μ] = C ((i : ℤ) - i')) ∧
      (GaussianNoise μ w → HasGaussianLaw (fun ω (i : Fin nx) => X i ω) μ)

/-- The same for `K` two-dimensional fields made by one call. Different fields are uncorrelated,
and independent if the draws are independent standard normal. -/
def HasFieldCov2 (F : Fftw) (p : Platform) (v : Variogram) (nx : ℕ) (dx : ℝ) (ny : ℕ) (dy : ℝ)
    (padx pady : ℤ) (sx sy : ℝ) (C : ℤ → ℤ → ℝ) : Prop :=
  ∀ (Ω : Type) [MeasurableSpace Ω] (μ : Measure Ω) [IsProbabilityMeasure μ] (σ γ : Type)
    (newRg : γ → Res (σ × γ)) (norm01 : σ → Res (ℝ × σ)) (rg : Ω → Option σ) (glob glob' : Ω → γ)
    (s : Ω → σ) (w : ℕ → Ω → ℝ) (K : ℕ),
    (∀ ω, UsesGenerator newRg (rg ω) (glob ω) (s ω) (glob' ω)) →
    (∀ ω, Streams norm01 (s ω) fun a => w a ω) →
    ∃ X : ℕ → ℕ → ℕ → Ω → ℝ,
      (∀ ω, ∃ gs s', simulate2D F p newRg norm01 v nx dx ny dy K [] (rg ω) padx pady sx sy (glob ω)
          = .ok (gs, s', glob' ω) ∧ gs.length = K ∧ ∀ k < K, ∃ g, gs[k]? = some g ∧
            g.data.length = nx * ny ∧ ∀ i < nx, ∀ j < ny,
            g.data[i + nx * j]? = some (X k i j ω)) ∧
      (WhiteNoise μ w →
        (∀ k < K, ∀ i < nx, ∀ j < ny, MemLp (X k i j) 2 μ ∧ ∫ ω, X k i j ω ∂μ = 0) ∧
        (∀ k < K, ∀ i < nx, ∀ j < ny, ∀ i' < nx, ∀ j' < ny,
          cov[X k i j, X k i' j'; μ] = C ((i : ℤ) - i') ((j : ℤ) - j')) ∧
        ∀ k < K, ∀ k' < K, k ≠ k' → ∀ i < nx, ∀ j < ny, ∀ i' < nx, ∀ j' < ny,
          cov[X k i j, X k' i' j'; μ] = 0) ∧
      (GaussianNoise μ w →
        HasGaussianLaw (fun ω (k : Fin K) (c : Fin nx × Fin ny) => X k c.1 c.2 ω) μ ∧
        iIndepFun (fun (k : Fin K) ω (c : Fin nx × Fin ny) => X k c.1 c.2 ω) μ)

/-- The same for three-dimensional fields, which take their draws from the global generator. -/
def HasFieldCov3 (F : Fftw) (p : Platform) (v : Variogram) (nx : ℕ) (dx : ℝ) (ny : ℕ) (dy : ℝ)
    (nz : ℕ) (dz : ℝ) (padx pady padz : ℤ) (sx sy sz : ℝ) (C : ℤ → ℤ → ℤ → ℝ) : Prop :=
  ∀ (Ω : Type) [MeasurableSpace Ω] (μ : Measure Ω) [IsProbabilityMeasure μ] (γ : Type)
    (norm01 : γ → Res (ℝ × γ)) (s : Ω → γ) (w : ℕ → Ω → ℝ) (K : ℕ),
    (∀ ω, Streams norm01 (s ω) fun a => w a ω) →
    ∃ X : ℕ → ℕ → ℕ → ℕ → Ω → ℝ,
      (∀ ω, ∃ gs s', simulate3D F p norm01 v nx dx ny dy nz dz K [] padx pady padz sx sy sz (s ω)
          = .ok (gs, s') ∧ gs.length = K ∧ ∀ k < K, ∃ g, gs[k]? = some g ∧
            g.data.length = nx * ny * nz ∧ ∀ i < nx, ∀ j < ny, ∀ l < nz,
            g.data[i + nx * (j + ny * l)]? = some (X k i j l ω)) ∧
      (WhiteNoise μ w →
        (∀ k < K, ∀ i < nx, ∀ j < ny, ∀ l < nz, MemLp (X k i j l) 2 μ ∧ ∫ ω, X k i j l ω ∂μ = 0) ∧
        (∀ k < K, ∀ i < nx, ∀ j < ny, ∀ l < nz, ∀ i' < nx, ∀ j' < ny, ∀ l' < nz,
          cov[X k i j l, X k i' j' l'; μ] = C ((i : ℤ) - i') ((j : ℤ) - j') ((l : ℤ) - l')) ∧
        ∀ k < K, ∀ k' < K, k ≠ k' → ∀ i < nx, ∀ j < ny, ∀ l < nz, ∀ i' < nx, ∀ j' < ny, ∀ l' < nz,
          cov[X k i j l, X k' i' j' l'; μ] = 0) ∧
      (GaussianNoise μ w →
        HasGaussianLaw (fun ω (k : Fin K) (c : Fin nx × Fin ny × Fin nz) =>
          X k c.1 c.2.1 c.2.2 ω) μ ∧
        iIndepFun (fun (k : Fin K) ω (c : Fin nx × Fin ny × Fin nz) => X k c.1 c.2.1 c.2.2 ω) μ)

/-! ## C05, C06 and independence of the fields of one call -/

theorem getD_map_range {n a : ℕ} (h : a < n) (x : ℕ → ℝ) :
    ((List.range n).map x).getD a 0 = x a := by
  simp [List.getD_eq_getElem?_getD, h]

section
variable {F : Fftw} (hF : F.Laws) {p : Platform} {t : VType} {pw rx ry rz az dp sd : ℝ}
  {v : Variogram} (hv : Variogram.create t pw rx ry rz az dp sd = .ok v)
include hF hv

/-- **C05, C06, one dimension.** The covariance of the field depends only on the index difference
and is the inverse transform of the positive part of the spectrum of the requested covariance. -/
theorem simulate1D_law {nx : ℕ} {dx sx : ℝ} {padx : ℤ} (hx : DirOk p v nx v.rangeX dx padx sx) :
    ∃ tx r, IsTotal v nx v.rangeX dx padx false tx ∧ nx ≤ tx ∧ IsExtents rx ry rz az dp r ∧
      HasFieldCov1 F p v nx dx padx sx (clippedCov1 tx (gridCov1 v r tx dx sx)) := by
  obtain ⟨tx, r, h1, h2, h3, h4⟩ := simulate1D_value hv hx
  refine ⟨tx, r, h1, h2, h3, ?_⟩
  intro Ω _ μ _ σ γ newRg norm01 rg glob glob' s w hrg hs
  have htx : 0 < tx := by have := hx.size; omega
  set c := gridCov1 v r tx dx sx with hc
  refine ⟨fun i ω => ∑ a ∈ range tx, weight1 tx c ((i : ℤ) - a) * w a ω, ?_, ?_, ?_⟩
  · intro ω
    obtain ⟨s', e⟩ := hs ω tx
    obtain ⟨out, h5, h6, h7⟩ := h4 hF newRg norm01 (rg ω) (glob ω) (glob' ω) (s ω) s' _ (hrg ω) e
    refine ⟨out, s', h5, h6, fun i hi => ?_⟩
    rw [h7 i hi]
    congr 1
    refine Finset.sum_congr rfl fun a ha => ?_
    rw [mem_range] at ha
    exact congrArg _ (getD_map_range ha fun a => w a ω)
  · intro hw
    refine ⟨fun i _ => ⟨hw.memLp_lin _ _ _, hw.mean_lin _ _ _⟩, fun i _ i' _ => ?_⟩
    rw [hw.cov_lin_same _ _ _ (fun a => a) (fun a _ b _ h => h), cov1_eq htx]
  · intro hw
    exact hw.joint (range tx) (fun (i : Fin nx) a => weight1 tx c (((i : ℕ) : ℤ) - a)) (fun _ a => a)

/-- **C05, C06, two dimensions**, and the fields made by one call are uncorrelated (independent). -/
theorem simulate2D_law {nx ny : ℕ} {dx dy sx sy : ℝ} {padx pady : ℤ} (hny : 1 < ny)
    (hx : DirOk p v nx (max v.rangeX v.rangeY) dx padx sx)
    (hy : DirOk p v ny (padRangeY v) dy pady sy) :
    ∃ tx ty r, IsTotal v nx (max v.rangeX v.rangeY) dx padx true tx ∧
      IsTotal v ny (padRangeY v) dy pady false ty ∧ nx ≤ tx ∧ ny ≤ ty ∧
      IsExtents rx ry rz az dp r ∧
      HasFieldCov2 F p v nx dx ny dy padx pady sx sy
        (clippedCov2 tx ty (gridCov2 v r tx dx ty dy sx sy)) := by
  obtain ⟨tx, ty, r, h1, h2, h3, h3', h3'', h4⟩ := simulate2D_value hv hny hx hy
  refine ⟨tx, ty, r, h1, h2, h3, h3', h3'', ?_⟩
  intro Ω _ μ _ σ γ newRg norm01 rg glob glob' s w K hrg hs
  have htx : 0 < tx := by have := hx.size; omega
  have hty : 0 < ty := by have := hy.size; omega
  set c := gridCov2 v r tx dx ty dy sx sy with hc
  set S := range tx ×ˢ range ty with hS
  have hlt : ∀ q ∈ S, q.1 * ty + q.2 < tx * ty := by
    rintro ⟨a, b⟩ hq
    simp only [hS, mem_product, mem_range] at hq
    calc a * ty + b < a * ty + ty := by omega
      _ = (a + 1) * ty := by ring
      _ ≤ tx * ty := Nat.mul_le_mul_right _ hq.1
  have hinj : ∀ k, Set.InjOn (fun q : ℕ × ℕ => k * (tx * ty) + (q.1 * ty + q.2)) S := by
    rintro k ⟨a, b⟩ hq ⟨a', b'⟩ hq' e
    simp only [hS, Finset.coe_product, Finset.coe_range, Set.mem_prod, Set.mem_Iio] at hq hq'
    simp only [add_right_inj] at e
    have e1 : b = b' := by
      have := congrArg (· % ty) e
      simpa [Nat.mod_eq_of_lt hq.2, Nat.mod_eq_of_lt hq'.2, Nat.mul_add_mod'] using this
    subst e1
    have := Nat.eq_of_mul_eq_mul_right hty (Nat.add_right_cancel e)
    rw [this]
  have hdisj : ∀ k k', k ≠ k' → ∀ q ∈ S, ∀ q' ∈ S,
      k * (tx * ty) + (q.1 * ty + q.2) ≠ k' * (tx * ty) + (q'.1 * ty + q'.2) := by
    intro k k' hk q hq q' hq' e
    have l1 := hlt q hq
    have l2 := hlt q' hq'
    have hN : 0 < tx * ty := Nat.mul_pos htx hty
    have := congrArg (· / (tx * ty)) e
    simp only [Nat.add_div_of_dvd_right (Dvd.intro_left k rfl),
      Nat.add_div_of_dvd_right (Dvd.intro_left k' rfl), Nat.mul_div_cancel _ hN,
      Nat.div_eq_of_lt l1, Nat.div_eq_of_lt l2, add_zero] at this
    exact hk this
  have hcov : WhiteNoise μ w → ∀ k k' : ℕ, k ≠ k' → ∀ α β : ℕ × ℕ → ℝ,
      cov[fun ω => ∑ q ∈ S, α q * w (k * (tx * ty) + (q.1 * ty + q.2)) ω,
        fun ω => ∑ q ∈ S, β q * w (k' * (tx * ty) + (q.1 * ty + q.2)) ω; μ] = 0 :=
    fun hw k k' hk α β => hw.cov_lin_disjoint S _ _ _ _ (hdisj k k' hk)
  refine ⟨fun k i j ω => ∑ q ∈ S, weight2 tx ty c ((i : ℤ) - q.1) ((j : ℤ) - q.2)
      * w (k * (tx * ty) + (q.1 * ty + q.2)) ω, ?_, ?_, ?_⟩
  · intro ω
    obtain ⟨s', e⟩ := hs ω (K * (tx * ty))
    obtain ⟨gs, h5, h6, h7⟩ := h4 hF newRg norm01 (rg ω) (glob ω) (glob' ω) (s ω) s' K _ [] (hrg ω) e
    refine ⟨gs, s', h5, h6, fun k hk => ?_⟩
    obtain ⟨g, g1, -, -, g2, g3⟩ := h7 k hk
    refine ⟨g, g1, g2, fun i hi j hj => ?_⟩
    rw [g3 i j hi hj]
    congr 1
    unfold field2
    simp only [hS, Finset.sum_product]
    refine Finset.sum_congr rfl fun a ha => Finset.sum_congr rfl fun b hb => ?_
    have l := hlt (a, b) (Finset.mem_product.2 ⟨ha, hb⟩)
    rw [getD_map_range]
    calc k * (tx * ty) + (a * ty + b) < k * (tx * ty) + tx * ty :=
          Nat.add_lt_add_left l _
      _ = (k + 1) * (tx * ty) := by ring
      _ ≤ K * (tx * ty) := Nat.mul_le_mul_right _ hk
  · intro hw
    refine ⟨fun k _ i _ j _ => ⟨hw.memLp_lin _ _ _, hw.mean_lin _ _ _⟩,
      fun k _ i _ j _ i' _ j' _ => ?_, fun k _ k' _ hk i _ j _ i' _ j' _ => hcov hw k k' hk _ _⟩
    rw [hw.cov_lin_same S _ _ _ (hinj k), hS, Finset.sum_product, cov2_eq htx hty]
  · intro hw
    have hg := hw.joint₂ (κ := Fin K) (κ' := Fin nx × Fin ny) S
      (fun _ x q => weight2 tx ty c (((x.1 : ℕ) : ℤ) - q.1) (((x.2 : ℕ) : ℤ) - q.2))
      (fun k _ q => k * (tx * ty) + (q.1 * ty + q.2))
    refine ⟨hg, hg.iIndepFun_of_covariance_eval fun k k' hk x y => ?_⟩
    exact hcov hw.white k k' (fun h => hk (Fin.ext h)) _ _

/-- **C05, C06, three dimensions.** -/
theorem simulate3D_law {nx ny nz : ℕ} {dx dy dz sx sy sz : ℝ} {padx pady padz : ℤ} (hny : 1 < ny)
    (hnz : 1 < nz) (hx : DirOk p v nx (max v.rangeX v.rangeY) dx padx sx)
    (hy : DirOk p v ny (padRangeY v) dy pady sy) (hz : DirOk p v nz v.rangeZ dz padz sz) :
    ∃ tx ty tz r, IsTotal v nx (max v.rangeX v.rangeY) dx padx true tx ∧
      IsTotal v ny (padRangeY v) dy pady false ty ∧ IsTotal v nz v.rangeZ dz padz false tz ∧
      nx ≤ tx ∧ ny ≤ ty ∧ nz ≤ tz ∧ IsExtents rx ry rz az dp r ∧
      HasFieldCov3 F p v nx dx ny dy nz dz padx pady padz sx sy sz
        (clippedCov3 tx ty tz (gridCov3 v r tx dx ty dy tz dz sx sy sz)) := by
  obtain ⟨tx, ty, tz, r, h1, h2, h2', h3, h3', h3'', h3''', h4⟩ := simulate3D_value hv hny hnz hx hy hz
  refine ⟨tx, ty, tz, r, h1, h2, h2', h3, h3', h3'', h3''', ?_⟩
  intro Ω _ μ _ γ norm01 s w K hs
  have htx : 0 < tx := by have := hx.size; omega
  have hty : 0 < ty := by have := hy.size; omega
  have htz : 0 < tz := by have := hz.size; omega
  set c := gridCov3 v r tx dx ty dy tz dz sx sy sz with hc
  set S := range tx ×ˢ range ty ×ˢ range tz with hS
  have hlt : ∀ q ∈ S, (q.1 * ty + q.2.1) * tz + q.2.2 < tx * ty * tz := by
    rintro ⟨a, b, d⟩ hq
    simp only [hS, mem_product, mem_range] at hq
    have : a * ty + b + 1 ≤ tx * ty :=
      calc a * ty + b + 1 ≤ a * ty + ty := by omega
      _ = (a + 1) * ty := by ring
      _ ≤ tx * ty := Nat.mul_le_mul_right _ hq.1
    calc (a * ty + b) * tz + d < (a * ty + b) * tz + tz := by omega
      _ = (a * ty + b + 1) * tz := by ring
      _ ≤ tx * ty * tz := Nat.mul_le_mul_right _ this
  have hinj : ∀ k, Set.InjOn
      (fun q : ℕ × ℕ × ℕ => k * (tx * ty * tz) + ((q.1 * ty + q.2.1) * tz + q.2.2)) S := by
    rintro k ⟨a, b, d⟩ hq ⟨a', b', d'⟩ hq' e
    simp only [hS, Finset.coe_product, Finset.coe_range, Set.mem_prod, Set.mem_Iio] at hq hq'
    simp only [add_right_inj] at e
    have e1 : d = d' := by
      have := congrArg (· % tz) e
      simpa [Nat.mod_eq_of_lt hq.2.2, Nat.mod_eq_of_lt hq'.2.2, Nat.mul_add_mod'] using this
    subst e1
    have e := Nat.eq_of_mul_eq_mul_right htz (Nat.add_right_cancel e)
    have e1 : b = b' := by
      have := congrArg (· % ty) e
      simpa [Nat.mod_eq_of_lt hq.2.1, Nat.mod_eq_of_lt hq'.2.1, Nat.mul_add_mod'] using this
    subst e1
    have := Nat.eq_of_mul_eq_mul_right hty (Nat.add_right_cancel e)
    rw [this]
  have hdisj : ∀ k k', k ≠ k' → ∀ q ∈ S, ∀ q' ∈ S,
      k * (tx * ty * tz) + ((q.1 * ty + q.2.1) * tz + q.2.2)
        ≠ k' * (tx * ty * tz) + ((q'.1 * ty + q'.2.1) * tz + q'.2.2) := by
    intro k k' hk q hq q' hq' e
    have l1 := hlt q hq
    have l2 := hlt q' hq'
    have hN : 0 < tx * ty * tz := Nat.mul_pos (Nat.mul_pos htx hty) htz
    have := congrArg (· / (tx * ty * tz)) e
    simp only [Nat.add_div_of_dvd_right (Dvd.intro_left k rfl),
      Nat.add_div_of_dvd_right (Dvd.intro_left k' rfl), Nat.mul_div_cancel _ hN,
      Nat.div_eq_of_lt l1, Nat.div_eq_of_lt l2, add_zero] at this
    exact hk this
  have hcov : WhiteNoise μ w → ∀ k k' : ℕ, k ≠ k' → ∀ α β : ℕ × ℕ × ℕ → ℝ,
      cov[fun ω => ∑ q ∈ S, α q * w (k * (tx * ty * tz) + ((q.1 * ty + q.2.1) * tz + q.2.2)) ω,
        fun ω => ∑ q ∈ S, β q * w (k' * (tx * ty * tz) + ((q.1 * ty + q.2.1) * tz + q.2.2)) ω; μ]
        = 0 :=
    fun hw k k' hk α β => hw.cov_lin_disjoint S _ _ _ _ (hdisj k k' hk)
  refine ⟨fun k i j l ω => ∑ q ∈ S,
      weight3 tx ty tz c ((i : ℤ) - q.1) ((j : ℤ) - q.2.1) ((l : ℤ) - q.2.2)
      * w (k * (tx * ty * tz) + ((q.1 * ty + q.2.1) * tz + q.2.2)) ω, ?_, ?_, ?_⟩
  · intro ω
    obtain ⟨s', e⟩ := hs ω (K * (tx * ty * tz))
    obtain ⟨gs, h5, h6, h7⟩ := h4 hF norm01 (s ω) s' K _ [] e
    refine ⟨gs, s', h5, h6, fun k hk => ?_⟩
    obtain ⟨g, g1, -, -, -, g2, g3⟩ := h7 k hk
    refine ⟨g, g1, g2, fun i hi j hj l hl => ?_⟩
    rw [g3 i j l hi hj hl]
    congr 1
    unfold field3
    simp only [hS, Finset.sum_product]
    refine Finset.sum_congr rfl fun a ha => Finset.sum_congr rfl fun b hb => Finset.sum_congr rfl fun d hd => ?_
    have l := hlt (a, b, d) (Finset.mem_product.2 ⟨ha, Finset.mem_product.2 ⟨hb, hd⟩⟩)
    rw [getD_map_range]
    calc k * (tx * ty * tz) + ((a * ty + b) * tz + d) < k * (tx * ty * tz) + tx * ty * tz :=
          Nat.add_lt_add_left l _
      _ = (k + 1) * (tx * ty * tz) := by ring
      _ ≤ K * (tx * ty * tz) := Nat.mul_le_mul_right _ hk
  · intro hw
    refine ⟨fun k _ i _ j _ l _ => ⟨hw.memLp_lin _ _ _, hw.mean_lin _ _ _⟩,
      fun k _ i _ j _ l _ i' _ j' _ l' _ => ?_,
      fun k _ k' _ hk i _ j _ l _ i' _ j' _ l' _ => hcov hw k k' hk _ _⟩
    rw [hw.cov_lin_same S _ _ _ (hinj k), hS, Finset.sum_product]
    simp only [Finset.sum_product]
    rw [cov3_eq htx hty htz]
  · intro hw
    have hg := hw.joint₂ (κ := Fin K) (κ' := Fin nx × Fin ny × Fin nz) S
      (fun _ x q => weight3 tx ty tz c (((x.1 : ℕ) : ℤ) - q.1) (((x.2.1 : ℕ) : ℤ) - q.2.1)
        (((x.2.2 : ℕ) : ℤ) - q.2.2))
      (fun k _ q => k * (tx * ty * tz) + ((q.1 * ty + q.2.1) * tz + q.2.2))
    refine ⟨hg, hg.iIndepFun_of_covariance_eval fun k k' hk x y => ?_⟩
    exact hcov hw.white k k' (fun h => hk (Fin.ext h)) _ _

end


/-! ## C05: the variance is never lowered -/

/-- **C05.** The covariance at lag 0 of the clipped spectrum is at least the requested one, with
equality exactly if no frequency is clipped. -/
theorem clippedCov1_variance {n : ℕ} (hn : 0 < n) (c : ℕ → ℝ) : c 0 ≤ clippedCov1 n c 0 ∧
    (clippedCov1 n c 0 = c 0 ↔ ∀ k < n, 0 ≤ spectrum1 n c k) := clipped1_ge hn c

theorem clippedCov2_variance {n m : ℕ} (hn : 0 < n) (hm : 0 < m) (c : ℕ → ℕ → ℝ) :
    c 0 0 ≤ clippedCov2 n m c 0 0 ∧
    (clippedCov2 n m c 0 0 = c 0 0 ↔ ∀ k l, k < n → l < m → 0 ≤ spectrum2 n m c k l) :=
  clipped2_ge hn hm c

theorem clippedCov3_variance {n m q : ℕ} (hn : 0 < n) (hm : 0 < m) (hq : 0 < q)
    (c : ℕ → ℕ → ℕ → ℝ) : c 0 0 0 ≤ clippedCov3 n m q c 0 0 0 ∧
    (clippedCov3 n m q c 0 0 0 = c 0 0 0 ↔
      ∀ k l o, k < n → l < m → o < q → 0 ≤ spectrum3 n m q c k l o) := clipped3_ge hn hm hq c

theorem kernel_zero (s r : ℝ) : kernel s r 0 = 1 := by unfold kernel; split <;> simp

theorem lag_zero {n : ℕ} (hn : 0 < n) : lag n 0 = 0 := by unfold lag; rw [if_pos (by omega)]; rfl

/-- **C05.** The requested covariance at lag 0 is the variance of the variogram (1 for variograms
made through the programming interface); smoothing does not change it. -/
theorem gridCov_zero {t : VType} {pw rx ry rz az dp sd : ℝ} {v : Variogram}
    (hv : Variogram.create t pw rx ry rz az dp sd = .ok v)
    (hp : t = .generalExponential → 0 < pw) {tx ty tz : ℕ} (hx : 0 < tx) (hy : 0 < ty) (hz : 0 < tz)
    (r : ℝ × ℝ × ℝ) (dx dy dz sx sy sz : ℝ) :
    gridCov1 v r tx dx sx 0 = v.var ∧ gridCov2 v r tx dx ty dy sx sy 0 0 = v.var ∧
      gridCov3 v r tx dx ty dy tz dz sx sy sz 0 0 0 = v.var := by
  obtain ⟨h3, h2, h1⟩ := corr_zero hv hp
  refine ⟨?_, ?_, ?_⟩
  · simp [gridCov1, lag_zero hx, kernel_zero, cov1, h1]
  · simp [gridCov2, lag_zero hx, lag_zero hy, kernel_zero, cov2, h2]
  · simp [gridCov3, lag_zero hx, lag_zero hy, lag_zero hz, kernel_zero, cov3, h3]

/-! ## C04: the covariance is the requested one if no frequency is clipped -/

/-- The difference `d` measured around a cycle of `n` cells: the representative closest to zero
(`-n/2` half-way around an even cycle). -/
def wrapLag (n : ℕ) (d : ℤ) : ℤ := lag n (d % n).toNat

theorem wrapLag_spec {n : ℕ} (hn : 0 < n) (d : ℤ) :
    (n : ℤ) ∣ wrapLag n d - d ∧ -(n : ℤ) ≤ 2 * wrapLag n d ∧ 2 * wrapLag n d < n := by
  have h := lag_spec (red_lt hn d)
  refine ⟨?_, h.2⟩
  have h2 := red_cast hn d
  have := dvd_sub h.1 h2
  rwa [show lag n (red n d) - red n d - (d - red n d) = wrapLag n d - d by
    unfold wrapLag red; ring] at this

/-- Cells less than half a cycle apart: no wrapping. -/
theorem wrapLag_of_lt {n : ℕ} (hn : 0 < n) {d : ℤ} (h1 : -(n : ℤ) ≤ 2 * d) (h2 : 2 * d < n) :
    wrapLag n d = d := by
  obtain ⟨⟨q, hq⟩, h3, h4⟩ := wrapLag_spec hn d
  have h5 : n * q < n * (1 : ℤ) := by omega
  have h6 : n * (-1 : ℤ) < n * q := by omega
  have hn' : (0 : ℤ) < n := by omega
  have h7 := lt_of_mul_lt_mul_left h5 hn'.le
  have h8 := lt_of_mul_lt_mul_left h6 hn'.le
  have : q = 0 := by omega
  subst this
  omega

theorem wrapLag_neg {n : ℕ} (hn : 0 < n) (d : ℤ) :
    wrapLag n (-d) = -wrapLag n d ∨
      (wrapLag n (-d) = wrapLag n d ∧ 2 * wrapLag n d = -(n : ℤ)) := by
  obtain ⟨⟨a, ha⟩, h1, h2⟩ := wrapLag_spec hn d
  obtain ⟨⟨b, hb⟩, h3, h4⟩ := wrapLag_spec hn (-d)
  have hs : wrapLag n (-d) + wrapLag n d = n * (a + b) := by rw [mul_add]; omega
  have hn' : (0 : ℤ) < n := by omega
  have h5 : n * (a + b) < n * (1 : ℤ) := by omega
  have h6 : n * (-2 : ℤ) < n * (a + b) := by omega
  have h7 := lt_of_mul_lt_mul_left h5 hn'.le
  have h8 := lt_of_mul_lt_mul_left h6 hn'.le
  rcases (by omega : a + b = 0 ∨ a + b = -1) with e | e
  · left; rw [e] at hs; omega
  · right; rw [e] at hs; omega

section
variable (v : Variogram) (r : ℝ × ℝ × ℝ)

/-- The requested covariance for the wrapped lag, with smoothing. -/
noncomputable def wrapCov1 (tx : ℕ) (dx sx : ℝ) (d : ℤ) : ℝ :=
  v.cov1 (wrapLag tx d * dx) * kernel sx r.1 (wrapLag tx d * dx)

noncomputable def wrapCov2 (tx : ℕ) (dx : ℝ) (ty : ℕ) (dy sx sy : ℝ) (d e : ℤ) : ℝ :=
  v.cov2 (wrapLag tx d * dx) (wrapLag ty e * dy) * kernel sx r.1 (wrapLag tx d * dx)
    * kernel sy r.2.1 (wrapLag ty e * dy)

noncomputable def wrapCov3 (tx : ℕ) (dx : ℝ) (ty : ℕ) (dy : ℝ) (tz : ℕ) (dz sx sy sz : ℝ)
    (d e f : ℤ) : ℝ :=
  v.cov3 (wrapLag tx d * dx) (wrapLag ty e * dy) (wrapLag tz f * dz)
    * kernel sx r.1 (wrapLag tx d * dx) * kernel sy r.2.1 (wrapLag ty e * dy)
    * kernel sz r.2.2 (wrapLag tz f * dz)

variable {v r}

theorem wrapCov1_neg {tx : ℕ} (hx : 0 < tx) (dx sx : ℝ) (d : ℤ) :
    wrapCov1 v r tx dx sx (-d) = wrapCov1 v r tx dx sx d := by
  unfold wrapCov1
  rcases wrapLag_neg hx d with e | ⟨e, -⟩ <;> rw [e]
  push_cast
  rw [neg_mul, cov1_neg, kernel_neg]

/-- Two lags half-way around in no direction: the covariance is point symmetric. -/
theorem wrapCov2_neg {tx ty : ℕ} (hx : 0 < tx) (hy : 0 < ty) (dx dy sx sy : ℝ) (d e : ℤ)
    (hd : 2 * wrapLag tx d ≠ -(tx : ℤ)) (he : 2 * wrapLag ty e ≠ -(ty : ℤ)) :
    wrapCov2 v r tx dx ty dy sx sy (-d) (-e) = wrapCov2 v r tx dx ty dy sx sy d e := by
  unfold wrapCov2
  rw [(wrapLag_neg hx d).resolve_right fun h => hd h.2,
    (wrapLag_neg hy e).resolve_right fun h => he h.2]
  push_cast
  rw [neg_mul, neg_mul, cov2_neg, kernel_neg, kernel_neg]

theorem wrapCov3_neg {tx ty tz : ℕ} (hx : 0 < tx) (hy : 0 < ty) (hz : 0 < tz)
    (dx dy dz sx sy sz : ℝ) (d e f : ℤ)
    (hd : 2 * wrapLag tx d ≠ -(tx : ℤ)) (he : 2 * wrapLag ty e ≠ -(ty : ℤ))
    (hf : 2 * wrapLag tz f ≠ -(tz : ℤ)) :
    wrapCov3 v r tx dx ty dy tz dz sx sy sz (-d) (-e) (-f)
      = wrapCov3 v r tx dx ty dy tz dz sx sy sz d e f := by
  unfold wrapCov3
  rw [(wrapLag_neg hx d).resolve_right fun h => hd h.2,
    (wrapLag_neg hy e).resolve_right fun h => he h.2,
    (wrapLag_neg hz f).resolve_right fun h => hf h.2]
  push_cast
  rw [neg_mul, neg_mul, neg_mul, cov3_neg, kernel_neg, kernel_neg, kernel_neg]

/-- The same everywhere without azimuth and dip. -/
theorem wrapCov_neg_unrotated {t : VType} {pw rx ry rz sd : ℝ}
    (hv : Variogram.create t pw rx ry rz 0 0 sd = .ok v) {tx ty tz : ℕ} (hx : 0 < tx) (hy : 0 < ty)
    (hz : 0 < tz) (dx dy dz sx sy sz : ℝ) (d e f : ℤ) :
    wrapCov2 v r tx dx ty dy sx sy (-d) (-e) = wrapCov2 v r tx dx ty dy sx sy d e ∧
    wrapCov3 v r tx dx ty dy tz dz sx sy sz (-d) (-e) (-f)
      = wrapCov3 v r tx dx ty dy tz dz sx sy sz d e f := by
  have kk : ∀ {s r x x' : ℝ}, (x' = x ∨ x' = -x) → kernel s r x' = kernel s r x := by
    rintro s r x x' (rfl | rfl)
    · rfl
    · exact kernel_neg _ _ _
  have ll : ∀ {n : ℕ} (hn : 0 < n) (d : ℤ) (h : ℝ), (wrapLag n (-d) : ℝ) * h = wrapLag n d * h ∨
      (wrapLag n (-d) : ℝ) * h = -(wrapLag n d * h) := by
    intro n hn d h
    rcases wrapLag_neg hn d with e | ⟨e, -⟩
    · right; rw [e]; push_cast; ring
    · left; rw [e]
  have h1 := ll hx d dx
  have h2 := ll hy e dy
  have h3 := ll hz f dz
  obtain ⟨e3, e2⟩ := cov_unrotated hv _ _ _ _ _ _ h1 h2 h3
  constructor
  · unfold wrapCov2; rw [e2, kk h1, kk h2]
  · unfold wrapCov3; rw [e3, kk h1, kk h2, kk h3]

end

section
variable {F : Fftw} (hF : F.Laws) {p : Platform} {t : VType} {pw rx ry rz az dp sd : ℝ}
  {v : Variogram} (hv : Variogram.create t pw rx ry rz az dp sd = .ok v)
include hF hv

/-- **C04, one dimension.** If no frequency is clipped, the covariance of two cells is the requested
covariance at their lag around the padded grid. -/
theorem simulate1D_covariance {nx : ℕ} {dx sx : ℝ} {padx : ℤ}
    (hx : DirOk p v nx v.rangeX dx padx sx) :
    ∃ tx r, IsTotal v nx v.rangeX dx padx false tx ∧ nx ≤ tx ∧ IsExtents rx ry rz az dp r ∧
      ((∀ k < tx, 0 ≤ spectrum1 tx (gridCov1 v r tx dx sx) k) →
        HasFieldCov1 F p v nx dx padx sx (wrapCov1 v r tx dx sx)) := by
  obtain ⟨tx, r, h1, h2, h3, h4⟩ := simulate1D_law hF hv hx
  refine ⟨tx, r, h1, h2, h3, fun h => ?_⟩
  have htx : 0 < tx := by have := hx.size; omega
  have : wrapCov1 v r tx dx sx = clippedCov1 tx (gridCov1 v r tx dx sx) := by
    funext d
    rw [clipped1_of_nonneg htx _ h]
    have e : ∀ d, gridCov1 v r tx dx sx (red tx d) = wrapCov1 v r tx dx sx d := fun d => rfl
    rw [e, e, wrapCov1_neg htx]
    ring
  rw [this]
  exact h4

/-- **C04, two dimensions.** If no frequency is clipped, the covariance of two cells is the
requested covariance at their lag around the padded grid, averaged over both directions around.
The two terms are equal unless the cells are half the padded grid apart in one direction
(`wrapCov2_neg`), or azimuth and dip are zero (`wrapCov_neg_unrotated`). -/
theorem simulate2D_covariance {nx ny : ℕ} {dx dy sx sy : ℝ} {padx pady : ℤ} (hny : 1 < ny)
    (hx : DirOk p v nx (max v.rangeX v.rangeY) dx padx sx)
    (hy : DirOk p v ny (padRangeY v) dy pady sy) :
    ∃ tx ty r, IsTotal v nx (max v.rangeX v.rangeY) dx padx true tx ∧
      IsTotal v ny (padRangeY v) dy pady false ty ∧ nx ≤ tx ∧ ny ≤ ty ∧
      IsExtents rx ry rz az dp r ∧
      ((∀ k l, k < tx → l < ty → 0 ≤ spectrum2 tx ty (gridCov2 v r tx dx ty dy sx sy) k l) →
        HasFieldCov2 F p v nx dx ny dy padx pady sx sy fun d e =>
          (wrapCov2 v r tx dx ty dy sx sy d e + wrapCov2 v r tx dx ty dy sx sy (-d) (-e)) / 2) := by
  obtain ⟨tx, ty, r, h1, h2, h3, h3', h3'', h4⟩ := simulate2D_law hF hv hny hx hy
  refine ⟨tx, ty, r, h1, h2, h3, h3', h3'', fun h => ?_⟩
  have htx : 0 < tx := by have := hx.size; omega
  have hty : 0 < ty := by have := hy.size; omega
  have : (fun d e => (wrapCov2 v r tx dx ty dy sx sy d e
      + wrapCov2 v r tx dx ty dy sx sy (-d) (-e)) / 2)
      = clippedCov2 tx ty (gridCov2 v r tx dx ty dy sx sy) := by
    funext d e
    rw [clipped2_of_nonneg htx hty _ h]
    rfl
  rw [this]
  exact h4

/-- **C04, three dimensions.** -/
theorem simulate3D_covariance {nx ny nz : ℕ} {dx dy dz sx sy sz : ℝ} {padx pady padz : ℤ}
    (hny : 1 < ny) (hnz : 1 < nz) (hx : DirOk p v nx (max v.rangeX v.rangeY) dx padx sx)
    (hy : DirOk p v ny (padRangeY v) dy pady sy) (hz : DirOk p v nz v.rangeZ dz padz sz) :
    ∃ tx ty tz r, IsTotal v nx (max v.rangeX v.rangeY) dx padx true tx ∧
      IsTotal v ny (padRangeY v) dy pady false ty ∧ IsTotal v nz v.rangeZ dz padz false tz ∧
      nx ≤ tx ∧ ny ≤ ty ∧ nz ≤ tz ∧ IsExtents rx ry rz az dp r ∧
      ((∀ k l o, k < tx → l < ty → o < tz →
          0 ≤ spectrum3 tx ty tz (gridCov3 v r tx dx ty dy tz dz sx sy sz) k l o) →
        HasFieldCov3 F p v nx dx ny dy nz dz padx pady padz sx sy sz fun d e f =>
          (wrapCov3 v r tx dx ty dy tz dz sx sy sz d e f
            + wrapCov3 v r tx dx ty dy tz dz sx sy sz (-d) (-e) (-f)) / 2) := by
  obtain ⟨tx, ty, tz, r, h1, h2, h2', h3, h3', h3'', h5, h4⟩ :=
    simulate3D_law hF hv hny hnz hx hy hz
  refine ⟨tx, ty, tz, r, h1, h2, h2', h3, h3', h3'', h5, fun h => ?_⟩
  have htx : 0 < tx := by have := hx.size; omega
  have hty : 0 < ty := by have := hy.size; omega
  have htz : 0 < tz := by have := hz.size; omega
  have : (fun d e f => (wrapCov3 v r tx dx ty dy tz dz sx sy sz d e f
      + wrapCov3 v r tx dx ty dy tz dz sx sy sz (-d) (-e) (-f)) / 2)
      = clippedCov3 tx ty tz (gridCov3 v r tx dx ty dy tz dz sx sy sz) := by
    funext d e f
    rw [clipped3_of_nonneg htx hty htz _ h]
    rfl
  rw [this]
  exact h4

end

end Verif
