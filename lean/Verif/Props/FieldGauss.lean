import Verif.Props.FieldCov
import Verif.Props.FieldExample
import Verif.Props.NormalLaw
import Verif.Lemmas.NearGauss
import Verif.Lemmas.FieldIdx

/-!
# C64: the law of the simulated fields

The fields are made with the normal sampler from independent uniform numbers. They are nearly Gaussian,
with the covariance found in C05 and C06.
-/

namespace Verif

open Finset Spec Variogram MeasureTheory ProbabilityTheory Filter

/-! ## Specification -/

/-- "The one-dimensional simulation returns a nearly Gaussian field with covariance `C`, made of `N`
normal numbers": for every generator with independent uniform numbers the call returns normally, with
probability one. -/
def HasFieldLaw1 (F : Fftw) (p : Platform) (v : Variogram) (nx : ℕ) (dx : ℝ) (padx : ℤ) (sx : ℝ) (N : ℕ)
    (C : ℤ → ℝ) : Prop :=
  ∀ (Ω : Type) [MeasurableSpace Ω] (μ : Measure Ω) [IsProbabilityMeasure μ] (σ γ : Type)
    (newRg : γ → Res (σ × γ)) (unif : σ → Res (ℝ × σ)) (rg : Ω → Option σ) (glob glob' : Ω → γ)
    (s : Ω → σ) (U : ℕ → Ω → ℝ),
    (∀ᵐ ω ∂μ, UsesGenerator newRg (rg ω) (glob ω) (s ω) (glob' ω)) →
    UniformNoise μ U → (∀ᵐ ω ∂μ, Streams unif (s ω) fun a => U a ω) →
    ∃ X : Fin nx → Ω → ℝ,
      (∀ᵐ ω ∂μ, ∃ out s', simulate1D F p newRg (RandomGenerator.norm01With unif) v nx dx nx (rg ω) padx sx
          (glob ω) = .ok (out, s', glob' ω) ∧ out.length = nx ∧ ∀ i : Fin nx, out[(i : ℕ)]? = some (X i ω)) ∧
      NearGaussian μ X N fun i i' => C ((i : ℤ) - i')

/-- The same for `K` two-dimensional fields made by one call; different fields are independent but for
the factors. -/
def HasFieldLaw2 (F : Fftw) (p : Platform) (v : Variogram) (nx : ℕ) (dx : ℝ) (ny : ℕ) (dy : ℝ)
    (padx pady : ℤ) (sx sy : ℝ) (N : ℕ) (C : ℤ → ℤ → ℝ) : Prop :=
  ∀ (Ω : Type) [MeasurableSpace Ω] (μ : Measure Ω) [IsProbabilityMeasure μ] (σ γ : Type)
    (newRg : γ → Res (σ × γ)) (unif : σ → Res (ℝ × σ)) (rg : Ω → Option σ) (glob glob' : Ω → γ)
    (s : Ω → σ) (U : ℕ → Ω → ℝ) (K : ℕ),
    (∀ᵐ ω ∂μ, UsesGenerator newRg (rg ω) (glob ω) (s ω) (glob' ω)) →
    UniformNoise μ U → (∀ᵐ ω ∂μ, Streams unif (s ω) fun a => U a ω) →
    ∃ X : Fin K × Fin nx × Fin ny → Ω → ℝ,
      (∀ᵐ ω ∂μ, ∃ gs s', simulate2D F p newRg (RandomGenerator.norm01With unif) v nx dx ny dy K [] (rg ω)
          padx pady sx sy (glob ω) = .ok (gs, s', glob' ω) ∧ gs.length = K ∧
          ∀ k : Fin K, ∃ g, gs[(k : ℕ)]? = some g ∧ g.data.length = nx * ny ∧
            ∀ (i : Fin nx) (j : Fin ny), g.data[(i : ℕ) + nx * j]? = some (X (k, i, j) ω)) ∧
      NearGaussian μ X (K * N) fun c c' =>
        if c.1 = c'.1 then C ((c.2.1 : ℤ) - c'.2.1) ((c.2.2 : ℤ) - c'.2.2) else 0

/-- The same for three-dimensional fields, which take their draws from the global generator. -/
def HasFieldLaw3 (F : Fftw) (p : Platform) (v : Variogram) (nx : ℕ) (dx : ℝ) (ny : ℕ) (dy : ℝ)
    (nz : ℕ) (dz : ℝ) (padx pady padz : ℤ) (sx sy sz : ℝ) (N : ℕ) (C : ℤ → ℤ → ℤ → ℝ) : Prop :=
  ∀ (Ω : Type) [MeasurableSpace Ω] (μ : Measure Ω) [IsProbabilityMeasure μ] (γ : Type)
    (unif : γ → Res (ℝ × γ)) (s : Ω → γ) (U : ℕ → Ω → ℝ) (K : ℕ),
    UniformNoise μ U → (∀ᵐ ω ∂μ, Streams unif (s ω) fun a => U a ω) →
    ∃ X : Fin K × Fin nx × Fin ny × Fin nz → Ω → ℝ,
      (∀ᵐ ω ∂μ, ∃ gs s', simulate3D F p (Random.norm01With unif) v nx dx ny dy nz dz K [] padx pady padz
          sx sy sz (s ω) = .ok (gs, s') ∧ gs.length = K ∧
          ∀ k : Fin K, ∃ g, gs[(k : ℕ)]? = some g ∧ g.data.length = nx * ny * nz ∧
            ∀ (i : Fin nx) (j : Fin ny) (l : Fin nz),
              g.data[(i : ℕ) + nx * (j + ny * l)]? = some (X (k, i, j, l) ω)) ∧
      NearGaussian μ X (K * N) fun c c' =>
        if c.1 = c'.1 then C ((c.2.1 : ℤ) - c'.2.1) ((c.2.2.1 : ℤ) - c'.2.2.1) ((c.2.2.2 : ℤ) - c'.2.2.2)
        else 0

/-! ## C64 -/

section
variable {F : Fftw} (hF : F.Laws) {p : Platform} {t : VType} {pw rx ry rz az dp sd : ℝ}
  {v : Variogram} (hv : Variogram.create t pw rx ry rz az dp sd = .ok v)
include hF hv

theorem simulate1D_gauss {nx : ℕ} {dx sx : ℝ} {padx : ℤ} (hx : DirOk p v nx v.rangeX dx padx sx) :
    ∃ tx r, IsTotal v nx v.rangeX dx padx false tx ∧ nx ≤ tx ∧ IsExtents rx ry rz az dp r ∧
      HasFieldLaw1 F p v nx dx padx sx tx (clippedCov1 tx (gridCov1 v r tx dx sx)) := by
  obtain ⟨tx, r, h1, h2, h3, h4⟩ := simulate1D_value hv hx
  refine ⟨tx, r, h1, h2, h3, ?_⟩
  intro Ω _ μ _ σ γ newRg unif rg glob glob' s U hrg hU hs
  have htx : 0 < tx := by have := hx.size; omega
  set c := gridCov1 v r tx dx sx with hc
  obtain ⟨ν, hν, hlaw⟩ := normal_law
  obtain ⟨Z, hZ, -, hst⟩ := hlaw Ω μ σ unif s U hU hs
  refine ⟨fun i ω => ∑ a ∈ range tx, weight1 tx c (((i : ℕ) : ℤ) - a) * Z a ω, ?_, ?_⟩
  · filter_upwards [hrg, hst] with ω hr hw
    obtain ⟨s', e⟩ := hw tx
    obtain ⟨out, h5, h6, h7⟩ := h4 hF newRg _ (rg ω) (glob ω) (glob' ω) (s ω) s' _ hr e
    refine ⟨out, s', h5, h6, fun i => ?_⟩
    rw [h7 i i.2]
    congr 1
    refine Finset.sum_congr rfl fun a ha => ?_
    rw [mem_range] at ha
    exact congrArg _ (getD_map_range ha fun a => Z a ω)
  · refine NormalLaw.nearGaussian_lin hν hZ (range tx) (fun (i : Fin nx) a => weight1 tx c (((i : ℕ) : ℤ) - a))
      (fun _ a => a) (fun _ a ha => mem_range.1 ha) ?_
    intro Ω' _ μ' _ w hw i i'
    rw [hw.cov_lin_same _ _ _ (fun a => a) (fun a _ b _ h => h), cov1_eq htx]

theorem simulate2D_gauss {nx ny : ℕ} {dx dy sx sy : ℝ} {padx pady : ℤ} (hny : 1 < ny)
    (hx : DirOk p v nx (max v.rangeX v.rangeY) dx padx sx)
    (hy : DirOk p v ny (padRangeY v) dy pady sy) :
    ∃ tx ty r, IsTotal v nx (max v.rangeX v.rangeY) dx padx true tx ∧
      IsTotal v ny (padRangeY v) dy pady false ty ∧ nx ≤ tx ∧ ny ≤ ty ∧
      IsExtents rx ry rz az dp r ∧
      HasFieldLaw2 F p v nx dx ny dy padx pady sx sy (tx * ty)
        (clippedCov2 tx ty (gridCov2 v r tx dx ty dy sx sy)) := by
  obtain ⟨tx, ty, r, h1, h2, h3, h3', h3'', h4⟩ := simulate2D_value hv hny hx hy
  refine ⟨tx, ty, r, h1, h2, h3, h3', h3'', ?_⟩
  intro Ω _ μ _ σ γ newRg unif rg glob glob' s U K hrg hU hs
  have htx : 0 < tx := by have := hx.size; omega
  have hty : 0 < ty := by have := hy.size; omega
  set c := gridCov2 v r tx dx ty dy sx sy with hc
  set S := range tx ×ˢ range ty with hS
  obtain ⟨ν, hν, hlaw⟩ := normal_law
  obtain ⟨Z, hZ, -, hst⟩ := hlaw Ω μ σ unif s U hU hs
  have hlt : ∀ q ∈ S, q.1 * ty + q.2 < tx * ty := by
    intro q hq
    simp only [hS, mem_product, mem_range] at hq
    exact rowIdx_lt hq.1 hq.2
  refine ⟨fun d ω => ∑ q ∈ S, weight2 tx ty c (((d.2.1 : ℕ) : ℤ) - q.1) (((d.2.2 : ℕ) : ℤ) - q.2)
      * Z (d.1 * (tx * ty) + (q.1 * ty + q.2)) ω, ?_, ?_⟩
  · filter_upwards [hrg, hst] with ω hr hw
    obtain ⟨s', e⟩ := hw (K * (tx * ty))
    obtain ⟨gs, h5, h6, h7⟩ := h4 hF newRg _ (rg ω) (glob ω) (glob' ω) (s ω) s' K _ [] hr e
    refine ⟨gs, s', h5, h6, fun k => ?_⟩
    obtain ⟨g, g1, -, -, g2, g3⟩ := h7 k k.2
    refine ⟨g, g1, g2, fun i j => ?_⟩
    rw [g3 i j i.2 j.2]
    congr 1
    unfold field2
    simp only [hS, Finset.sum_product]
    refine Finset.sum_congr rfl fun a ha => Finset.sum_congr rfl fun b hb => ?_
    rw [getD_map_range (blockIdx_lt k.2 (hlt (a, b) (Finset.mem_product.2 ⟨ha, hb⟩)))]
  · refine NormalLaw.nearGaussian_lin hν hZ S
      (fun (d : Fin K × Fin nx × Fin ny) q =>
        weight2 tx ty c (((d.2.1 : ℕ) : ℤ) - q.1) (((d.2.2 : ℕ) : ℤ) - q.2))
      (fun d q => d.1 * (tx * ty) + (q.1 * ty + q.2)) (fun d q hq => blockIdx_lt d.1.2 (hlt q hq)) ?_
    intro Ω' _ μ' _ w hw d d'
    by_cases hd : d.1 = d'.1
    · rw [if_pos hd, hd, hw.cov_lin_same S, hS, Finset.sum_product, cov2_eq htx hty]
      rintro ⟨a, b⟩ hq ⟨a', b'⟩ hq' e
      simp only [hS, Finset.coe_product, Finset.coe_range, Set.mem_prod, Set.mem_Iio] at hq hq'
      obtain ⟨e1, e2⟩ := rowIdx_inj hq.2 hq'.2 (Nat.add_left_cancel e)
      exact Prod.ext e1 e2
    · rw [if_neg hd, hw.cov_lin_disjoint S]
      intro q hq q' hq' e
      exact hd (Fin.ext (rowIdx_inj (hlt q hq) (hlt q' hq') e).1)

theorem simulate3D_gauss {nx ny nz : ℕ} {dx dy dz sx sy sz : ℝ} {padx pady padz : ℤ} (hny : 1 < ny)
    (hnz : 1 < nz) (hx : DirOk p v nx (max v.rangeX v.rangeY) dx padx sx)
    (hy : DirOk p v ny (padRangeY v) dy pady sy) (hz : DirOk p v nz v.rangeZ dz padz sz) :
    ∃ tx ty tz r, IsTotal v nx (max v.rangeX v.rangeY) dx padx true tx ∧
      IsTotal v ny (padRangeY v) dy pady false ty ∧ IsTotal v nz v.rangeZ dz padz false tz ∧
      nx ≤ tx ∧ ny ≤ ty ∧ nz ≤ tz ∧ IsExtents rx ry rz az dp r ∧
      HasFieldLaw3 F p v nx dx ny dy nz dz padx pady padz sx sy sz (tx * ty * tz)
        (clippedCov3 tx ty tz (gridCov3 v r tx dx ty dy tz dz sx sy sz)) := by
  obtain ⟨tx, ty, tz, r, h1, h2, h2', h3, h3', h3'', h3''', h4⟩ := simulate3D_value hv hny hnz hx hy hz
  refine ⟨tx, ty, tz, r, h1, h2, h2', h3, h3', h3'', h3''', ?_⟩
  intro Ω _ μ _ γ unif s U K hU hs
  have htx : 0 < tx := by have := hx.size; omega
  have hty : 0 < ty := by have := hy.size; omega
  have htz : 0 < tz := by have := hz.size; omega
  set c := gridCov3 v r tx dx ty dy tz dz sx sy sz with hc
  set S := range tx ×ˢ range ty ×ˢ range tz with hS
  obtain ⟨ν, hν, hlaw⟩ := normal_law
  obtain ⟨Z, hZ, hst, -⟩ := hlaw Ω μ γ unif s U hU hs
  have hlt : ∀ q ∈ S, (q.1 * ty + q.2.1) * tz + q.2.2 < tx * ty * tz := by
    intro q hq
    simp only [hS, mem_product, mem_range] at hq
    exact blockIdx_lt (blockIdx_lt hq.1 hq.2.1) hq.2.2
  refine ⟨fun d ω => ∑ q ∈ S, weight3 tx ty tz c (((d.2.1 : ℕ) : ℤ) - q.1) (((d.2.2.1 : ℕ) : ℤ) - q.2.1)
      (((d.2.2.2 : ℕ) : ℤ) - q.2.2) * Z (d.1 * (tx * ty * tz) + ((q.1 * ty + q.2.1) * tz + q.2.2)) ω, ?_, ?_⟩
  · filter_upwards [hst] with ω hw
    obtain ⟨s', e⟩ := hw (K * (tx * ty * tz))
    obtain ⟨gs, h5, h6, h7⟩ := h4 hF _ (s ω) s' K _ [] e
    refine ⟨gs, s', h5, h6, fun k => ?_⟩
    obtain ⟨g, g1, -, -, -, g2, g3⟩ := h7 k k.2
    refine ⟨g, g1, g2, fun i j l => ?_⟩
    rw [g3 i j l i.2 j.2 l.2]
    congr 1
    unfold field3
    simp only [hS, Finset.sum_product]
    refine Finset.sum_congr rfl fun a ha => Finset.sum_congr rfl fun b hb =>
      Finset.sum_congr rfl fun d hd => ?_
    rw [getD_map_range (blockIdx_lt k.2 (hlt (a, b, d)
      (Finset.mem_product.2 ⟨ha, Finset.mem_product.2 ⟨hb, hd⟩⟩)))]
  · refine NormalLaw.nearGaussian_lin hν hZ S
      (fun (d : Fin K × Fin nx × Fin ny × Fin nz) q =>
        weight3 tx ty tz c (((d.2.1 : ℕ) : ℤ) - q.1) (((d.2.2.1 : ℕ) : ℤ) - q.2.1)
          (((d.2.2.2 : ℕ) : ℤ) - q.2.2))
      (fun d q => d.1 * (tx * ty * tz) + ((q.1 * ty + q.2.1) * tz + q.2.2))
      (fun d q hq => blockIdx_lt d.1.2 (hlt q hq)) ?_
    intro Ω' _ μ' _ w hw d d'
    by_cases hd : d.1 = d'.1
    · rw [if_pos hd, hd, hw.cov_lin_same S, hS, Finset.sum_product]
      · simp only [Finset.sum_product]
        rw [cov3_eq htx hty htz]
      · rintro ⟨a, b, f⟩ hq ⟨a', b', f'⟩ hq' e
        simp only [hS, Finset.coe_product, Finset.coe_range, Set.mem_prod, Set.mem_Iio] at hq hq'
        obtain ⟨e1, e2⟩ := rowIdx_inj hq.2.2 hq'.2.2 (Nat.add_left_cancel e)
        obtain ⟨e1, e3⟩ := rowIdx_inj hq.2.1 hq'.2.1 e1
        exact Prod.ext e1 (Prod.ext e3 e2)
    · rw [if_neg hd, hw.cov_lin_disjoint S]
      intro q hq q' hq' e
      exact hd (Fin.ext (rowIdx_inj (hlt q hq) (hlt q' hq') e).1)

end

/-- The hypotheses are met: the example of the documentation, with the reference transform and the
generator of `uniform_exists`. -/
example : ∃ (v : Variogram) (tx : ℕ) (r : ℝ × ℝ × ℝ) (X : Fin 100 → (ℕ → ℝ) → ℝ),
    Variogram.create .spherical 2 250 125 125 0 0 1.5 = .ok v ∧
    (∀ᵐ u ∂Iid.seq UnifSum.unif, ∃ out s',
      simulate1D refFftw exactPlatform (fun _ : Unit => .ub "") (RandomGenerator.norm01With seqDraw) v 100 10 100
        (some u) (-1) 1 () = .ok (out, s', ()) ∧ out.length = 100 ∧
        ∀ i : Fin 100, out[(i : ℕ)]? = some (X i u)) ∧
    NearGaussian (Iid.seq UnifSum.unif) X tx fun i i' =>
      clippedCov1 tx (gridCov1 v r tx 10 1) ((i : ℤ) - i') := by
  obtain ⟨v, hv, hx, -⟩ := doc_dirOk
  obtain ⟨tx, r, -, -, -, h⟩ := simulate1D_gauss refFftw_laws hv hx
  obtain ⟨hU, hs⟩ := uniform_exists
  obtain ⟨X, h1, h2⟩ := h _ _ _ _ (fun _ : Unit => .ub "") seqDraw some (fun _ => ()) (fun _ => ()) (fun u => u) _
    (Eventually.of_forall fun u => Or.inl ⟨rfl, rfl⟩) hU hs
  exact ⟨v, tx, r, X, hv, h1, h2⟩

end Verif
