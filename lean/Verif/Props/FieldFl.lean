import Verif.Lemmas.FieldFlRun
import Verif.Lemmas.FieldErrMean
import Verif.Lemmas.FftwRefNear
import Verif.Props.VariogramFl
import Verif.Props.FieldExample

/-!
# C76: simulated fields in double arithmetic

The simulation programs with every operation rounded, with a mathematical library and a transform library that have
small errors.
-/

namespace Verif

open Finset Spec Variogram Fl MeasureTheory ProbabilityTheory

attribute [local irreducible] rnd64

/-! ## Specification -/

/-- The one-dimensional simulation in double arithmetic returns a field near the specified one.

* For all draws, the root of the sum of the squared errors is at most `3 sqrt(N η)` times that of the draws.
* For uncorrelated draws with mean 0 and variance 1, the sum of the squared errors is at most an integrable
  variable with a mean of at most `N (27 sqrt(N) η + 17000 N ε²)`.

The powers of two are there for underflow. -/
def NearField1 (lm : Libm) (F : Fftw) (p : Platform) (v : Variogram) (nx : ℕ) (dx : ℝ) (padx : ℤ) (sx : ℝ) (tx : ℕ)
    (C : ℕ → ℝ) (η ε : ℝ) : Prop :=
  (∀ (σ γ : Type) (newRg : γ → Res (σ × γ)) (norm01 : σ → Res (ℝ × σ)) (rg : Option σ)
      (glob glob' : γ) (s s' : σ) (w : List ℝ), UsesGenerator newRg rg glob s glob' →
    draws norm01 tx s = .ok (w, s') →
    ∃ out, simulate1DFl lm F p newRg norm01 v nx dx nx rg padx sx glob = .ok (out, s', glob') ∧ out.length = nx ∧
      √(sqErr1 nx tx C (fun a => w.getD a 0) out)
        ≤ 3 * √(tx * η) * √(∑ a ∈ range tx, w.getD a 0 ^ 2) + 2⁻¹ ^ 800) ∧
  ∀ (Ω : Type) [MeasurableSpace Ω] (μ : Measure Ω) [IsProbabilityMeasure μ] (σ γ : Type)
    (newRg : γ → Res (σ × γ)) (norm01 : σ → Res (ℝ × σ)) (rg : Ω → Option σ) (glob glob' : Ω → γ)
    (s : Ω → σ) (w : ℕ → Ω → ℝ),
    (∀ ω, UsesGenerator newRg (rg ω) (glob ω) (s ω) (glob' ω)) →
    (∀ ω, Streams norm01 (s ω) fun a => w a ω) → WhiteNoise μ w →
    ∃ (X : Ω → List ℝ) (Q : Ω → ℝ),
      (∀ ω, ∃ s', simulate1DFl lm F p newRg norm01 v nx dx nx (rg ω) padx sx (glob ω) = .ok (X ω, s', glob' ω)) ∧
      Integrable Q μ ∧ (∀ ω, sqErr1 nx tx C (fun a => w a ω) (X ω) ≤ Q ω) ∧
      ∫ ω, Q ω ∂μ ≤ tx * (27 * √tx * η + 17000 * tx * ε ^ 2) + 2⁻¹ ^ 1000

/-- The same for `K` two-dimensional fields made by one call. -/
def NearField2 (lm : Libm) (F : Fftw) (p : Platform) (v : Variogram) (nx : ℕ) (dx : ℝ) (ny : ℕ) (dy : ℝ)
    (padx pady : ℤ) (sx sy : ℝ) (tx ty : ℕ) (C : ℕ → ℕ → ℝ) (η ε : ℝ) : Prop :=
  (∀ (σ γ : Type) (newRg : γ → Res (σ × γ)) (norm01 : σ → Res (ℝ × σ)) (rg : Option σ)
      (glob glob' : γ) (s s' : σ) (K : ℕ) (w : List ℝ) (grid_out : List (Grid2D ℝ)),
    UsesGenerator newRg rg glob s glob' → draws norm01 (K * (tx * ty)) s = .ok (w, s') →
    ∃ gs, simulate2DFl lm F p newRg norm01 v nx dx ny dy K grid_out rg padx pady sx sy glob
        = .ok (grid_out ++ gs, s', glob') ∧ gs.length = K ∧
      ∀ k < K, ∃ g, gs[k]? = some g ∧ g.ni = nx ∧ g.nj = ny ∧ g.data.length = nx * ny ∧
        √(sqErr2 nx ny tx ty C (fun a b => w.getD (k * (tx * ty) + (a * ty + b)) 0) g.data)
          ≤ 3 * √(tx * ty * η) * √(∑ a ∈ range tx, ∑ b ∈ range ty, w.getD (k * (tx * ty) + (a * ty + b)) 0 ^ 2)
            + 2⁻¹ ^ 800) ∧
  ∀ (Ω : Type) [MeasurableSpace Ω] (μ : Measure Ω) [IsProbabilityMeasure μ] (σ γ : Type)
    (newRg : γ → Res (σ × γ)) (norm01 : σ → Res (ℝ × σ)) (rg : Ω → Option σ) (glob glob' : Ω → γ)
    (s : Ω → σ) (w : ℕ → Ω → ℝ) (K : ℕ),
    (∀ ω, UsesGenerator newRg (rg ω) (glob ω) (s ω) (glob' ω)) →
    (∀ ω, Streams norm01 (s ω) fun a => w a ω) → WhiteNoise μ w →
    ∃ (X : ℕ → Ω → List ℝ) (Q : ℕ → Ω → ℝ),
      (∀ ω, ∃ gs s', simulate2DFl lm F p newRg norm01 v nx dx ny dy K [] (rg ω) padx pady sx sy (glob ω)
          = .ok (gs, s', glob' ω) ∧ gs.length = K ∧ ∀ k < K, ∃ g, gs[k]? = some g ∧ g.data = X k ω) ∧
      ∀ k < K, Integrable (Q k) μ ∧
        (∀ ω, sqErr2 nx ny tx ty C (fun a b => w (k * (tx * ty) + (a * ty + b)) ω) (X k ω) ≤ Q k ω) ∧
        ∫ ω, Q k ω ∂μ ≤ tx * ty * (27 * √(tx * ty) * η + 17000 * (tx * ty) * ε ^ 2) + 2⁻¹ ^ 1000

/-- The same for three-dimensional fields, which take their draws from the global generator. -/
def NearField3 (lm : Libm) (F : Fftw) (p : Platform) (v : Variogram) (nx : ℕ) (dx : ℝ) (ny : ℕ) (dy : ℝ) (nz : ℕ)
    (dz : ℝ) (padx pady padz : ℤ) (sx sy sz : ℝ) (tx ty tz : ℕ) (C : ℕ → ℕ → ℕ → ℝ) (η ε : ℝ) : Prop :=
  (∀ (γ : Type) (norm01 : γ → Res (ℝ × γ)) (s s' : γ) (K : ℕ) (w : List ℝ) (grid_out : List (Grid3D ℝ)),
    draws norm01 (K * (tx * ty * tz)) s = .ok (w, s') →
    ∃ gs, simulate3DFl lm F p norm01 v nx dx ny dy nz dz K grid_out padx pady padz sx sy sz s
        = .ok (grid_out ++ gs, s') ∧ gs.length = K ∧
      ∀ k < K, ∃ g, gs[k]? = some g ∧ g.ni = nx ∧ g.nj = ny ∧ g.nk = nz ∧ g.data.length = nx * ny * nz ∧
        √(sqErr3 nx ny nz tx ty tz C
            (fun a b c => w.getD (k * (tx * ty * tz) + ((a * ty + b) * tz + c)) 0) g.data)
          ≤ 3 * √(tx * ty * tz * η) * √(∑ a ∈ range tx, ∑ b ∈ range ty, ∑ c ∈ range tz,
              w.getD (k * (tx * ty * tz) + ((a * ty + b) * tz + c)) 0 ^ 2) + 2⁻¹ ^ 800) ∧
  ∀ (Ω : Type) [MeasurableSpace Ω] (μ : Measure Ω) [IsProbabilityMeasure μ] (γ : Type)
    (norm01 : γ → Res (ℝ × γ)) (s : Ω → γ) (w : ℕ → Ω → ℝ) (K : ℕ),
    (∀ ω, Streams norm01 (s ω) fun a => w a ω) → WhiteNoise μ w →
    ∃ (X : ℕ → Ω → List ℝ) (Q : ℕ → Ω → ℝ),
      (∀ ω, ∃ gs s', simulate3DFl lm F p norm01 v nx dx ny dy nz dz K [] padx pady padz sx sy sz (s ω)
          = .ok (gs, s') ∧ gs.length = K ∧ ∀ k < K, ∃ g, gs[k]? = some g ∧ g.data = X k ω) ∧
      ∀ k < K, Integrable (Q k) μ ∧
        (∀ ω, sqErr3 nx ny nz tx ty tz C (fun a b c => w (k * (tx * ty * tz) + ((a * ty + b) * tz + c)) ω) (X k ω)
          ≤ Q k ω) ∧
        ∫ ω, Q k ω ∂μ ≤ tx * ty * tz * (27 * √(tx * ty * tz) * η + 17000 * (tx * ty * tz) * ε ^ 2) + 2⁻¹ ^ 1000

/-! ## Any variogram -/

section
variable {p : Platform} {lm : Libm} {v : Variogram}

/-- **C76, one dimension.** Any variogram, from the errors `δ` of the single covariances and `ε` of the transforms. -/
theorem simulate1DFl_near {nx : ℕ} {dx sx : ℝ} {padx : ℤ} (hx : DirOk p v nx v.rangeX dx padx sx)
    (hs : rnd64 1e-12 < sx) :
    ∃ tx : ℕ, IsTotal v nx v.rangeX dx padx false tx ∧ nx ≤ tx ∧ tx < 2 ^ 31 ∧
      ∀ {F : Fftw} {ε δ : ℝ} (_ : F.Near ε) (_ : u ≤ ε) (_ : ε ≤ 2⁻¹ ^ 20) (_ : 0 ≤ δ) (_ : δ ≤ 2⁻¹) {C : ℕ → ℝ}
        (_ : ∀ a < tx, |C a| ≤ 1)
        (_ : ∀ a < tx, ∃ c, covVal1Fl lm v sx (rnd64 (|(lag tx a : ℝ)| * dx)) = .ok c ∧ |c - C a| ≤ δ),
        NearField1 lm F p v nx dx padx sx tx C (δ + 2 * ε) ε := by
  obtain ⟨tx, htx, h1, h2, h3, H⟩ := simulate1DFl_run (lm := lm) hx hs
  refine ⟨tx, h1, h2, by omega, ?_⟩
  intro F ε δ hF hu hε hδ hδ' C hC hcell
  obtain ⟨c', z', f', K, R⟩ := H hF hu hε hδ hδ' hC hcell
  have hN : ((cyc tx htx).N : ℝ) = tx := rfl
  refine ⟨?_, ?_⟩
  · intro σ γ newRg norm01 rg glob glob' s s' w hrg hw
    obtain ⟨out, e, hl, hb⟩ := R newRg norm01 rg glob glob' s s' w hrg hw
    refine ⟨out, e, hl, hb.trans ((errBound_det K).trans (le_of_eq ?_))⟩
    rw [l2_real, cyc_sum_real htx fun x => w.getD x.toNat 0 ^ 2, hN]
    simp
  · intro Ω _ μ _ σ γ newRg norm01 rg glob glob' s w hrg hstr hwn
    choose s' hs' using fun ω => hstr ω tx
    choose X hX1 hX2 hX3 using fun ω => R newRg norm01 (rg ω) (glob ω) (glob' ω) (s ω) (s' ω) _ (hrg ω) (hs' ω)
    have hinj : Set.InjOn (fun x : ℤ => x.toNat) (cyc tx htx).box := by
      intro x hx y hy hxy
      obtain ⟨a, ha, rfl⟩ := mem_cyc.1 (mem_coe.1 hx)
      obtain ⟨b, hb, rfl⟩ := mem_cyc.1 (mem_coe.1 hy)
      simpa using hxy
    obtain ⟨Q, q1, q2, q3⟩ := errFilter_mean K hwn (fun x => x.toNat) hinj
    rw [hN] at q3
    refine ⟨X, Q, fun ω => ⟨s' ω, hX1 ω⟩, q1, fun ω => le_trans ?_ (q2 ω), q3⟩
    have e := hX3 ω
    have eB : bound1 tx htx ε (fun k => f' k - (cyc tx htx).amp (ext1 tx C) k)
        (fun a => ((List.range tx).map fun a => w a ω).getD a 0)
        = errBound (cyc tx htx) (half1 tx htx) ε (fun k => f' k - (cyc tx htx).amp (ext1 tx C) k)
          (fun x => w x.toNat ω) := by
      refine errBound_congr fun x hx => ?_
      obtain ⟨a, ha, rfl⟩ := mem_cyc.1 hx
      exact getD_range_map _ (by simpa using ha) _
    have eS : sqErr1 nx tx C (fun a => ((List.range tx).map fun a => w a ω).getD a 0) (X ω)
        = sqErr1 nx tx C (fun a => w a ω) (X ω) := by
      unfold sqErr1 field1
      refine Finset.sum_congr rfl fun i _ => ?_
      congr 2
      exact Finset.sum_congr rfl fun a ha => congrArg _ (getD_range_map _ (mem_range.1 ha) _)
    rw [eB, eS] at e
    exact (Real.sqrt_le_left ((Real.sqrt_nonneg _).trans e)).1 e

/-- **C76, two dimensions.** -/
theorem simulate2DFl_near {nx ny : ℕ} {dx dy sx sy : ℝ} {padx pady : ℤ} (hny : 1 < ny)
    (hx : DirOk p v nx (max v.rangeX v.rangeY) dx padx sx)
    (hy : DirOk p v ny (padRangeY v) dy pady sy) (hsx : rnd64 1e-12 < sx) (hsy : rnd64 1e-12 < sy) :
    ∃ tx ty : ℕ, IsTotal v nx (max v.rangeX v.rangeY) dx padx true tx ∧
      IsTotal v ny (padRangeY v) dy pady false ty ∧ nx ≤ tx ∧ ny ≤ ty ∧ tx < 2 ^ 31 ∧ ty < 2 ^ 31 ∧
      ∀ {F : Fftw} {ε δ : ℝ} (_ : F.Near ε) (_ : u ≤ ε) (_ : ε ≤ 2⁻¹ ^ 20) (_ : 0 ≤ δ) (_ : δ ≤ 2⁻¹)
        {C : ℕ → ℕ → ℝ} (_ : ∀ a b, a < tx → b < ty → |C a b| ≤ 1)
        (_ : ∀ a b, a < tx → b < ty → ∃ c,
          covVal2Fl lm v sx sy (rnd64 (lag tx a * dx)) (rnd64 (lag ty b * dy)) = .ok c ∧ |c - C a b| ≤ δ),
        NearField2 lm F p v nx dx ny dy padx pady sx sy tx ty C (δ + 2 * ε) ε := by
  obtain ⟨tx, ty, htx, hty, h1, h2, h3, h4, h5, h6, H⟩ := simulate2DFl_run (lm := lm) hny hx hy hsx hsy
  refine ⟨tx, ty, h1, h2, h3, h4, by omega, by omega, ?_⟩
  intro F ε δ hF hu hε hδ hδ' C hC hcell
  obtain ⟨c', z', f', K, R⟩ := H hF hu hε hδ hδ' hC hcell
  have hN : ((box2 ty tx hty htx).N : ℝ) = tx * ty := by rw [FFTGrid2D.box_N]; push_cast; ring
  refine ⟨?_, ?_⟩
  · intro σ γ newRg norm01 rg glob glob' s s' M w grid_out hrg hw
    obtain ⟨gs, e, hl, hv⟩ := R newRg norm01 rg glob glob' s s' M w grid_out hrg hw
    refine ⟨gs, e, hl, fun k hk => ?_⟩
    obtain ⟨g, g1, g2, g3, g4, hb⟩ := hv k hk
    refine ⟨g, g1, g2, g3, g4, hb.trans ((errBound_det K).trans (le_of_eq ?_))⟩
    rw [l2_real, box2_sum_real hty htx fun x => w.getD (k * (tx * ty) + (x.2.toNat * ty + x.1.toNat)) 0 ^ 2, hN,
      Finset.sum_comm]
    simp
  · intro Ω _ μ _ σ γ newRg norm01 rg glob glob' s w M hrg hstr hwn
    choose s' hs' using fun ω => hstr ω (M * (tx * ty))
    choose gs hX1 hX2 hX3 using fun ω => R newRg norm01 (rg ω) (glob ω) (glob' ω) (s ω) (s' ω) M _ [] (hrg ω) (hs' ω)
    have hinj : ∀ k, Set.InjOn (fun x : ℤ × ℤ => k * (tx * ty) + (x.2.toNat * ty + x.1.toNat)) (box2 ty tx hty htx).box := by
      intro k x hx y hy hxy
      obtain ⟨b, a, hb, ha, rfl⟩ := mem_box2.1 (mem_coe.1 hx)
      obtain ⟨b', a', hb', ha', rfl⟩ := mem_box2.1 (mem_coe.1 hy)
      simp only [Int.toNat_natCast] at hxy
      obtain ⟨rfl, rfl⟩ := rowMajor_inj hb hb' (Nat.add_left_cancel hxy)
      rfl
    choose Q q1 q2 q3 using fun k => errFilter_mean K hwn _ (hinj k)
    rw [hN] at q3
    refine ⟨fun k ω => ((gs ω)[k]?.map (·.data)).getD [], Q, fun ω => ⟨gs ω, s' ω, hX1 ω, hX2 ω, fun k hk => ?_⟩,
      fun k hk => ⟨q1 k, fun ω => le_trans ?_ (q2 k ω), q3 k⟩⟩
    · obtain ⟨g, g1, -⟩ := hX3 ω k hk
      exact ⟨g, g1, by simp only [g1, Option.map_some, Option.getD_some]⟩
    obtain ⟨g, g1, -, -, -, e⟩ := hX3 ω k hk
    simp only [g1, Option.map_some, Option.getD_some]
    have hlt : ∀ a < tx, ∀ b < ty, k * (tx * ty) + (a * ty + b) < M * (tx * ty) := by
      intro a ha b hb
      have h1 := rowMajor_lt ha hb
      have h2 : (k + 1) * (tx * ty) ≤ M * (tx * ty) := Nat.mul_le_mul_right _ hk
      rw [Nat.succ_mul] at h2
      omega
    have hW : ∀ a < tx, ∀ b < ty, ((List.range (M * (tx * ty))).map fun a => w a ω).getD (k * (tx * ty) + (a * ty + b)) 0
        = w (k * (tx * ty) + (a * ty + b)) ω := fun a ha b hb => getD_range_map _ (hlt a ha b hb) _
    rw [sqErr2_congr hW, bound2_congr hW] at e
    exact (Real.sqrt_le_left ((Real.sqrt_nonneg _).trans e)).1 e

/-- **C76, three dimensions.** -/
theorem simulate3DFl_near {nx ny nz : ℕ} {dx dy dz sx sy sz : ℝ} {padx pady padz : ℤ} (hny : 1 < ny)
    (hnz : 1 < nz) (hx : DirOk p v nx (max v.rangeX v.rangeY) dx padx sx)
    (hy : DirOk p v ny (padRangeY v) dy pady sy) (hz : DirOk p v nz v.rangeZ dz padz sz)
    (hsx : rnd64 1e-12 < sx) (hsy : rnd64 1e-12 < sy) (hsz : rnd64 1e-12 < sz) :
    ∃ tx ty tz : ℕ, IsTotal v nx (max v.rangeX v.rangeY) dx padx true tx ∧
      IsTotal v ny (padRangeY v) dy pady false ty ∧ IsTotal v nz v.rangeZ dz padz false tz ∧
      nx ≤ tx ∧ ny ≤ ty ∧ nz ≤ tz ∧ tx < 2 ^ 31 ∧ ty < 2 ^ 31 ∧ tz < 2 ^ 31 ∧
      ∀ {F : Fftw} {ε δ : ℝ} (_ : F.Near ε) (_ : u ≤ ε) (_ : ε ≤ 2⁻¹ ^ 20) (_ : 0 ≤ δ) (_ : δ ≤ 2⁻¹)
        {C : ℕ → ℕ → ℕ → ℝ} (_ : ∀ a b c, a < tx → b < ty → c < tz → |C a b c| ≤ 1)
        (_ : ∀ a b c, a < tx → b < ty → c < tz → ∃ x,
          covVal3Fl lm v sx sy sz (rnd64 (lag tx a * dx)) (rnd64 (lag ty b * dy)) (rnd64 (lag tz c * dz)) = .ok x ∧
            |x - C a b c| ≤ δ),
        NearField3 lm F p v nx dx ny dy nz dz padx pady padz sx sy sz tx ty tz C (δ + 2 * ε) ε := by
  obtain ⟨tx, ty, tz, htx, hty, htz, h1, h2, h3, h4, h5, h6, h7, h8, h9, H⟩ :=
    simulate3DFl_run (lm := lm) hny hnz hx hy hz hsx hsy hsz
  refine ⟨tx, ty, tz, h1, h2, h3, h4, h5, h6, by omega, by omega, by omega, ?_⟩
  intro F ε δ hF hu hε hδ hδ' C hC hcell
  obtain ⟨c', z', f', K, R⟩ := H hF hu hε hδ hδ' hC hcell
  have hN : ((box3 tz ty tx htz hty htx).N : ℝ) = tx * ty * tz := by rw [box3_N']; push_cast; ring
  refine ⟨?_, ?_⟩
  · intro γ norm01 s s' M w grid_out hw
    obtain ⟨gs, e, hl, hv⟩ := R norm01 s s' M w grid_out hw
    refine ⟨gs, e, hl, fun k hk => ?_⟩
    obtain ⟨g, g1, g2, g3, g4, g5, hb⟩ := hv k hk
    refine ⟨g, g1, g2, g3, g4, g5, hb.trans ((errBound_det K).trans (le_of_eq ?_))⟩
    rw [l2_real, box3_sum_real htz hty htx
        fun x => w.getD (k * (tx * ty * tz) + ((x.2.2.toNat * ty + x.2.1.toNat) * tz + x.1.toNat)) 0 ^ 2, hN,
      sum_rev3 tx ty tz fun a b c => w.getD (k * (tx * ty * tz)
        + (((a : ℤ).toNat * ty + (b : ℤ).toNat) * tz + (c : ℤ).toNat)) 0 ^ 2]
    simp
  · intro Ω _ μ _ γ norm01 s w M hstr hwn
    choose s' hs' using fun ω => hstr ω (M * (tx * ty * tz))
    choose gs hX1 hX2 hX3 using fun ω => R norm01 (s ω) (s' ω) M _ [] (hs' ω)
    have hinj : ∀ k, Set.InjOn (fun x : ℤ × ℤ × ℤ =>
        k * (tx * ty * tz) + ((x.2.2.toNat * ty + x.2.1.toNat) * tz + x.1.toNat)) (box3 tz ty tx htz hty htx).box := by
      intro k x hx y hy hxy
      obtain ⟨c, b, a, hc, hb, ha, rfl⟩ := mem_box3.1 (mem_coe.1 hx)
      obtain ⟨c', b', a', hc', hb', ha', rfl⟩ := mem_box3.1 (mem_coe.1 hy)
      simp only [Int.toNat_natCast] at hxy
      obtain ⟨h, rfl⟩ := rowMajor_inj hc hc' (Nat.add_left_cancel hxy)
      obtain ⟨rfl, rfl⟩ := rowMajor_inj hb hb' h
      rfl
    choose Q q1 q2 q3 using fun k => errFilter_mean K hwn _ (hinj k)
    rw [hN] at q3
    refine ⟨fun k ω => ((gs ω)[k]?.map (·.data)).getD [], Q, fun ω => ⟨gs ω, s' ω, hX1 ω, hX2 ω, fun k hk => ?_⟩,
      fun k hk => ⟨q1 k, fun ω => le_trans ?_ (q2 k ω), q3 k⟩⟩
    · obtain ⟨g, g1, -⟩ := hX3 ω k hk
      exact ⟨g, g1, by simp only [g1, Option.map_some, Option.getD_some]⟩
    obtain ⟨g, g1, -, -, -, -, e⟩ := hX3 ω k hk
    simp only [g1, Option.map_some, Option.getD_some]
    have hlt : ∀ a < tx, ∀ b < ty, ∀ c < tz, k * (tx * ty * tz) + ((a * ty + b) * tz + c) < M * (tx * ty * tz) := by
      intro a ha b hb c hc
      have h1 := rowMajor_lt (rowMajor_lt ha hb) hc
      have h2 : (k + 1) * (tx * ty * tz) ≤ M * (tx * ty * tz) := Nat.mul_le_mul_right _ hk
      rw [Nat.succ_mul] at h2
      omega
    have hW : ∀ a < tx, ∀ b < ty, ∀ c < tz,
        ((List.range (M * (tx * ty * tz))).map fun a => w a ω).getD (k * (tx * ty * tz) + ((a * ty + b) * tz + c)) 0
        = w (k * (tx * ty * tz) + ((a * ty + b) * tz + c)) ω := fun a ha b hb c hc => getD_range_map _ (hlt a ha b hb c hc) _
    rw [sqErr3_congr hW, bound3_congr hW] at e
    exact (Real.sqrt_le_left ((Real.sqrt_nonneg _).trans e)).1 e

end

/-! ## Variograms of the factory -/

open scoped Fl

/-- The fields of a variogram made in double arithmetic. -/
theorem createVariogramFl_fields {lm : Libm} {s : List Char} {rx ry rz az dp p : ℝ} {w : Variogram}
    (h : createVariogramFl lm s rx ry rz az dp p = .ok w) :
    w.rangeX = rx ∧ w.rangeY = (if ry < 0 then rx else ry) ∧ w.rangeZ = (if rz < 0 then rx else rz) ∧
      w.azimuth = az *ᶠ degreeFl ∧ w.dip = dp *ᶠ degreeFl ∧ w.var = 1 := by
  have o : (1.0 : ℝ) = 1 := by norm_num
  have z : (0.0 : ℝ) = 0 := by norm_num
  unfold createVariogramFl createFl estimateFactorsFl at h
  simp only [Res.monad_bind_eq, Res.bind_eq_ok, z] at h
  obtain ⟨t, -, h⟩ := h
  generalize (if ry < 0 then rx else ry) = Ry at h ⊢
  generalize (if rz < 0 then rx else rz) = Rz at h ⊢
  split at h
  · cases h
  · rw [← Res.ok.inj h]
    refine ⟨rfl, rfl, rfl, rfl, rfl, ?_⟩
    show (1.0 : ℝ) *ᶠ 1.0 = 1
    unfold Fl.mul
    rw [o, mul_one, rnd64_one]

theorem createVariogram_var {s : List Char} {rx ry rz az dp p : ℝ} {v : Variogram}
    (h : createVariogram s rx ry rz az dp p = .ok v) : v.var = 1 := by
  unfold createVariogram at h
  simp only [Res.monad_bind_eq, Res.bind_eq_ok] at h
  obtain ⟨t, -, h⟩ := h
  rw [(create_fields h).2.2.2.2.2.2.2]
  norm_num

/-- Covariances of unit variance. -/
theorem cov_le_one {v : Variogram} (h : v.var = 1) (x y z : ℝ) :
    |v.cov3 x y z| ≤ 1 ∧ |v.cov2 x y| ≤ 1 ∧ |v.cov1 x| ≤ 1 := by
  have key : ∀ d : ℝ, 0 ≤ d → |corr1D v.type v.power d| ≤ 1 := fun d hd =>
    abs_le.2 ⟨(by norm_num : (-1 : ℝ) ≤ 0).trans (Variogram.corr1D_nonneg hd), corr1D_le_one hd⟩
  unfold cov3 cov2 cov1
  rw [h, one_mul, one_mul, one_mul]
  exact ⟨key _ (Real.sqrt_nonneg _), key _ (Real.sqrt_nonneg _), key _ (Real.sqrt_nonneg _)⟩

/-- A step length between 2^-100 and 2^60. -/
def StepOk (d : ℝ) : Prop := 2⁻¹ ^ 100 ≤ d ∧ d ≤ 2 ^ 60

theorem lag_cases {n a : ℕ} (hn : n < 2 ^ 31) (ha : a < n) {d : ℝ} (hd : StepOk d) :
    (lag n a * d = 0 ∨ 2⁻¹ ^ 100 ≤ |(lag n a : ℝ) * d|) ∧ |(lag n a : ℝ) * d| ≤ 2 ^ 100 := by
  have d0 : 0 ≤ d := le_trans (by positivity) hd.1
  have hle : |(lag n a : ℝ)| ≤ 2 ^ 31 := by
    have : |lag n a| ≤ 2 ^ 31 := by
      unfold lag
      split <;> rw [abs_le] <;> omega
    exact_mod_cast this
  rw [abs_mul, abs_of_nonneg d0]
  constructor
  · rcases eq_or_ne (lag n a) 0 with h | h
    · left
      rw [h, Int.cast_zero, zero_mul]
    · right
      have h1 : (1 : ℝ) ≤ |(lag n a : ℝ)| := by exact_mod_cast Int.one_le_abs h
      nlinarith [hd.1]
  · calc |(lag n a : ℝ)| * d ≤ 2 ^ 31 * 2 ^ 60 := mul_le_mul hle hd.2 d0 (by positivity)
      _ ≤ 2 ^ 100 := by norm_num

theorem lagNear_rnd {x : ℝ} (h : x = 0 ∨ 2⁻¹ ^ 100 ≤ |x|) : LagNear (rnd64 x) x := by
  rcases h with rfl | h
  · rw [rnd64_zero]
    exact .refl 0
  · unfold LagNear
    refine (rnd64_abs_err x).trans ?_
    have t : (2⁻¹ : ℝ) ^ 1075 ≤ 2⁻¹ ^ 153 := half_anti (by norm_num)
    generalize (2⁻¹ : ℝ) ^ 1075 = t75 at t ⊢
    have e : (2⁻¹ : ℝ) ^ 153 = 2⁻¹ ^ 53 * 2⁻¹ ^ 100 := by norm_num
    have e' : u = 2 * 2⁻¹ ^ 53 := by rw [u_eq]; norm_num
    rw [e']
    have : (2⁻¹ : ℝ) ^ 53 * 2⁻¹ ^ 100 ≤ 2⁻¹ ^ 53 * |x| := mul_le_mul_of_nonneg_left h (by positivity)
    linarith

theorem lagOk_of {x y z : ℝ} (hx : (x = 0 ∨ 2⁻¹ ^ 100 ≤ |x|) ∧ |x| ≤ 2 ^ 100)
    (hy : (y = 0 ∨ 2⁻¹ ^ 100 ≤ |y|) ∧ |y| ≤ 2 ^ 100) (hz : (z = 0 ∨ 2⁻¹ ^ 100 ≤ |z|) ∧ |z| ≤ 2 ^ 100) :
    LagOk x y z := by
  unfold LagOk
  rcases hx.1 with h1 | h1
  · rcases hy.1 with h2 | h2
    · rcases hz.1 with h3 | h3
      · exact Or.inl ⟨h1, h2, h3⟩
      · exact Or.inr ⟨Or.inr (Or.inr h3), hx.2, hy.2, hz.2⟩
    · exact Or.inr ⟨Or.inr (Or.inl h2), hx.2, hy.2, hz.2⟩
  · exact Or.inr ⟨Or.inl h1, hx.2, hy.2, hz.2⟩

theorem zero_lag : ((0 : ℝ) = 0 ∨ (2⁻¹ : ℝ) ^ 100 ≤ |(0 : ℝ)|) ∧ |(0 : ℝ)| ≤ 2 ^ 100 :=
  ⟨Or.inl rfl, by rw [abs_zero]; positivity⟩

theorem smoothFl_one {lm : Libm} {s r dd c : ℝ} (hs : 1 ≤ s) : smoothFl lm s r dd c = .ok c := by
  unfold smoothFl
  rw [if_neg]
  have : rnd64 0.99999 ≤ 1 := by
    have := rnd64_mono (show (0.99999 : ℝ) ≤ 1 by norm_num)
    rwa [rnd64_one] at this
  exact not_lt.2 (this.trans hs)

theorem scaling_lt {s : ℝ} (hs : 1 ≤ s) : rnd64 1e-12 < s := by
  have h := abs_le.1 (rnd64_abs_err 1e-12)
  have t : (2⁻¹ : ℝ) ^ 1075 ≤ 2⁻¹ ^ 10 := half_anti (by norm_num)
  generalize (2⁻¹ : ℝ) ^ 1075 = t75 at t h
  have e : |(1e-12 : ℝ)| * 2⁻¹ ^ 53 ≤ 2⁻¹ ^ 10 := by rw [abs_of_pos (by norm_num)]; norm_num
  have e2 : (2⁻¹ : ℝ) ^ 10 ≤ 1 / 4 := by norm_num
  have e3 : (1e-12 : ℝ) ≤ 1 / 4 := by norm_num
  linarith [h.2]

/-- Multiplication by the variance, one. -/
theorem mul_one_err {c C k : ℝ} (hk : 1 ≤ k) (hk' : k ≤ 2 ^ 32) (hC : |C| ≤ 1) (h : |c - C| ≤ 2⁻¹ ^ 36 * k) :
    |(1 : ℝ) *ᶠ c - C| ≤ 2⁻¹ ^ 35 * k := by
  have e := rnd64_abs_err c
  have t : (2⁻¹ : ℝ) ^ 1075 ≤ 2⁻¹ ^ 53 := half_anti (by norm_num)
  generalize (2⁻¹ : ℝ) ^ 1075 = t75 at t e
  have c2 : |c| ≤ 2 := by
    have := abs_sub_abs_le_abs_sub c C
    have : (2⁻¹ : ℝ) ^ 36 * k ≤ 2⁻¹ ^ 36 * 2 ^ 32 := mul_le_mul_of_nonneg_left hk' (by positivity)
    norm_num at this h
    linarith
  have e1 : |rnd64 c - c| ≤ 2⁻¹ ^ 36 * k := by
    have : |c| * 2⁻¹ ^ 53 ≤ 2 * 2⁻¹ ^ 53 := mul_le_mul_of_nonneg_right c2 (by positivity)
    have e3 : (2⁻¹ : ℝ) ^ 36 * 1 ≤ 2⁻¹ ^ 36 * k := mul_le_mul_of_nonneg_left hk (by positivity)
    have e4 : 2 * (2⁻¹ : ℝ) ^ 53 + 2⁻¹ ^ 53 ≤ 2⁻¹ ^ 36 * 1 := by norm_num
    linarith
  unfold Fl.mul
  rw [one_mul]
  have := abs_sub_le (rnd64 c) c C
  have e5 : (2⁻¹ : ℝ) ^ 35 * k = 2⁻¹ ^ 36 * k + 2⁻¹ ^ 36 * k := by ring
  linarith

/-- **C76.** Fields of a factory-made variogram, without smoothing. The ranges are between `a` and `b ≤ 2^16 a`; the
mathematical library has an error of at most 2^-52, the transforms one of `ε`. The fields made by the double programs
are compared with the filtered noise of the exact covariances: `η = 2^-35 (b/a)² + 2ε`. -/
theorem simulateFl_accurate {lm : Libm} (hl : lm.Acc) {s : List Char} (hs : IsAscii s) {rx ry rz az dp p a b : ℝ}
    (ha : 2⁻¹ ^ 100 ≤ a) (hb : b ≤ 2 ^ 100) (hk : b ≤ 2 ^ 16 * a) (hx : a ≤ rx ∧ rx ≤ b)
    (hy : ry < 0 ∨ a ≤ ry ∧ ry ≤ b) (hz : rz < 0 ∨ a ≤ rz ∧ rz ≤ b) (haz : |az| ≤ 360) (hdp : |dp| ≤ 360) :
    ∃ v w, createVariogram s rx ry rz az dp p = .ok v ∧ createVariogramFl lm s rx ry rz az dp p = .ok w ∧
      v.type = w.type ∧ ((v.type = .generalExponential → 0 < p ∧ p ≤ 2) →
      (∀ P nx dx padx sx, StepOk dx → 1 ≤ sx → DirOk P w nx w.rangeX dx padx sx →
        ∃ tx : ℕ, IsTotal w nx w.rangeX dx padx false tx ∧ nx ≤ tx ∧ tx < 2 ^ 31 ∧
          ∀ F ε, Fftw.Near F ε → u ≤ ε → ε ≤ 2⁻¹ ^ 20 →
          NearField1 lm F P w nx dx padx sx tx (fun i => v.cov1 (lag tx i * dx)) (2⁻¹ ^ 35 * (b / a) ^ 2 + 2 * ε) ε) ∧
      (∀ P nx ny dx dy padx pady sx sy, 1 < ny → StepOk dx → StepOk dy → 1 ≤ sx → 1 ≤ sy →
        DirOk P w nx (max w.rangeX w.rangeY) dx padx sx → DirOk P w ny (padRangeY w) dy pady sy →
        ∃ tx ty : ℕ, IsTotal w nx (max w.rangeX w.rangeY) dx padx true tx ∧
          IsTotal w ny (padRangeY w) dy pady false ty ∧ nx ≤ tx ∧ ny ≤ ty ∧ tx < 2 ^ 31 ∧ ty < 2 ^ 31 ∧
          ∀ F ε, Fftw.Near F ε → u ≤ ε → ε ≤ 2⁻¹ ^ 20 →
          NearField2 lm F P w nx dx ny dy padx pady sx sy tx ty (fun i j => v.cov2 (lag tx i * dx) (lag ty j * dy))
            (2⁻¹ ^ 35 * (b / a) ^ 2 + 2 * ε) ε) ∧
      (∀ P nx ny nz dx dy dz padx pady padz sx sy sz, 1 < ny → 1 < nz → StepOk dx → StepOk dy → StepOk dz →
        1 ≤ sx → 1 ≤ sy → 1 ≤ sz →
        DirOk P w nx (max w.rangeX w.rangeY) dx padx sx → DirOk P w ny (padRangeY w) dy pady sy →
        DirOk P w nz w.rangeZ dz padz sz →
        ∃ tx ty tz : ℕ, IsTotal w nx (max w.rangeX w.rangeY) dx padx true tx ∧
          IsTotal w ny (padRangeY w) dy pady false ty ∧ IsTotal w nz w.rangeZ dz padz false tz ∧
          nx ≤ tx ∧ ny ≤ ty ∧ nz ≤ tz ∧ tx < 2 ^ 31 ∧ ty < 2 ^ 31 ∧ tz < 2 ^ 31 ∧
          ∀ F ε, Fftw.Near F ε → u ≤ ε → ε ≤ 2⁻¹ ^ 20 →
          NearField3 lm F P w nx dx ny dy nz dz padx pady padz sx sy sz tx ty tz
            (fun i j k => v.cov3 (lag tx i * dx) (lag ty j * dy) (lag tz k * dz))
            (2⁻¹ ^ 35 * (b / a) ^ 2 + 2 * ε) ε)) := by
  have a0 : 0 < a := lt_of_lt_of_le (by positivity) ha
  have k1 : 1 ≤ b / a := (one_le_div a0).2 (hx.1.trans hx.2)
  have k2 : b / a ≤ 2 ^ 16 := (div_le_iff₀ a0).2 hk
  have kk1 : 1 ≤ (b / a) ^ 2 := one_le_pow₀ k1
  have kk2 : (b / a) ^ 2 ≤ 2 ^ 32 := (pow_le_pow_left₀ (by linarith) k2 2).trans (by norm_num)
  obtain ⟨v, w, hv, hw, ht, H⟩ := corrFl_near hl hs (p := p) ha hb (by linarith) hx hy hz haz hdp
  refine ⟨v, w, hv, hw, ht, fun hp => ?_⟩
  obtain ⟨H3, H2, H1⟩ := H hp
  have vv := createVariogram_var hv
  obtain ⟨-, -, -, -, -, wv⟩ := createVariogramFl_fields hw
  have hδ : 0 ≤ 2⁻¹ ^ 35 * (b / a) ^ 2 := by positivity
  have hδ' : 2⁻¹ ^ 35 * (b / a) ^ 2 ≤ 2⁻¹ := by
    refine (mul_le_mul_of_nonneg_left kk2 (by positivity)).trans ?_
    norm_num
  refine ⟨?_, ?_, ?_⟩
  · intro P nx dx padx sx dxo sxo hdx
    obtain ⟨tx, h1, h2, h3, h4⟩ := simulate1DFl_near (lm := lm) hdx (scaling_lt sxo)
    refine ⟨tx, h1, h2, h3, fun F ε hF hε hε' => h4 hF hε hε' hδ hδ' (fun i _ => (cov_le_one vv _ 0 0).2.2) ?_⟩
    intro i hi
    have L := lag_cases h3 hi dxo
    have d0 : 0 ≤ dx := le_trans (by positivity) dxo.1
    have eabs : |(lag tx i : ℝ)| * dx = |(lag tx i : ℝ) * dx| := by rw [abs_mul, abs_of_nonneg d0]
    have L' : (|(lag tx i : ℝ) * dx| = 0 ∨ 2⁻¹ ^ 100 ≤ |(|(lag tx i : ℝ) * dx|)|) ∧ |(|(lag tx i : ℝ) * dx|)| ≤ 2 ^ 100 := by
      rw [abs_abs, abs_eq_zero]
      exact L
    obtain ⟨c, e1, e2⟩ := H1 _ _ (lagOk_of L' zero_lag zero_lag) (lagNear_rnd L'.1)
    have ec : v.corr |(lag tx i : ℝ) * dx| = v.cov1 (lag tx i * dx) := by
      unfold cov1
      rw [vv, one_mul]
      rcases abs_choice ((lag tx i : ℝ) * dx) with h | h <;> rw [h]
      exact (corr_neg v _ 0 0).2.2
    rw [ec] at e2
    refine ⟨1 *ᶠ c, ?_, mul_one_err kk1 kk2 (cov_le_one vv _ 0 0).2.2 e2⟩
    unfold covVal1Fl cov1Fl
    rw [eabs, e1]
    simp only [Res.monad_bind_eq, Res.bind_ok, smoothFl_one sxo, wv]
  · intro P nx ny dx dy padx pady sx sy hny dxo dyo sxo syo hdx hdy
    obtain ⟨tx, ty, h1, h2, h3, h4, h5, h6, h7⟩ :=
      simulate2DFl_near (lm := lm) hny hdx hdy (scaling_lt sxo) (scaling_lt syo)
    refine ⟨tx, ty, h1, h2, h3, h4, h5, h6, fun F ε hF hε hε' =>
      h7 hF hε hε' hδ hδ' (fun i j _ _ => (cov_le_one vv _ _ 0).2.1) ?_⟩
    intro i j hi hj
    have Lx := lag_cases h5 hi dxo
    have Ly := lag_cases h6 hj dyo
    obtain ⟨c, e1, e2⟩ := H2 _ _ _ _ (lagOk_of Lx Ly zero_lag) (lagNear_rnd Lx.1) (lagNear_rnd Ly.1)
    refine ⟨1 *ᶠ c, ?_, mul_one_err kk1 kk2 (cov_le_one vv _ _ 0).2.1 ?_⟩
    · unfold covVal2Fl cov2Fl
      rw [e1]
      simp only [Res.monad_bind_eq, Res.bind_ok, smoothFl_one sxo, smoothFl_one syo, wv]
    · unfold cov2
      rw [vv, one_mul]
      exact e2
  · intro P nx ny nz dx dy dz padx pady padz sx sy sz hny hnz dxo dyo dzo sxo syo szo hdx hdy hdz
    obtain ⟨tx, ty, tz, h1, h2, h3, h4, h5, h6, h7, h8, h9, h10⟩ :=
      simulate3DFl_near (lm := lm) hny hnz hdx hdy hdz (scaling_lt sxo) (scaling_lt syo) (scaling_lt szo)
    refine ⟨tx, ty, tz, h1, h2, h3, h4, h5, h6, h7, h8, h9, fun F ε hF hε hε' =>
      h10 hF hε hε' hδ hδ' (fun i j k _ _ _ => (cov_le_one vv _ _ _).1) ?_⟩
    intro i j k hi hj hk
    have Lx := lag_cases h7 hi dxo
    have Ly := lag_cases h8 hj dyo
    have Lz := lag_cases h9 hk dzo
    obtain ⟨c, e1, e2⟩ := H3 _ _ _ _ _ _ (lagOk_of Lx Ly Lz) (lagNear_rnd Lx.1) (lagNear_rnd Ly.1) (lagNear_rnd Lz.1)
    refine ⟨1 *ᶠ c, ?_, mul_one_err kk1 kk2 (cov_le_one vv _ _ _).1 ?_⟩
    · unfold covVal3Fl cov3Fl
      rw [e1]
      simp only [Res.monad_bind_eq, Res.bind_ok, smoothFl_one sxo, smoothFl_one syo, smoothFl_one szo, wv]
    · unfold cov3
      rw [vv, one_mul]
      exact e2

/-- The example of the documentation in double arithmetic: a spherical variogram with ranges 250 and 125, 100 cells of
size 10, a correctly rounded mathematical library and exact transforms meet the hypotheses in one, two and three
dimensions. In one dimension there are 126 cells with padding; for standard normal draws the mean of the sum of the
squared errors is at most 1e-5. -/
theorem simulateFl_doc : ∃ v w, createVariogram "spherical".toList 250 125 125 0 0 2 = .ok v ∧
    createVariogramFl roundedLibm "spherical".toList 250 125 125 0 0 2 = .ok w ∧
    (∃ (X : (ℕ → ℝ) → List ℝ) (Q : (ℕ → ℝ) → ℝ),
      (∀ ω, ∃ s', simulate1DFl roundedLibm refFftw exactPlatform
        (fun _ : Unit => (.ub "" : Res ((ℕ → ℝ) × Unit))) seqDraw w 100 10 100 (some ω) (-1) 1 () = .ok (X ω, s', ())) ∧
      Integrable Q seqLaw ∧
      (∀ ω, sqErr1 100 126 (fun i => v.cov1 (lag 126 i * 10)) (fun a => ω a) (X ω) ≤ Q ω) ∧
      ∫ ω, Q ω ∂seqLaw ≤ 1e-5) ∧
    (∃ tx ty, NearField2 roundedLibm refFftw exactPlatform w 100 10 100 10 (-1) (-1) 1 1 tx ty
      (fun i j => v.cov2 (lag tx i * 10) (lag ty j * 10)) (2⁻¹ ^ 33 + 2 * u) u) ∧
    (∃ tx ty tz, NearField3 roundedLibm refFftw exactPlatform w 100 10 100 10 20 5 (-1) (-1) (-1) 1 1 1 tx ty tz
      (fun i j k => v.cov3 (lag tx i * 10) (lag ty j * 10) (lag tz k * 5)) (2⁻¹ ^ 33 + 2 * u) u) := by
  have hs : IsAscii "spherical".toList := by unfold IsAscii; decide +kernel
  obtain ⟨v, w, hv, hw, ht, h⟩ := simulateFl_accurate roundedLibm_acc hs (rx := 250) (ry := 125) (rz := 125) (az := 0)
    (dp := 0) (p := 2) (a := 125) (b := 250) (by norm_num) (by norm_num) (by norm_num) (by norm_num) (by norm_num)
    (by norm_num) (by norm_num) (by norm_num)
  obtain ⟨H1, H2, H3⟩ := h fun _ => by norm_num
  have e0 : w.type = .spherical := by
    rw [← ht]
    exact (createVariogram_names_partial hs hv).1 "spherical" .spherical (by simp [documentedNames])
      (by unfold SameIgnoringCase; decide +kernel)
  obtain ⟨e1, e2, e3, e4, -, -⟩ := createVariogramFl_fields hw
  rw [if_neg (by norm_num)] at e2 e3
  have e4 : w.azimuth = 0 := by rw [e4]; unfold Fl.mul; rw [zero_mul, rnd64_zero]
  have em : max w.rangeX w.rangeY = 250 := by rw [e1, e2]; norm_num
  have ep : padRangeY w = 125 := by unfold padRangeY; rw [if_pos e4, e2]
  obtain ⟨er1, er2⟩ := ratio_spherical e0
  have po : PadOk w 100 250 10 :=
    padOk_of (by linarith) (by linarith) (by norm_num) (by norm_num) (by norm_num) (by norm_num)
  have d1 : DirOk exactPlatform w 100 250 10 (-1) 1 :=
    dirOk_default 26 (by norm_num) po (by norm_num) (by push_cast; linarith) (by norm_num) (by norm_num)
  have d2 : DirOk exactPlatform w 100 125 10 (-1) 1 :=
    dirOk_default 13 (by norm_num) (padOk_of (by linarith) (by linarith) (by norm_num) (by norm_num) (by norm_num)
      (by norm_num)) (by norm_num) (by push_cast; linarith) (by norm_num) (by norm_num)
  have d3 : DirOk exactPlatform w 20 125 5 (-1) 1 :=
    dirOk_default 29 (by norm_num) (padOk_of (by linarith) (by linarith) (by norm_num) (by norm_num) (by norm_num)
      (by norm_num)) (by norm_num) (by push_cast; linarith) (by norm_num) (by norm_num)
  have so : StepOk 10 ∧ StepOk 5 := by
    unfold StepOk
    norm_num
  rw [e1] at H1
  rw [em, ep] at H2 H3
  rw [e3] at H3
  have eε : (2⁻¹ : ℝ) ^ 35 * (250 / 125) ^ 2 = 2⁻¹ ^ 33 := by norm_num
  have ue : u ≤ 2⁻¹ ^ 20 := by rw [u_eq]; norm_num
  rw [eε] at H1 H2 H3
  refine ⟨v, w, hv, hw, ?_, ?_, ?_⟩
  · obtain ⟨tx, t1, t2, t3, t4⟩ := H1 exactPlatform 100 10 (-1) 1 so.1 le_rfl d1
    have htx : tx = 126 := by
      obtain ⟨q, hq, hf⟩ := t1
      have := isPadding_default (q := 25) (n := 100) po (by norm_num) (by norm_num) (by push_cast; linarith) hq
      subst this
      exact fftSize_self hf (by norm_num) ⟨le_rfl, by simpa using smooth7_of_exps 1 2 0 1, by simp⟩
    subst htx
    obtain ⟨X, Q, x1, x2, x3, x4⟩ := (t4 refFftw u (refFftw_near u_pos.le) le_rfl ue).2 (ℕ → ℝ) seqLaw (ℕ → ℝ) Unit
      (fun _ => .ub "") seqDraw some (fun _ => ()) (fun _ => ()) id (fun a ω => ω a) (fun ω => Or.inl ⟨rfl, rfl⟩)
      (fun ω => seqDraw_streams ω) seqLaw_noise.white
    refine ⟨X, Q, x1, x2, x3, x4.trans ?_⟩
    have r : √((126 : ℕ) : ℝ) ≤ 12 := by
      rw [Real.sqrt_le_left (by norm_num)]
      norm_num
    have t : (2⁻¹ : ℝ) ^ 1000 ≤ 2⁻¹ ^ 40 := half_anti (by norm_num)
    have r0 := Real.sqrt_nonneg ((126 : ℕ) : ℝ)
    generalize (2⁻¹ : ℝ) ^ 1000 = t1000 at t ⊢
    generalize √((126 : ℕ) : ℝ) = R at r r0 ⊢
    rw [u_eq]
    norm_num at t ⊢
    linarith
  · obtain ⟨tx, ty, -, -, -, -, -, -, h2⟩ := H2 exactPlatform 100 100 10 10 (-1) (-1) 1 1 (by norm_num) so.1 so.1 le_rfl
      le_rfl d1 d2
    exact ⟨tx, ty, h2 refFftw u (refFftw_near u_pos.le) le_rfl ue⟩
  · obtain ⟨tx, ty, tz, -, -, -, -, -, -, -, -, -, h3⟩ := H3 exactPlatform 100 100 20 10 10 5 (-1) (-1) (-1) 1 1 1
      (by norm_num) (by norm_num) so.1 so.1 so.2 le_rfl le_rfl le_rfl d1 d2 d3
    exact ⟨tx, ty, tz, h3 refFftw u (refFftw_near u_pos.le) le_rfl ue⟩

end Verif
