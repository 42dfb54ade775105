import Verif.Spec.NormalLaw
import Verif.Lemmas.NormalStream
import Mathlib.Probability.Independence.InfinitePi

/-! Helper lemmas: linear functions of independent numbers of a law close to the normal law. -/

namespace Verif.NormalLaw

open MeasureTheory Set ProbabilityTheory Filter
open Verif.Iid Verif.UnifSum Verif.WedgeBound Verif.TailLaw Verif.Spec
open scoped ENNReal Real

/-- The value depends on the first `N` members of a sequence only. -/
def DependsTo {β : Type} (N : ℕ) (f : (ℕ → ℝ) → β) : Prop :=
  ∀ u v, (∀ i < N, u i = v i) → f u = f v

theorem lintegral_seq_le {ν γ : Measure ℝ} [IsProbabilityMeasure ν] [IsProbabilityMeasure γ] {c : ℝ≥0∞}
    (hc : c ≠ ∞) (h : ν ≤ c • γ) (N : ℕ) {f : (ℕ → ℝ) → ℝ≥0∞} (hf : Measurable f)
    (hd : DependsTo N f) : ∫⁻ u, f u ∂seq ν ≤ c ^ N * ∫⁻ u, f u ∂seq γ := by
  induction N generalizing f with
  | zero =>
    have e : f = fun _ => f 0 := funext fun u => hd u 0 (by simp)
    rw [e]
    simp
  | succ N ih =>
    have hm : Measurable (Function.uncurry fun x r => f (cons (x, r))) := hf.comp measurable_cons
    have e : ∀ u : ℕ → ℝ, cons (u 0, shift 1 u) = u := by
      intro u
      funext i
      cases i <;> rfl
    have h1 := lintegral_cons ν hm
    have h2 := lintegral_cons γ hm
    simp only [e] at h1 h2
    rw [h1, h2]
    have h3 : ∀ x, ∫⁻ r, f (cons (x, r)) ∂seq ν ≤ c ^ N * ∫⁻ r, f (cons (x, r)) ∂seq γ := by
      intro x
      refine ih (hm.comp (measurable_const.prodMk measurable_id)) fun u v huv => hd _ _ fun i hi => ?_
      cases i with
      | zero => rfl
      | succ i => exact huv i (by omega)
    calc ∫⁻ x, ∫⁻ r, f (cons (x, r)) ∂seq ν ∂ν
        ≤ ∫⁻ x, c ^ N * ∫⁻ r, f (cons (x, r)) ∂seq γ ∂ν := lintegral_mono h3
      _ = c ^ N * ∫⁻ x, ∫⁻ r, f (cons (x, r)) ∂seq γ ∂ν := lintegral_const_mul' _ _ (by finiteness)
      _ ≤ c ^ N * ∫⁻ x, ∫⁻ r, f (cons (x, r)) ∂seq γ ∂(c • γ) := by
        gcongr
      _ = c ^ (N + 1) * ∫⁻ x, ∫⁻ r, f (cons (x, r)) ∂seq γ ∂γ := by
        rw [lintegral_smul_measure, smul_eq_mul, pow_succ, mul_assoc]

theorem lintegral_le_seq {ν γ : Measure ℝ} [IsProbabilityMeasure ν] [IsProbabilityMeasure γ] {c : ℝ≥0∞}
    (hc : c ≠ ∞) (h : c • γ ≤ ν) (N : ℕ) {f : (ℕ → ℝ) → ℝ≥0∞} (hf : Measurable f)
    (hd : DependsTo N f) : c ^ N * ∫⁻ u, f u ∂seq γ ≤ ∫⁻ u, f u ∂seq ν := by
  induction N generalizing f with
  | zero =>
    have e : f = fun _ => f 0 := funext fun u => hd u 0 (by simp)
    rw [e]
    simp
  | succ N ih =>
    have hm : Measurable (Function.uncurry fun x r => f (cons (x, r))) := hf.comp measurable_cons
    have e : ∀ u : ℕ → ℝ, cons (u 0, shift 1 u) = u := by
      intro u
      funext i
      cases i <;> rfl
    have h1 := lintegral_cons ν hm
    have h2 := lintegral_cons γ hm
    simp only [e] at h1 h2
    rw [h1, h2]
    have h3 : ∀ x, c ^ N * ∫⁻ r, f (cons (x, r)) ∂seq γ ≤ ∫⁻ r, f (cons (x, r)) ∂seq ν := by
      intro x
      refine ih (hm.comp (measurable_const.prodMk measurable_id)) fun u v huv => hd _ _ fun i hi => ?_
      cases i with
      | zero => rfl
      | succ i => exact huv i (by omega)
    calc c ^ (N + 1) * ∫⁻ x, ∫⁻ r, f (cons (x, r)) ∂seq γ ∂γ
        = c ^ N * ∫⁻ x, ∫⁻ r, f (cons (x, r)) ∂seq γ ∂(c • γ) := by
          rw [lintegral_smul_measure, smul_eq_mul, pow_succ, mul_assoc]
      _ ≤ c ^ N * ∫⁻ x, ∫⁻ r, f (cons (x, r)) ∂seq γ ∂ν := by
        gcongr
      _ = ∫⁻ x, c ^ N * ∫⁻ r, f (cons (x, r)) ∂seq γ ∂ν := (lintegral_const_mul' _ _ (by finiteness)).symm
      _ ≤ ∫⁻ x, ∫⁻ r, f (cons (x, r)) ∂seq ν ∂ν := lintegral_mono h3

variable {Ω : Type} [MeasurableSpace Ω] {μ : Measure Ω} {ν : Measure ℝ}
  {Z : ℕ → Ω → ℝ}

theorem iid_map (hZ : IidNoise ν μ Z) :
    AEMeasurable (fun ω a => Z a ω) μ ∧ μ.map (fun ω a => Z a ω) = Measure.infinitePi fun _ => ν := by
  have hm : ∀ a, AEMeasurable (Z a) μ := fun a => (hZ.law a).aemeasurable
  refine ⟨aemeasurable_pi_iff.2 hm, ?_⟩
  rw [hZ.indep.map_fun_eq_infinitePi_map₀' hm]
  congr 1
  funext a
  exact (hZ.law a).map_eq

/-- Events that depend on the first `N` numbers have nearly the probability they have for normal
numbers. -/
theorem iid_event (hν : NearNormal ν) (hZ : IidNoise ν μ Z) {N : ℕ} {κ : Type} [Fintype κ]
    {L : (ℕ → ℝ) → κ → ℝ} (hL : Measurable L) (hd : DependsTo N L) {B : Set (κ → ℝ)}
    (hB : MeasurableSet B) :
    ENNReal.ofReal ((1 - 2e-8) ^ N) * seqLaw.map L B ≤ μ {ω | L (fun a => Z a ω) ∈ B} ∧
      μ {ω | L (fun a => Z a ω) ∈ B} ≤ ENNReal.ofReal ((1 + 2e-8) ^ N) * seqLaw.map L B := by
  have := hν.prob
  obtain ⟨hm, hmap⟩ := iid_map hZ
  have hu : ν ≤ ENNReal.ofReal (1 + 2e-8) • gaussianReal 0 1 := Measure.le_iff'.2 hν.upper
  have hl : ENNReal.ofReal (1 - 2e-8) • gaussianReal 0 1 ≤ ν := Measure.le_iff'.2 hν.lower
  have e1 : μ {ω | L (fun a => Z a ω) ∈ B} = seq ν (L ⁻¹' B) := by
    unfold Iid.seq
    rw [← hmap, Measure.map_apply_of_aemeasurable hm (hL hB)]
    rfl
  have e2 : seqLaw.map L B = seq (gaussianReal 0 1) (L ⁻¹' B) := Measure.map_apply hL hB
  have hf : Measurable ((L ⁻¹' B).indicator (1 : (ℕ → ℝ) → ℝ≥0∞)) := measurable_one.indicator (hL hB)
  have hdf : DependsTo N ((L ⁻¹' B).indicator (1 : (ℕ → ℝ) → ℝ≥0∞)) := by
    intro u v huv
    have hi : u ∈ L ⁻¹' B ↔ v ∈ L ⁻¹' B := by
      rw [mem_preimage, mem_preimage, hd u v huv]
    by_cases h : u ∈ L ⁻¹' B
    · rw [indicator_of_mem h, indicator_of_mem (hi.1 h)]; rfl
    · rw [indicator_of_notMem h, indicator_of_notMem fun hc => h (hi.2 hc)]
  have h1 := lintegral_seq_le ENNReal.ofReal_ne_top hu N hf hdf
  have h2 := lintegral_le_seq ENNReal.ofReal_ne_top hl N hf hdf
  rw [lintegral_indicator_one (hL hB), lintegral_indicator_one (hL hB), ← ENNReal.ofReal_pow (by norm_num)]
    at h1 h2
  rw [e1, e2]
  exact ⟨h2, h1⟩

/-- Scaled by their standard deviation the numbers are white noise. -/
theorem iid_white (hν : NearNormal ν) (hZ : IidNoise ν μ Z) :
    0 < ∫ x, x ^ 2 ∂ν ∧ |∫ x, x ^ 2 ∂ν - 1| ≤ 2e-8 ∧
      WhiteNoise μ fun a ω => (√(∫ x, x ^ 2 ∂ν))⁻¹ * Z a ω := by
  have := hν.prob
  have hu : ν ≤ ENNReal.ofReal (1 + 2e-8) • gaussianReal 0 1 := Measure.le_iff'.2 hν.upper
  have hl : ENNReal.ofReal (1 - 2e-8) • gaussianReal 0 1 ≤ ν := Measure.le_iff'.2 hν.lower
  have hb := integral_near_bounds hu hl (integrable_pow 2) fun x => sq_nonneg x
  rw [second_gaussian] at hb
  have h2 : MemLp (fun x : ℝ => x) 2 ν :=
    (memLp_two_iff_integrable_sq (by fun_prop)).2 (integrable_near hu (integrable_pow 2))
  have hp : 0 < ∫ x, x ^ 2 ∂ν := lt_of_lt_of_le (by norm_num) hb.1
  have hm : ∫ x, x ∂ν = 0 := mean_symm hν.symm
  have hZ2 : ∀ a, MemLp (Z a) 2 μ := fun a => by
    have := (hZ.law a).map_eq
    rw [← this] at h2
    exact h2.comp_of_map (hZ.law a).aemeasurable
  have hZ0 : ∀ a, ∫ ω, Z a ω ∂μ = 0 := fun a => by
    rw [(hZ.law a).integral_eq]
    exact hm
  refine ⟨hp, ?_, fun a => (hZ2 a).const_mul _, fun a => ?_, fun a b => ?_⟩
  · rw [abs_le]
    constructor <;> linarith [hb.1, hb.2]
  · rw [integral_const_mul, hZ0, mul_zero]
  · rw [covariance_const_mul_left, covariance_const_mul_right]
    split_ifs with hab
    · subst hab
      rw [covariance_self (hZ.law a).aemeasurable, (hZ.law a).variance_eq,
        variance_eq_integral (by fun_prop)]
      simp only [id_eq, hm, sub_zero]
      have := Real.mul_self_sqrt hp.le
      have hs := (Real.sqrt_pos.2 hp).ne'
      field_simp
      rw [sq, this]
    · rw [(hZ.indep.indepFun hab).covariance_eq_zero (hZ2 a) (hZ2 b)]
      ring

/-- Linear functions of the numbers. -/
theorem nearGaussian_lin [IsProbabilityMeasure μ] (hν : NearNormal ν) (hZ : IidNoise ν μ Z) {κ ι : Type} [Fintype κ]
    (S : Finset ι) (α : κ → ι → ℝ) (f : κ → ι → ℕ) {N : ℕ} (hN : ∀ c, ∀ p ∈ S, f c p < N) {C : κ → κ → ℝ}
    (hC : ∀ (Ω' : Type) [MeasurableSpace Ω'] (μ' : Measure Ω') [IsProbabilityMeasure μ']
      (w : ℕ → Ω' → ℝ), WhiteNoise μ' w → ∀ c c',
      cov[fun ω => ∑ p ∈ S, α c p * w (f c p) ω, fun ω => ∑ p ∈ S, α c' p * w (f c' p) ω; μ'] = C c c') :
    NearGaussian μ (fun c ω => ∑ p ∈ S, α c p * Z (f c p) ω) N C := by
  let L : (ℕ → ℝ) → κ → ℝ := fun w c => ∑ p ∈ S, α c p * w (f c p)
  have hL : Measurable L := by
    refine measurable_pi_iff.2 fun c => Finset.measurable_sum _ fun p _ => ?_
    exact (measurable_pi_apply _).const_mul _
  have hd : DependsTo N L := by
    intro u v huv
    funext c
    exact Finset.sum_congr rfl fun p hp => by rw [huv _ (hN c p hp)]
  have hZm : ∀ c, AEMeasurable (fun ω => ∑ p ∈ S, α c p * Z (f c p) ω) μ := fun c =>
    Finset.aemeasurable_fun_sum _ fun p _ => ((hZ.law _).aemeasurable).const_mul _
  refine ⟨hZm, ⟨seqLaw.map L, ?_, ?_, ?_, fun B hB => iid_event hν hZ hL hd hB⟩, ?_⟩
  · exact (seqLaw_noise.joint S α f).isGaussian_map
  · intro c
    rw [integral_map hL.aemeasurable (measurable_pi_apply c).aestronglyMeasurable]
    exact seqLaw_noise.white.mean_lin S (α c) (f c)
  · intro c c'
    rw [covariance_map (measurable_pi_apply c).aestronglyMeasurable
      (measurable_pi_apply c').aestronglyMeasurable hL.aemeasurable]
    exact hC _ _ _ seqLaw_noise.white c c'
  · obtain ⟨hp, hδ, hw⟩ := iid_white hν hZ
    set s := √(∫ x, x ^ 2 ∂ν) with hs
    have hs0 : s ≠ 0 := (Real.sqrt_pos.2 hp).ne'
    have hss : s * s = ∫ x, x ^ 2 ∂ν := Real.mul_self_sqrt hp.le
    have e : ∀ c, (fun ω => ∑ p ∈ S, α c p * Z (f c p) ω)
        = fun ω => s * ∑ p ∈ S, α c p * (s⁻¹ * Z (f c p) ω) := by
      intro c
      funext ω
      rw [Finset.mul_sum]
      refine Finset.sum_congr rfl fun p _ => ?_
      field_simp
    refine ⟨∫ x, x ^ 2 ∂ν - 1, hδ, fun c => ⟨?_, ?_⟩, fun c c' => ?_⟩
    · rw [e]
      exact (hw.memLp_lin S (α c) (f c)).const_mul s
    · rw [e, integral_const_mul, hw.mean_lin S (α c) (f c), mul_zero]
    · rw [e, e, covariance_const_mul_left, covariance_const_mul_right, hC _ _ _ hw c c', ← mul_assoc, hss]
      ring

end Verif.NormalLaw
