import Verif.Spec.NormalLaw
import Verif.Lemmas.NormalStream
import Mathlib.Probability.Independence.InfinitePi

/-!
# C63: the law of the normal numbers

`Norm01` is run with a source of uniform numbers. If these are independent and uniform on [0, 1),
the normal numbers are independent, and their common law is close to the standard normal law.
-/

namespace Verif

open Spec MeasureTheory ProbabilityTheory Filter

/-! ## Specification -/

/-- "The normal numbers are independent with law `ν`": for every generator whose uniform numbers are
independent and uniform on [0, 1), whatever its state is like, successive calls of `Norm01` return,
with probability one, and give independent numbers of this law. -/
def NormalsHaveLaw (ν : Measure ℝ) : Prop :=
  ∀ (Ω : Type) [MeasurableSpace Ω] (μ : Measure Ω) [IsProbabilityMeasure μ] (σ : Type)
    (unif : σ → Res (ℝ × σ)) (s : Ω → σ) (U : ℕ → Ω → ℝ),
    UniformNoise μ U → (∀ᵐ ω ∂μ, Streams unif (s ω) fun a => U a ω) →
    ∃ Z : ℕ → Ω → ℝ, IidNoise ν μ Z ∧
      (∀ᵐ ω ∂μ, Streams (Random.norm01With unif) (s ω) fun a => Z a ω) ∧
      ∀ᵐ ω ∂μ, Streams (RandomGenerator.norm01With unif) (s ω) fun a => Z a ω

/-- Such generators exist: the sequences of uniform numbers are the states. -/
theorem uniform_exists : UniformNoise (Iid.seq UnifSum.unif) (fun a ω => ω a) ∧
    ∀ᵐ ω ∂Iid.seq UnifSum.unif, Streams seqDraw ω fun a => ω a :=
  ⟨⟨fun a => ⟨(measurable_pi_apply a).aemeasurable, Measure.infinitePi_map_eval _ a⟩,
    iIndepFun_infinitePi (X := fun _ x => x) fun _ => measurable_id⟩,
    Eventually.of_forall seqDraw_streams⟩

/-! ## C63 -/

theorem normal_law_aux : NormalsHaveLaw NormalLaw.law := by
  intro Ω _ μ _ σ unif s U hU hs
  have hmU : ∀ a, AEMeasurable (U a) μ := fun a => (hU.law a).aemeasurable
  have hm : AEMeasurable (fun ω a => U a ω) μ := aemeasurable_pi_iff.2 hmU
  have hmap : μ.map (fun ω a => U a ω) = Iid.seq UnifSum.unif := by
    rw [hU.indep.map_fun_eq_infinitePi_map₀' hmU]
    unfold Iid.seq
    congr 1
    funext a
    exact (hU.law a).map_eq
  have hr := Iid.measurable_results NormalLaw.fresh.measurable
  let Z : ℕ → Ω → ℝ := fun a ω => Iid.results NormalLaw.prog (fun i => U i ω) a
  have hZ : μ.map (fun ω a => Z a ω) = Iid.seq NormalLaw.law := by
    rw [← NormalLaw.fresh.map_results, ← hmap, AEMeasurable.map_map_of_aemeasurable hr.aemeasurable hm]
    rfl
  have hmZ : AEMeasurable (fun ω a => Z a ω) μ := hr.comp_aemeasurable hm
  have hZa : ∀ a, AEMeasurable (Z a) μ := fun a => (measurable_pi_apply a).comp_aemeasurable hmZ
  have hlaw : ∀ a, μ.map (Z a) = NormalLaw.law := by
    intro a
    have : μ.map (Z a) = (μ.map fun ω a => Z a ω).map (fun z => z a) := by
      rw [AEMeasurable.map_map_of_aemeasurable (measurable_pi_apply a).aemeasurable hmZ]
      rfl
    rw [this, hZ]
    exact Measure.infinitePi_map_eval _ a
  have hst : ∀ᵐ ω ∂μ, Streams (Random.norm01With unif) (s ω) fun a => Z a ω := by
    have hg : ∀ᵐ ω ∂μ, ∀ n, NormalLaw.Good (Iid.rest NormalLaw.prog n fun i => U i ω) := by
      have := NormalLaw.ae_good_all
      rw [← hmap] at this
      exact ae_of_ae_map hm this
    filter_upwards [hs, hg] with ω h1 h2
    exact NormalLaw.streams_results h1 h2
  refine ⟨Z, ⟨fun a => ⟨hZa a, hlaw a⟩, ?_⟩, hst, hst⟩
  rw [iIndepFun_iff_map_fun_eq_infinitePi_map₀' hZa, hZ]
  unfold Iid.seq
  congr 1
  funext a
  exact (hlaw a).symm

/-- The normal numbers are independent and have one law, which on every event is within a factor of
1 ± 2·10⁻⁸ of the standard normal law. -/
theorem normal_law : ∃ ν : Measure ℝ, NearNormal ν ∧ NormalsHaveLaw ν :=
  ⟨NormalLaw.law, ⟨inferInstance, fun A => NormalLaw.law_le A, fun A => NormalLaw.le_law A,
    NormalLaw.law_neg⟩, normal_law_aux⟩

/-- There is only one such law. -/
theorem normal_law_unique {ν ν' : Measure ℝ} (h : NormalsHaveLaw ν) (h' : NormalsHaveLaw ν') :
    ν = ν' := by
  obtain ⟨hU, hs⟩ := uniform_exists
  obtain ⟨Z, h1, h2, _⟩ := h _ _ _ _ _ _ hU hs
  obtain ⟨Z', h1', h2', _⟩ := h' _ _ _ _ _ _ hU hs
  rw [← (h1.law 0).map_eq, ← (h1'.law 0).map_eq]
  refine Measure.map_congr ?_
  filter_upwards [h2, h2'] with ω a b
  exact congrFun (Random.streams_unique a b) 0

/-- It is not the normal law itself: numbers beyond ±3 have the probability 0.0026997961, which is too
large. -/
theorem normal_law_inexact {ν : Measure ℝ} (h : NormalsHaveLaw ν) :
    ν {x | 3 < |x|} = ENNReal.ofReal 0.0026997961 ∧
      gaussianReal 0 1 {x | 3 < |x|} < ν {x | 3 < |x|} := by
  rw [normal_law_unique h normal_law_aux]
  have e : NormalLaw.law {x | 3 < |x|} = ENNReal.ofReal 0.0026997961 := NormalLaw.law_far
  exact ⟨e, by rw [e]; exact NormalLaw.gaussian_far⟩

/-- What the bounds say of the moments: all exist, the mean is 0, and the variance is 1 up to
2·10⁻⁸. -/
theorem nearNormal_moments {ν : Measure ℝ} (h : NearNormal ν) :
    (∀ n : ℕ, Integrable (fun x => x ^ n) ν) ∧ ∫ x, x ∂ν = 0 ∧ |∫ x, x ^ 2 ∂ν - 1| ≤ 2e-8 := by
  have hu : ν ≤ ENNReal.ofReal (1 + 2e-8) • gaussianReal 0 1 := Measure.le_iff'.2 h.upper
  have hl : ENNReal.ofReal (1 - 2e-8) • gaussianReal 0 1 ≤ ν := Measure.le_iff'.2 h.lower
  refine ⟨fun n => NormalLaw.integrable_near hu (NormalLaw.integrable_pow n),
    NormalLaw.mean_symm h.symm, ?_⟩
  have hb := NormalLaw.integral_near_bounds hu hl (NormalLaw.integrable_pow 2) fun x => sq_nonneg x
  rw [NormalLaw.second_gaussian] at hb
  rw [abs_le]
  constructor <;> linarith [hb.1, hb.2]

end Verif
