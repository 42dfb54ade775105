import Verif.Model.Distr
import Verif.Spec.Distr
import Verif.Lemmas.Outcome
import Mathlib.MeasureTheory.Integral.IntervalIntegral.FundThmCalculus
import Mathlib.MeasureTheory.Integral.IntervalIntegral.IntegrationByParts
import Mathlib.MeasureTheory.Constructions.BorelSpace.Order

/-! Helper lemmas: values made from one uniform number, distribution functions and densities. -/

namespace Verif.Distr

open Spec MeasureTheory ProbabilityTheory Set Filter

/-- The law of a uniform number. -/
noncomputable abbrev unif : Measure ℝ := volume.restrict (Ico 0 1)

instance : IsProbabilityMeasure unif := ⟨by simp [unif]⟩

theorem ae_unif : ∀ᵐ u ∂unif, 0 < u ∧ u < 1 := by
  have h1 : ∀ᵐ u ∂unif, u ∈ Ico (0 : ℝ) 1 := ae_restrict_mem measurableSet_Ico
  have h2 : ∀ᵐ u ∂unif, u ≠ 0 := by
    exact ae_restrict_of_ae (by rw [ae_iff]; simp)
  filter_upwards [h1, h2] with u hu hu0
  exact ⟨lt_of_le_of_ne hu.1 (Ne.symm hu0), hu.2⟩

/-- Draws that use one uniform number each. -/
theorem drawsHaveLaw_of {α : Type} [MeasurableSpace α]
    {draw : ∀ {σ : Type}, (σ → Res (ℝ × σ)) → σ → Res (α × σ)} {q : ℝ → α} (hq : Measurable q)
    (h : ∀ {σ : Type} (unif : σ → Res (ℝ × σ)) (s s' : σ) (u : ℝ), unif s = .ok (u, s') → 0 < u →
      u < 1 → draw unif s = .ok (q u, s')) :
    DrawsHaveLaw draw (unif.map q) := by
  intro Ω _ μ _ σ un s U hU hs
  refine ⟨fun a ω => q (U a ω), fun a => ?_, ?_, ?_⟩
  · have := (hU.law a)
    refine ⟨hq.comp_aemeasurable this.aemeasurable, ?_⟩
    rw [unif, ← this.map_eq, AEMeasurable.map_map_of_aemeasurable hq.aemeasurable this.aemeasurable]
    rfl
  · exact hU.indep.comp (fun _ => q) fun _ => hq
  · have hr : ∀ᵐ ω ∂μ, ∀ a, 0 < U a ω ∧ U a ω < 1 := by
      rw [ae_all_iff]
      intro a
      have := ae_unif
      rw [unif, ← (hU.law a).map_eq] at this
      exact ae_of_ae_map (hU.law a).aemeasurable this
    filter_upwards [hs, hr] with ω h1 h2
    obtain ⟨S, h0, hS⟩ := h1
    exact ⟨S, h0, fun n => h un _ _ _ (hS n) (h2 n).1 (h2 n).2⟩

theorem drawQuantile_law {α : Type} [MeasurableSpace α] {quantile : ℝ → Res α} {q : ℝ → α}
    (hq : Measurable q) (h : ∀ u, 0 < u → u < 1 → quantile u = .ok (q u)) :
    DrawsHaveLaw (drawQuantile quantile) (unif.map q) := by
  refine drawsHaveLaw_of hq fun un s s' u e h0 h1 => ?_
  unfold drawQuantile
  simp only [Res.monad_bind_eq, e, Res.bind_ok, h u h0 h1]

theorem unif_le {c : ℝ} (h1 : c ≤ 1) : unif (Iic c) = ENNReal.ofReal c := by
  rw [unif, Measure.restrict_apply measurableSet_Iic]
  have : (Iic c ∩ Ico 0 1 : Set ℝ) =ᵐ[volume] Icc 0 c := by
    have hne : ∀ᵐ x : ℝ, x ≠ 1 := by
      rw [ae_iff]
      simp
    filter_upwards [hne] with x hx
    refine propext ?_
    constructor
    · rintro ⟨ha, hb, _⟩
      exact ⟨hb, ha⟩
    · rintro ⟨ha, hb⟩
      exact ⟨hb, ha, lt_of_le_of_ne (hb.trans h1) hx⟩
  rw [measure_congr this, Real.volume_Icc, sub_zero]

/-- The distribution function of a value given by a quantile function. -/
theorem map_Iic {q F : ℝ → ℝ} (hq : Measurable q) {x : ℝ} (h1 : F x ≤ 1)
    (hg : ∀ p, 0 < p → p < 1 → (q p ≤ x ↔ p ≤ F x)) :
    unif.map q (Iic x) = ENNReal.ofReal (F x) := by
  rw [Measure.map_apply hq measurableSet_Iic, ← unif_le h1]
  refine measure_congr ?_
  filter_upwards [ae_unif] with u hu
  exact propext (hg u hu.1 hu.2)

/-- The distribution function of a law with a density. -/
theorem withDensity_Iic {F f : ℝ → ℝ} {a : ℝ} {S : Set ℝ} (hS : S.Countable) (hF : Continuous F)
    (hFa : ∀ x ≤ a, F x = 0) (hd : ∀ x, x ∉ S → HasDerivAt F (f x) x) (hf : Measurable f)
    (h0 : ∀ x, 0 ≤ f x) (hz : ∀ x < a, f x = 0) {C : ℝ} (hC : ∀ x, f x ≤ C) (x : ℝ) :
    (volume.withDensity fun x => ENNReal.ofReal (f x)) (Iic x) = ENNReal.ofReal (F x) := by
  rw [withDensity_apply _ measurableSet_Iic]
  rcases le_or_gt x a with hx | hx
  · rw [hFa x hx, ENNReal.ofReal_zero]
    have : ∀ᵐ y ∂volume.restrict (Iic x), ENNReal.ofReal (f y) = 0 := by
      have hne : ∀ᵐ y : ℝ, y ≠ a := by
        rw [ae_iff]
        simp
      filter_upwards [ae_restrict_mem measurableSet_Iic, ae_restrict_of_ae hne] with y hy hy'
      rw [hz y (lt_of_le_of_ne (le_trans hy hx) hy'), ENNReal.ofReal_zero]
    rw [lintegral_congr_ae this, lintegral_zero]
  · have e : ∫⁻ y in Iic x, ENNReal.ofReal (f y) = ∫⁻ y in Ioc a x, ENNReal.ofReal (f y) := by
      rw [← Iic_union_Ioc_eq_Iic hx.le, lintegral_union measurableSet_Ioc
        (by rw [Set.disjoint_iff]; rintro y ⟨h1, h2⟩; exact absurd h2.1 (not_lt.2 h1))]
      have : ∀ᵐ y ∂volume.restrict (Iic a), ENNReal.ofReal (f y) = 0 := by
        have hne : ∀ᵐ y : ℝ, y ≠ a := by
          rw [ae_iff]
          simp
        filter_upwards [ae_restrict_mem measurableSet_Iic, ae_restrict_of_ae hne] with y hy hy'
        rw [hz y (lt_of_le_of_ne hy hy'), ENNReal.ofReal_zero]
      rw [lintegral_congr_ae this, lintegral_zero, zero_add]
    have hi : IntegrableOn f (Ioc a x) := by
      refine Measure.integrableOn_of_bounded (M := C) (by simp) hf.aestronglyMeasurable ?_
      exact Eventually.of_forall fun y => by rw [Real.norm_of_nonneg (h0 y)]; exact hC y
    rw [e, ← ofReal_integral_eq_lintegral_ofReal hi (Eventually.of_forall h0),
      ← intervalIntegral.integral_of_le hx.le]
    rw [MeasureTheory.integral_eq_of_hasDerivAt_off_countable_of_le F f hx.le hS
      hF.continuousOn (fun y hy => hd y hy.2)
      ((intervalIntegrable_iff_integrableOn_Ioc_of_le hx.le).2 hi), hFa a le_rfl, sub_zero]

section

variable {quantile cdf : ℝ → Res ℝ} {q F : ℝ → ℝ}

theorem cdfOf (hq : Measurable q) (hF0 : ∀ x, 0 ≤ F x) (hF1 : ∀ x, F x ≤ 1)
    (hg : ∀ p x, 0 < p → p ≤ 1 → (q p ≤ x ↔ p ≤ F x)) (hc : ∀ x, cdf x = .ok (F x)) :
    CdfOf (unif.map q) cdf := by
  intro x
  rw [hc, Measure.real, map_Iic hq (hF1 x) fun p h0 h1 => hg p x h0 h1.le,
    ENNReal.toReal_ofReal (hF0 x)]

theorem quantileOf (hq : Measurable q) (hF0 : ∀ x, 0 ≤ F x) (hF1 : ∀ x, F x ≤ 1)
    (hg : ∀ p x, 0 < p → p ≤ 1 → (q p ≤ x ↔ p ≤ F x))
    (hqu : ∀ p, 0 < p → p ≤ 1 → quantile p = .ok (q p)) :
    QuantileOf (unif.map q) quantile := by
  intro p h0 h1
  have e : ∀ x, (unif.map q).real (Iic x) = F x := fun x => by
    rw [Measure.real, map_Iic hq (hF1 x) fun p h0 h1 => hg p x h0 h1.le,
      ENNReal.toReal_ofReal (hF0 x)]
  refine ⟨q p, hqu p h0 h1, ?_, fun x hx => ?_⟩
  · show p ≤ _
    rw [e]
    exact (hg p _ h0 h1).1 le_rfl
  · have hx : p ≤ _ := hx
    rw [e] at hx
    exact (hg p x h0 h1).2 hx

theorem densityOf {pdf : ℝ → Res ℝ} {f : ℝ → ℝ} (hq : Measurable q) (hF1 : ∀ x, F x ≤ 1)
    (hg : ∀ p x, 0 < p → p ≤ 1 → (q p ≤ x ↔ p ≤ F x))
    (hp : ∀ x, pdf x = .ok (f x)) {a : ℝ} {S : Set ℝ} (hS : S.Countable) (hF : Continuous F)
    (hFa : ∀ x ≤ a, F x = 0) (hd : ∀ x, x ∉ S → HasDerivAt F (f x) x) (hf : Measurable f)
    (h0 : ∀ x, 0 ≤ f x) (hz : ∀ x < a, f x = 0) {C : ℝ} (hC : ∀ x, f x ≤ C) :
    DensityOf (unif.map q) pdf := by
  have : IsProbabilityMeasure (unif.map q) := Measure.isProbabilityMeasure_map hq.aemeasurable
  refine ⟨f, hf, h0, hp, Measure.ext_of_Iic _ _ fun x => ?_⟩
  rw [map_Iic hq (hF1 x) fun p h0 h1 => hg p x h0 h1.le,
    withDensity_Iic hS hF hFa hd hf h0 hz hC x]

end

end Verif.Distr
