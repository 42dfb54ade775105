import Verif.Lemmas.DistrCond
import Mathlib.MeasureTheory.Measure.WithDensity

/-! Helper lemmas: the laws of the continuous distributions by their density. -/

namespace Verif.Distr

open Spec MeasureTheory ProbabilityTheory Set Filter Topology

theorem density_eq {ν : Measure ℝ} {pdf : ℝ → Res ℝ} (h : DensityOf ν pdf) {g : ℝ → ℝ} {S : Set ℝ}
    (hS : S.Finite) (hg : ∀ x ∉ S, pdf x = .ok (g x)) :
    ν = volume.withDensity fun x => ENNReal.ofReal (g x) := by
  obtain ⟨f, hf, _, hp, rfl⟩ := h
  refine withDensity_congr_ae ?_
  have : ∀ᵐ x : ℝ, x ∉ S := (hS.measure_zero volume : volume S = 0) |> fun h => by
    rw [ae_iff]; simpa using h
  filter_upwards [this] with x hx
  have := (hp x).symm.trans (hg x hx)
  rw [Res.ok.inj this]

theorem uniformLaw_eq {a b : ℝ} (hab : a < b) : unif.map (fun p => a + p * (b - a)) = uniformLaw a b := by
  have h := uniform_describes hab ⟨a, b⟩ rfl rfl
  have hb : 0 < b - a := by linarith
  rw [density_eq h.pdf (g := fun x => (Icc a b).indicator (fun _ => 1 / (b - a)) x) (S := ∅) (by simp)]
  · have : (fun x => ENNReal.ofReal ((Icc a b).indicator (fun _ => 1 / (b - a)) x))
        = (Icc a b).indicator fun _ => (volume (Icc a b))⁻¹ := by
      funext x
      by_cases hx : x ∈ Icc a b
      · rw [indicator_of_mem hx, indicator_of_mem hx, Real.volume_Icc, ← ENNReal.ofReal_inv_of_pos hb,
          one_div]
      · rw [indicator_of_notMem hx, indicator_of_notMem hx, ENNReal.ofReal_zero]
    rw [this, withDensity_indicator measurableSet_Icc, withDensity_const]
    rfl
  · intro x _
    unfold Uniform.pdf
    by_cases hx : x ∈ Icc a b
    · rw [if_pos (show x ≥ a ∧ x ≤ b from hx), indicator_of_mem hx, fdiv_ok hb.ne', lit.2.1]
    · rw [if_neg (show ¬ (x ≥ a ∧ x ≤ b) from hx), indicator_of_notMem hx, lit.1]

theorem uniformLaw_Iic {a b : ℝ} (hab : a < b) (x : ℝ) :
    uniformLaw a b (Iic x) = ENNReal.ofReal (uF a b x) := by
  rw [← uniformLaw_eq hab]
  exact map_Iic (by fun_prop) (max_le zero_le_one (min_le_left _ _))
    fun p h0 h1 => uniform_galois hab h0 h1.le

theorem triangularLaw_eq {a m b : ℝ} (hab : a < b) (ham : a ≤ m) (hmb : m ≤ b) :
    unif.map (tq a m b) = triangularLaw a m b := by
  have h := tri_describes hab ham hmb ⟨a, m, b⟩ rfl
  have hb : 0 < b - a := by linarith
  refine density_eq h.pdf (S := {a, m, b}) (Set.toFinite _) fun x hx => ?_
  simp only [mem_insert_iff, mem_singleton_iff, not_or] at hx
  unfold Triangular.pdf
  simp only [lit.1, lit.2.2.1, gt_iff_lt, hx.1, hx.2.2, if_false]
  by_cases h1 : x < a ∨ b < x
  · rw [if_pos h1, if_pos h1]
  rw [if_neg h1, if_neg h1]
  push Not at h1
  by_cases h2 : x < m
  · have : a < m := by linarith [h1.1]
    rw [if_pos h2, if_pos h2.le, fdiv_ok (mul_pos (by linarith) hb).ne']
    congr 1
    rw [div_mul_div_comm, mul_comm (b - a)]
  · have h3 : m < x := lt_of_le_of_ne (not_lt.1 h2) (Ne.symm hx.2.1)
    rw [if_neg h2, if_neg (not_le.2 h3), fdiv_ok (mul_pos (by linarith [h1.2]) hb).ne']
    congr 1
    rw [div_mul_div_comm, mul_comm (b - a)]

theorem splitUniformLaw_eq {a m b : ℝ} (ham : a < m) (hmb : m < b) :
    unif.map (sq' a m b) = splitUniformLaw a m b := by
  have hq : Measurable (sq' a m b) := by
    unfold sq'
    exact Measurable.ite measurableSet_Iic (by fun_prop) (by fun_prop)
  have hu0 : ∀ a b x, 0 ≤ uF a b x := fun a b x => le_max_left _ _
  have hu1 : ∀ a b x, uF a b x ≤ 1 := fun a b x => max_le zero_le_one (min_le_left _ _)
  have : IsProbabilityMeasure (unif.map (sq' a m b)) := Measure.isProbabilityMeasure_map hq.aemeasurable
  refine Measure.ext_of_Iic _ _ fun x => ?_
  rw [map_Iic (F := sF a m b) hq (by unfold sF; linarith [hu1 a m x, hu1 m b x])
    fun p h0 h1 => split_galois ham hmb h0 h1.le]
  unfold splitUniformLaw sF
  rw [Measure.add_apply, Measure.smul_apply, Measure.smul_apply, uniformLaw_Iic ham, uniformLaw_Iic hmb,
    ENNReal.ofReal_add (by linarith [hu0 a m x]) (by linarith [hu0 m b x]), smul_eq_mul, smul_eq_mul]
  have e : ∀ y : ℝ, ENNReal.ofReal (y / 2) = 1 / 2 * ENNReal.ofReal y := fun y => by
    rw [div_eq_inv_mul, ENNReal.ofReal_mul (by norm_num), ENNReal.ofReal_inv_of_pos (by norm_num)]
    simp
  rw [e, e]

theorem fractalLaw_eq {a b e : ℝ} (ha : 0 < a) (hab : a < b) (he : 0 < e) :
    unif.map (fq a b e) = fractalLaw a b e := by
  have h := frac_describes ha hab he _ rfl
  have hlt := frac_lt ha hab he
  have hd : a ^ (-e) - b ^ (-e) ≠ 0 := by intro h; linarith
  refine density_eq h.pdf (S := ∅) (by simp) fun x _ => ?_
  unfold Fractal.pdf
  simp only [lit.1, lit.2.1, gt_iff_lt, Res.monad_bind_eq, fdiv_ok hd, Res.bind_ok]
  by_cases hx : a < x ∧ x < b
  · rw [if_pos hx, if_pos hx, fpow_ok (by linarith [hx.1]), Res.bind_ok]
  · rw [if_neg hx, if_neg hx]

/-- The part of a law below a quantile. -/
theorem cond_below {q : ℝ → ℝ} (hq : Measurable q) (hmono : StrictMonoOn q (Icc 0 1)) (r : ℝ) :
    (unif.map q)[|Ioc (q 0) r] = (unif.map q)[|Iic r] := by
  have hpre : (Ioc (q 0) r : Set ℝ) =ᵐ[unif.map q] Iic r := by
    refine (ae_map_iff hq.aemeasurable
      (by
        have : {x | Ioc (q 0) r x = Iic r x} = (Ioc (q 0) r ∩ Iic r) ∪ (Iic r)ᶜ := by
          ext x
          show (x ∈ Ioc (q 0) r) = (x ∈ Iic r) ↔ _
          simp only [eq_iff_iff, mem_union, mem_inter_iff, mem_compl_iff, mem_Ioc, mem_Iic]
          tauto
        rw [this]
        exact (measurableSet_Ioc.inter measurableSet_Iic).union measurableSet_Iic.compl)).2 ?_
    filter_upwards [ae_unif] with u hu
    refine propext ?_
    show q 0 < q u ∧ q u ≤ r ↔ q u ≤ r
    have : q 0 < q u := (hmono.lt_iff_lt ⟨le_rfl, zero_le_one⟩ ⟨hu.1.le, hu.2.le⟩).2 hu.1
    tauto
  rw [ProbabilityTheory.cond, ProbabilityTheory.cond, measure_congr hpre, Measure.restrict_congr_set hpre]

/-- The mass between two quantiles. -/
theorem map_Ioc {q : ℝ → ℝ} (hq : Measurable q) (hmono : StrictMonoOn q (Icc 0 1)) {l r : ℝ}
    (hl : 0 ≤ l) (hlr : l ≤ r) (hr : r ≤ 1) :
    (unif.map q) (Ioc (q l) (q r)) = ENNReal.ofReal (r - l) := by
  have hpre : (q ⁻¹' Ioc (q l) (q r) : Set ℝ) =ᵐ[unif] Ioc l r := by
    filter_upwards [ae_unif] with u hu
    refine propext ?_
    have hu' : u ∈ Icc (0 : ℝ) 1 := ⟨hu.1.le, hu.2.le⟩
    show q l < q u ∧ q u ≤ q r ↔ l < u ∧ u ≤ r
    rw [hmono.lt_iff_lt ⟨hl, by linarith⟩ hu', hmono.le_iff_le hu' ⟨by linarith, hr⟩]
  rw [Measure.map_apply hq measurableSet_Ioc, measure_congr hpre, unif_Ioc hl hr]

theorem map_Ioi {q : ℝ → ℝ} (hq : Measurable q) (hmono : StrictMonoOn q (Icc 0 1)) {l : ℝ}
    (hl : 0 ≤ l) (hl1 : l ≤ 1) : (unif.map q) (Ioi (q l)) = ENNReal.ofReal (1 - l) := by
  rw [← unif_Ioc hl le_rfl, Measure.map_apply hq measurableSet_Ioi]
  refine measure_congr ?_
  filter_upwards [ae_unif] with u hu
  refine propext ?_
  show q l < q u ↔ l < u ∧ u ≤ 1
  rw [hmono.lt_iff_lt ⟨hl, hl1⟩ ⟨hu.1.le, hu.2.le⟩, and_iff_left hu.2.le]

/-- Quantiles of the part above a quantile. -/
theorem cond_quantile {q : ℝ → ℝ} (hq : Measurable q) (hmono : StrictMonoOn q (Icc 0 1)) {t qu : ℝ}
    (h0 : 0 ≤ t) (h1 : t < 1) (hq0 : 0 ≤ qu) (hq1 : qu ≤ 1) :
    ((unif.map q)[|Ioi (q t)]).real (Iic (q (t + qu * (1 - t)))) = qu := by
  have hd : 0 < 1 - t := by linarith
  rw [Measure.real, cond_apply measurableSet_Ioi, Ioi_inter_Iic, map_Ioi hq hmono h0 h1.le,
    map_Ioc hq hmono h0 (by nlinarith) (by nlinarith), ← ENNReal.ofReal_inv_of_pos hd,
    ← ENNReal.ofReal_mul (by positivity), ENNReal.toReal_ofReal (by
      refine mul_nonneg (by positivity) ?_
      nlinarith)]
  field_simp
  ring

/-- Every value of the range is a quantile. -/
theorem frac_surj {a b e x : ℝ} (ha : 0 < a) (hab : a < b) (he : 0 < e) (h0 : a ≤ x) (h1 : x < b) :
    ∃ t, 0 ≤ t ∧ t < 1 ∧ fq a b e t = x := by
  have hlt := frac_lt ha hab he
  have hd : 0 < a ^ (-e) - b ^ (-e) := by linarith
  have hx : 0 < x := by linarith
  have hxa : x ^ (-e) ≤ a ^ (-e) := Real.rpow_le_rpow_of_nonpos ha h0 (by linarith)
  have hxb : b ^ (-e) < x ^ (-e) := Real.rpow_lt_rpow_of_neg hx h1 (by linarith)
  refine ⟨(a ^ (-e) - x ^ (-e)) / (a ^ (-e) - b ^ (-e)), div_nonneg (by linarith) hd.le, ?_, ?_⟩
  · rw [div_lt_one hd]
    linarith
  · unfold fq
    have : (1 - (a ^ (-e) - x ^ (-e)) / (a ^ (-e) - b ^ (-e))) * a ^ (-e)
        + (a ^ (-e) - x ^ (-e)) / (a ^ (-e) - b ^ (-e)) * b ^ (-e) = x ^ (-e) := by
      field_simp
      ring
    rw [this, ← Real.rpow_mul hx.le, show -e * (-1 / e) = 1 by field_simp, Real.rpow_one]

end Verif.Distr
