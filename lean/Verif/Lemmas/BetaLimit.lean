import Verif.Lemmas.BetaLaw
import Mathlib.MeasureTheory.Integral.DominatedConvergence

/-! Helper lemmas: with more and more cells the beta law in cells tends to the beta law. -/

namespace Verif.BetaD

open Real Finset MeasureTheory ProbabilityTheory Spec Filter Topology

variable {a b : ℝ} {n : ℕ}

/-- The density in cells, on [0, 1), up to a factor. -/
noncomputable def step (a b : ℝ) (n : ℕ) (t : ℝ) : ℝ :=
  ∑ i ∈ range n, Set.indicator (Set.Ico ((i : ℝ) / n) (((i : ℝ) + 1) / n)) (fun _ => wt a b n i) t

theorem step_eq (hn : 0 < n) {t : ℝ} (h0 : 0 ≤ t) (h1 : t < 1) : step a b n t = wt a b n ⌊n * t⌋₊ := by
  have hnr : (0 : ℝ) < n := by exact_mod_cast hn
  have hk : ⌊(n : ℝ) * t⌋₊ < n := by
    rw [Nat.floor_lt (by positivity)]
    nlinarith
  have e1 := Nat.floor_le (show 0 ≤ (n : ℝ) * t by positivity)
  have e2 := Nat.lt_floor_add_one ((n : ℝ) * t)
  unfold step
  rw [sum_eq_single_of_mem _ (mem_range.2 hk)]
  · rw [Set.indicator_of_mem]
    constructor
    · rw [div_le_iff₀ hnr]
      linarith
    · rw [lt_div_iff₀ hnr]
      linarith
  · intro i _ hne
    rw [Set.indicator_of_notMem]
    rintro ⟨h2, h3⟩
    refine hne ?_
    rw [div_le_iff₀ hnr, mul_comm] at h2
    rw [lt_div_iff₀ hnr, mul_comm] at h3
    exact ((Nat.floor_eq_iff (by positivity)).2 ⟨h2, h3⟩).symm

theorem step_zero (hn : 0 < n) {t : ℝ} (h : t < 0 ∨ 1 ≤ t) : step a b n t = 0 := by
  have hnr : (0 : ℝ) < n := by exact_mod_cast hn
  refine sum_eq_zero fun i hi => Set.indicator_of_notMem ?_ _
  rintro ⟨h2, h3⟩
  have hi' : (i : ℝ) + 1 ≤ n := by exact_mod_cast mem_range.1 hi
  rcases h with h | h
  · have : 0 ≤ (i : ℝ) / n := by positivity
    linarith
  · have : ((i : ℝ) + 1) / n ≤ 1 := by rwa [div_le_one hnr]
    linarith

theorem step_meas (a b : ℝ) (n : ℕ) : Measurable (step a b n) := by
  unfold step
  refine Finset.measurable_fun_sum _ fun i _ => ?_
  exact measurable_const.indicator measurableSet_Ico

theorem vol_clamp (hn : 0 < n) (i : ℕ) (t : ℝ) :
    volume.real (Set.Ico ((i : ℝ) / n) (((i : ℝ) + 1) / n) ∩ Set.Iic t) = max 0 (min 1 (n * t - i)) / n := by
  have hnr : (0 : ℝ) < n := by exact_mod_cast hn
  have hw : ((i : ℝ) + 1) / n - i / n = 1 / n := by field_simp; ring
  rcases lt_or_ge t ((i : ℝ) / n) with h | h
  · have : Set.Ico ((i : ℝ) / n) (((i : ℝ) + 1) / n) ∩ Set.Iic t = ∅ := by
      ext x
      simp only [Set.mem_inter_iff, Set.mem_Ico, Set.mem_Iic, Set.mem_empty_iff_false, iff_false]
      intro h1
      linarith [h1.1.1, h1.2]
    rw [this, measureReal_empty, max_eq_left, zero_div]
    rw [lt_div_iff₀ hnr] at h
    exact (min_le_right _ _).trans (by linarith)
  · have h' : (i : ℝ) ≤ n * t := by
      rw [div_le_iff₀ hnr] at h
      linarith
    rcases lt_or_ge t (((i : ℝ) + 1) / n) with h2 | h2
    · have : Set.Ico ((i : ℝ) / n) (((i : ℝ) + 1) / n) ∩ Set.Iic t = Set.Icc ((i : ℝ) / n) t := by
        ext x
        simp only [Set.mem_inter_iff, Set.mem_Ico, Set.mem_Iic, Set.mem_Icc]
        constructor
        · rintro ⟨⟨h3, _⟩, h5⟩
          exact ⟨h3, h5⟩
        · rintro ⟨h3, h4⟩
          exact ⟨⟨h3, by linarith⟩, h4⟩
      rw [lt_div_iff₀ hnr] at h2
      rw [this, Real.volume_real_Icc_of_le h, min_eq_right (by linarith), max_eq_right (by linarith)]
      field_simp
    · have : Set.Ico ((i : ℝ) / n) (((i : ℝ) + 1) / n) ∩ Set.Iic t = Set.Ico ((i : ℝ) / n) (((i : ℝ) + 1) / n) := by
        refine Set.inter_eq_left.2 fun x hx => ?_
        exact le_trans hx.2.le h2
      rw [div_le_iff₀ hnr] at h2
      rw [this, Real.volume_real_Ico_of_le (by gcongr; linarith), hw, min_eq_left (by linarith), max_eq_right zero_le_one]

theorem step_integral (hn : 0 < n) (t : ℝ) :
    ∫ x, (Set.Iic t).indicator (step a b n) x = (∑ i ∈ range n, wt a b n i * max 0 (min 1 (n * t - i))) / n := by
  have e : ∀ x, (Set.Iic t).indicator (step a b n) x = ∑ i ∈ range n,
      Set.indicator (Set.Ico ((i : ℝ) / n) (((i : ℝ) + 1) / n) ∩ Set.Iic t) (fun _ => wt a b n i) x := by
    intro x
    by_cases hx : x ∈ Set.Iic t
    · rw [Set.indicator_of_mem hx]
      refine sum_congr rfl fun i _ => ?_
      by_cases h2 : x ∈ Set.Ico ((i : ℝ) / n) (((i : ℝ) + 1) / n)
      · rw [Set.indicator_of_mem h2, Set.indicator_of_mem (show x ∈ Set.Ico ((i : ℝ) / n) (((i : ℝ) + 1) / n) ∩ Set.Iic t from ⟨h2, hx⟩)]
      · rw [Set.indicator_of_notMem h2, Set.indicator_of_notMem fun h => h2 h.1]
    · rw [Set.indicator_of_notMem hx]
      refine (sum_eq_zero fun i _ => ?_).symm
      rw [Set.indicator_of_notMem fun h => hx h.2]
  simp only [e]
  rw [integral_finsetSum]
  · rw [sum_div]
    refine sum_congr rfl fun i _ => ?_
    rw [integral_indicator_const _ (measurableSet_Ico.inter measurableSet_Iic), vol_clamp hn, smul_eq_mul]
    ring
  · intro i _
    refine (integrable_indicator_iff (measurableSet_Ico.inter measurableSet_Iic)).2 ?_
    refine integrableOn_const (ne_of_lt ?_) (by simp)
    exact (measure_mono Set.inter_subset_left).trans_lt (by rw [Real.volume_Ico]; exact ENNReal.ofReal_lt_top)

/-- The law in cells on the unit interval. -/
theorem cell_ratio (hn : 0 < n) (t : ℝ) :
    ∑ i ∈ range n, prob a b n i * max 0 (min 1 (n * t - i)) =
      (∫ x, (Set.Iic t).indicator (step a b n) x) / ∫ x, (Set.Iic (1 : ℝ)).indicator (step a b n) x := by
  have hnr : (0 : ℝ) < n := by exact_mod_cast hn
  have hW := total_pos (a := a) (b := b) hn
  rw [step_integral hn, step_integral hn]
  have e : ∑ i ∈ range n, wt a b n i * max 0 (min 1 ((n : ℝ) * 1 - i)) = ∑ i ∈ range n, wt a b n i := by
    refine sum_congr rfl fun i hi => ?_
    have hi' : (i : ℝ) + 1 ≤ n := by exact_mod_cast mem_range.1 hi
    rw [min_eq_left (by linarith), max_eq_right zero_le_one, mul_one]
  rw [e, div_div_div_cancel_right₀ hnr.ne', sum_div]
  refine sum_congr rfl fun i _ => ?_
  unfold prob
  ring

/-! ## Dominated convergence -/

theorem pow_bound {c t e : ℝ} (ht : 0 < t) (hc1 : c ≤ 1) (htc : t / 2 ≤ c) :
    c ^ e ≤ 2 ^ |e| * t ^ (min e 0) := by
  have hc : 0 < c := by linarith
  rcases le_or_gt 0 e with h | h
  · rw [min_eq_right h, rpow_zero, mul_one]
    exact (rpow_le_one hc.le hc1 h).trans (one_le_rpow (by norm_num) (abs_nonneg e))
  · rw [min_eq_left h.le, abs_of_neg h]
    have h1 : c ^ e ≤ (t / 2) ^ e := rpow_le_rpow_of_nonpos (by linarith) htc h.le
    rwa [div_rpow ht.le (by norm_num), div_eq_mul_inv, ← rpow_neg (by norm_num), mul_comm] at h1

/-- The bound. -/
noncomputable def bound (a b t : ℝ) : ℝ :=
  2 ^ |a - 1| * 2 ^ |b - 1| * beta (min (a - 1) 0 + 1) (min (b - 1) 0 + 1) *
    betaPDFReal (min (a - 1) 0 + 1) (min (b - 1) 0 + 1) t

theorem beta_integrable (ha : 0 < a) (hb : 0 < b) : Integrable (betaPDFReal a b) := by
  refine ⟨(stronglyMeasurable_betaPDFReal a b).aestronglyMeasurable, ?_⟩
  have h := lintegral_betaPDF_eq_one ha hb
  have hnn : ∀ x, 0 ≤ betaPDFReal a b x := by
    intro x
    by_cases hx : 0 < x ∧ x < 1
    · exact (betaPDFReal_pos hx.1 hx.2 ha hb).le
    · rw [betaPDFReal, if_neg hx]
  unfold HasFiniteIntegral
  rw [show ∫⁻ x, ‖betaPDFReal a b x‖ₑ = ∫⁻ x, betaPDF a b x from lintegral_congr fun x => by
    rw [Real.enorm_of_nonneg (hnn x)]; rfl, h]
  exact ENNReal.one_lt_top

theorem bound_integrable (ha : 0 < a) (hb : 0 < b) : Integrable (bound a b) := by
  have : ∀ e : ℝ, 0 < e → 0 < min (e - 1) 0 + 1 := by
    intro e he
    rcases min_choice (e - 1) 0 with h | h <;> rw [h] <;> linarith
  exact (beta_integrable (this a ha) (this b hb)).const_mul _

theorem step_bound (ha : 0 < a) (hb : 0 < b) (hn : 0 < n) {t : ℝ} (h0 : t ≠ 0) : ‖step a b n t‖ ≤ bound a b t := by
  have hpos : ∀ e : ℝ, 0 < e → 0 < min (e - 1) 0 + 1 := by
    intro e he
    rcases min_choice (e - 1) 0 with h | h <;> rw [h] <;> linarith
  have hnr : (0 : ℝ) < n := by exact_mod_cast hn
  by_cases ht : 0 < t ∧ t < 1
  · obtain ⟨ht0, ht1⟩ := ht
    rw [step_eq hn ht0.le ht1]
    have hk : ⌊(n : ℝ) * t⌋₊ < n := by
      rw [Nat.floor_lt (by positivity)]
      nlinarith
    have e1 := Nat.floor_le (show 0 ≤ (n : ℝ) * t by positivity)
    have e2 := Nat.lt_floor_add_one ((n : ℝ) * t)
    have hc := centre hk
    rw [Real.norm_of_nonneg (wt_pos hk).le]
    unfold wt dens
    set c := ((⌊(n : ℝ) * t⌋₊ : ℝ) + 1 / 2) / n with hcd
    have hc1 : t / 2 ≤ c := by
      rw [hcd, le_div_iff₀ hnr]
      have : (0 : ℝ) ≤ ⌊(n : ℝ) * t⌋₊ := Nat.cast_nonneg _
      nlinarith
    have hc2 : (1 - t) / 2 ≤ 1 - c := by
      have : c ≤ (1 + t) / 2 := by
        rw [hcd, div_le_iff₀ hnr]
        have : (⌊(n : ℝ) * t⌋₊ : ℝ) + 1 ≤ n := by exact_mod_cast hk
        nlinarith
      linarith
    have b1 := pow_bound (e := a - 1) ht0 hc.2.le hc1
    have b2 := pow_bound (e := b - 1) (t := 1 - t) (c := 1 - c) (by linarith) (by linarith [hc.1]) hc2
    have hB := beta_pos (hpos a ha) (hpos b hb)
    unfold bound
    rw [betaPDFReal, if_pos ⟨ht0, ht1⟩, add_sub_cancel_right, add_sub_cancel_right]
    have p1 : 0 ≤ (1 - c) ^ (b - 1) := rpow_nonneg (by linarith [hc.2]) _
    have p2 : 0 ≤ (2 : ℝ) ^ |a - 1| * t ^ min (a - 1) 0 := mul_nonneg (rpow_nonneg (by norm_num) _) (rpow_nonneg ht0.le _)
    refine (mul_le_mul b1 b2 p1 p2).trans (le_of_eq ?_)
    field_simp
  · have hz : step a b n t = 0 := by
      refine step_zero hn ?_
      by_contra hc
      push Not at hc
      exact ht ⟨lt_of_le_of_ne hc.1 h0.symm, hc.2⟩
    rw [hz, norm_zero]
    unfold bound
    rw [betaPDFReal, if_neg ht, mul_zero]

theorem step_tendsto {t : ℝ} (h0 : t ≠ 0) (ha : 0 < a) (hb : 0 < b) :
    Tendsto (fun n : ℕ => step a b (n + 1) t) atTop (𝓝 (beta a b * betaPDFReal a b t)) := by
  have hB := beta_pos ha hb
  by_cases ht : 0 < t ∧ t < 1
  · obtain ⟨ht0, ht1⟩ := ht
    have e : ∀ n : ℕ, step a b (n + 1) t = dens a b (((⌊((n + 1 : ℕ) : ℝ) * t⌋₊ : ℝ) + 1 / 2) / (n + 1 : ℕ)) :=
      fun n => step_eq (Nat.succ_pos n) ht0.le ht1
    simp only [e]
    have hlim : Tendsto (fun n : ℕ => ((⌊((n + 1 : ℕ) : ℝ) * t⌋₊ : ℝ) + 1 / 2) / ((n + 1 : ℕ) : ℝ)) atTop (𝓝 t) := by
      rw [Metric.tendsto_atTop]
      intro ε hε
      obtain ⟨N, hN⟩ := exists_nat_gt (1 / ε)
      refine ⟨N, fun m hm => ?_⟩
      have hm0 : (0 : ℝ) < ((m + 1 : ℕ) : ℝ) := by positivity
      have hm1 : (N : ℝ) < ((m + 1 : ℕ) : ℝ) := by exact_mod_cast Nat.lt_succ_of_le hm
      have e1 := Nat.floor_le (show 0 ≤ ((m + 1 : ℕ) : ℝ) * t by positivity)
      have e2 := Nat.lt_floor_add_one (((m + 1 : ℕ) : ℝ) * t)
      have h3 : 1 / ((m + 1 : ℕ) : ℝ) < ε := by
        rw [div_lt_iff₀ hm0]
        rw [div_lt_iff₀ hε] at hN
        nlinarith
      refine lt_of_le_of_lt ?_ h3
      rw [Real.dist_eq, abs_le]
      constructor
      · rw [neg_le_sub_iff_le_add, ← add_div, le_div_iff₀ hm0]
        linarith
      · rw [sub_le_iff_le_add, div_le_iff₀ hm0, add_mul, div_mul_cancel₀ _ hm0.ne']
        linarith
    have hcont : ContinuousAt (dens a b) t := by
      unfold dens
      exact (continuousAt_id.rpow_const (Or.inl ht0.ne')).mul
        ((continuousAt_const.sub continuousAt_id).rpow_const (Or.inl (show (1 : ℝ) - t ≠ 0 from (by linarith : (0 : ℝ) < 1 - t).ne')))
    have := hcont.tendsto.comp hlim
    refine this.trans (le_of_eq ?_)
    rw [betaPDFReal, if_pos ⟨ht0, ht1⟩]
    unfold dens
    congr 1
    field_simp
  · have e : ∀ n : ℕ, step a b (n + 1) t = 0 := by
      intro n
      refine step_zero (Nat.succ_pos n) ?_
      by_contra hc
      push Not at hc
      exact ht ⟨lt_of_le_of_ne hc.1 h0.symm, hc.2⟩
    simp only [e]
    rw [betaPDFReal, if_neg ht, mul_zero]
    exact tendsto_const_nhds

theorem integral_tendsto (ha : 0 < a) (hb : 0 < b) (t : ℝ) :
    Tendsto (fun n : ℕ => ∫ x, (Set.Iic t).indicator (step a b (n + 1)) x) atTop
      (𝓝 (beta a b * ∫ x in Set.Iic t, betaPDFReal a b x)) := by
  have hne : ∀ᵐ x : ℝ, x ≠ 0 := by
    rw [ae_iff]
    simp
  rw [← integral_const_mul, ← integral_indicator measurableSet_Iic]
  refine tendsto_integral_of_dominated_convergence (bound a b) (fun n => ?_) (bound_integrable ha hb) (fun n => ?_) ?_
  · exact ((step_meas a b (n + 1)).indicator measurableSet_Iic).aestronglyMeasurable
  · filter_upwards [hne] with x hx
    have h := step_bound ha hb (Nat.succ_pos n) hx
    by_cases hm : x ∈ Set.Iic t
    · rw [Set.indicator_of_mem hm]
      exact h
    · rw [Set.indicator_of_notMem hm, norm_zero]
      exact (norm_nonneg _).trans h
  · filter_upwards [hne] with x hx
    by_cases hm : x ∈ Set.Iic t
    · simp only [Set.indicator_of_mem hm]
      exact step_tendsto hx ha hb
    · simp only [Set.indicator_of_notMem hm]
      exact tendsto_const_nhds

theorem betaMeasure_Iic (ha : 0 < a) (hb : 0 < b) (t : ℝ) :
    (betaMeasure a b).real (Set.Iic t) = ∫ x in Set.Iic t, betaPDFReal a b x := by
  have hnn : ∀ x, 0 ≤ betaPDFReal a b x := by
    intro x
    by_cases hx : 0 < x ∧ x < 1
    · exact (betaPDFReal_pos hx.1 hx.2 ha hb).le
    · rw [betaPDFReal, if_neg hx]
  rw [measureReal_def, betaMeasure, withDensity_apply _ measurableSet_Iic,
    integral_eq_lintegral_of_nonneg_ae (Eventually.of_forall hnn) (stronglyMeasurable_betaPDFReal a b).aestronglyMeasurable]
  rfl

theorem ratio_tendsto (ha : 0 < a) (hb : 0 < b) (t : ℝ) :
    Tendsto (fun n : ℕ => ∑ i ∈ range (n + 1), prob a b (n + 1) i * max 0 (min 1 (((n + 1 : ℕ) : ℝ) * t - i))) atTop
      (𝓝 ((betaMeasure a b).real (Set.Iic t))) := by
  have hB := beta_pos ha hb
  have hp := isProbabilityMeasureBeta ha hb
  have h1 : (betaMeasure a b).real (Set.Iic 1) = 1 := by
    have : (betaMeasure a b) (Set.Ioi 1) = 0 := by
      rw [betaMeasure, withDensity_apply _ measurableSet_Ioi]
      refine (setLIntegral_eq_zero measurableSet_Ioi fun x hx => ?_)
      exact betaPDF_eq_zero_of_one_le (le_of_lt hx)
    have h2 : (betaMeasure a b).real (Set.Ioi 1) = 0 := by rw [measureReal_def, this]; rfl
    rw [← Set.compl_Iic, probReal_compl_eq_one_sub measurableSet_Iic] at h2
    linarith
  have e : ∀ n : ℕ, ∑ i ∈ range (n + 1), prob a b (n + 1) i * max 0 (min 1 (((n + 1 : ℕ) : ℝ) * t - i)) =
      (∫ x, (Set.Iic t).indicator (step a b (n + 1)) x) / ∫ x, (Set.Iic (1 : ℝ)).indicator (step a b (n + 1)) x :=
    fun n => cell_ratio (Nat.succ_pos n) t
  simp only [e]
  have l1 := integral_tendsto ha hb t
  have l2 := integral_tendsto ha hb 1
  rw [← betaMeasure_Iic ha hb] at l1 l2
  rw [h1, mul_one] at l2
  have := l1.div l2 hB.ne'
  rwa [mul_div_cancel_left₀ _ hB.ne'] at this

end Verif.BetaD
