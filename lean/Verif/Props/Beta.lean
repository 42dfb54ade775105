import Verif.Lemmas.BetaQuant

/-!
# C106: the beta distribution

`Beta` divides [min_val, max_val] in `nx` cells, and computes with the law that is uniform in every cell, with
probabilities that are proportional to the density of the beta law at the centres.
-/

namespace Verif

open Spec MeasureTheory ProbabilityTheory Filter Topology BetaD

/-! ## Specification -/

/-- `Cdf` is the distribution function of `ν` for all `x` that are not more than 2^31 cells from `minVal`; `Quantile` is the
inverse of the distribution function in the multiples of 1/n, and increases strictly from `minVal` to `maxVal`, so that it
errs by at most 1/n in probability; the draws are independent, with a law whose distribution function differs by at most
1/n from that of `ν`. -/
structure InCells (ν : Measure ℝ) (n : ℕ) (minVal maxVal : ℝ)
    (draw : ∀ {σ : Type}, (σ → Res (ℝ × σ)) → σ → Res (ℝ × σ)) (cdf quantile : ℝ → Res ℝ) : Prop where
  prob : IsProbabilityMeasure ν
  cdf : ∀ x, |(x - minVal) / ((maxVal - minVal) / n)| < 2 ^ 31 → cdf x = .ok (ν.real (Set.Iic x))
  exact : ∀ i : ℕ, 0 < i → i ≤ n → ∃ x, quantile (i / n) = .ok x ∧ ν.real (Set.Iic x) = i / n ∧
    IsLeast {x | (i : ℝ) / n ≤ ν.real (Set.Iic x)} x
  ends : quantile 0 = .ok minVal ∧ quantile 1 = .ok maxVal
  increasing : ∀ p p', 0 ≤ p → p < p' → p' ≤ 1 → ∃ x x', quantile p = .ok x ∧ quantile p' = .ok x' ∧ x < x'
  near : ∀ p, 0 ≤ p → p ≤ 1 → ∃ x, quantile p = .ok x ∧ |ν.real (Set.Iic x) - p| ≤ 1 / n
  draws : ∃ ν' : Measure ℝ, IsProbabilityMeasure ν' ∧ DrawsHaveLaw draw ν' ∧
    ∀ x, |ν'.real (Set.Iic x) - ν.real (Set.Iic x)| ≤ 1 / n

/-! ## Theorems -/

variable {a b minVal maxVal : ℝ} {n : ℕ}

/-- C106: what `Cdf`, `Quantile` and `Draw` of `Beta` compute. Missing: `Pdf`, see `beta_pdf`, `Quantile` between the
multiples of 1/nx, see `beta_quantile_violation`, and values far from the interval, see `beta_far_violation`. -/
theorem beta_partial (a b : ℝ) (hn : 0 < n) (hbig : n < 2 ^ 31) (h : minVal < maxVal) :
    ∃ d, create minVal maxVal a b n = .ok d ∧
      InCells (cellLaw a b n minVal maxVal) n minVal maxVal d.draw d.cdf d.quantile := by
  obtain ⟨d, q, hc, hd⟩ := create_is a b hn h
  have hnr : (0 : ℝ) < n := by exact_mod_cast hn
  refine ⟨d, hc, cellLaw_prob hn h, fun x hx => hd.cdf_eq hn hbig h hx, ?_, ?_, ?_, ?_, ?_⟩
  · intro i hi0 hi
    have hi1 : (i : ℝ) / n ≤ 1 := by
      rw [div_le_one hnr]
      exact_mod_cast hi
    have hF := hd.F_qv hn h hi
    have hG : G minVal q n ((i : ℝ) / n) = qv minVal q i := G_entry hn hi
    refine ⟨qv minVal q i, ?_, hF, hF.ge, ?_⟩
    · rw [hd.quantile_G hn hbig (by positivity) hi1, hG]
    · intro y hy
      by_contra hc
      have hlt := not_le.1 hc
      have hy' : (i : ℝ) / n ≤ F a b n minVal maxVal y := hy
      have hmax : qv minVal q i ≤ maxVal := by
        rw [← hG, ← hd.G_one hn]
        exact hd.G_mono hn h hi1
      by_cases hm : minVal ≤ y
      · have := F_lt (a := a) (b := b) hn h hm hlt hmax
        rw [hF] at this
        linarith
      · rw [F, cellLaw_low hn h (not_le.1 hm).le] at hy'
        have : 0 < (i : ℝ) / n := by
          have : (0 : ℝ) < i := by exact_mod_cast hi0
          positivity
        linarith
  · exact ⟨by rw [hd.quantile_G hn hbig le_rfl zero_le_one, G_zero],
      by rw [hd.quantile_G hn hbig zero_le_one le_rfl, hd.G_one hn]⟩
  · intro p p' h0 hp h1
    exact ⟨_, _, hd.quantile_G hn hbig h0 (by linarith), hd.quantile_G hn hbig (by linarith) h1, hd.G_lt hn h h0 hp h1⟩
  · intro p h0 h1
    exact ⟨_, hd.quantile_G hn hbig h0 h1, hd.near hn h h0 h1⟩
  · have hm := (hd.G_mono hn h).measurable
    refine ⟨Distr.unif.map (G minVal q n), Measure.isProbabilityMeasure_map hm.aemeasurable,
      Distr.drawQuantile_law hm fun u h0 h1 => hd.quantile_G hn hbig h0.le h1.le, fun x => ?_⟩
    exact Distr.map_near hm (F_nonneg x) (F_le_one hn h x) (by positivity)
      (fun p h0 h1 hx => hd.F_G_le hn h h0.le h1.le hx) (fun p h0 h1 hx => hd.F_lt_G hn h h0.le h1.le hx)

/-- C106: as the number of cells grows, the law of `Cdf` tends to the beta law. -/
theorem betaCells_tendsto (ha : 0 < a) (hb : 0 < b) (h : minVal < maxVal) (x : ℝ) :
    Tendsto (fun n : ℕ => (cellLaw a b (n + 1) minVal maxVal).real (Set.Iic x)) atTop
      (𝓝 ((betaLaw a b minVal maxVal).real (Set.Iic x))) := by
  have hw : 0 < maxVal - minVal := by linarith
  have e : (betaLaw a b minVal maxVal).real (Set.Iic x) = (betaMeasure a b).real (Set.Iic ((x - minVal) / (maxVal - minVal))) := by
    rw [measureReal_def, betaLaw, Measure.map_apply (by fun_prop) measurableSet_Iic, measureReal_def]
    congr 2
    ext t
    simp only [Set.mem_preimage, Set.mem_Iic]
    rw [le_div_iff₀ hw]
    constructor <;> intro h <;> linarith
  rw [e]
  refine (ratio_tendsto ha hb ((x - minVal) / (maxVal - minVal))).congr fun n => ?_
  rw [cellLaw_Iic (Nat.succ_pos n) h]
  refine Finset.sum_congr rfl fun i _ => ?_
  congr 4
  field_simp

/-- So with enough cells the draws of `Beta` have nearly the beta law. -/
theorem beta_draws_tendsto (ha : 0 < a) (hb : 0 < b) (h : minVal < maxVal) (x : ℝ) {ε : ℝ} (hε : 0 < ε) :
    ∃ N : ℕ, ∀ n : ℕ, N ≤ n → 0 < n → n < 2 ^ 31 → ∃ d, create minVal maxVal a b n = .ok d ∧
      ∃ ν' : Measure ℝ, DrawsHaveLaw d.draw ν' ∧
        |ν'.real (Set.Iic x) - (betaLaw a b minVal maxVal).real (Set.Iic x)| < ε := by
  have ht := betaCells_tendsto ha hb h x
  rw [Metric.tendsto_atTop] at ht
  obtain ⟨N, hN⟩ := ht (ε / 2) (by linarith)
  obtain ⟨M, hM⟩ := exists_nat_gt (2 / ε)
  refine ⟨max (N + 1) M, fun n hn hn0 hbig => ?_⟩
  obtain ⟨d, hc, hd⟩ := beta_partial a b hn0 hbig h
  obtain ⟨ν', -, h1, h2⟩ := hd.draws
  refine ⟨d, hc, ν', h1, ?_⟩
  have h3 := hN (n - 1) (by omega)
  rw [show n - 1 + 1 = n by omega, Real.dist_eq] at h3
  have hnr : (0 : ℝ) < n := by exact_mod_cast hn0
  have h4 : (1 : ℝ) / n ≤ ε / 2 := by
    have : (M : ℝ) ≤ n := by exact_mod_cast le_of_max_le_right hn
    rw [div_le_iff₀ hnr]
    rw [div_lt_iff₀ hε] at hM
    nlinarith
  calc |ν'.real (Set.Iic x) - (betaLaw a b minVal maxVal).real (Set.Iic x)|
      = |(ν'.real (Set.Iic x) - (cellLaw a b n minVal maxVal).real (Set.Iic x)) +
        ((cellLaw a b n minVal maxVal).real (Set.Iic x) - (betaLaw a b minVal maxVal).real (Set.Iic x))| := by ring_nf
    _ ≤ _ := abs_add_le _ _
    _ < ε := by linarith [h2 x]

/-! ## Density -/

/-- C106: what `Pdf` computes between the ends: the density of the law in cells, but moved by half a cell to the right, so that
the first cell counts one and a half times, and the last one half. The integral is not 1, unless these two cells have the same
probability. -/
theorem beta_pdf (a b : ℝ) (hn : 0 < n) (hbig : n < 2 ^ 31) (h : minVal < maxVal) :
    ∃ d, create minVal maxVal a b n = .ok d ∧ ∃ f : ℝ → ℝ,
      (∀ x, minVal ≤ x → x ≤ maxVal → d.pdf x = .ok (f x)) ∧
      (∀ i < n, ∀ x, minVal + (i + 1 / 2) * ((maxVal - minVal) / n) ≤ x → x < minVal + (i + 3 / 2) * ((maxVal - minVal) / n) →
        x ≤ maxVal → f x = prob a b n i / ((maxVal - minVal) / n)) ∧
      ∫ x in minVal..maxVal, f x = 1 + (prob a b n 0 - prob a b n (n - 1)) / 2 := by
  obtain ⟨d, q, hc, hd⟩ := create_is a b hn h
  have hnr : (0 : ℝ) < n := by exact_mod_cast hn
  have hdx : 0 < (maxVal - minVal) / n := div_pos (by linarith) hnr
  refine ⟨d, hc, _, fun x h0 h1 => hd.pdf_eq hn hbig h h0 h1, ?_, pdf_integral hn h fun _ _ _ => rfl⟩
  intro i hi x h0 h1 h2
  have e : ⌊(x - minVal) / ((maxVal - minVal) / n) - 1 / 2⌋₊ = i := by
    have h3 : (i : ℝ) + 1 / 2 ≤ (x - minVal) / ((maxVal - minVal) / n) := by
      rw [le_div_iff₀ hdx]
      linarith
    have h4 : (x - minVal) / ((maxVal - minVal) / n) < (i : ℝ) + 3 / 2 := by
      rw [div_lt_iff₀ hdx]
      linarith
    rw [Nat.floor_eq_iff (by linarith [show (0 : ℝ) ≤ i from Nat.cast_nonneg i])]
    constructor <;> linarith
  simp only [e]

/-! ## Violations -/

/-- C106: `Pdf` is not a density: for a = 2, b = 1 and two cells its integral is 3/4. -/
theorem beta_pdf_violation :
    ∃ d, create 0 1 2 1 2 = .ok d ∧ ∃ f : ℝ → ℝ, (∀ x, 0 ≤ x → x ≤ 1 → d.pdf x = .ok (f x)) ∧ ∫ x in (0 : ℝ)..1, f x = 3 / 4 := by
  obtain ⟨d, hc, f, h1, -, h2⟩ := beta_pdf (minVal := 0) (maxVal := 1) (n := 2) 2 1 (by norm_num) (by norm_num) (by norm_num)
  refine ⟨d, hc, f, h1, ?_⟩
  rw [h2, prob_two.1, show 2 - 1 = 1 from rfl, prob_two.2]
  norm_num

/-- C106: `Quantile` is not the inverse of `Cdf`: for a = 2, b = 1 and two cells `Quantile(1/4)` is 1/3, but
`Cdf(1/3)` is 1/6. -/
theorem beta_quantile_violation :
    ∃ d, create 0 1 2 1 2 = .ok d ∧ d.quantile (1 / 4) = .ok (1 / 3) ∧ d.cdf (1 / 3) = .ok (1 / 6) := by
  obtain ⟨d, q, hc, hd⟩ := create_is (n := 2) 2 1 (by norm_num) (show (0 : ℝ) < 1 by norm_num)
  refine ⟨d, hc, ?_, ?_⟩
  · have hF := hd.F_qv (by norm_num) (by norm_num) (i := 1) (by norm_num)
    have hq : qv 0 q 1 = 2 / 3 := by
      have h23 : F 2 1 2 0 1 (2 / 3) = 1 / 2 := by
        rw [F_two (by norm_num) (by norm_num)]
        norm_num
      have hlo : (0 : ℝ) ≤ qv 0 q 1 := by
        have := hd.G_mono (by norm_num) (by norm_num) (show (0 : ℝ) ≤ ((1 : ℕ) : ℝ) / ((2 : ℕ) : ℝ) by norm_num)
        rwa [G_zero, G_entry (by norm_num) (by norm_num)] at this
      have hhi : qv 0 q 1 ≤ 1 := by
        have := hd.G_mono (by norm_num) (by norm_num) (show ((1 : ℕ) : ℝ) / ((2 : ℕ) : ℝ) ≤ 1 by norm_num)
        rwa [hd.G_one (by norm_num), G_entry (by norm_num) (by norm_num)] at this
      rw [F_two hlo hhi] at hF
      split_ifs at hF with hc
      · norm_num at hF
        linarith
      · norm_num at hF
        linarith
    rw [hd.quantile_eq (by norm_num) (by norm_num) (by norm_num) (by norm_num), lin_cell _ (k := 0) (by norm_num) (by norm_num)]
    rw [hq, show qv 0 q 0 = 0 from rfl]
    norm_num
  · rw [hd.cdf_in (by norm_num) (by norm_num) (by norm_num) (by norm_num) (by norm_num), F_two (by norm_num) (by norm_num)]
    norm_num

/-- C106: far to the right of the interval `Cdf`, which should be 1, is undefined: the number of the cell does not fit an int. -/
theorem beta_far_violation (a b : ℝ) (hn : 0 < n) (h : minVal < maxVal) {x : ℝ}
    (hx : 2 ^ 31 ≤ (x - minVal) / ((maxVal - minVal) / n)) :
    ∃ d, create minVal maxVal a b n = .ok d ∧ ∃ m, d.cdf x = .ub m := by
  obtain ⟨d, q, hc, hd⟩ := create_is a b hn h
  have hnr : (0 : ℝ) < n := by exact_mod_cast hn
  have hdx : 0 < (maxVal - minVal) / n := div_pos (by linarith) hnr
  refine ⟨d, hc, ?_⟩
  unfold cdf
  rw [hd.eMin, hd.eDx]
  simp only [Res.monad_bind_eq]
  rw [show fdiv (x - minVal) ((maxVal - minVal) / n) = .ok ((x - minVal) / ((maxVal - minVal) / n)) from if_neg hdx.ne', Res.bind_ok]
  have h0 : 0 ≤ (x - minVal) / ((maxVal - minVal) / n) := le_trans (by norm_num) hx
  unfold truncZ
  rw [if_pos h0]
  have h1 : (2 : ℤ) ^ 31 ≤ ⌊(x - minVal) / ((maxVal - minVal) / n)⌋ := by
    rw [Int.le_floor]
    exact_mod_cast hx
  unfold toInt32
  rw [if_neg (by omega)]
  exact ⟨_, rfl⟩

/-! ## Examples -/

/-- The beta distribution with a = 2, b = 3 on [0, 10] in the 200 cells of the default. -/
example : ∃ d, create 0 10 2 3 200 = .ok d ∧ InCells (cellLaw 2 3 200 0 10) 200 0 10 d.draw d.cdf d.quantile :=
  beta_partial 2 3 (by norm_num) (by norm_num) (by norm_num)

example : Tendsto (fun n : ℕ => (cellLaw (1 / 2) (1 / 2) (n + 1) 0 1).real (Set.Iic (1 / 4))) atTop
    (𝓝 ((betaLaw (1 / 2) (1 / 2) 0 1).real (Set.Iic (1 / 4)))) :=
  betaCells_tendsto (by norm_num) (by norm_num) (by norm_num) _

example : ∃ d, create 0 1 2 3 200 = .ok d ∧ ∃ m, d.cdf (10 ^ 8) = .ub m :=
  beta_far_violation (n := 200) 2 3 (by norm_num) (by norm_num) (by norm_num)

end Verif
