import Verif.Lemmas.DistrLaw
import Verif.Lemmas.DistrDisc

/-!
# C65-C68: the distribution classes

`Uniform`, `Triangular`, `SplitUniform`, `Fractal`, `Delta` and `GeneralDiscrete`: the four functions of a
class describe one law. `drawQuantile d.quantile` is the function `Draw` of the classes that do not define
their own.
-/

namespace Verif

open Spec MeasureTheory ProbabilityTheory Set Distr

/-! ## C65: Draw, Cdf and Quantile, and C66: Pdf -/

theorem uniform_describes {a b : ℝ} (h : a < b) (d : Uniform) (h1 : d.minVal = a) (h2 : d.maxVal = b) :
    Describes (uniformLaw a b) (drawQuantile d.quantile) d.pdf d.cdf d.quantile := by
  rw [← uniformLaw_eq h]
  exact Distr.uniform_describes h d h1 h2

example : Describes (uniformLaw 0 1) (drawQuantile Uniform.default.quantile) Uniform.default.pdf
    Uniform.default.cdf Uniform.default.quantile :=
  uniform_describes one_pos _ (by norm_num [Uniform.default]) (by norm_num [Uniform.default])

theorem triangular_describes {a m b : ℝ} (h : a < b) (ham : a ≤ m) (hmb : m ≤ b) (d : Triangular)
    (hd : d = ⟨a, m, b⟩) :
    Describes (triangularLaw a m b) (drawQuantile d.quantile) d.pdf d.cdf d.quantile := by
  rw [← triangularLaw_eq h ham hmb]
  exact tri_describes h ham hmb d hd

/-- The mode may be an end point. -/
example : Describes (triangularLaw 0 0 1) (drawQuantile (Triangular.mk 0 0 1).quantile)
    (Triangular.mk 0 0 1).pdf (Triangular.mk 0 0 1).cdf (Triangular.mk 0 0 1).quantile :=
  triangular_describes one_pos le_rfl zero_le_one _ rfl

theorem fractal_describes {a b e : ℝ} (ha : 0 < a) (hab : a < b) (he : 0 < e) :
    ∃ d, Fractal.create a b e = .ok d ∧
      Describes (fractalLaw a b e) (drawQuantile d.quantile) d.pdf d.cdf d.quantile := by
  rw [← fractalLaw_eq ha hab he]
  exact ⟨_, frac_create ha hab he, frac_describes ha hab he _ rfl⟩

example : ∃ d, Fractal.create 1 100 (3 / 2) = .ok d ∧
    Describes (fractalLaw 1 100 (3 / 2)) (drawQuantile d.quantile) d.pdf d.cdf d.quantile :=
  fractal_describes one_pos (by norm_num) (by norm_num)

theorem splitUniform_describes_partial {a m b : ℝ} (ham : a < m) (hmb : m < b) (d : SplitUniform)
    (hd : d = ⟨a, m, b⟩) :
    IsProbabilityMeasure (splitUniformLaw a m b) ∧
    DrawsHaveLaw (drawQuantile d.quantile) (splitUniformLaw a m b) ∧
    CdfOf (splitUniformLaw a m b) d.cdf ∧ QuantileOf (splitUniformLaw a m b) d.quantile := by
  rw [← splitUniformLaw_eq ham hmb]
  exact split_draws ham hmb d hd

/-- What is missing above: `Pdf` is not the density of this law, nor of any other. -/
theorem splitUniform_pdf_refuted {a m b : ℝ} (ham : a < m) (hmb : m < b) (ν : Measure ℝ)
    [IsProbabilityMeasure ν] : ¬ DensityOf ν (SplitUniform.mk a m b).pdf :=
  split_pdf ham hmb _ rfl

/-- The values of `Pdf` of the default object: zero where half of the values are, and one half of the mass
per unit length everywhere above the maximum. -/
theorem splitUniform_pdf_witness : SplitUniform.default.pdf (3 / 4) = .ok 0 ∧
    SplitUniform.default.pdf 1000 = .ok 1 := by
  unfold SplitUniform.pdf SplitUniform.default fdiv
  constructor <;> norm_num

example : IsProbabilityMeasure (splitUniformLaw 0 (1 / 2) 1) :=
  (splitUniform_describes_partial (by norm_num) (by norm_num) _ rfl).1

theorem delta_describes (v : ℝ) (d : Delta) (hd : d = ⟨v⟩) :
    DrawsHaveLaw (drawQuantile d.quantile) (Measure.dirac v) ∧
    CdfOf (Measure.dirac v) d.cdf ∧ QuantileOf (Measure.dirac v) d.quantile := by
  subst hd
  have hI : ∀ x, (Measure.dirac v).real (Iic x) = if v ≤ x then 1 else 0 := fun x => by
    rw [Measure.real, Measure.dirac_apply' _ measurableSet_Iic]
    by_cases h : v ≤ x
    · rw [indicator_of_mem (show v ∈ Iic x from h), if_pos h]
      simp
    · rw [indicator_of_notMem (show v ∉ Iic x from h), if_neg h]
      simp
  refine ⟨?_, fun x => ?_, fun p h0 h1 => ⟨v, rfl, ?_, fun x hx => ?_⟩⟩
  · have := drawQuantile_law (quantile := Delta.quantile ⟨v⟩) (q := fun _ => v) measurable_const
      fun u _ _ => rfl
    rwa [Measure.map_const, measure_univ, one_smul] at this
  · unfold Delta.cdf
    rw [hI]
    by_cases h : v ≤ x
    · rw [if_pos (show x ≥ v from h), if_pos h, lit.2.1]
    · rw [if_neg (show ¬ x ≥ v from h), if_neg h, lit.1]
  · show p ≤ _
    rw [hI, if_pos le_rfl]
    exact h1
  · have hx : p ≤ _ := hx
    rw [hI] at hx
    by_contra h
    rw [if_neg h] at hx
    linarith

/-! ## C67: integers with given probabilities -/

/-- The object made from a histogram: number `k` has probability `hist[k]` divided by the sum. -/
theorem generalDiscrete_describes (hist : List ℝ) (hpos : ∀ x ∈ hist, 0 ≤ x) (hsum : 0 < hist.sum) :
    ∃ d, GeneralDiscrete.create hist = .ok d ∧ ∃ ν : Measure ℤ,
      (∀ k : ℕ, ν.real {(k : ℤ)} = hist.getD k 0 / hist.sum) ∧
      DescribesInt ν {k | 0 ≤ k ∧ k < hist.length} (drawQuantile d.quantile) d.pdf d.cdf d.quantile :=
  GeneralDiscrete.describes hist hpos hsum

example : ∃ d, GeneralDiscrete.create [1, 0, 3] = .ok d ∧ ∃ ν : Measure ℤ,
    (∀ k : ℕ, ν.real {(k : ℤ)} = [1, 0, 3].getD k 0 / [1, 0, 3].sum) ∧
    DescribesInt ν {k | 0 ≤ k ∧ k < 3} (drawQuantile d.quantile) d.pdf d.cdf d.quantile :=
  generalDiscrete_describes [1, 0, 3] (by intro x hx; fin_cases hx <;> norm_num) (by norm_num)

/-- Without a positive sum there is no object: an empty histogram gives one whose `Quantile` reads out of
range, a histogram of zeros gives NaN. -/
theorem generalDiscrete_empty (p : ℝ) : ∃ d w, GeneralDiscrete.create [] = .ok d ∧ d.quantile p = .ub w := by
  have : ∃ w, (GeneralDiscrete.mk [] []).quantile p = .ub w := by
    unfold GeneralDiscrete.quantile
    rw [untilLoop_unfold]
    exact ⟨_, rfl⟩
  obtain ⟨w, h⟩ := this
  exact ⟨⟨[], []⟩, w, rfl, h⟩

theorem generalDiscrete_zero : ∃ w, GeneralDiscrete.create [0] = .nonfinite w := by
  unfold GeneralDiscrete.create GeneralDiscrete.normalizeHist
  have : (0.0 : ℝ) + 0 = 0 := by norm_num
  simp [forRange, forN, rd, Res.bind, Bind.bind, fdiv, this]

/-! ## C68: draws from a part of the power law -/

/-- `DrawFromUpperQuantile` without limit: the values above the quantile. -/
theorem fractal_upper {a b e : ℝ} (ha : 0 < a) (hab : a < b) (he : 0 < e) {qu : ℝ} (h0 : 0 ≤ qu)
    (h1 : qu < 1) : ∃ d x, Fractal.create a b e = .ok d ∧ d.quantile qu = .ok x ∧
      DrawsHaveLaw (d.drawFromUpperQuantile qu none) ((fractalLaw a b e)[|Ioi x]) := by
  refine ⟨_, _, frac_create ha hab he, frac_quantile ha hab he h0 h1.le, ?_⟩
  have := frac_upper ha hab he (qu := qu) (t := 0) (limit := none) h0 h1 le_rfl one_pos (Or.inl ⟨rfl, rfl⟩)
  rw [show 0 + qu * (1 - 0) = qu by ring] at this
  rwa [← fractalLaw_eq ha hab he]

/-- `DrawFromUpperQuantile` with a limit: of the values above the limit, those above the quantile. -/
theorem fractal_upper_limit {a b e : ℝ} (ha : 0 < a) (hab : a < b) (he : 0 < e) {qu limit : ℝ}
    (h0 : 0 ≤ qu) (h1 : qu < 1) (hl : limit < b) :
    ∃ d x, Fractal.create a b e = .ok d ∧ ((fractalLaw a b e)[|Ioi limit]).real (Iic x) = qu ∧
      a ≤ x ∧ x < b ∧
      DrawsHaveLaw (d.drawFromUpperQuantile qu (some limit)) ((fractalLaw a b e)[|Ioi x]) := by
  have hq : Measurable (fq a b e) := measurable_fq ha hab he
  have hmono := frac_strictMono ha hab he
  have hf0 : fq a b e 0 = a := by
    unfold fq
    rw [sub_zero, one_mul, zero_mul, add_zero, ← Real.rpow_mul ha.le,
      show -e * (-1 / e) = 1 by field_simp, Real.rpow_one]
  have hf1 : fq a b e 1 = b := by
    unfold fq
    rw [sub_self, one_mul, zero_mul, zero_add, ← Real.rpow_mul (by linarith),
      show -e * (-1 / e) = 1 by field_simp, Real.rpow_one]
  have key : ∀ t, 0 ≤ t → t < 1 → (limit < a ∧ t = 0 ∨ a ≤ limit ∧ limit < b ∧ fq a b e t = limit) →
      ((unif.map (fq a b e))[|Ioi (fq a b e t)] = (unif.map (fq a b e))[|Ioi limit]) →
      ∃ d x, Fractal.create a b e = .ok d ∧ ((unif.map (fq a b e))[|Ioi limit]).real (Iic x) = qu ∧
      a ≤ x ∧ x < b ∧
      DrawsHaveLaw (d.drawFromUpperQuantile qu (some limit)) ((unif.map (fq a b e))[|Ioi x]) := by
    intro t ht0 ht1 hc he'
    refine ⟨_, fq a b e (t + qu * (1 - t)), frac_create ha hab he, ?_, ?_, ?_,
      frac_upper ha hab he h0 h1 ht0 ht1 (Or.inr ⟨limit, rfl, hc⟩)⟩
    · rw [← he', cond_quantile hq hmono ht0 ht1 h0 h1.le]
    · conv_lhs => rw [← hf0]
      exact (hmono.le_iff_le ⟨le_rfl, zero_le_one⟩ ⟨by nlinarith, by nlinarith⟩).2 (by nlinarith)
    · conv_rhs => rw [← hf1]
      exact (hmono.lt_iff_lt ⟨by nlinarith, by nlinarith⟩ ⟨zero_le_one, le_rfl⟩).2 (by nlinarith)
  rw [← fractalLaw_eq ha hab he]
  rcases lt_or_ge limit a with hla | hla
  · refine key 0 le_rfl one_pos (Or.inl ⟨hla, rfl⟩) ?_
    have hall : ∀ l, l ≤ a → (Ioi l : Set ℝ) =ᵐ[unif.map (fq a b e)] univ := by
      intro l hl
      rw [Filter.eventuallyEq_univ, mem_ae_iff, Measure.map_apply hq measurableSet_Ioi.compl]
      refine measure_mono_null (t := {u | ¬ (0 < u ∧ u < 1)}) (fun u hu h => hu ?_) (ae_iff.1 ae_unif)
      show l < fq a b e u
      have := (hmono.lt_iff_lt ⟨le_rfl, zero_le_one⟩ ⟨h.1.le, h.2.le⟩).2 h.1
      linarith
    have e1 := hall _ hf0.le
    have e2 := hall _ hla.le
    rw [ProbabilityTheory.cond, ProbabilityTheory.cond, measure_congr e1, measure_congr e2,
      Measure.restrict_congr_set e1, Measure.restrict_congr_set e2]
  · obtain ⟨t, ht0, ht1, ht⟩ := frac_surj ha hab he hla hl
    exact key t ht0 ht1 (Or.inr ⟨hla, hl, ht⟩) (by rw [ht])

/-- `DrawFromLowerQuantile`: the values up to the quantile. -/
theorem fractal_lower {a b e : ℝ} (ha : 0 < a) (hab : a < b) (he : 0 < e) {ql : ℝ} (h0 : 0 < ql)
    (h1 : ql ≤ 1) : ∃ d x, Fractal.create a b e = .ok d ∧ d.quantile ql = .ok x ∧
      DrawsHaveLaw (d.drawFromLowerQuantile ql) ((fractalLaw a b e)[|Iic x]) := by
  refine ⟨_, _, frac_create ha hab he, frac_quantile ha hab he h0.le h1, ?_⟩
  rw [← fractalLaw_eq ha hab he,
    ← cond_below (measurable_fq ha hab he) (frac_strictMono ha hab he)]
  exact frac_lower ha hab he h0 h1

/-- `DrawFromMiddleQuantile`: the values between the quantiles. -/
theorem fractal_middle {a b e : ℝ} (ha : 0 < a) (hab : a < b) (he : 0 < e) {ql qu : ℝ} (h0 : 0 ≤ ql)
    (hlt : ql < qu) (h1 : qu ≤ 1) : ∃ d x y, Fractal.create a b e = .ok d ∧ d.quantile ql = .ok x ∧
      d.quantile qu = .ok y ∧
      DrawsHaveLaw (d.drawFromMiddleQuantile ql qu) ((fractalLaw a b e)[|Ioc x y]) := by
  refine ⟨_, _, _, frac_create ha hab he, frac_quantile ha hab he h0 (by linarith),
    frac_quantile ha hab he (by linarith) h1, ?_⟩
  rw [← fractalLaw_eq ha hab he]
  exact frac_middle ha hab he h0 hlt h1

example : ∃ d x, Fractal.create 1 100 2 = .ok d ∧
    ((fractalLaw 1 100 2)[|Ioi 10]).real (Iic x) = 1 / 2 ∧ 1 ≤ x ∧ x < 100 ∧
    DrawsHaveLaw (d.drawFromUpperQuantile (1 / 2) (some 10)) ((fractalLaw 1 100 2)[|Ioi x]) :=
  fractal_upper_limit one_pos (by norm_num) (by norm_num) (by norm_num) (by norm_num) (by norm_num)

example : ∃ d x y, Fractal.create 1 100 2 = .ok d ∧ d.quantile (1 / 4) = .ok x ∧
    d.quantile (3 / 4) = .ok y ∧
    DrawsHaveLaw (d.drawFromMiddleQuantile (1 / 4) (3 / 4)) ((fractalLaw 1 100 2)[|Ioc x y]) :=
  fractal_middle one_pos (by norm_num) (by norm_num) (by norm_num) (by norm_num) (by norm_num)

example : ∃ d x, Fractal.create 1 100 2 = .ok d ∧ d.quantile (1 / 4) = .ok x ∧
    DrawsHaveLaw (d.drawFromLowerQuantile (1 / 4)) ((fractalLaw 1 100 2)[|Iic x]) :=
  fractal_lower one_pos (by norm_num) (by norm_num) (by norm_num) (by norm_num)

example : ∃ d x, Fractal.create 1 100 2 = .ok d ∧ d.quantile (1 / 4) = .ok x ∧
    DrawsHaveLaw (d.drawFromUpperQuantile (1 / 4) none) ((fractalLaw 1 100 2)[|Ioi x]) :=
  fractal_upper one_pos (by norm_num) (by norm_num) (by norm_num) (by norm_num)

end Verif
