import Verif.Lemmas.NormalDistr
import Verif.Props.NormalLaw
import Verif.Spec.Distr

/-!
# C101, C102: the normal distribution

`Normal(mean, std_dev)` with a positive standard deviation: density, distribution function, quantiles, draws and
potentials.
-/

namespace Verif

open Spec MeasureTheory ProbabilityTheory Set Filter Real

/-! ## Specification -/

/-- The normal law with mean `m` and standard deviation `s`. -/
noncomputable def normalLaw (m s : ℝ) : Measure ℝ := gaussianReal m (s ^ 2).toNNReal

/-- `ν` gives every event the probability it has under `ρ`, up to a factor between 1 - 2·10⁻⁸ and 1 + 2·10⁻⁸. -/
structure NearLaw (ν ρ : Measure ℝ) : Prop where
  prob : IsProbabilityMeasure ν
  upper : ∀ A, MeasurableSet A → ν A ≤ ENNReal.ofReal (1 + 2e-8) * ρ A
  lower : ∀ A, MeasurableSet A → ENNReal.ofReal (1 - 2e-8) * ρ A ≤ ν A

/-- The draws are independent, and of a law near `ρ`; `draw` is given `Norm01` of a generator, and this is true of both
generators. -/
def DrawsNear (draw : ∀ {σ : Type}, (σ → Res (ℝ × σ)) → σ → Res (ℝ × σ)) (ρ : Measure ℝ) : Prop :=
  ∃ ν, NearLaw ν ρ ∧ DrawsHaveLaw (fun unif => draw (Random.norm01With unif)) ν ∧
    DrawsHaveLaw (fun unif => draw (RandomGenerator.norm01With unif)) ν

/-- `Quantile` is the inverse of a distribution function without jumps that is nowhere 0 or 1. -/
def QuantileInside (ν : Measure ℝ) (quantile : ℝ → Res ℝ) : Prop :=
  ∀ p, 0 < p → p < 1 → ∃ x, quantile p = .ok x ∧ IsLeast {x | p ≤ ν.real (Iic x)} x ∧ ν.real (Iic x) = p

/-! ## Helpers -/

namespace NormalD

open Phi

theorem streams_yields {σ : Type} {draw : σ → Res (ℝ × σ)} {s : σ} {x : ℕ → ℝ} : Streams draw s x ↔ Yields draw s x := by
  constructor
  · intro h
    obtain ⟨S, h0, h1⟩ := h.runs
    exact ⟨S, h0, h1⟩
  · rintro ⟨S, rfl, h1⟩
    exact Runs.streams (draw := draw) (S := S) (U := x) h1

/-- Draws that are a function of one normal number. -/
theorem drawsNear_of {draw : ∀ {σ : Type}, (σ → Res (ℝ × σ)) → σ → Res (ℝ × σ)} {g : ℝ → ℝ} (hg : Measurable g)
    {ρ : Measure ℝ} (hρ : (gaussianReal 0 1).map g = ρ)
    (h : ∀ {σ : Type} (norm01 : σ → Res (ℝ × σ)) (s s' : σ) (z : ℝ), norm01 s = .ok (z, s') →
      draw norm01 s = .ok (g z, s')) : DrawsNear draw ρ := by
  obtain ⟨ν, hν, hl⟩ := normal_law
  have := hν.prob
  refine ⟨ν.map g, ⟨Measure.isProbabilityMeasure_map hg.aemeasurable, ?_, ?_⟩, ?_, ?_⟩
  · intro A hA
    rw [← hρ, Measure.map_apply hg hA, Measure.map_apply hg hA]
    exact hν.upper _
  · intro A hA
    rw [← hρ, Measure.map_apply hg hA, Measure.map_apply hg hA]
    exact hν.lower _
  · intro Ω _ μ _ σ un s U hU hs
    obtain ⟨Z, hZ, h1, h2⟩ := hl Ω μ σ un s U hU (hs.mono fun ω hω => streams_yields.2 hω)
    refine ⟨fun a ω => g (Z a ω), fun a => ?_, hZ.indep.comp (fun _ => g) fun _ => hg, ?_⟩
    · have ha := hZ.law a
      refine ⟨hg.comp_aemeasurable ha.aemeasurable, ?_⟩
      rw [← ha.map_eq, AEMeasurable.map_map_of_aemeasurable hg.aemeasurable ha.aemeasurable]
      rfl
    · filter_upwards [h1] with ω hω
      obtain ⟨S, h0, hS⟩ := streams_yields.1 hω
      exact ⟨S, h0, fun n => h _ _ _ _ (hS n)⟩
  · intro Ω _ μ _ σ un s U hU hs
    obtain ⟨Z, hZ, h1, h2⟩ := hl Ω μ σ un s U hU (hs.mono fun ω hω => streams_yields.2 hω)
    refine ⟨fun a ω => g (Z a ω), fun a => ?_, hZ.indep.comp (fun _ => g) fun _ => hg, ?_⟩
    · have ha := hZ.law a
      refine ⟨hg.comp_aemeasurable ha.aemeasurable, ?_⟩
      rw [← ha.map_eq, AEMeasurable.map_map_of_aemeasurable hg.aemeasurable ha.aemeasurable]
      rfl
    · filter_upwards [h2] with ω hω
      obtain ⟨S, h0, hS⟩ := streams_yields.1 hω
      exact ⟨S, h0, fun n => h _ _ _ _ (hS n)⟩

theorem isLeast_Phi {m s p z : ℝ} (hs : 0 < s) (hz : Phi z = p) :
    IsLeast {x | p ≤ (normalLaw m s).real (Iic x)} (m + s * z) := by
  have hc : (m + s * z - m) / s = z := by field_simp; ring
  constructor
  · show p ≤ (normalLaw m s).real (Iic (m + s * z))
    rw [normalLaw, real_Iic hs, hc, hz]
  · intro x hx
    have hx' : p ≤ (normalLaw m s).real (Iic x) := hx
    rw [normalLaw, real_Iic hs, ← hz, Phi_strictMono.le_iff_le, le_div_iff₀ hs] at hx'
    linarith

end NormalD

/-! ## C101 -/

open NormalD Phi in
/-- `Pdf` is the density and `Cdf` the distribution function of the normal law with the given mean and standard
deviation. -/
theorem normal_describes {m s : ℝ} (hs : 0 < s) :
    IsProbabilityMeasure (normalLaw m s) ∧ DensityOf (normalLaw m s) (NormalD.mk m s).pdf ∧
    CdfOf (normalLaw m s) (NormalD.mk m s).cdf ∧ QuantileInside (normalLaw m s) (NormalD.mk m s).quantile ∧
    DrawsNear (NormalD.mk m s).draw (normalLaw m s) := by
  refine ⟨by unfold normalLaw; infer_instance, ?_, ?_, ?_, ?_⟩
  · refine ⟨fun x => phi ((x - m) / s) / s, ?_, fun x => (div_pos (phi_pos _) hs).le, fun x => pdf_ok hs x, ?_⟩
    · have := phi_cont.measurable
      fun_prop
    · have hv : (s ^ 2).toNNReal ≠ 0 := by
        rw [ne_eq, Real.toNNReal_eq_zero, not_le]
        positivity
      rw [normalLaw, gaussianReal_of_var_ne_zero _ hv]
      congr 1
      funext x
      unfold gaussianPDF gaussianPDFReal phi
      rw [Real.coe_toNNReal _ (sq_nonneg s)]
      congr 1
      show _ = (√(2 * π))⁻¹ * rexp (-((x - m) / s) ^ 2 / 2) / s
      rw [Real.sqrt_mul (by positivity), Real.sqrt_sq hs.le, div_pow, mul_inv]
      rw [show -(x - m) ^ 2 / (2 * s ^ 2) = -((x - m) ^ 2 / s ^ 2) / 2 by field_simp]
      ring
  · intro x
    rw [cdf_ok hs, normalLaw, real_Iic hs]
  · intro p h0 h1
    obtain ⟨z, hz⟩ := Phi_surj h0 h1
    refine ⟨m + s * z, ?_, isLeast_Phi hs hz, ?_⟩
    · unfold quantile
      rw [Res.monad_bind_eq, erfcInv_eq hz, Res.bind_ok]
      have h2 : √2 * √(1 / 2) = 1 := by
        rw [← Real.sqrt_mul (by norm_num)]
        norm_num
      congr 1
      show m + s * √2 * -(-z * √(1 / 2)) = m + s * z
      linear_combination s * z * h2
    · rw [normalLaw, real_Iic hs, ← hz]
      congr 1
      field_simp
      ring
  · refine drawsNear_of (g := fun z => m + s * z) (by fun_prop) map_std fun norm01 st st' z e => ?_
    unfold draw
    rw [Res.monad_bind_eq, e, Res.bind_ok]

example : CdfOf (normalLaw 0 1) NormalD.default.cdf := by
  have := (normal_describes (m := 0) (s := 1) one_pos).2.2.1
  unfold NormalD.default
  norm_num
  exact this

/-- The quantiles 0 and 1, which the documentation of `Quantile` admits, throw. -/
theorem normal_quantile_ends (d : NormalD) {p : ℝ} (h : p = 0 ∨ p = 1) :
    (∃ e, d.quantile p = .throws e) ∧ ∃ e, NormalD.quantile01 p = .throws e := by
  obtain ⟨e, he⟩ := Phi.erfcInv_throws (p := p) (by rcases h with h | h <;> [left; right] <;> linarith)
  unfold NormalD.quantile NormalD.quantile01
  rw [Res.monad_bind_eq, Res.monad_bind_eq, he]
  exact ⟨⟨e, rfl⟩, e, rfl⟩

/-- `Quantile01` is `Quantile` of the standard normal distribution. -/
theorem normal_quantile01 (p : ℝ) : NormalD.quantile01 p = (NormalD.mk 0 1).quantile p := by
  unfold NormalD.quantile NormalD.quantile01
  simp

/-- After `SetParameters` the object is as a new one. -/
theorem normal_setParameters (d : NormalD) (m s : ℝ) : d.setParameters m s = NormalD.mk m s := rfl

/-! ## C102: potentials -/

/-- `v` is a potential of a law: the exponential of minus its value is a density. -/
def PotentialOf (ν : Measure ℝ) (A : Set ℝ) (v : ℝ → Res ℝ) : Prop :=
  ∃ f : ℝ → ℝ, Measurable f ∧ (∀ x ∈ A, v x = .ok (f x)) ∧
    ν = (volume.restrict A).withDensity fun x => ENNReal.ofReal (Real.exp (-f x))

namespace NormalD

open Phi

theorem potential_ok {m s : ℝ} (hs : 0 < s) (x : ℝ) :
    (NormalD.mk m s).potential x = .ok (-Real.log (phi ((x - m) / s) / s)) := by
  have h1 : ¬ 2.0 * π * (s * s) ≤ 0 := by
    have : (0 : ℝ) < 2.0 * π * (s * s) := by positivity
    linarith
  have h2 : s * s ≠ 0 := by positivity
  unfold potential
  simp only [Res.monad_bind_eq, flog, fdiv, if_neg h1, if_neg h2, Res.bind_ok]
  congr 1
  unfold phi
  have e1 : Real.log ((√(2 * π))⁻¹ * rexp (-((x - m) / s) ^ 2 / 2)) = -(Real.log (2 * π) / 2) + -((x - m) / s) ^ 2 / 2 := by
    rw [Real.log_mul (by positivity) (by positivity), Real.log_inv, Real.log_exp, Real.log_sqrt (by positivity)]
  have e2 : Real.log (2.0 * π * (s * s)) = Real.log (2 * π) + 2 * Real.log s := by
    rw [Real.log_mul (by positivity) (by positivity), Real.log_mul hs.ne' hs.ne']
    norm_num
    ring
  rw [Real.log_div (by positivity) hs.ne', e1, e2]
  norm_num
  field_simp
  ring

theorem normalLaw_density {m s : ℝ} (hs : 0 < s) :
    normalLaw m s = volume.withDensity fun x => ENNReal.ofReal (phi ((x - m) / s) / s) := by
  obtain ⟨f, _, _, hf, h⟩ := (normal_describes (m := m) hs).2.1
  rw [h]
  congr 1
  funext x
  have : Res.ok (phi ((x - m) / s) / s) = Res.ok (f x) := by
    rw [← hf x]
    exact (pdf_ok (d := ⟨m, s⟩) hs x).symm
  rw [Res.ok.inj this]

theorem real_Ioc {m s a b : ℝ} (hs : 0 < s) (hab : a ≤ b) :
    (normalLaw m s).real (Ioc a b) = Phi ((b - m) / s) - Phi ((a - m) / s) := by
  have hp := (normal_describes (m := m) hs).1
  have := measureReal_union (μ := normalLaw m s) (Iic_disjoint_Ioc (le_refl a) (c := b)) measurableSet_Ioc
  rw [Iic_union_Ioc_eq_Iic hab] at this
  unfold normalLaw at *
  rw [real_Iic hs, real_Iic hs] at this
  linarith

/-- The law of a normal variable that is known to lie in `A`. -/
theorem cond_density {m s : ℝ} (hs : 0 < s) {A : Set ℝ} (hA : MeasurableSet A) {c : ℝ} (hc : 0 < c)
    (h : (normalLaw m s).real A = c) :
    (normalLaw m s)[|A] = (volume.restrict A).withDensity fun x =>
      ENNReal.ofReal (Real.exp (-(-Real.log (phi ((x - m) / s) / s) + Real.log c))) := by
  have hp := (normal_describes (m := m) hs).1
  have e : ∀ x, ENNReal.ofReal (Real.exp (-(-Real.log (phi ((x - m) / s) / s) + Real.log c))) =
      (ENNReal.ofReal c)⁻¹ * ENNReal.ofReal (phi ((x - m) / s) / s) := by
    intro x
    have h1 : 0 < phi ((x - m) / s) / s := div_pos (phi_pos _) hs
    rw [neg_add, neg_neg, Real.exp_add, Real.exp_neg, Real.exp_log h1, Real.exp_log hc, mul_comm,
      ENNReal.ofReal_mul (by positivity), ENNReal.ofReal_inv_of_pos hc]
  simp only [e]
  unfold ProbabilityTheory.cond
  rw [show (fun x => (ENNReal.ofReal c)⁻¹ * ENNReal.ofReal (phi ((x - m) / s) / s)) =
      (ENNReal.ofReal c)⁻¹ • fun x => ENNReal.ofReal (phi ((x - m) / s) / s) from rfl,
    withDensity_smul _ (by have := phi_cont.measurable; fun_prop), ← h, ofReal_measureReal]
  congr 1
  rw [← restrict_withDensity hA, ← normalLaw_density hs]

end NormalD

open NormalD Phi in
/-- `Potential` is minus the logarithm of `Pdf`. -/
theorem normal_potential {m s : ℝ} (hs : 0 < s) (x : ℝ) :
    ∃ f, (NormalD.mk m s).pdf x = .ok f ∧ 0 < f ∧ (NormalD.mk m s).potential x = .ok (-Real.log f) :=
  ⟨_, pdf_ok hs x, div_pos (phi_pos _) hs, potential_ok hs x⟩

open NormalD Phi in
/-- `PotentialLowerTruncated(x, min)` is a potential of the law of a normal number that is known to be greater than
`min`, and `PotentialZeroTruncated(x)` is the one for `min` = 0. -/
theorem normal_potential_lower {m s : ℝ} (hs : 0 < s) (a : ℝ) :
    PotentialOf ((normalLaw m s)[|Ioi a]) (Ioi a) (fun x => (NormalD.mk m s).potentialLowerTruncated x a) ∧
    (NormalD.mk m s).potentialZeroTruncated = fun x => (NormalD.mk m s).potentialLowerTruncated x 0 := by
  have hp := (normal_describes (m := m) hs).1
  have hc : 0 < 1 - Phi ((a - m) / s) := by linarith [Phi_lt_one ((a - m) / s)]
  constructor
  · refine ⟨fun x => -Real.log (phi ((x - m) / s) / s) + Real.log (1 - Phi ((a - m) / s)), ?_, ?_, ?_⟩
    · have := phi_cont.measurable
      fun_prop
    · intro x _
      unfold potentialLowerTruncated
      simp only [Res.monad_bind_eq, cdf_ok (d := ⟨m, s⟩) hs, potential_ok hs, Res.bind_ok]
      rw [if_pos (by norm_num; exact Phi_lt_one _), flog, if_neg (by norm_num; exact Phi_lt_one _), Res.bind_ok]
      norm_num
    · refine cond_density hs measurableSet_Ioi hc ?_
      rw [← compl_Iic, probReal_compl_eq_one_sub measurableSet_Iic]
      unfold normalLaw
      rw [real_Iic hs]
  · funext x
    unfold potentialZeroTruncated potentialLowerTruncated
    norm_num

open NormalD Phi in
/-- `PotentialTwoSidedTruncated(x, min, max)` is a potential of the law of a normal number that is known to lie between
`min` and `max`, if that has a probability of more than 10⁻⁶. -/
theorem normal_potential_two_partial {m s : ℝ} (hs : 0 < s) {a b : ℝ} (h : 1e-6 < (normalLaw m s).real (Ioc a b)) :
    PotentialOf ((normalLaw m s)[|Ioc a b]) (Ioc a b)
      (fun x => (NormalD.mk m s).potentialTwoSidedTruncated x a b) := by
  have hp := (normal_describes (m := m) hs).1
  have hab : a ≤ b := by
    by_contra hc
    rw [Ioc_eq_empty (by push Not at hc; exact not_lt.2 hc.le)] at h
    norm_num at h
  have e : (normalLaw m s).real (Ioc a b) = Phi ((b - m) / s) - Phi ((a - m) / s) :=
    real_Ioc hs hab
  have hc : 0 < Phi ((b - m) / s) - Phi ((a - m) / s) := by
    rw [← e]
    norm_num at h
    linarith
  refine ⟨fun x => -Real.log (phi ((x - m) / s) / s) + Real.log (Phi ((b - m) / s) - Phi ((a - m) / s)), ?_, ?_, ?_⟩
  · have := phi_cont.measurable
    fun_prop
  · intro x _
    unfold potentialTwoSidedTruncated
    simp only [Res.monad_bind_eq, cdf_ok (d := ⟨m, s⟩) hs, potential_ok hs, Res.bind_ok]
    rw [if_pos, flog, if_neg (not_le.2 hc), Res.bind_ok]
    have hz := RootPhi.isZero_iff (a := Phi ((b - m) / s) - Phi ((a - m) / s)) (e := 1.0e-6) (by norm_num) (by norm_num)
    rw [hz, abs_of_pos hc, ← e]
    norm_num at *
    exact h
  · exact cond_density hs measurableSet_Ioc hc e

example : (1e-6 : ℝ) < (normalLaw 0 1).real (Ioc 0 5) := by
  rw [NormalD.real_Ioc one_pos (by norm_num)]
  have := NormalD.Phi_five
  have := Phi.Phi_zero
  norm_num at *
  linarith

open NormalD Phi in
/-- What is missing above: in a narrower interval the width of the interval takes the place of its probability, and the
result is not a potential of the law. -/
theorem normal_potential_two_violation :
    ¬ PotentialOf ((normalLaw 0 1)[|Ioc 0 1e-6]) (Ioc 0 1e-6)
      (fun x => (NormalD.mk 0 1).potentialTwoSidedTruncated x 0 1e-6) := by
  have hp := (normal_describes (m := 0) one_pos).1
  have hlow : ∀ x, phi x ≤ 1 / 2 := by
    intro x
    unfold phi
    have h1 : exp (-x ^ 2 / 2) ≤ 1 := Real.exp_le_one_iff.2 (by nlinarith [sq_nonneg x])
    have h2 : (2 : ℝ) ≤ √(2 * π) := by
      rw [Real.le_sqrt' (by norm_num)]
      have := Real.pi_gt_three
      norm_num
      linarith
    have h3 : (√(2 * π))⁻¹ ≤ 1 / 2 := by
      rw [one_div]
      gcongr
    have : 0 < exp (-x ^ 2 / 2) := exp_pos _
    have : 0 < (√(2 * π))⁻¹ := by positivity
    nlinarith
  have hsc : Phi 1e-6 - Phi 0 ≤ 1e-6 / 2 := by
    rw [Phi_sub (by norm_num)]
    have := intervalIntegral.integral_mono_on (a := (0 : ℝ)) (b := 1e-6) (by norm_num) (phi_int.intervalIntegrable)
      (_root_.intervalIntegrable_const (c := (1 / 2 : ℝ)) (μ := volume)) fun x _ => hlow x
    refine this.trans ?_
    rw [intervalIntegral.integral_const]
    norm_num
  have hpos : 0 < Phi 1e-6 - Phi 0 := by
    have := Phi_strictMono (show (0 : ℝ) < 1e-6 by norm_num)
    linarith
  rintro ⟨f, hf, hv, hl⟩
  have e : ∀ x ∈ Ioc (0 : ℝ) 1e-6, f x = -Real.log (phi x) + Real.log 1e-6 := by
    intro x hx
    have h1 := hv x hx
    unfold potentialTwoSidedTruncated at h1
    simp only [Res.monad_bind_eq, cdf01_ok, potential_ok one_pos, Res.bind_ok] at h1
    rw [if_neg, flog, if_neg (by norm_num), Res.bind_ok] at h1
    · have := Res.ok.inj h1
      norm_num at this ⊢
      linarith
    · have hz := RootPhi.isZero_iff (a := Phi 1e-6 - Phi 0) (e := 1.0e-6) (by norm_num) (by norm_num)
      rw [not_not, hz, abs_of_pos hpos]
      norm_num at *
      linarith
  have htot : (normalLaw 0 1)[|Ioc 0 1e-6] univ = 1 := by
    have : IsProbabilityMeasure ((normalLaw 0 1)[|Ioc 0 1e-6]) := by
      refine cond_isProbabilityMeasure ?_
      intro hc
      have hz : (normalLaw 0 1).real (Ioc 0 1e-6) = 0 := by
        rw [measureReal_def, hc]
        rfl
      rw [real_Ioc one_pos (by norm_num)] at hz
      norm_num at *
      linarith
    exact measure_univ
  rw [hl, withDensity_apply _ MeasurableSet.univ, Measure.restrict_univ] at htot
  have hle : ∫⁻ x in Ioc (0 : ℝ) 1e-6, ENNReal.ofReal (Real.exp (-f x)) ≤ ENNReal.ofReal (1 / 2) := by
    have h1 : ∀ x ∈ Ioc (0 : ℝ) 1e-6, ENNReal.ofReal (Real.exp (-f x)) ≤ ENNReal.ofReal (1e6 / 2) := by
      intro x hx
      refine ENNReal.ofReal_le_ofReal ?_
      rw [e x hx, neg_add, neg_neg, Real.exp_add, Real.exp_log (phi_pos x), Real.exp_neg, Real.exp_log (by norm_num)]
      have := hlow x
      norm_num
      linarith
    refine (setLIntegral_mono' measurableSet_Ioc h1).trans ?_
    rw [setLIntegral_const, Real.volume_Ioc, ← ENNReal.ofReal_mul (by norm_num)]
    refine ENNReal.ofReal_le_ofReal ?_
    norm_num
  rw [htot] at hle
  have : (1 : ENNReal) = ENNReal.ofReal 1 := by simp
  rw [this, ENNReal.ofReal_le_ofReal_iff (by norm_num)] at hle
  norm_num at hle

end Verif
