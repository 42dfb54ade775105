import Verif.Props.Beta

/-!
# C107: the beta distribution with mass at the ends

`BetaWithEndMass`: a value is `min_val` with probability `p_min`, `max_val` with probability `p_max`, and otherwise from the beta
distribution between them.
-/

namespace Verif

open Spec MeasureTheory ProbabilityTheory BetaEndD

/-! ## Specification -/

/-- The law of a value that is `lo` with probability `pLo`, `hi` with probability `pHi`, and otherwise has the law `ν`. -/
noncomputable def endMassLaw (pLo pHi lo hi : ℝ) (ν : Measure ℝ) : Measure ℝ :=
  ENNReal.ofReal pLo • Measure.dirac lo + ENNReal.ofReal (1 - pLo - pHi) • ν + ENNReal.ofReal pHi • Measure.dirac hi

/-! ## Helpers -/

namespace BetaEndD

variable {a b minVal maxVal pMin pMax : ℝ} {n : ℕ} {q : ℕ → ℝ} {d : BetaD}

theorem law_Iic (ν : Measure ℝ) [IsProbabilityMeasure ν] (h0 : 0 ≤ pMin) (h1 : 0 ≤ pMax) (h2 : pMin + pMax ≤ 1) (x : ℝ) :
    (endMassLaw pMin pMax minVal maxVal ν).real (Set.Iic x) =
      (if minVal ≤ x then pMin else 0) + (1 - pMin - pMax) * ν.real (Set.Iic x) + if maxVal ≤ x then pMax else 0 := by
  have e : ∀ (p y : ℝ), 0 ≤ p → (ENNReal.ofReal p • Measure.dirac y).real (Set.Iic x) = if y ≤ x then p else 0 := by
    intro p y hp
    rw [measureReal_ennreal_smul_apply, ENNReal.toReal_ofReal hp, measureReal_def, Measure.dirac_apply' _ measurableSet_Iic]
    split_ifs with h
    · rw [Set.indicator_of_mem (show y ∈ Set.Iic x from h)]
      simp
    · rw [Set.indicator_of_notMem (show y ∉ Set.Iic x from h)]
      simp
  have hf : ∀ (p : ℝ) (m : Measure ℝ), IsProbabilityMeasure m → (ENNReal.ofReal p • m) (Set.Iic x) ≠ ⊤ := by
    intro p m _
    rw [Measure.smul_apply, smul_eq_mul]
    exact ENNReal.mul_ne_top ENNReal.ofReal_ne_top (measure_ne_top _ _)
  have f1 := hf pMin (Measure.dirac minVal) inferInstance
  have f2 := hf (1 - pMin - pMax) ν inferInstance
  have f3 := hf pMax (Measure.dirac maxVal) inferInstance
  unfold endMassLaw
  rw [measureReal_add_apply (by rw [Measure.add_apply]; exact ENNReal.add_ne_top.2 ⟨f1, f2⟩) f3, measureReal_add_apply f1 f2, e _ _ h0, e _ _ h1, measureReal_ennreal_smul_apply,
    ENNReal.toReal_ofReal (by linarith)]

/-- The function that `Quantile` computes. -/
noncomputable def G (minVal maxVal pMin pMax : ℝ) (q : ℕ → ℝ) (n : ℕ) (p : ℝ) : ℝ :=
  if p ≤ pMin then minVal else if p ≥ 1 - pMax then maxVal else BetaD.G minVal q n ((p - pMin) / (1 - pMin - pMax))

theorem G_range (hd : d.Is minVal maxVal a b n q) (hn : 0 < n) (h : minVal < maxVal) (p : ℝ) :
    minVal ≤ BetaD.G minVal q n p ∧ BetaD.G minVal q n p ≤ maxVal := by
  have hm := hd.G_mono hn h
  constructor
  · by_cases hp : 0 ≤ p
    · have := hm hp
      rwa [BetaD.G_zero] at this
    · have : BetaD.G minVal q n p = BetaD.G minVal q n 0 := by
        unfold BetaD.G
        rw [max_eq_left (by rw [min_eq_left (by linarith)]; linarith), BetaD.clip_eq le_rfl zero_le_one]
      rw [this, BetaD.G_zero]
  · by_cases hp : p ≤ 1
    · have := hm hp
      rwa [hd.G_one hn] at this
    · have : BetaD.G minVal q n p = BetaD.G minVal q n 1 := by
        unfold BetaD.G
        rw [min_eq_right (by linarith), max_eq_right zero_le_one, BetaD.clip_eq zero_le_one le_rfl]
      rw [this, hd.G_one hn]

theorem G_mono (hd : d.Is minVal maxVal a b n q) (hn : 0 < n) (h : minVal < maxVal) :
    Monotone (G minVal maxVal pMin pMax q n) := by
  intro p p' hp
  unfold G
  by_cases c1 : p ≤ pMin
  · rw [if_pos c1]
    split_ifs
    · exact le_rfl
    · exact h.le
    · exact (G_range hd hn h _).1
  rw [if_neg c1, if_neg (fun hc => c1 (hp.trans hc))]
  by_cases c2 : p ≥ 1 - pMax
  · rw [if_pos c2, if_pos (ge_trans hp c2)]
  rw [if_neg c2]
  split_ifs
  · exact (G_range hd hn h _).2
  · refine hd.G_mono hn h ?_
    have : 0 < 1 - pMin - pMax := by
      by_contra hc
      exact c2 (by linarith [not_le.1 c1])
    gcongr

/-- Rescaled probabilities. -/
theorem rescale {p : ℝ} (c1 : ¬p ≤ pMin) (c2 : ¬p ≥ 1 - pMax) :
    0 < 1 - pMin - pMax ∧ 0 < (p - pMin) / (1 - pMin - pMax) ∧ (p - pMin) / (1 - pMin - pMax) < 1 := by
  have h1 := not_le.1 c1
  have h2 := not_le.1 c2
  have h3 : 0 < 1 - pMin - pMax := by linarith
  exact ⟨h3, div_pos (by linarith) h3, (div_lt_one h3).2 (by linarith)⟩

theorem quantile_eq (hd : d.Is minVal maxVal a b n q) (hn : 0 < n) (hbig : n < 2 ^ 31) (p : ℝ) :
    (BetaEndD.mk d pMin pMax).quantile p = .ok (G minVal maxVal pMin pMax q n p) := by
  unfold quantile G
  rw [show (1.0 : ℝ) = 1 by norm_num, hd.eMin, hd.eMax]
  by_cases c1 : p ≤ pMin
  · rw [if_pos c1, if_pos c1]
  rw [if_neg c1, if_neg c1]
  by_cases c2 : p ≥ 1 - pMax
  · rw [if_pos c2, if_pos c2]
  rw [if_neg c2, if_neg c2]
  obtain ⟨h3, h4, h5⟩ := rescale c1 c2
  simp only [Res.monad_bind_eq]
  rw [show fdiv (p - pMin) (1 - pMin - pMax) = .ok ((p - pMin) / (1 - pMin - pMax)) from if_neg h3.ne', Res.bind_ok]
  exact hd.quantile_G hn hbig h4.le h5.le

/-- What `Cdf` computes, whatever the masses are. -/
theorem cdf_eq (hd : d.Is minVal maxVal a b n q) (hn : 0 < n) (hbig : n < 2 ^ 31) (h : minVal < maxVal) (x : ℝ) :
    (BetaEndD.mk d pMin pMax).cdf x = .ok (if x < minVal then 0 else if maxVal ≤ x then 1 else
      BetaD.F a b n minVal maxVal x * (1 - pMin - pMax) + pMin) := by
  unfold cdf
  rw [hd.eMin, hd.eMax]
  by_cases c1 : x < minVal
  · rw [if_pos c1, if_pos c1]
    norm_num
  rw [if_neg c1, if_neg c1]
  by_cases c2 : maxVal ≤ x
  · rw [if_pos c2, if_pos c2]
    norm_num
  rw [if_neg c2, if_neg c2]
  simp only [Res.monad_bind_eq]
  rw [hd.cdf_in hn hbig h (not_lt.1 c1) (not_le.1 c2).le, Res.bind_ok]

theorem F_law (hn : 0 < n) (h : minVal < maxVal) (h0 : 0 ≤ pMin) (h1 : 0 ≤ pMax) (h2 : pMin + pMax ≤ 1) (x : ℝ) :
    (endMassLaw pMin pMax minVal maxVal (BetaD.cellLaw a b n minVal maxVal)).real (Set.Iic x) =
      if x < minVal then 0 else if maxVal ≤ x then 1 else BetaD.F a b n minVal maxVal x * (1 - pMin - pMax) + pMin := by
  have := BetaD.cellLaw_prob (a := a) (b := b) hn h
  rw [law_Iic _ h0 h1 h2]
  by_cases c1 : x < minVal
  · rw [if_pos c1, if_neg (not_le.2 c1), if_neg (by linarith), BetaD.cellLaw_low hn h c1.le]
    ring
  rw [if_neg c1, if_pos (not_lt.1 c1)]
  by_cases c2 : maxVal ≤ x
  · rw [if_pos c2, if_pos c2, BetaD.cellLaw_high hn h c2]
    ring
  rw [if_neg c2, if_neg c2, BetaD.F]
  ring

theorem law_prob (ν : Measure ℝ) [IsProbabilityMeasure ν] (h0 : 0 ≤ pMin) (h1 : 0 ≤ pMax) (h2 : pMin + pMax ≤ 1) :
    IsProbabilityMeasure (endMassLaw pMin pMax minVal maxVal ν) := by
  constructor
  unfold endMassLaw
  simp only [Measure.add_apply, Measure.smul_apply, measure_univ, smul_eq_mul, mul_one]
  rw [← ENNReal.ofReal_add h0 (by linarith), ← ENNReal.ofReal_add (by linarith) h1,
    show pMin + (1 - pMin - pMax) + pMax = 1 by ring, ENNReal.ofReal_one]

end BetaEndD

/-! ## Theorems -/

variable {a b minVal maxVal pMin pMax : ℝ} {n : ℕ}

/-- C107: `Cdf` is the distribution function of the law with mass at the ends and the beta law in cells between them; the draws are
independent, `min_val` with probability `p_min`, and `max_val` with probability `p_max`, and the distribution function of their law differs
by at most 1/nx times the probability between the ends. Missing: `Pdf`, and `Quantile` between the ends, as in C106. -/
theorem betaEnd_partial (a b : ℝ) (hn : 0 < n) (hbig : n < 2 ^ 31) (h : minVal < maxVal) (h0 : 0 ≤ pMin) (h1 : 0 ≤ pMax)
    (h2 : pMin + pMax ≤ 1) :
    ∃ d, create minVal maxVal pMin pMax a b n = .ok d ∧
      IsProbabilityMeasure (endMassLaw pMin pMax minVal maxVal (BetaD.cellLaw a b n minVal maxVal)) ∧
      CdfOf (endMassLaw pMin pMax minVal maxVal (BetaD.cellLaw a b n minVal maxVal)) d.cdf ∧
      (∀ p, p ≤ pMin → d.quantile p = .ok minVal) ∧
      (∀ p, pMin < p → 1 - pMax ≤ p → d.quantile p = .ok maxVal) ∧
      (∀ p, pMin < p → p < 1 - pMax → ∃ x, d.quantile p = .ok x ∧ minVal < x ∧ x < maxVal ∧
        |(endMassLaw pMin pMax minVal maxVal (BetaD.cellLaw a b n minVal maxVal)).real (Set.Iic x) - p| ≤ (1 - pMin - pMax) / n) ∧
      ∃ ν' : Measure ℝ, IsProbabilityMeasure ν' ∧ DrawsHaveLaw d.draw ν' ∧ ν'.real {minVal} = pMin ∧ ν'.real {maxVal} = pMax ∧
        ∀ x, |ν'.real (Set.Iic x) - (endMassLaw pMin pMax minVal maxVal (BetaD.cellLaw a b n minVal maxVal)).real (Set.Iic x)|
          ≤ (1 - pMin - pMax) / n := by
  obtain ⟨d, q, hc, hd⟩ := BetaD.create_is a b hn h
  have hnr : (0 : ℝ) < n := by exact_mod_cast hn
  have hpn : 0 ≤ (1 - pMin - pMax) / n := div_nonneg (by linarith) hnr.le
  have hq := fun p => quantile_eq (pMin := pMin) (pMax := pMax) hd hn hbig p
  have hcell := BetaD.cellLaw_prob (a := a) (b := b) hn h
  have hmid : ∀ p, pMin < p → p < 1 - pMax → minVal < G minVal maxVal pMin pMax q n p ∧ G minVal maxVal pMin pMax q n p < maxVal ∧
      |(BetaD.F a b n minVal maxVal (G minVal maxVal pMin pMax q n p) * (1 - pMin - pMax) + pMin) - p| ≤ (1 - pMin - pMax) / n := by
    intro p hp hp'
    obtain ⟨h3, h4, h5⟩ := rescale (not_le.2 hp) (not_le.2 hp')
    have e : G minVal maxVal pMin pMax q n p = BetaD.G minVal q n ((p - pMin) / (1 - pMin - pMax)) := by
      unfold G
      rw [if_neg (not_le.2 hp), if_neg (not_le.2 hp')]
    rw [e]
    have g1 := hd.G_lt hn h le_rfl h4 h5.le
    have g2 := hd.G_lt hn h h4.le h5 le_rfl
    rw [BetaD.G_zero] at g1
    rw [hd.G_one hn] at g2
    have g3 := hd.near hn h h4.le h5.le
    refine ⟨g1, g2, ?_⟩
    set y := BetaD.F a b n minVal maxVal (BetaD.G minVal q n ((p - pMin) / (1 - pMin - pMax)))
    have e2 : y * (1 - pMin - pMax) + pMin - p = (y - (p - pMin) / (1 - pMin - pMax)) * (1 - pMin - pMax) := by
      rw [sub_mul, div_mul_cancel₀ _ h3.ne']
      ring
    rw [e2, abs_mul, abs_of_pos h3]
    calc _ ≤ 1 / n * (1 - pMin - pMax) := by gcongr
      _ = _ := by ring
  have hm := (G_mono (pMin := pMin) (pMax := pMax) hd hn h).measurable
  refine ⟨⟨d, pMin, pMax⟩, ?_, law_prob _ h0 h1 h2, ?_, ?_, ?_, ?_, ?_⟩
  · unfold create
    rw [Res.monad_bind_eq, hc, Res.bind_ok]
  · intro x
    rw [cdf_eq hd hn hbig h x, F_law hn h h0 h1 h2]
  · intro p hp
    rw [hq, G, if_pos hp]
  · intro p hp hp'
    rw [hq, G, if_neg (not_le.2 hp), if_pos hp']
  · intro p hp hp'
    obtain ⟨g1, g2, g3⟩ := hmid p hp hp'
    refine ⟨_, hq p, g1, g2, ?_⟩
    rw [F_law hn h h0 h1 h2, if_neg (by linarith), if_neg (by linarith)]
    exact g3
  · have hpr : IsProbabilityMeasure (Distr.unif.map (G minVal maxVal pMin pMax q n)) :=
      Measure.isProbabilityMeasure_map hm.aemeasurable
    have hmin : ∀ p, p < 1 → 1 - pMax ≠ p → (G minVal maxVal pMin pMax q n p ≤ minVal ↔ p ≤ pMin) := by
      intro p hp1 hne
      constructor
      · intro hle
        by_contra hcon
        rcases lt_or_ge p (1 - pMax) with hlt | hge
        · linarith [(hmid p (not_le.1 hcon) hlt).1]
        · rw [G, if_neg hcon, if_pos hge] at hle
          linarith
      · intro hp
        rw [G, if_pos hp]
    have hmax : ∀ p, (pMin < p) → (G minVal maxVal pMin pMax q n p < maxVal ↔ p < 1 - pMax) := by
      intro p hp
      constructor
      · intro hlt
        by_contra hcon
        rw [G, if_neg (not_le.2 hp), if_pos (not_lt.1 hcon)] at hlt
        exact lt_irrefl _ hlt
      · intro hlt
        exact (hmid p hp hlt).2.1
    have hval : ∀ c : ℝ, 0 ≤ c → c ≤ 1 → Distr.unif.real (Set.Iic c) = c := by
      intro c g0 g1
      rw [measureReal_def, Distr.unif_le g1, ENNReal.toReal_ofReal g0]
    have hane : ∀ c : ℝ, ∀ᵐ p ∂Distr.unif, p ≠ c := fun c => ae_restrict_of_ae (by rw [ae_iff]; simp)
    refine ⟨Distr.unif.map (G minVal maxVal pMin pMax q n), hpr, Distr.drawQuantile_law hm fun u _ _ => hq u, ?_, ?_, ?_⟩
    · rw [measureReal_def, Measure.map_apply hm (measurableSet_singleton _), ← measureReal_def]
      conv_rhs => rw [← hval pMin h0 (by linarith)]
      refine measureReal_congr ?_
      filter_upwards [Distr.ae_unif, hane (1 - pMax)] with p hp hne
      refine propext (Iff.trans ?_ (hmin p hp.2 hne.symm))
      have : minVal ≤ G minVal maxVal pMin pMax q n p := by
        unfold G
        split_ifs
        · exact le_rfl
        · exact h.le
        · exact (G_range hd hn h _).1
      constructor
      · intro he
        exact le_of_eq he
      · intro he
        exact le_antisymm he this
    · have e : Distr.unif.real (G minVal maxVal pMin pMax q n ⁻¹' {maxVal}ᶜ) = 1 - pMax := by
        conv_rhs => rw [← hval (1 - pMax) (by linarith) (by linarith)]
        refine measureReal_congr ?_
        filter_upwards [Distr.ae_unif, hane (1 - pMax)] with p hp hne
        refine propext ?_
        change ¬G minVal maxVal pMin pMax q n p = maxVal ↔ p ≤ 1 - pMax
        by_cases hpm : p ≤ pMin
        · have : G minVal maxVal pMin pMax q n p = minVal := by rw [G, if_pos hpm]
          rw [this]
          exact ⟨fun _ => by linarith, fun _ => h.ne⟩
        · have g2 := hmax p (not_le.1 hpm)
          have : G minVal maxVal pMin pMax q n p ≤ maxVal := by
            unfold G
            rw [if_neg hpm]
            split_ifs
            · exact le_rfl
            · exact (G_range hd hn h _).2
          constructor
          · intro he
            exact (g2.1 (lt_of_le_of_ne this he)).le
          · intro he
            exact (g2.2 (lt_of_le_of_ne he hne)).ne
      have e2 : (Distr.unif.map (G minVal maxVal pMin pMax q n)).real {maxVal}ᶜ = 1 - pMax := by
        rw [measureReal_def, Measure.map_apply hm (measurableSet_singleton _).compl, ← measureReal_def, e]
      rw [probReal_compl_eq_one_sub (measurableSet_singleton _)] at e2
      linarith
    · intro x
      rw [F_law hn h h0 h1 h2]
      by_cases c1 : x < minVal
      · rw [if_pos c1]
        refine Distr.map_near hm le_rfl zero_le_one hpn (fun p _ _ hx => ?_) (fun p g0 _ _ => by linarith)
        exfalso
        have : minVal ≤ G minVal maxVal pMin pMax q n p := by
          unfold G
          split_ifs
          · exact le_rfl
          · exact h.le
          · exact (G_range hd hn h _).1
        linarith
      rw [if_neg c1]
      by_cases c2 : maxVal ≤ x
      · rw [if_pos c2]
        refine Distr.map_near hm zero_le_one le_rfl hpn (fun p _ g1 _ => by linarith) (fun p _ _ hx => ?_)
        exfalso
        have : G minVal maxVal pMin pMax q n p ≤ maxVal := by
          unfold G
          split_ifs
          · exact h.le
          · exact le_rfl
          · exact (G_range hd hn h _).2
        linarith
      rw [if_neg c2]
      have hF0 := BetaD.F_nonneg (a := a) (b := b) (n := n) (minVal := minVal) (maxVal := maxVal) x
      have hF1 := BetaD.F_le_one (a := a) (b := b) hn h x
      have hs : 0 ≤ 1 - pMin - pMax := by linarith
      refine Distr.map_near hm (by positivity) (by nlinarith) hpn (fun p g0 g1 hx => ?_) (fun p g0 g1 hx => ?_)
      · by_cases hp : p ≤ pMin
        · nlinarith
        have hp' : p < 1 - pMax := (hmax p (not_le.1 hp)).1 (by linarith)
        have l1 := BetaD.F_mono (a := a) (b := b) hn h hx
        have l2 := abs_le.1 (hmid p (not_le.1 hp) hp').2.2
        nlinarith
      · by_cases hp : p ≤ pMin
        · rw [G, if_pos hp] at hx
          linarith
        by_cases hp' : p < 1 - pMax
        · have l1 := BetaD.F_mono (a := a) (b := b) hn h hx.le
          have l2 := abs_le.1 (hmid p (not_le.1 hp) hp').2.2
          nlinarith
        · nlinarith

/-! ## Violations -/

/-- C107: `Pdf` is infinite in the ends also when they have no mass. -/
theorem betaEnd_pdf_violation (a b : ℝ) (hn : 0 < n) (h : minVal < maxVal) :
    ∃ d, create minVal maxVal 0 0 a b n = .ok d ∧ (∃ m, d.pdf minVal = .nonfinite m) ∧ ∃ m, d.pdf maxVal = .nonfinite m := by
  obtain ⟨d, q, hc, hd⟩ := BetaD.create_is a b hn h
  refine ⟨⟨d, 0, 0⟩, ?_, ?_, ?_⟩
  · unfold create
    rw [Res.monad_bind_eq, hc, Res.bind_ok]
  · unfold BetaEndD.pdf
    rw [hd.eMin, if_pos rfl]
    exact ⟨_, rfl⟩
  · unfold BetaEndD.pdf
    rw [hd.eMin, hd.eMax, if_neg h.ne', if_pos rfl]
    exact ⟨_, rfl⟩

/-- C107: the constructor admits `p_min` = `p_max` = 1, since it tests them one by one; then `Cdf` decreases between the ends, and
no draw is `max_val`: every quantile is `min_val`. -/
theorem betaEnd_mass_violation (a b : ℝ) (hn : 0 < n) (hbig : n < 2 ^ 31) (h : minVal < maxVal) :
    ∃ d, create minVal maxVal 1 1 a b n = .ok d ∧
      (∀ x y, minVal ≤ x → x < y → y < maxVal → ∃ u v, d.cdf x = .ok u ∧ d.cdf y = .ok v ∧ v < u) ∧
      ∀ p, p ≤ 1 → d.quantile p = .ok minVal := by
  obtain ⟨d, q, hc, hd⟩ := BetaD.create_is a b hn h
  refine ⟨⟨d, 1, 1⟩, ?_, ?_, ?_⟩
  · unfold create
    rw [Res.monad_bind_eq, hc, Res.bind_ok]
  · intro x y hx hxy hy
    refine ⟨_, _, cdf_eq hd hn hbig h x, cdf_eq hd hn hbig h y, ?_⟩
    rw [if_neg (by linarith), if_neg (by linarith), if_neg (by linarith), if_neg (by linarith)]
    have := BetaD.F_lt (a := a) (b := b) hn h hx hxy hy.le
    linarith
  · intro p hp
    rw [quantile_eq hd hn hbig, G, if_pos hp]

/-! ## Examples -/

example : ∃ d, create 0 1 (1 / 10) (1 / 5) 2 3 200 = .ok d ∧
    CdfOf (endMassLaw (1 / 10) (1 / 5) 0 1 (BetaD.cellLaw 2 3 200 0 1)) d.cdf := by
  obtain ⟨d, h1, -, h2, -⟩ := betaEnd_partial (minVal := 0) (maxVal := 1) (pMin := 1 / 10) (pMax := 1 / 5) (n := 200) 2 3
    (by norm_num) (by norm_num) (by norm_num) (by norm_num) (by norm_num) (by norm_num)
  exact ⟨d, h1, h2⟩

end Verif
