import Verif.Lemmas.ChiSquared

/-!
# Properties of the chi-squared distribution

C136.
-/

namespace Verif

open Gam

/-- The constructor takes every positive number of degrees of freedom and refuses the others. -/
theorem chi_create (df : ℝ) : (0 < df → ∃ d, ChiSquared.create df = .ok d ∧ d.df = df) ∧
    (df ≤ 0 → ∃ e, ChiSquared.create df = .throws e) := by
  unfold ChiSquared.create
  constructor
  · intro h
    rw [if_neg (by linarith), gammln_eq (by positivity), bind_ok']
    exact ⟨_, rfl, rfl⟩
  · intro h
    split_ifs
    · exact ⟨_, rfl⟩
    · unfold gammln
      rw [if_pos (mul_nonpos_of_nonneg_of_nonpos (by norm_num) h)]
      exact ⟨_, rfl⟩

example : ∃ d, ChiSquared.create 3 = .ok d ∧ d.df = 3 := (chi_create 3).1 (by norm_num)

/-- For less than 200 degrees of freedom `Cdf` is the integral of the density to 3e-9. -/
theorem chi_cdf_accurate {df : ℝ} (h0 : 0 < df) (h200 : df < 200) {d : ChiSquared}
    (hd : ChiSquared.create df = .ok d) {x : ℝ} (hx : 0 ≤ x) : ∃ p, d.cdf x = .ok p ∧
      |p - ∫ t in (0:ℝ)..x, t ^ (df / 2 - 1) * Real.exp (-t / 2) / (2 ^ (df / 2) * Real.Gamma (df / 2))|
        ≤ 3e-9 := by
  obtain ⟨d', e, hdf⟩ := (chi_create df).1 h0
  rw [hd] at e
  obtain rfl := Res.ok.inj e
  have ha : (0:ℝ) < 0.5 * df := by positivity
  have ha' : (0.5:ℝ) * df < 100 := by norm_num; linarith
  have hg := Real.Gamma_pos_of_pos ha
  unfold ChiSquared.cdf
  rw [if_neg (not_lt.2 hx), hdf, lowG_half h0 hx]
  rcases hx.eq_or_lt with rfl | hx
  · obtain ⟨r, hr⟩ := gammp_ok ha (le_refl (0:ℝ))
    rw [mul_zero]
    refine ⟨0, ?_, by norm_num [lowG]⟩
    unfold gammp gammpWith
    rw [if_neg (by push Not; exact ⟨le_refl _, ha⟩), if_pos rfl]
  · have hx5 : (0:ℝ) < 0.5 * x := by positivity
    have hP1 : lowG (0.5 * df) (0.5 * x) / Real.Gamma (0.5 * df) ≤ 1 := (div_le_one hg).2 (lowG_le_Gamma ha hx5)
    have hP0 : 0 ≤ lowG (0.5 * df) (0.5 * x) / Real.Gamma (0.5 * df) := div_nonneg (lowG_nonneg hx5) hg.le
    by_cases h : 0.5 * x < 0.5 * df + 1
    · obtain ⟨R, e, hR⟩ := gammp_ser ha ha' hx5 h
      refine ⟨R, e, hR.trans ?_⟩
      generalize lowG (0.5 * df) (0.5 * x) / Real.Gamma (0.5 * df) = P at *
      norm_num
      linarith
    · obtain ⟨R, e, hR⟩ := gammp_frac ha ha' (not_lt.1 h)
      refine ⟨R, e, hR.trans ?_⟩
      generalize lowG (0.5 * df) (0.5 * x) / Real.Gamma (0.5 * df) = P at *
      norm_num
      linarith

example : ∃ d p, ChiSquared.create 5 = .ok d ∧ d.cdf 3 = .ok p ∧
    |p - ∫ t in (0:ℝ)..3, t ^ ((5:ℝ) / 2 - 1) * Real.exp (-t / 2) / (2 ^ ((5:ℝ) / 2) * Real.Gamma (5 / 2))|
      ≤ 3e-9 := by
  obtain ⟨d, e, -⟩ := (chi_create 5).1 (by norm_num)
  obtain ⟨p, h1, h2⟩ := chi_cdf_accurate (by norm_num) (by norm_num) e (x := 3) (by norm_num)
  exact ⟨d, p, e, h1, h2⟩

/-- `Pdf` is the density to eleven digits. -/
theorem chi_pdf_accurate {df : ℝ} (h0 : 0 < df) (h1000 : df ≤ 1000) {d : ChiSquared}
    (hd : ChiSquared.create df = .ok d) {x : ℝ} (hx : 0 < x) : ∃ p, d.pdf x = .ok p ∧
      |p - x ^ (df / 2 - 1) * Real.exp (-x / 2) / (2 ^ (df / 2) * Real.Gamma (df / 2))|
        ≤ 1e-11 * (x ^ (df / 2 - 1) * Real.exp (-x / 2) / (2 ^ (df / 2) * Real.Gamma (df / 2))) := by
  have ha : (0:ℝ) < 0.5 * df := by positivity
  have e5 : (0.5:ℝ) * df = df / 2 := by norm_num; ring
  unfold ChiSquared.create at hd
  rw [if_neg (by linarith), gammln_eq ha, bind_ok'] at hd
  obtain rfl := Res.ok.inj hd
  unfold ChiSquared.pdf
  rw [if_neg (by linarith), if_neg hx.ne', flog_ok hx, bind_ok']
  refine ⟨_, rfl, ?_⟩
  simp only
  have l1 := abs_le.1 (lnG_close ha)
  have l2 := abs_le.1 log_two_const
  have hg := Real.Gamma_pos_of_pos (by positivity : 0 < df / 2)
  set f := x ^ (df / 2 - 1) * Real.exp (-x / 2) / (2 ^ (df / 2) * Real.Gamma (df / 2)) with hf
  have hfe : f = Real.exp ((df / 2 - 1) * Real.log x - x / 2 - (df / 2 * Real.log 2 + Real.log (Real.Gamma (df / 2)))) := by
    rw [hf, Real.exp_sub, Real.exp_sub, Real.exp_add, Real.exp_log hg, Real.rpow_def_of_pos hx,
      Real.rpow_def_of_pos (by norm_num : (0:ℝ) < 2), neg_div, Real.exp_neg, mul_comm (Real.log x),
      mul_comm (Real.log 2)]
    ring
  have hfp : 0 < f := by rw [hfe]; exact Real.exp_pos _
  set δ := (df / 2 * Real.log 2 + Real.log (Real.Gamma (df / 2))) -
    (0.693147180559945309 * (0.5 * df) + lnG (0.5 * df)) with hδ
  have hp : Real.exp (-0.5 * (x - (df - 2) * Real.log x) - (0.693147180559945309 * (0.5 * df) + lnG (0.5 * df)))
      = f * Real.exp δ := by
    rw [hfe, ← Real.exp_add, hδ]
    congr 1
    norm_num
    ring
  have hb : |δ| ≤ 4.5e-12 := by
    rw [e5] at hδ l1
    have h3 : df / 2 * (0.693147180559945309 - Real.log 2) ≤ 1e-12 := by
      have := mul_le_mul_of_nonneg_left l2.2 (by positivity : 0 ≤ df / 2)
      norm_num at this ⊢
      linarith
    have h4 : -1e-12 ≤ df / 2 * (0.693147180559945309 - Real.log 2) := by
      have := mul_le_mul_of_nonneg_left l2.1 (by positivity : 0 ≤ df / 2)
      norm_num at this ⊢
      linarith
    have h5 : δ = -(df / 2 * (0.693147180559945309 - Real.log 2)) -
        (lnG (df / 2) - Real.log (Real.Gamma (df / 2))) := by rw [hδ]; ring
    rw [h5, abs_le]
    generalize df / 2 * (0.693147180559945309 - Real.log 2) = A at h3 h4 ⊢
    generalize lnG (df / 2) - Real.log (Real.Gamma (df / 2)) = B at l1 ⊢
    norm_num at l1 h3 h4 ⊢
    constructor <;> linarith [l1.1, l1.2]
  rw [hp]
  have e7 : f * Real.exp δ - f = f * (Real.exp δ - 1) := by ring
  rw [e7, abs_mul, abs_of_pos hfp, mul_comm]
  refine mul_le_mul_of_nonneg_right ?_ hfp.le
  refine (Real.abs_exp_sub_one_le (hb.trans (by norm_num))).trans ?_
  norm_num at hb ⊢
  linarith

example : ∃ d p, ChiSquared.create 5 = .ok d ∧ d.pdf 3 = .ok p ∧
    |p - 3 ^ ((5:ℝ) / 2 - 1) * Real.exp (-3 / 2) / (2 ^ ((5:ℝ) / 2) * Real.Gamma (5 / 2))|
      ≤ 1e-11 * (3 ^ ((5:ℝ) / 2 - 1) * Real.exp (-3 / 2) / (2 ^ ((5:ℝ) / 2) * Real.Gamma (5 / 2))) := by
  obtain ⟨d, e, -⟩ := (chi_create 5).1 (by norm_num)
  obtain ⟨p, h1, h2⟩ := chi_pdf_accurate (by norm_num) (by norm_num) e (x := 3) (by norm_num)
  exact ⟨d, p, e, h1, h2⟩

/-- Both are zero for negative numbers. -/
theorem chi_negative (d : ChiSquared) {x : ℝ} (hx : x < 0) : d.pdf x = .ok 0 ∧ d.cdf x = .ok 0 := by
  unfold ChiSquared.pdf ChiSquared.cdf
  rw [if_pos hx, if_pos hx]
  norm_num

example : (ChiSquared.mk 3 1).pdf (-1) = .ok 0 ∧ (ChiSquared.mk 3 1).cdf (-1) = .ok 0 :=
  chi_negative _ (by norm_num)

/-- `Quantile` gives a number that is not negative, 0 exactly for 0. Missing: that it is the inverse of
`Cdf`, for which the convergence of Halley's method would be needed. -/
theorem chi_quantile_partial {df : ℝ} (h0 : 0 < df) {d : ChiSquared} (hd : ChiSquared.create df = .ok d)
    {q : ℝ} (hq : 0 ≤ q) : ∃ y, d.quantile q = .ok y ∧ 0 ≤ y ∧ (y = 0 ↔ q = 0) := by
  obtain ⟨d', e, hdf⟩ := (chi_create df).1 h0
  rw [hd] at e
  obtain rfl := Res.ok.inj e
  have ha : (0:ℝ) < 0.5 * df := by positivity
  unfold ChiSquared.quantile
  rw [hdf]
  rcases hq.eq_or_lt with rfl | hq
  · have : invgammp 0 (0.5 * df) = .ok 0 := by
      unfold invgammp
      simp only
      rw [gammln_eq ha, bind_ok', if_neg (by norm_num; linarith), if_neg (by norm_num), if_pos (by norm_num)]
      norm_num
    rw [this, bind_ok']
    exact ⟨_, rfl, by norm_num, by norm_num⟩
  · obtain ⟨y, hy, hy0⟩ := invgammp_ok ha hq
    rw [hy, bind_ok']
    refine ⟨_, rfl, by positivity, ?_⟩
    constructor
    · intro h
      linarith
    · intro h
      exact absurd h hq.ne'

example : ∃ d y, ChiSquared.create 5 = .ok d ∧ d.quantile 0.3 = .ok y ∧ 0 ≤ y := by
  obtain ⟨d, e, -⟩ := (chi_create 5).1 (by norm_num)
  obtain ⟨y, h1, h2, -⟩ := chi_quantile_partial (by norm_num) e (q := 0.3) (by norm_num)
  exact ⟨d, y, e, h1, h2⟩

/-- `Quantile(1)` is finite, though no finite number has probability one below it. -/
theorem chi_quantile_one_violation {df : ℝ} (h0 : 0 < df) {d : ChiSquared}
    (hd : ChiSquared.create df = .ok d) : ∃ y, d.quantile 1 = .ok y ∧
      ∫ t in (0:ℝ)..y, t ^ (df / 2 - 1) * Real.exp (-t / 2) / (2 ^ (df / 2) * Real.Gamma (df / 2)) < 1 := by
  obtain ⟨y, h1, h2, h3⟩ := chi_quantile_partial h0 hd (q := 1) (by norm_num)
  have hy : 0 < y := lt_of_le_of_ne h2 fun h => by simpa using h3.1 h.symm
  refine ⟨y, h1, ?_⟩
  have ha : (0:ℝ) < 0.5 * df := by positivity
  have hy5 : (0:ℝ) < 0.5 * y := by positivity
  rw [lowG_half h0 h2, div_lt_one (Real.Gamma_pos_of_pos ha)]
  have h := tail_eq ha hy5
  have hK := K_pos (0.5 * df) hy5 0
  have : 0 < (0.5 * y) ^ (0.5 * df) * Real.exp (-(0.5 * y)) * K (0.5 * df) (0.5 * y) 0 := by positivity
  linarith

example : ∃ d y, ChiSquared.create 5 = .ok d ∧ d.quantile 1 = .ok y := by
  obtain ⟨d, e, -⟩ := (chi_create 5).1 (by norm_num)
  obtain ⟨y, h1, -⟩ := chi_quantile_one_violation (by norm_num) e
  exact ⟨d, y, e, h1⟩

/-- With two degrees of freedom the density at zero is one half and `Pdf(0)` is not a number. -/
theorem chi_pdf_zero_violation {d : ChiSquared} (hd : ChiSquared.create 2 = .ok d) :
    (∃ e, d.pdf 0 = .nonfinite e) ∧
      (0:ℝ) ^ ((2:ℝ) / 2 - 1) * Real.exp (-0 / 2) / (2 ^ ((2:ℝ) / 2) * Real.Gamma (2 / 2)) = 1 / 2 := by
  obtain ⟨d', e, hdf⟩ := (chi_create 2).1 (by norm_num)
  rw [hd] at e
  obtain rfl := Res.ok.inj e
  constructor
  · unfold ChiSquared.pdf
    rw [if_neg (by norm_num), if_pos rfl, if_neg (by rw [hdf]; norm_num)]
    exact ⟨_, rfl⟩
  · norm_num

example : ∃ d e, ChiSquared.create 2 = .ok d ∧ d.pdf 0 = .nonfinite e := by
  obtain ⟨d, h, -⟩ := (chi_create 2).1 (by norm_num)
  obtain ⟨⟨e, he⟩, -⟩ := chi_pdf_zero_violation h
  exact ⟨d, e, h, he⟩

end Verif
