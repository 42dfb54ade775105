import Verif.Lemmas.BetaLimit
import Mathlib.MeasureTheory.Integral.IntervalIntegral.Basic

/-! Helper lemmas: `Quantile` of the beta distribution, and the law of draws. -/

namespace Verif.Distr

open MeasureTheory ProbabilityTheory Set

/-- A law that is nearly that of a distribution function. -/
theorem map_near {q : ℝ → ℝ} (hq : Measurable q) {x c ε : ℝ} (hc0 : 0 ≤ c) (hc1 : c ≤ 1) (hε : 0 ≤ ε)
    (h1 : ∀ p, 0 < p → p < 1 → q p ≤ x → p ≤ c + ε) (h2 : ∀ p, 0 < p → p < 1 → x < q p → c - ε ≤ p) :
    |(unif.map q).real (Iic x) - c| ≤ ε := by
  have hreal : (unif.map q).real (Iic x) = unif.real (q ⁻¹' Iic x) := by
    rw [measureReal_def, Measure.map_apply hq measurableSet_Iic, measureReal_def]
  have hval : ∀ c : ℝ, 0 ≤ c → c ≤ 1 → unif.real (Iic c) = c := by
    intro c h0 h1
    rw [measureReal_def, unif_le h1, ENNReal.toReal_ofReal h0]
  rw [hreal, abs_le]
  constructor
  · rw [neg_le_sub_iff_le_add, ← sub_le_iff_le_add]
    refine le_of_forall_lt fun c' hc' => ?_
    by_cases hn : c' < 0
    · exact hn.trans_le measureReal_nonneg
    obtain ⟨c2, h3, h4⟩ := exists_between hc'
    refine h3.trans_le ?_
    rw [← hval c2 (by linarith) (by linarith)]
    refine ENNReal.toReal_mono (measure_ne_top _ _) (measure_mono_ae ?_)
    filter_upwards [ae_unif] with p hp hle
    by_contra hc
    have h5 := h2 p hp.1 hp.2 (not_le.1 hc)
    have h6 : p ≤ c2 := hle
    linarith
  · rw [sub_le_iff_le_add, add_comm]
    by_cases hn : c + ε ≤ 1
    · rw [← hval (c + ε) (by linarith) hn]
      refine ENNReal.toReal_mono (measure_ne_top _ _) (measure_mono_ae ?_)
      filter_upwards [ae_unif] with p hp hle
      exact h1 p hp.1 hp.2 hle
    · refine le_trans ?_ (not_le.1 hn).le
      exact measureReal_le_one

end Verif.Distr

namespace Verif.BetaD

open Real Finset MeasureTheory ProbabilityTheory Spec Distr

variable {a b minVal maxVal : ℝ} {n : ℕ} {d : BetaD} {q : ℕ → ℝ}

/-- The function that `Quantile` computes. -/
noncomputable def G (minVal : ℝ) (q : ℕ → ℝ) (n : ℕ) (p : ℝ) : ℝ := lin (qv minVal q) (max 0 (min p 1) * n)

theorem clip01 (p : ℝ) : 0 ≤ max 0 (min p 1) ∧ max 0 (min p 1) ≤ 1 :=
  ⟨le_max_left _ _, max_le zero_le_one (min_le_right _ _)⟩

theorem clip_eq {p : ℝ} (h0 : 0 ≤ p) (h1 : p ≤ 1) : max 0 (min p 1) = p := by
  rw [min_eq_left h1, max_eq_right h0]

theorem Is.G_mono (hd : Is d minVal maxVal a b n q) (hn : 0 < n) (h : minVal < maxVal) : Monotone (G minVal q n) := by
  intro p p' hp
  have hnr : (0 : ℝ) < n := by exact_mod_cast hn
  refine lin_mono (v := BetaD.qv minVal q) (n := n) (fun k hk => hd.qv_lt hn h hk) (mul_nonneg (clip01 p).1 hnr.le) ?_ ?_
  · have : max 0 (min p 1) ≤ max 0 (min p' 1) := max_le_max le_rfl (min_le_min hp le_rfl)
    gcongr
  · nlinarith [(clip01 p').2]

theorem Is.G_lt (hd : Is d minVal maxVal a b n q) (hn : 0 < n) (h : minVal < maxVal) {p p' : ℝ} (h0 : 0 ≤ p) (hp : p < p')
    (h1 : p' ≤ 1) : G minVal q n p < G minVal q n p' := by
  have hnr : (0 : ℝ) < n := by exact_mod_cast hn
  unfold G
  rw [clip_eq h0 (by linarith), clip_eq (by linarith) h1]
  exact lin_lt (v := BetaD.qv minVal q) (n := n) (fun k hk => hd.qv_lt hn h hk) (by positivity) (by nlinarith) (by nlinarith)

theorem G_zero : G minVal q n 0 = minVal := by
  unfold G
  rw [clip_eq le_rfl zero_le_one, zero_mul]
  have := lin_nat (qv minVal q) 0
  rw [Nat.cast_zero] at this
  rw [this]
  rfl

theorem Is.G_one (hd : Is d minVal maxVal a b n q) (hn : 0 < n) : G minVal q n 1 = maxVal := by
  unfold G
  rw [clip_eq zero_le_one le_rfl, one_mul, lin_nat, hd.qv_top hn]

theorem Is.quantile_G (hd : Is d minVal maxVal a b n q) (hn : 0 < n) (hbig : n < 2 ^ 31) {p : ℝ} (h0 : 0 ≤ p) (h1 : p ≤ 1) :
    d.quantile p = .ok (G minVal q n p) := by
  rw [hd.quantile_eq hn hbig h0 h1, G, clip_eq h0 h1]

/-- The distribution function of the law in cells. -/
noncomputable def F (a b : ℝ) (n : ℕ) (minVal maxVal x : ℝ) : ℝ := (cellLaw a b n minVal maxVal).real (Set.Iic x)

theorem F_le_one (hn : 0 < n) (h : minVal < maxVal) (x : ℝ) : F a b n minVal maxVal x ≤ 1 :=
  have := cellLaw_prob (a := a) (b := b) hn h
  measureReal_le_one

theorem F_nonneg (x : ℝ) : 0 ≤ F a b n minVal maxVal x := measureReal_nonneg

theorem F_mono (hn : 0 < n) (h : minVal < maxVal) : Monotone (F a b n minVal maxVal) := by
  intro x y hxy
  have := cellLaw_prob (a := a) (b := b) hn h
  exact measureReal_mono (Set.Iic_subset_Iic.2 hxy)

theorem F_lt (hn : 0 < n) (h : minVal < maxVal) {x y : ℝ} (h0 : minVal ≤ x) (hxy : x < y) (h1 : y ≤ maxVal) :
    F a b n minVal maxVal x < F a b n minVal maxVal y := by
  have hnr : (0 : ℝ) < n := by exact_mod_cast hn
  have hdx : 0 < (maxVal - minVal) / n := div_pos (by linarith) hnr
  unfold F
  rw [cellLaw_inside hn h h0 (by linarith), cellLaw_inside hn h (by linarith) h1]
  refine lin_lt (v := cum a b n) (n := n) (fun k hk => cum_step hk) (div_nonneg (by linarith) hdx.le) (by gcongr) ?_
  rw [div_le_iff₀ hdx, mul_div_cancel₀ _ hnr.ne']
  linarith

/-- At the entries of the table the distribution function is exact. -/
theorem Is.F_qv (hd : Is d minVal maxVal a b n q) (hn : 0 < n) (h : minVal < maxVal) {i : ℕ} (hi : i ≤ n) :
    F a b n minVal maxVal (BetaD.qv minVal q i) = (i : ℝ) / n := by
  have hnr : (0 : ℝ) < n := by exact_mod_cast hn
  have hdx : 0 < (maxVal - minVal) / n := div_pos (by linarith) hnr
  obtain ⟨s, h1, h2, h3, h4⟩ := hd.qv hn hi
  have hx0 : minVal ≤ BetaD.qv minVal q i := by rw [h3]; nlinarith
  have hx1 : BetaD.qv minVal q i ≤ maxVal := by
    rw [h3]
    have : s * ((maxVal - minVal) / n) ≤ n * ((maxVal - minVal) / n) := by gcongr
    rw [mul_div_cancel₀ _ hnr.ne'] at this
    linarith
  unfold F
  rw [cellLaw_inside hn h hx0 hx1, h3, add_sub_cancel_left, mul_div_cancel_right₀ _ hdx.ne', h4]

theorem G_entry (hn : 0 < n) {i : ℕ} (hi : i ≤ n) : G minVal q n ((i : ℝ) / n) = qv minVal q i := by
  have hnr : (0 : ℝ) < n := by exact_mod_cast hn
  have h1 : (i : ℝ) / n ≤ 1 := by
    rw [div_le_one hnr]
    exact_mod_cast hi
  unfold G
  rw [clip_eq (by positivity) h1, div_mul_cancel₀ _ hnr.ne', lin_nat]

theorem Is.near (hd : Is d minVal maxVal a b n q) (hn : 0 < n) (h : minVal < maxVal) {p : ℝ} (h0 : 0 ≤ p) (h1 : p ≤ 1) :
    |F a b n minVal maxVal (G minVal q n p) - p| ≤ 1 / n := by
  have hnr : (0 : ℝ) < n := by exact_mod_cast hn
  rcases h1.lt_or_eq with h1 | rfl
  · have hk : ⌊p * n⌋₊ < n := (Nat.floor_lt (by positivity)).2 (by nlinarith)
    have e1 := Nat.floor_le (show 0 ≤ p * n by positivity)
    have e2 := Nat.lt_floor_add_one (p * n)
    set i := ⌊p * n⌋₊
    have p1 : (i : ℝ) / n ≤ p := by rwa [div_le_iff₀ hnr]
    have p2 : p ≤ ((i + 1 : ℕ) : ℝ) / n := by
      rw [le_div_iff₀ hnr]
      push_cast
      exact e2.le
    have l1 := F_mono (a := a) (b := b) hn h (hd.G_mono hn h p1)
    have l2 := F_mono (a := a) (b := b) hn h (hd.G_mono hn h p2)
    rw [G_entry hn hk.le, hd.F_qv hn h hk.le] at l1
    rw [G_entry hn hk, hd.F_qv hn h hk] at l2
    have e3 : ((i + 1 : ℕ) : ℝ) / n = i / n + 1 / n := by push_cast; ring
    rw [abs_le]
    constructor <;> linarith
  · rw [hd.G_one hn, F, cellLaw_high hn h le_rfl, sub_self, abs_zero]
    positivity

/-- The same for the law with mass at the ends, scaled. -/
theorem Is.F_G_le (hd : Is d minVal maxVal a b n q) (hn : 0 < n) (h : minVal < maxVal) {p x : ℝ} (h0 : 0 ≤ p) (h1 : p ≤ 1)
    (hx : G minVal q n p ≤ x) : p ≤ F a b n minVal maxVal x + 1 / n := by
  have l1 := F_mono (a := a) (b := b) hn h hx
  have l2 := abs_le.1 (hd.near hn h h0 h1)
  linarith

theorem Is.F_lt_G (hd : Is d minVal maxVal a b n q) (hn : 0 < n) (h : minVal < maxVal) {p x : ℝ} (h0 : 0 ≤ p) (h1 : p ≤ 1)
    (hx : x < G minVal q n p) : F a b n minVal maxVal x - 1 / n ≤ p := by
  have l1 := F_mono (a := a) (b := b) hn h hx.le
  have l2 := abs_le.1 (hd.near hn h h0 h1)
  linarith

/-- `Cdf` wherever the conversion to int is defined. -/
theorem Is.cdf_eq (hd : Is d minVal maxVal a b n q) (hn : 0 < n) (hbig : n < 2 ^ 31) (h : minVal < maxVal) {x : ℝ}
    (hx : |(x - minVal) / ((maxVal - minVal) / n)| < 2 ^ 31) : d.cdf x = .ok (F a b n minVal maxVal x) := by
  by_cases h0 : x ≤ minVal
  · rw [hd.outside hn h hx (Or.inl h0), if_pos h0, F, cellLaw_low hn h h0]
  by_cases h1 : maxVal ≤ x
  · rw [hd.outside hn h hx (Or.inr h1), if_neg h0, F, cellLaw_high hn h h1]
  rw [hd.inside hn h hbig (not_le.1 h0) (not_le.1 h1), F, cellLaw_inside hn h (not_le.1 h0).le (not_le.1 h1).le]

/-- Between the ends it is. -/
theorem Is.cdf_in (hd : Is d minVal maxVal a b n q) (hn : 0 < n) (hbig : n < 2 ^ 31) (h : minVal < maxVal) {x : ℝ}
    (h0 : minVal ≤ x) (h1 : x ≤ maxVal) : d.cdf x = .ok (F a b n minVal maxVal x) := by
  have hnr : (0 : ℝ) < n := by exact_mod_cast hn
  have hdx : 0 < (maxVal - minVal) / n := div_pos (by linarith) hnr
  refine hd.cdf_eq hn hbig h ?_
  rw [abs_of_nonneg (div_nonneg (by linarith) hdx.le)]
  have : (x - minVal) / ((maxVal - minVal) / n) ≤ n := by
    rw [div_le_iff₀ hdx, mul_div_cancel₀ _ hnr.ne']
    linarith
  have h3 : (n : ℝ) < 2 ^ 31 := by exact_mod_cast hbig
  linarith

/-- `Pdf` between the ends. -/
theorem Is.pdf_eq (hd : Is d minVal maxVal a b n q) (hn : 0 < n) (hbig : n < 2 ^ 31) (h : minVal < maxVal)
    {x : ℝ} (h0 : minVal ≤ x) (h1 : x ≤ maxVal) :
    d.pdf x = .ok (prob a b n ⌊(x - minVal) / ((maxVal - minVal) / n) - 1 / 2⌋₊ / ((maxVal - minVal) / n)) := by
  have hnr : (0 : ℝ) < n := by exact_mod_cast hn
  have hw : 0 < maxVal - minVal := by linarith
  have e : (x - minVal) / (maxVal - minVal) * n - 0.5 = (x - minVal) / ((maxVal - minVal) / n) - 1 / 2 := by
    norm_num
    field_simp
  unfold pdf
  rw [hd.eMin, hd.eMax, hd.eN]
  simp only [Res.monad_bind_eq]
  rw [show fdiv (x - minVal) (maxVal - minVal) = .ok ((x - minVal) / (maxVal - minVal)) from if_neg hw.ne', Res.bind_ok, e]
  set s := (x - minVal) / ((maxVal - minVal) / n) with hs
  have hs0 : 0 ≤ s := by rw [hs]; exact div_nonneg (by linarith) (by positivity)
  have hs1 : s ≤ n := by
    rw [hs, div_le_iff₀ (by positivity), mul_div_cancel₀ _ hnr.ne']
    linarith
  have ht : truncZ (s - 1 / 2) = (⌊s - 1 / 2⌋₊ : ℤ) := by
    by_cases hc : 0 ≤ s - 1 / 2
    · exact truncZ_nonneg hc
    · unfold truncZ
      rw [if_neg hc, Nat.floor_of_nonpos (not_le.1 hc).le]
      rw [Int.ceil_eq_iff]
      push_cast
      constructor <;> linarith
  have hk : ⌊s - 1 / 2⌋₊ < n := by
    by_cases hc : 0 ≤ s - 1 / 2
    · exact (Nat.floor_lt hc).2 (by linarith)
    · rwa [Nat.floor_of_nonpos (not_le.1 hc).le]
  rw [ht, toInt32_nat (by omega), Res.bind_ok, if_pos ⟨h0, h1⟩]
  rw [CovTable.rdInt_nat, hd.ePdf.rd hk]

theorem half_sum (hn : 0 < n) :
    ∑ k ∈ range (2 * n), prob a b n ((k - 1) / 2) / 2 = 1 + (prob a b n 0 - prob a b n (n - 1)) / 2 := by
  have h : ∀ m, 0 < m → ∑ k ∈ range (2 * m), prob a b n ((k - 1) / 2) / 2 =
      ∑ i ∈ range m, prob a b n i + (prob a b n 0 - prob a b n (m - 1)) / 2 := by
    intro m hm
    induction m, hm using Nat.le_induction with
    | base => simp [sum_range_succ]
    | succ m hm ih =>
      rw [show 2 * (m + 1) = 2 * m + 1 + 1 by ring, sum_range_succ, sum_range_succ, ih, sum_range_succ,
        show (2 * m - 1) / 2 = m - 1 by omega, show (2 * m + 1 - 1) / 2 = m by omega, Nat.add_sub_cancel]
      ring
  rw [h n hn]
  have := cum_top (a := a) (b := b) hn
  unfold cum at this
  rw [this]

/-- The integral of what `Pdf` computes. -/
theorem pdf_integral (hn : 0 < n) (h : minVal < maxVal) {f : ℝ → ℝ}
    (hf : ∀ x, minVal ≤ x → x ≤ maxVal →
      f x = prob a b n ⌊(x - minVal) / ((maxVal - minVal) / n) - 1 / 2⌋₊ / ((maxVal - minVal) / n)) :
    ∫ x in minVal..maxVal, f x = 1 + (prob a b n 0 - prob a b n (n - 1)) / 2 := by
  have hnr : (0 : ℝ) < n := by exact_mod_cast hn
  have hdx : 0 < (maxVal - minVal) / n := div_pos (by linarith) hnr
  set dx := (maxVal - minVal) / n with hdxd
  let g : ℕ → ℝ := fun k => minVal + k * (dx / 2)
  have hg0 : g 0 = minVal := by simp [g]
  have hgn : g (2 * n) = maxVal := by
    simp only [g, hdxd]
    push_cast
    field_simp
    ring
  have hg : ∀ k, g (k + 1) - g k = dx / 2 := by
    intro k
    simp only [g]
    push_cast
    ring
  have hin : ∀ k < 2 * n, ∀ x ∈ Set.Ioo (g k) (g (k + 1)), f x = prob a b n ((k - 1) / 2) / dx := by
    intro k hk x hx
    have hk' : (k : ℝ) + 1 ≤ 2 * n := by exact_mod_cast hk
    have h1 : minVal + k * (dx / 2) < x := hx.1
    have h2 : x < minVal + (k + 1) * (dx / 2) := by
      have := hx.2
      simp only [g] at this
      push_cast at this
      exact this
    have h3 : (k : ℝ) / 2 < (x - minVal) / dx := by
      rw [lt_div_iff₀ hdx]
      linarith
    have h4 : (x - minVal) / dx < ((k : ℝ) + 1) / 2 := by
      rw [div_lt_iff₀ hdx]
      linarith
    have hkk : (0 : ℝ) ≤ k := Nat.cast_nonneg k
    have hmax : n * dx = maxVal - minVal := by rw [hdxd, mul_div_cancel₀ _ hnr.ne']
    rw [hf x (by nlinarith) (by nlinarith)]
    congr 2
    rcases Nat.eq_zero_or_pos k with rfl | hpos
    · norm_num at h4
      exact Nat.floor_of_nonpos (by linarith)
    · have h5 : 2 * ((k - 1) / 2) + 1 ≤ k := by omega
      have h6 : k ≤ 2 * ((k - 1) / 2) + 2 := by omega
      have h5' : 2 * (((k - 1) / 2 : ℕ) : ℝ) + 1 ≤ k := by exact_mod_cast h5
      have h6' : (k : ℝ) ≤ 2 * (((k - 1) / 2 : ℕ) : ℝ) + 2 := by exact_mod_cast h6
      rw [Nat.floor_eq_iff (by linarith [show (0 : ℝ) ≤ (((k - 1) / 2 : ℕ) : ℝ) from Nat.cast_nonneg _])]
      constructor <;> linarith
  have hle : ∀ k, g k ≤ g (k + 1) := fun k => by linarith [hg k]
  have hI : ∀ k < 2 * n, ∫ x in g k..g (k + 1), f x = prob a b n ((k - 1) / 2) / 2 := by
    intro k hk
    rw [intervalIntegral.integral_of_le (hle k), integral_Ioc_eq_integral_Ioo,
      setIntegral_congr_fun measurableSet_Ioo (hin k hk), setIntegral_const, Real.volume_real_Ioo_of_le (hle k), hg, smul_eq_mul]
    field_simp
  have hii : ∀ k < 2 * n, IntervalIntegrable f volume (g k) (g (k + 1)) := by
    intro k hk
    rw [intervalIntegrable_iff_integrableOn_Ioo_of_le (hle k)]
    exact (integrableOn_const (by rw [Real.volume_Ioo]; exact ENNReal.ofReal_ne_top)).congr_fun
      (fun x hx => (hin k hk x hx).symm) measurableSet_Ioo
  have := intervalIntegral.sum_integral_adjacent_intervals (μ := volume) (f := f) (a := g) (n := 2 * n) hii
  rw [hg0, hgn] at this
  rw [← this, ← half_sum hn]
  exact sum_congr rfl fun k hk => hI k (mem_range.1 hk)

/-- The example: two cells with probabilities 1/4 and 3/4. -/
theorem prob_two : prob 2 1 2 0 = 1 / 4 ∧ prob 2 1 2 1 = 3 / 4 := by
  have h0 : wt 2 1 2 0 = 1 / 4 := by
    unfold wt dens
    norm_num
  have h1 : wt 2 1 2 1 = 3 / 4 := by
    unfold wt dens
    norm_num
  unfold prob
  rw [sum_range_succ, sum_range_one, h0, h1]
  norm_num

theorem F_two {x : ℝ} (h0 : 0 ≤ x) (h1 : x ≤ 1) : F 2 1 2 0 1 x = if x ≤ 1 / 2 then x / 2 else (3 * x - 1) / 2 := by
  unfold F
  rw [cellLaw_Iic (by norm_num) (by norm_num), sum_range_succ, sum_range_one, prob_two.1, prob_two.2]
  split_ifs with h
  · rw [min_eq_right (by norm_num; linarith), max_eq_right (by norm_num; linarith), max_eq_left]
    · norm_num
      ring
    · exact (min_le_right _ _).trans (by norm_num; linarith)
  · rw [min_eq_left (by norm_num; linarith), max_eq_right (by norm_num), min_eq_right (by norm_num; linarith),
      max_eq_right (by norm_num; linarith)]
    norm_num
    ring

end Verif.BetaD
