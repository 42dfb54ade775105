import Verif.Lemmas.Beta
import Verif.Lemmas.DistrLaw
import Verif.Lemmas.Krig2DSelect

/-! Helper lemmas: the functions of the beta distribution. -/

namespace Verif.BetaD

open Real Finset CovTable MeasureTheory ProbabilityTheory Spec

variable {a b : ℝ} {n : ℕ}

/-! ## The object -/

/-- What the constructor makes. -/
structure Is (d : BetaD) (minVal maxVal a b : ℝ) (n : ℕ) (q : ℕ → ℝ) : Prop where
  eMin : d.minVal = minVal
  eMax : d.maxVal = maxVal
  eN : d.nx = n
  eDx : d.dx = (maxVal - minVal) / n
  ePdf : Tab d.pdfTable n (fun j => prob a b n j / ((maxVal - minVal) / n)) n
  eCdf : Tab d.cdfTable n (fun j => cum a b n (j + 1)) n
  eQ : Tab d.quantileTable n q n
  quant : ∀ i < n, IsQuant a b n minVal ((maxVal - minVal) / n) i (q i)

theorem create_is (a b : ℝ) (hn : 0 < n) {minVal maxVal : ℝ} (h : minVal < maxVal) :
    ∃ d q, create minVal maxVal a b n = .ok d ∧ Is d minVal maxVal a b n q := by
  have hnr : (0 : ℝ) < n := by exact_mod_cast hn
  have hdx : 0 < (maxVal - minVal) / n := div_pos (by linarith) hnr
  unfold create
  rw [if_neg (by omega)]
  simp only [Res.monad_bind_eq, Int.toNat_natCast, fdiv, if_neg hnr.ne', Res.bind_ok]
  obtain ⟨⟨p, c⟩, e, hp, hc⟩ := computePdfAndCdf_sat (a := a) (b := b) hn hdx
  obtain ⟨l, e2, q, hl, hq⟩ := computeQuantile_sat hn hc minVal ((maxVal - minVal) / n)
  rw [e, Res.bind_ok]
  simp only [e2, Res.bind_ok]
  exact ⟨_, q, rfl, rfl, rfl, rfl, rfl, hp, hc, hl, hq⟩

variable {d : BetaD} {minVal maxVal : ℝ} {q : ℕ → ℝ}

theorem truncZ_nonneg {x : ℝ} (h : 0 ≤ x) : truncZ x = (⌊x⌋₊ : ℤ) := by
  unfold truncZ
  rw [if_pos h, ← Int.natCast_floor_eq_floor h]

theorem toInt32_nat {k : ℕ} (h : k < 2 ^ 31) : toInt32 (k : ℤ) = .ok (k : ℤ) := by
  unfold toInt32
  rw [if_pos ⟨by omega, by exact_mod_cast h⟩]

theorem truncZ_range {x : ℝ} (h0 : -2 ^ 31 ≤ x) (h1 : x < 2 ^ 31) : ∃ k, toInt32 (truncZ x) = .ok k := by
  unfold truncZ
  split_ifs with h
  · exact ⟨_, toInt32_floor h0 h1⟩
  · exact ⟨_, toInt32_ceil h0 (by linarith)⟩

/-- Reading between two entries of a table with an additional first value. -/
theorem table_lin {l : List ℝ} {v : ℕ → ℝ} (h : Tab l n (fun j => v (j + 1)) n) {v0 : ℝ} (hv : v 0 = v0) {s : ℝ} (h0 : 0 ≤ s)
    (h1 : s < n) :
    ((if (⌊s⌋₊ : ℤ) = 0 then Res.ok v0 else rdInt l ((⌊s⌋₊ : ℤ) - 1)).bind fun lo => (rdInt l (⌊s⌋₊ : ℤ)).bind fun hi =>
      Res.ok ((1 - (s - ((⌊s⌋₊ : ℤ) : ℝ))) * lo + (s - ((⌊s⌋₊ : ℤ) : ℝ)) * hi)) = .ok (lin v s) := by
  have hk : ⌊s⌋₊ < n := (Nat.floor_lt h0).2 h1
  have e1 : (if (⌊s⌋₊ : ℤ) = 0 then Res.ok v0 else rdInt l ((⌊s⌋₊ : ℤ) - 1)) = .ok (v ⌊s⌋₊) := by
    split_ifs with h2
    · have : ⌊s⌋₊ = 0 := by exact_mod_cast h2
      rw [this, hv]
    · have h3 : 0 < ⌊s⌋₊ := Nat.pos_of_ne_zero (by exact_mod_cast h2)
      rw [show (⌊s⌋₊ : ℤ) - 1 = ((⌊s⌋₊ - 1 : ℕ) : ℤ) by omega, rdInt_nat, h.rd (by omega), show ⌊s⌋₊ - 1 + 1 = ⌊s⌋₊ by omega]
  rw [e1, Res.bind_ok, rdInt_nat, h.rd hk, Res.bind_ok]
  unfold lin
  norm_cast

theorem Is.inside (hd : Is d minVal maxVal a b n q) (hn : 0 < n) (h : minVal < maxVal) (hbig : n < 2 ^ 31) {x : ℝ}
    (h0 : minVal < x) (h1 : x < maxVal) : d.cdf x = .ok (lin (cum a b n) ((x - minVal) / ((maxVal - minVal) / n))) := by
  have hnr : (0 : ℝ) < n := by exact_mod_cast hn
  have hdx : 0 < (maxVal - minVal) / n := div_pos (by linarith) hnr
  set s := (x - minVal) / ((maxVal - minVal) / n) with hs
  have hs0 : 0 ≤ s := div_nonneg (by linarith) hdx.le
  have hs1 : s < n := by
    rw [hs, div_lt_iff₀ hdx, mul_div_cancel₀ _ hnr.ne']
    linarith
  have hk : ⌊s⌋₊ < n := (Nat.floor_lt hs0).2 hs1
  have := table_lin hd.eCdf (v := cum a b n) (v0 := 0.0) (by rw [cum_zero]; norm_num) hs0 hs1
  unfold cdf
  rw [hd.eMin, hd.eMax, hd.eDx]
  simp only [Res.monad_bind_eq, fdiv, if_neg hdx.ne', Res.bind_ok]
  rw [← hs, truncZ_nonneg hs0, toInt32_nat (by omega), Res.bind_ok, if_neg (not_le.2 h0), if_neg (not_le.2 h1)]
  exact this

theorem Is.outside (hd : Is d minVal maxVal a b n q) (hn : 0 < n) (h : minVal < maxVal) {x : ℝ}
    (hx : |(x - minVal) / ((maxVal - minVal) / n)| < 2 ^ 31) (ho : x ≤ minVal ∨ maxVal ≤ x) :
    d.cdf x = .ok (if x ≤ minVal then 0 else 1) := by
  have hnr : (0 : ℝ) < n := by exact_mod_cast hn
  have hdx : 0 < (maxVal - minVal) / n := div_pos (by linarith) hnr
  obtain ⟨h1, h2⟩ := abs_lt.1 hx
  obtain ⟨k, hk⟩ := truncZ_range h1.le h2
  unfold cdf
  rw [hd.eMin, hd.eMax, hd.eDx]
  simp only [Res.monad_bind_eq, fdiv, if_neg hdx.ne', Res.bind_ok, hk]
  by_cases h3 : x ≤ minVal
  · rw [if_pos h3, if_pos h3]
    norm_num
  · rw [if_neg h3, if_neg h3, if_pos (ho.resolve_left h3)]
    norm_num

/-- The entries of the quantile table with the least value before them. -/
noncomputable def qv (minVal : ℝ) (q : ℕ → ℝ) : ℕ → ℝ
  | 0 => minVal
  | k + 1 => q k

/-- Every entry is where the distribution function is `i/n`. -/
theorem Is.qv (hd : Is d minVal maxVal a b n q) (hn : 0 < n) {i : ℕ} (hi : i ≤ n) :
    ∃ s : ℝ, 0 ≤ s ∧ s ≤ n ∧ qv minVal q i = minVal + s * ((maxVal - minVal) / n) ∧ lin (cum a b n) s = (i : ℝ) / n := by
  cases i with
  | zero =>
    refine ⟨0, le_rfl, Nat.cast_nonneg n, by simp [BetaD.qv], ?_⟩
    have := lin_nat (cum a b n) 0
    rw [cum_zero] at this
    simpa using this
  | succ i =>
    obtain ⟨s, h1, h2, h3, h4⟩ := hd.quant i (by omega)
    refine ⟨s, h1, h2, h3, ?_⟩
    push_cast
    exact h4

theorem cum_step {k : ℕ} (h : k < n) : cum a b n k < cum a b n (k + 1) := cum_lt (Nat.lt_succ_self k) h

theorem Is.qv_lt (hd : Is d minVal maxVal a b n q) (hn : 0 < n) (h : minVal < maxVal) {i : ℕ} (hi : i < n) :
    BetaD.qv minVal q i < BetaD.qv minVal q (i + 1) := by
  have hnr : (0 : ℝ) < n := by exact_mod_cast hn
  have hdx : 0 < (maxVal - minVal) / n := div_pos (by linarith) hnr
  obtain ⟨s, h1, h2, h3, h4⟩ := hd.qv hn hi.le
  obtain ⟨t, g1, g2, g3, g4⟩ := hd.qv hn (i := i + 1) hi
  have hst : s < t := by
    by_contra hc
    have := lin_mono (v := cum a b n) (n := n) (fun k hk => cum_step hk) g1 (not_lt.1 hc) h2
    rw [g4, h4] at this
    have h5 : (i : ℝ) / n < ((i + 1 : ℕ) : ℝ) / n := by
      gcongr
      omega
    linarith
  rw [h3, g3]
  nlinarith

theorem Is.qv_top (hd : Is d minVal maxVal a b n q) (hn : 0 < n) : BetaD.qv minVal q n = maxVal := by
  have hnr : (0 : ℝ) < n := by exact_mod_cast hn
  obtain ⟨s, h1, h2, h3, h4⟩ := hd.qv hn (i := n) le_rfl
  have : s = n := by
    by_contra hc
    have := lin_lt (v := cum a b n) (n := n) (fun k hk => cum_step hk) h1 (lt_of_le_of_ne h2 hc) le_rfl
    rw [h4, lin_nat, cum_top hn, div_self hnr.ne'] at this
    exact lt_irrefl _ this
  rw [h3, this, mul_div_cancel₀ _ hnr.ne']
  ring

theorem Is.quantile_eq (hd : Is d minVal maxVal a b n q) (hn : 0 < n) (hbig : n < 2 ^ 31) {p : ℝ} (h0 : 0 ≤ p) (h1 : p ≤ 1) :
    d.quantile p = .ok (lin (BetaD.qv minVal q) (p * n)) := by
  have hnr : (0 : ℝ) < n := by exact_mod_cast hn
  have hs0 : 0 ≤ p * n := by positivity
  have hk : ⌊p * (n : ℝ)⌋₊ ≤ n := by
    refine Nat.floor_le_of_le ?_
    nlinarith
  unfold quantile
  rw [hd.eMin, hd.eMax, hd.eN]
  simp only [Res.monad_bind_eq]
  rw [truncZ_nonneg hs0, toInt32_nat (by omega), Res.bind_ok]
  by_cases h2 : p ≤ 0
  · rw [if_pos h2]
    obtain rfl : p = 0 := le_antisymm h2 h0
    have := lin_nat (BetaD.qv minVal q) 0
    rw [zero_mul]
    rw [Nat.cast_zero] at this
    rw [this]
    rfl
  rw [if_neg h2]
  by_cases h3 : p ≥ 1.0
  · rw [if_pos h3]
    have : p = 1 := le_antisymm h1 (by norm_num at h3; exact h3)
    rw [this, one_mul, lin_nat, hd.qv_top hn]
  · rw [if_neg h3]
    have h4 : p < 1 := by norm_num at h3; exact h3
    exact table_lin (v := BetaD.qv minVal q) hd.eQ rfl hs0 (by nlinarith)

/-! ## The law in cells -/

theorem clampSum {s : ℝ} (h0 : 0 ≤ s) (m : ℕ) :
    ∑ i ∈ range m, prob a b n i * max 0 (min 1 (s - i)) = if (m : ℝ) ≤ s then cum a b n m else lin (cum a b n) s := by
  induction m with
  | zero => simp [h0, cum_zero]
  | succ m ih =>
    rw [sum_range_succ, ih]
    by_cases h1 : ((m + 1 : ℕ) : ℝ) ≤ s
    · have h1' : (m : ℝ) + 1 ≤ s := by exact_mod_cast h1
      rw [if_pos h1, if_pos (by linarith), cum_succ, min_eq_left (by linarith), max_eq_right zero_le_one, mul_one]
    · rw [if_neg h1]
      have h1' : s < m + 1 := by
        push Not at h1
        exact_mod_cast h1
      by_cases h2 : (m : ℝ) ≤ s
      · rw [if_pos h2, lin_cell _ h2 h1'.le, cum_succ, min_eq_right (by linarith), max_eq_right (by linarith)]
        ring
      · rw [if_neg h2, max_eq_left]
        · ring
        · exact (min_le_right _ _).trans (by linarith)

theorem cellLaw_Iic (hn : 0 < n) (h : minVal < maxVal) (x : ℝ) :
    (cellLaw a b n minVal maxVal).real (Set.Iic x) =
      ∑ i ∈ range n, prob a b n i * max 0 (min 1 ((x - minVal) / ((maxVal - minVal) / n) - i)) := by
  have hnr : (0 : ℝ) < n := by exact_mod_cast hn
  have hdx : 0 < (maxVal - minVal) / n := div_pos (by linarith) hnr
  unfold cellLaw
  rw [measureReal_def, Measure.finsetSum_apply, ENNReal.toReal_sum]
  · refine sum_congr rfl fun i hi => ?_
    have hp := prob_pos (a := a) (b := b) (mem_range.1 hi)
    rw [Measure.smul_apply, Distr.uniformLaw_Iic (by nlinarith), smul_eq_mul, ENNReal.toReal_mul, ENNReal.toReal_ofReal hp.le]
    unfold Distr.uF
    rw [ENNReal.toReal_ofReal (le_max_left _ _)]
    congr 1
    congr 2
    rw [show minVal + ((i : ℝ) + 1) * ((maxVal - minVal) / n) - (minVal + i * ((maxVal - minVal) / n)) =
      (maxVal - minVal) / n by ring]
    rw [show x - (minVal + i * ((maxVal - minVal) / n)) = (x - minVal) - i * ((maxVal - minVal) / n) by ring, sub_div,
      mul_div_cancel_right₀ _ hdx.ne']
  · intro i hi
    rw [Measure.smul_apply, Distr.uniformLaw_Iic (by nlinarith), smul_eq_mul]
    exact ENNReal.mul_ne_top ENNReal.ofReal_ne_top ENNReal.ofReal_ne_top

theorem cellLaw_inside (hn : 0 < n) (h : minVal < maxVal) {x : ℝ} (h0 : minVal ≤ x) (h1 : x ≤ maxVal) :
    (cellLaw a b n minVal maxVal).real (Set.Iic x) = lin (cum a b n) ((x - minVal) / ((maxVal - minVal) / n)) := by
  have hnr : (0 : ℝ) < n := by exact_mod_cast hn
  have hdx : 0 < (maxVal - minVal) / n := div_pos (by linarith) hnr
  rw [cellLaw_Iic hn h, clampSum (div_nonneg (by linarith) hdx.le)]
  split_ifs with hc
  · have : (x - minVal) / ((maxVal - minVal) / n) = n := by
      refine le_antisymm ?_ hc
      rw [div_le_iff₀ hdx, mul_div_cancel₀ _ hnr.ne']
      linarith
    rw [this, lin_nat]
  · rfl

theorem cellLaw_low (hn : 0 < n) (h : minVal < maxVal) {x : ℝ} (h0 : x ≤ minVal) :
    (cellLaw a b n minVal maxVal).real (Set.Iic x) = 0 := by
  have hnr : (0 : ℝ) < n := by exact_mod_cast hn
  have hdx : 0 < (maxVal - minVal) / n := div_pos (by linarith) hnr
  rw [cellLaw_Iic hn h]
  refine sum_eq_zero fun i _ => ?_
  have : (x - minVal) / ((maxVal - minVal) / n) ≤ 0 := div_nonpos_of_nonpos_of_nonneg (by linarith) hdx.le
  rw [max_eq_left, mul_zero]
  exact (min_le_right _ _).trans (by linarith [(Nat.cast_nonneg i : (0 : ℝ) ≤ i)])

theorem cellLaw_high (hn : 0 < n) (h : minVal < maxVal) {x : ℝ} (h0 : maxVal ≤ x) :
    (cellLaw a b n minVal maxVal).real (Set.Iic x) = 1 := by
  have hnr : (0 : ℝ) < n := by exact_mod_cast hn
  have hdx : 0 < (maxVal - minVal) / n := div_pos (by linarith) hnr
  have : (n : ℝ) ≤ (x - minVal) / ((maxVal - minVal) / n) := by
    rw [le_div_iff₀ hdx, mul_div_cancel₀ _ hnr.ne']
    linarith
  rw [cellLaw_Iic hn h, clampSum (by linarith), if_pos this, cum_top hn]

theorem cellLaw_prob (hn : 0 < n) (h : minVal < maxVal) : IsProbabilityMeasure (cellLaw a b n minVal maxVal) := by
  have hnr : (0 : ℝ) < n := by exact_mod_cast hn
  have hdx : 0 < (maxVal - minVal) / n := div_pos (by linarith) hnr
  constructor
  unfold cellLaw
  rw [Measure.finsetSum_apply]
  have : ∀ i ∈ range n, (ENNReal.ofReal (prob a b n i) • uniformLaw (minVal + i * ((maxVal - minVal) / n))
      (minVal + (i + 1) * ((maxVal - minVal) / n))) Set.univ = ENNReal.ofReal (prob a b n i) := by
    intro i hi
    have hp : IsProbabilityMeasure (uniformLaw (minVal + i * ((maxVal - minVal) / n))
      (minVal + (i + 1) * ((maxVal - minVal) / n))) := by
      rw [← Distr.uniformLaw_eq (by nlinarith)]
      exact Measure.isProbabilityMeasure_map (by fun_prop)
    rw [Measure.smul_apply, measure_univ, smul_eq_mul, mul_one]
  rw [sum_congr rfl this, ← ENNReal.ofReal_sum_of_nonneg fun i hi => (prob_pos (mem_range.1 hi)).le]
  have := cum_top (a := a) (b := b) hn
  unfold cum at this
  rw [this, ENNReal.ofReal_one]

end Verif.BetaD
