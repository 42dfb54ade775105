import Verif.Spec.Distr
import Verif.Lemmas.DistrBinom
import Verif.Lemmas.DistrPoisson

/-!
# Properties of the distributions of integers

C69 (binomial) and C70 (Poisson). The binomial coefficients and the incomplete gamma function come from
functions whose accuracy is not modelled; a theorem says which of their values it needs.
-/

namespace Verif

open MeasureTheory Set Spec Distr

/-! ## C69: the binomial distribution -/

/-- Number `k` has probability `C(n, k) p^k (1-p)^(n-k)`; `Draw`, `Pdf` and `Cdf` agree with it. The
quantile is not the least number with `q ≤ Cdf` but the least with `q < Cdf`, for `q < 1`.
Missing: that `Quantile` is the inverse of `Cdf`, which is refuted below. -/
theorem binomial_describes_partial {bico : ℤ → ℤ → Res ℝ} {n : ℕ} {p : ℝ}
    (hb : ∀ k : ℕ, k ≤ n → bico n k = .ok (n.choose k)) (h0 : 0 ≤ p) (h1 : p ≤ 1) (hn : n ≤ 2 ^ 30) :
    ∃ d, Binomial.create bico n p = .ok d ∧ ∃ ν : Measure ℤ, IsProbabilityMeasure ν ∧
      (∀ k : ℕ, ν.real {(k : ℤ)} = n.choose k * p ^ k * (1 - p) ^ (n - k)) ∧
      DrawsHaveLaw (drawQuantile d.quantile) ν ∧
      (∀ k, d.pdf bico k = .ok (ν.real {k})) ∧
      (∀ k, d.cdf k = .ok (ν.real (Iic k))) ∧
      ∀ q, 0 ≤ q → q < 1 → ∃ m, d.quantile q = .ok m ∧ IsLeast {k | q < ν.real (Iic k)} m := by
  have hw := Binomial.w_nonneg (N := n) h0 h1
  have hs := Binomial.w_sum_le (N := n) h0 h1
  refine ⟨_, Binomial.create_ok hb h0 h1 (by omega), ?_⟩
  change ∃ ν : Measure ℤ, _ ∧ _ ∧ DrawsHaveLaw (drawQuantile (Binomial.obj n p).quantile) ν ∧ _ ∧ _ ∧ _
  have hq : ∀ q : ℝ, q < 1 → ∃ m : ℕ, (Binomial.obj n p).quantile q = .ok m ∧
      ∀ k : ℤ, 0 ≤ q → ((m : ℤ) ≤ k ↔ q < iF (Binomial.w n p) k) := by
    intro q hq
    obtain ⟨m, e, h, hl⟩ := Binomial.quantile_lt h0 h1 hn hq
    refine ⟨m, e, fun k h0q => ?_⟩
    rcases lt_or_ge k 0 with hk | hk
    · rw [iF_neg hk]
      constructor
      · omega
      · intro; linarith
    · obtain ⟨k, rfl⟩ := Int.eq_ofNat_of_zero_le hk
      rw [iF_nat]
      constructor
      · intro hmk
        exact h.trans_le (Binomial.c_mono h0 h1 (by omega))
      · intro hlt
        by_contra hmk
        exact absurd (hl k (by omega)) (not_le.2 hlt)
  choose! m hm using hq
  obtain ⟨ν, hν, hk, hI, hd⟩ := intDraws (q := fun u => (m u : ℤ)) hw hs
    (Or.inr fun u hu0 hu1 k => (hm u hu1).2 k hu0.le)
  refine ⟨ν, hν, fun k => ?_, hd _ ?_, fun k => ?_, fun k => ?_, fun q h0q h1q => ?_⟩
  · rw [hk, if_neg (by omega), Int.toNat_natCast, Binomial.w, mul_assoc]
  · intro σ unif s s' u e hu0 hu1
    unfold drawQuantile
    simp only [Res.monad_bind_eq, e, Res.bind_ok, (hm u hu1).1]
  · rw [hk]
    rcases lt_or_ge k 0 with hk0 | hk0
    · rw [if_pos hk0]
      show Binomial.pdfOf bico n p k = _
      unfold Binomial.pdfOf
      rw [if_pos (Or.inl hk0), lit.1]
    · rw [if_neg (by omega)]
      obtain ⟨k, rfl⟩ := Int.eq_ofNat_of_zero_le hk0
      rw [Int.toNat_natCast]
      rcases le_or_gt k n with hkn | hkn
      · exact Binomial.pdfOf_ok hb h0 h1 hkn
      · rw [Binomial.w_big hkn]
        show Binomial.pdfOf bico n p k = _
        unfold Binomial.pdfOf
        rw [if_pos (Or.inr (by exact_mod_cast hkn)), lit.1]
  · rw [hI]
    unfold Binomial.cdf
    rcases lt_or_ge k 0 with hk0 | hk0
    · rw [if_pos hk0, iF_neg hk0, lit.1]
    · rw [if_neg (by omega)]
      obtain ⟨k, rfl⟩ := Int.eq_ofNat_of_zero_le hk0
      rw [iF_nat]
      rcases le_or_gt k n with hkn | hkn
      · rw [if_neg (by simpa using hkn)]
        exact Binomial.rd_c hkn
      · rw [if_pos (by show (k : ℤ) > (n : ℤ); omega), Binomial.w_sum_big p (by omega), lit.2.1]
  · refine ⟨m q, (hm q h1q).1, ?_, fun k hkq => ?_⟩
    · show q < ν.real (Iic (m q : ℤ))
      rw [hI]
      exact ((hm q h1q).2 _ h0q).1 le_rfl
    · have hkq : q < ν.real (Iic k) := hkq
      rw [hI] at hkq
      exact ((hm q h1q).2 k h0q).2 hkq

example : ∃ d, Binomial.create (fun n k => .ok (n.toNat.choose k.toNat)) (10 : ℕ) (1 / 4) = .ok d ∧
    ∃ ν : Measure ℤ, IsProbabilityMeasure ν ∧
      (∀ k : ℕ, ν.real {(k : ℤ)} = (10 : ℕ).choose k * (1 / 4) ^ k * (1 - 1 / 4) ^ (10 - k)) ∧
      DrawsHaveLaw (drawQuantile d.quantile) ν := by
  obtain ⟨d, e, ν, h1, h2, h3, -⟩ := binomial_describes_partial
    (bico := fun n k => .ok (n.toNat.choose k.toNat)) (n := 10) (p := 1 / 4)
    (fun k _ => by simp) (by norm_num) (by norm_num) (by norm_num)
  exact ⟨d, e, ν, h1, h2, h3⟩

/-- `Quantile(1)` is `n - 1`, though `Cdf(n - 1)` is less than one. -/
theorem binomial_quantile_refuted {bico : ℤ → ℤ → Res ℝ} {n : ℕ} {p : ℝ}
    (hb : ∀ k : ℕ, k ≤ n → bico n k = .ok (n.choose k)) (h0 : 0 < p) (h1 : p ≤ 1) (hpos : 0 < n)
    (hn : n ≤ 2 ^ 30) :
    ∃ d, Binomial.create bico n p = .ok d ∧ d.quantile 1 = .ok (n - 1) ∧
      d.cdf (n - 1) = .ok (1 - p ^ n) ∧ 1 - p ^ n < 1 := by
  refine ⟨_, Binomial.create_ok hb h0.le h1 (by omega), ?_, ?_, by linarith [pow_pos h0 n]⟩
  · have := Binomial.quantile_ge (p := p) h0.le h1 hn hpos le_rfl
    rwa [show ((n - 1 : ℕ) : ℤ) = n - 1 by omega] at this
  · rw [show (n : ℤ) - 1 = ((n - 1 : ℕ) : ℤ) by omega]
    unfold Binomial.cdf
    rw [if_neg (by omega), if_neg (by show ¬ (((n - 1 : ℕ) : ℤ) > (n : ℤ)); omega)]
    refine (Binomial.rd_c (N := n) (p := p) (k := n - 1) (by omega)).trans ?_
    have hw := Binomial.w_sum n p
    rw [Finset.sum_range_succ] at hw
    unfold Binomial.c
    rw [show n - 1 + 1 = n by omega]
    have : Binomial.w n p n = p ^ n := by
      unfold Binomial.w
      simp
    congr 1
    linarith

/-- And `Quantile(Cdf(k))` is not `k` but `k + 1`. -/
theorem binomial_quantile_cdf_refuted {bico : ℤ → ℤ → Res ℝ} {n : ℕ} {p : ℝ}
    (hb : ∀ k : ℕ, k ≤ n → bico n k = .ok (n.choose k)) (h0 : 0 < p) (h1 : p < 1) (hn : n ≤ 2 ^ 30)
    {k : ℕ} (hk : k < n) :
    ∃ d x, Binomial.create bico n p = .ok d ∧ d.cdf k = .ok x ∧ d.quantile x = .ok (k + 1) := by
  refine ⟨_, Binomial.c n p k, Binomial.create_ok hb h0.le h1.le (by omega), ?_, ?_⟩
  · unfold Binomial.cdf
    rw [if_neg (by omega), if_neg (by show ¬ ((k : ℤ) > (n : ℤ)); omega)]
    exact Binomial.rd_c (N := n) (p := p) (by omega)
  · have hstep : ∀ j, j ≤ n → j = k + 1 → Binomial.c n p k < Binomial.c n p j := by
      rintro j hj rfl
      unfold Binomial.c
      rw [Finset.sum_range_succ _ (k + 1)]
      have : 0 < Binomial.w n p (k + 1) := by
        unfold Binomial.w
        have h2 : 0 < 1 - p := by linarith
        have h3 : 0 < n.choose (k + 1) := Nat.choose_pos hj
        positivity
      linarith
    have hlt := hstep (k + 1) hk rfl
    have hle : Binomial.c n p (k + 1) ≤ 1 :=
      (Binomial.c_mono h0.le h1.le hk).trans (Binomial.c_top (p := p)).le
    obtain ⟨m, e, hm, hl⟩ := Binomial.quantile_lt (p := p) h0.le h1.le hn (hlt.trans_le hle)
    have : m = k + 1 := by
      rcases lt_trichotomy m (k + 1) with h | h | h
      · exact absurd (Binomial.c_mono (N := n) h0.le h1.le (show m ≤ k by omega)) (not_le.2 hm)
      · exact h
      · exact absurd (hl _ h) (not_le.2 hlt)
    rw [this] at e
    exact_mod_cast e

example : ∃ d x, Binomial.create (fun n k => .ok (n.toNat.choose k.toNat)) (3 : ℕ) (1 / 2) = .ok d ∧
    d.cdf (1 : ℕ) = .ok x ∧ d.quantile x = .ok ((1 : ℕ) + 1) :=
  binomial_quantile_cdf_refuted (fun k _ => by simp) (by norm_num) (by norm_num) (by norm_num)
    (by norm_num)

/-! ## C70: the Poisson distribution -/

/-- Draws for a mean below 10 have the Poisson law. -/
theorem poisson_draws_partial {l : ℝ} (h0 : 0 ≤ l) (hl : l < 10) : ∃ ν : Measure ℤ, IsProbabilityMeasure ν ∧
    (∀ k : ℕ, ν.real {(k : ℤ)} = Real.exp (-l) * l ^ k / k.factorial) ∧
    DrawsHaveLaw (Poisson.create l).draw ν :=
  Poisson.draws h0 hl

example : ∃ ν : Measure ℤ, IsProbabilityMeasure ν ∧
    (∀ k : ℕ, ν.real {(k : ℤ)} = Real.exp (-2) * 2 ^ k / k.factorial) ∧
    DrawsHaveLaw (Poisson.create 2).draw ν := poisson_draws_partial (by norm_num) (by norm_num)

/-- A draw for a mean below 10 ends, with a number less than 70, if the uniform number is at most
1 - 2^-52. -/
theorem poisson_draw_bounded {l : ℝ} (h0 : 0 ≤ l) (hl : l < 10) {σ : Type} (unif : σ → Res (ℝ × σ))
    {s s' : σ} {u : ℝ} (e : unif s = .ok (u, s')) (hu : u ≤ 1 - 2⁻¹ ^ 52) :
    ∃ k : ℤ, (Poisson.create l).draw unif s = .ok (k, s') ∧ 0 ≤ k ∧ k < 70 := by
  obtain ⟨m, hm, h1, h2⟩ := Poisson.draw_rounds h0 hl hu
  exact ⟨m, Poisson.draw_small hl unif e m h1 h2, by omega, by omega⟩

example : ∃ k : ℤ, (Poisson.create 3).draw (fun s : Unit => .ok (1 / 2, s)) () = .ok (k, ()) ∧ 0 ≤ k ∧
    k < 70 :=
  poisson_draw_bounded (by norm_num) (by norm_num) _ rfl (by norm_num)

/-- A number that `Draw` returns is not negative, for every mean. -/
theorem poisson_draw_nonneg {σ : Type} (l : ℝ) (unif : σ → Res (ℝ × σ))
    (hu : ∀ s u s', unif s = .ok (u, s') → 0 ≤ u ∧ u < 1) (s s' : σ) (k : ℤ)
    (h : (Poisson.create l).draw unif s = .ok (k, s')) : 0 ≤ k :=
  Poisson.draw_nonneg l unif hu s s' k h

example : (Poisson.create 16).draw (fun s : Unit => .ok (1 / 4, s)) () = .ok (16, ()) := by
  have hs : fsqrt (16 : ℝ) = .ok 4 := by
    rw [fsqrt, if_neg (by norm_num), show (16 : ℝ) = 4 ^ 2 by norm_num, Real.sqrt_sq (by norm_num)]
  have h : (Poisson.create 16).ptrsRound (fun s : Unit => .ok (1 / 4, s)) () = .ok (some 16, ()) := by
    unfold Poisson.ptrsRound Poisson.create
    simp only [Res.monad_bind_eq, hs, Res.bind_ok]
    rw [fdiv_ok (by norm_num), Res.bind_ok, Res.bind_ok, if_pos (by norm_num), fdiv_ok (by norm_num),
      Res.bind_ok, abs_of_nonneg (by norm_num), fdiv_ok (by norm_num), Res.bind_ok]
    unfold Poisson.floorInt
    rw [show ∀ x : ℝ, 16 ≤ x → x < 17 → ⌊x⌋ = 16 from fun x h1 h2 =>
      Int.floor_eq_iff.2 ⟨by exact_mod_cast h1, by push_cast; linarith⟩]
    · rfl
    · norm_num
    · norm_num
  unfold Poisson.draw
  rw [if_neg (by show ¬ (16 : ℝ) < 10; norm_num), untilLoop_unfold, h]
  rfl

/-- `Pdf` is right up to 12. -/
theorem poisson_pdf_partial {l : ℝ} (hl : 0 < l) {k : ℕ} (hk : k ≤ 12) :
    (Poisson.create l).pdf k = .ok (Real.exp (-l) * l ^ k / k.factorial) := Poisson.pdf_ok hl hk

example : (Poisson.create 3).pdf (2 : ℕ) = .ok (Real.exp (-3) * 3 ^ 2 / (2 : ℕ).factorial) :=
  poisson_pdf_partial (by norm_num) (by norm_num)

/-- From 13 the factorial overflows an `int`, whatever the mean. -/
theorem poisson_overflow (l : ℝ) (gammp : ℝ → ℝ → Res ℝ) {k : ℤ} (hk : 13 ≤ k) :
    (Poisson.create l).pdf k = .ub "int overflow" ∧
      (Poisson.create l).cdf gammp k = .ub "int overflow" := by
  unfold Poisson.pdf Poisson.cdf
  rw [Poisson.fac_ub hk]
  exact ⟨rfl, rfl⟩

/-- `Cdf(0)` for mean 2 is not the probability of 0, if the incomplete gamma function is right to one
decimal. -/
theorem poisson_cdf_refuted {gammp : ℝ → ℝ → Res ℝ} {g : ℝ} (hg : gammp 1 2 = .ok g)
    (hacc : |g - (1 - Real.exp (-2))| ≤ 0.1) :
    ∃ x, (Poisson.create 2).cdf gammp 0 = .ok x ∧ Real.exp (-2) + 0.5 < x := by
  refine ⟨g, ?_, ?_⟩
  · unfold Poisson.cdf
    have h0 : Poisson.fac 0 = .ok ((Nat.factorial 0 : ℕ) : ℤ) := Poisson.fac_ok (k := 0) (by norm_num)
    simp only [Res.monad_bind_eq, h0, Res.bind_ok]
    rw [show (((0 : ℤ) : ℝ) + 1.0) = 1 by norm_num, show (Poisson.create 2).lambda = 2 from rfl, hg,
      Res.bind_ok, Nat.factorial_zero, fdiv_ok (by norm_num)]
    norm_num
  · have h1 := (abs_le.1 hacc).1
    have h2 : Real.exp (-2) ≤ 0.15 := by
      have h3 : (2.7 : ℝ) < Real.exp 1 := lt_trans (by norm_num) Real.exp_one_gt_d9
      have h4 : Real.exp 2 = Real.exp 1 * Real.exp 1 := by rw [← Real.exp_add]; norm_num
      have h5 : 7.29 < Real.exp 2 := by rw [h4]; nlinarith
      rw [Real.exp_neg, inv_le_comm₀ (Real.exp_pos 2) (by norm_num)]
      exact le_trans (by norm_num) h5.le
    linarith

/-- `Quantile(0.9)` for mean 2 overflows an `int`, if the incomplete gamma function is right to 0.01: its
values are the probabilities of more than `k`. -/
theorem poisson_quantile_refuted {gammp : ℝ → ℝ → Res ℝ} (hacc : ∀ k : ℕ, k ≤ 12 →
      ∃ g, gammp (k + 1) 2 = .ok g ∧
        |g - (1 - ∑ j ∈ Finset.range (k + 1), Real.exp (-2) * 2 ^ j / j.factorial)| ≤ 0.01) :
    (Poisson.create 2).quantile gammp 0.9 = .ub "int overflow" := by
  refine Poisson.quantile_ub (by norm_num) fun k hk => ?_
  obtain ⟨g, e, h⟩ := hacc k hk
  refine ⟨g, e, ?_⟩
  have h1 := (abs_le.1 h).2
  have h2 : Real.exp (-2) * 2 ^ 0 / (0 : ℕ).factorial
      ≤ ∑ j ∈ Finset.range (k + 1), Real.exp (-2) * 2 ^ j / j.factorial :=
    Finset.single_le_sum (f := fun j : ℕ => Real.exp (-2) * 2 ^ j / j.factorial)
      (fun j _ => by positivity) (by simp)
  have h3 : 0.12 ≤ Real.exp (-2) := by
    have h3 : Real.exp 1 < (2.8 : ℝ) := lt_trans Real.exp_one_lt_d9 (by norm_num)
    have h4 : Real.exp 2 = Real.exp 1 * Real.exp 1 := by rw [← Real.exp_add]; norm_num
    have h5 : Real.exp 2 < 7.84 := by rw [h4]; nlinarith [Real.exp_pos 1]
    rw [Real.exp_neg, le_inv_comm₀ (by norm_num) (Real.exp_pos 2)]
    exact le_trans h5.le (by norm_num)
  simp only [pow_zero, mul_one, Nat.factorial_zero, Nat.cast_one, div_one] at h2
  linarith

example : (Poisson.create 2).quantile (fun a _ => .ok (1 - ∑ j ∈ Finset.range ⌊a⌋₊,
    Real.exp (-2) * 2 ^ j / j.factorial)) 0.9 = .ub "int overflow" :=
  poisson_quantile_refuted fun k _ => ⟨_, rfl, by
    rw [show ((k : ℝ) + 1) = ((k + 1 : ℕ) : ℝ) by push_cast; rfl, Nat.floor_natCast]
    norm_num⟩

end Verif
