import Verif.Lemmas.FftSize
import Mathlib.Tactic.NormNum.Prime

/-!
# C20: the FFT size is the least 7-smooth size
-/

namespace Verif

open Spec

/-- The sizes for which the search is not disturbed by rounding or by the out-of-range conversion double →
`size_t`. The accuracy of the library's logarithm limits the size (`n log n` up to about a quarter of the
inverse relative error), and so does the conversion of the size to `float` (2^24). Under the letter of the C++
standard (`overflow = none`) the conversions are defined up to 2^14; on platforms that convert to 0 or to
something huge they do no harm. -/
def SizeOk (p : Platform) (n : ℕ) : Prop :=
  1 ≤ n ∧ n ≤ 2 ^ 24 ∧
    (∃ ε, LogAcc p ε ∧ 2⁻¹ ^ 53 ≤ ε ∧ ε ≤ 2⁻¹ ^ 10 ∧ 4 * ε * (n + 1) * Real.log n ≤ 1) ∧
    match p.overflow with
    | none => n ≤ 2 ^ 14
    | some v => v = 0 ∨ 2 ^ 25 ≤ v

theorem log_le_of_le_two_pow {n k : ℕ} (h1 : 1 ≤ n) (h : n ≤ 2 ^ k) : Real.log n ≤ k * 0.6931471808 := by
  have h2 : Real.log n ≤ Real.log (2 ^ k) :=
    Real.log_le_log (by exact_mod_cast h1) (by exact_mod_cast h)
  rw [Real.log_pow] at h2
  exact h2.trans (mul_le_mul_of_nonneg_left Real.log_two_lt_d9.le (by positivity))

/-- With a double-precision logarithm good to two units in the last place and a conversion that gives 0 (x86-64)
or something huge, all sizes up to 2^24 are fine. -/
theorem sizeOk_double {p : Platform} {n : ℕ} (hp : LogAcc p (2⁻¹ ^ 52))
    (hov : ∃ v, p.overflow = some v ∧ (v = 0 ∨ 2 ^ 25 ≤ v)) (h1 : 1 ≤ n) (hn : n ≤ 2 ^ 24) : SizeOk p n := by
  obtain ⟨v, hv, hv'⟩ := hov
  have h2 := log_le_of_le_two_pow h1 hn
  have h3 : (n : ℝ) ≤ 2 ^ 24 := by exact_mod_cast hn
  have h4 : (0 : ℝ) ≤ Real.log n := Real.log_natCast_nonneg n
  refine ⟨h1, hn, ⟨_, hp, by norm_num, by norm_num, ?_⟩, by rw [hv]; exact hv'⟩
  have h5 : ((n : ℝ) + 1) * Real.log n ≤ (2 ^ 24 + 1) * ((24 : ℕ) * 0.6931471808) :=
    mul_le_mul (by linarith) h2 h4 (by norm_num)
  rw [mul_assoc]
  norm_num at h5 ⊢
  linarith

/-- With a single-precision logarithm good to two units in the last place, all sizes up to 2^17 are. -/
theorem sizeOk_float {p : Platform} {n : ℕ} (hp : LogAcc p (2⁻¹ ^ 23))
    (hov : match p.overflow with
      | none => n ≤ 2 ^ 14
      | some v => v = 0 ∨ 2 ^ 25 ≤ v) (h1 : 1 ≤ n) (hn : n ≤ 2 ^ 17) : SizeOk p n := by
  have h2 := log_le_of_le_two_pow h1 hn
  have h3 : (n : ℝ) ≤ 2 ^ 17 := by exact_mod_cast hn
  have h4 : (0 : ℝ) ≤ Real.log n := Real.log_natCast_nonneg n
  refine ⟨h1, hn.trans (by norm_num), ⟨_, hp, by norm_num, by norm_num, ?_⟩, hov⟩
  have h5 : ((n : ℝ) + 1) * Real.log n ≤ (2 ^ 17 + 1) * ((17 : ℕ) * 0.6931471808) :=
    mul_le_mul (by linarith) h2 h4 (by norm_num)
  rw [mul_assoc]
  norm_num at h5 ⊢
  linarith

/-- Under the letter of the standard, with either logarithm, all sizes up to 2^14 are. -/
theorem sizeOk_strict {p : Platform} {n : ℕ} (hp : LogAcc p (2⁻¹ ^ 23)) (hov : p.overflow = none) (h1 : 1 ≤ n)
    (hn : n ≤ 2 ^ 14) : SizeOk p n :=
  sizeOk_float hp (by rw [hov]; exact hn) h1 (hn.trans (by norm_num))

/-- Correctly rounded logarithms meet the accuracy conditions. -/
theorem logAcc_rnd64 (o : Option ℕ) : LogAcc ⟨o, fun x => rnd64 (Real.log x)⟩ (2⁻¹ ^ 52) := by
  rintro x (rfl | hx)
  · simp [rnd64_zero]
  · have h1 := Real.log_le_log (by norm_num) hx
    have h2 := Real.log_two_gt_d9
    have h3 : 0 ≤ Real.log x := by linarith
    have h4 := rnd64_rel (x := Real.log x) (by
      rw [abs_of_nonneg h3]
      have h5 : (2⁻¹ : ℝ) ^ 1000 ≤ 2⁻¹ ^ 1 := pow_le_pow_of_le_one (by norm_num) (by norm_num) (by norm_num)
      rw [pow_one] at h5
      exact h5.trans (by linarith))
    rw [abs_of_nonneg h3] at h4
    refine h4.trans ?_
    rw [mul_comm]
    exact mul_le_mul_of_nonneg_right (by norm_num) h3

theorem logAcc_rnd32 (o : Option ℕ) : LogAcc ⟨o, fun x => rnd32 (Real.log x)⟩ (2⁻¹ ^ 23) := by
  rintro x (rfl | hx)
  · have : rnd32 0 = 0 := by exact_mod_cast rnd32_nat (n := 0) (by norm_num)
    simp [this]
  · have h1 := Real.log_le_log (by norm_num) hx
    have h2 := Real.log_two_gt_d9
    have h3 : 0 ≤ Real.log x := by linarith
    have h4 := Ieee.rnd_rel (p := 24) (emin := -149) (x := Real.log x) (by
      rw [abs_of_nonneg h3]
      norm_num
      linarith)
    rw [abs_of_nonneg h3] at h4
    refine h4.trans ?_
    rw [mul_comm]
    exact mul_le_mul_of_nonneg_right (by norm_num) h3

/-- The platform of the examples: exact logarithms, and out-of-range conversions undefined. -/
noncomputable def exactPlatform : Platform := ⟨none, Real.log⟩

theorem logAcc_exact (o : Option ℕ) {ε : ℝ} (h : 0 ≤ ε) : LogAcc ⟨o, Real.log⟩ ε := by
  intro x hx
  rw [sub_self, abs_zero]
  exact mul_nonneg h (Real.log_nonneg (by rcases hx with h | h <;> linarith))

theorem sizeOk_exact {n : ℕ} (h1 : 1 ≤ n) (hn : n ≤ 2 ^ 14) : SizeOk exactPlatform n :=
  sizeOk_strict (logAcc_exact none (by positivity)) rfl h1 hn

section
variable {p : Platform} {n : ℕ} (h : SizeOk p n)
include h

theorem SizeOk.le_pow {P : ℕ} (hP : 2 ≤ P) (hP7 : P ≤ 7) : n ≤ P ^ maxant p P n := by
  obtain ⟨h1, h24, ⟨ε, h2, h3, h4, h5⟩, -⟩ := h
  exact le_pow_maxant h2 h3 h4 hP hP7 h1 h24 h5

theorem SizeOk.maxant_le {P a : ℕ} (hP : 2 ≤ P) (hP7 : P ≤ 7) (ha : n < P ^ a) : maxant p P n ≤ a := by
  obtain ⟨h1, h24, ⟨ε, h2, h3, h4, h5⟩, -⟩ := h
  have h6 := lt_of_le_of_lt (pow_pred_maxant_le h2 h3 h4 hP hP7 h1 h24 h5) ha
  have := (Nat.pow_lt_pow_iff_right (by omega)).1 h6
  omega

theorem searchFits_of_sizeOk :
    SearchFits p (maxant p 2 n) (maxant p 3 n) (maxant p 5 n) (maxant p 7 n) n := by
  have h24 := h.2.1
  have a2 : maxant p 2 n ≤ 25 := h.maxant_le le_rfl (by norm_num) (by omega)
  have hpow : 2 ^ maxant p 2 n ≤ 2 ^ 25 := Nat.pow_le_pow_right (by norm_num) a2
  refine ⟨by omega, ?_⟩
  have hp := h.2.2.2
  cases hov : p.overflow with
  | none =>
    rw [hov] at hp
    simp only at hp ⊢
    have b2 : 2 ^ maxant p 2 n ≤ 2 ^ 15 :=
      Nat.pow_le_pow_right (by norm_num) (h.maxant_le le_rfl (by norm_num) (by omega))
    have b3 : 3 ^ maxant p 3 n ≤ 3 ^ 9 :=
      Nat.pow_le_pow_right (by norm_num) (h.maxant_le (by norm_num) (by norm_num) (by omega))
    have b5 : 5 ^ maxant p 5 n ≤ 5 ^ 7 :=
      Nat.pow_le_pow_right (by norm_num) (h.maxant_le (by norm_num) (by norm_num) (by omega))
    have b7 : 7 ^ maxant p 7 n ≤ 7 ^ 5 :=
      Nat.pow_le_pow_right (by norm_num) (h.maxant_le (by norm_num) (by norm_num) (by omega))
    have := Nat.mul_le_mul (Nat.mul_le_mul (Nat.mul_le_mul b2 b3) b5) b7
    norm_num at this ⊢
    omega
  | some v =>
    rw [hov] at hp
    simp only at hp ⊢
    have := h.1
    omega

end

/-- **C20.** For every minimum size (at least 2 if an even size is wanted) the FFT size is the
least number not below it whose prime factors are all at most 7, and even if wanted.
Partial in three ways, all forced by the code: `n = 1` with an even request (see
`findNewSize_one_even_refuted`), sizes where the code itself has an undefined
conversion (see `findNewSize_large_ub`), and sizes too large for the rounded logarithms (see
`findNewSize_double_refuted` and `findNewSize_float_refuted`). -/
theorem findNewSize_least_partial (p : Platform) (n : ℕ) (ev : Bool) (hn : SizeOk p n)
    (hev : ev = true → 2 ≤ n) :
    (findNewSize p n ev).Sat fun r => IsLeast {m | Admissible n ev m} r := by
  have h1 := hn.1
  have hf := searchFits_of_sizeOk hn
  unfold findNewSize
  rw [if_neg (by omega)]
  have h2 := hn.le_pow (P := 2) le_rfl (by norm_num)
  refine findNewSizeWith_sat hf h1 ?_ h2 (hn.le_pow (by norm_num) (by norm_num))
    (hn.le_pow (by norm_num) (by norm_num)) (hn.le_pow (by norm_num) (by norm_num))
  intro he
  by_contra hlt
  have h0 : maxant p 2 n = 0 := by omega
  rw [h0] at h2
  have := hev he
  omega

/-- The hypotheses are satisfied by a concrete size (11 is not smooth, the answer is 12). -/
example : SizeOk exactPlatform 11 ∧ IsLeast {m | Admissible 11 true m} 12 := by
  refine ⟨sizeOk_exact (by norm_num) (by norm_num), ⟨by norm_num, ?_, by norm_num⟩, ?_⟩
  · simpa using smooth7_of_exps 2 1 0 0
  · rintro m ⟨h1, h2, h3⟩
    by_contra hlt
    have : m = 11 := by omega
    subst this
    exact absurd (h2.2 11 (by norm_num) dvd_rfl) (by norm_num)

/-- Same for a robust version: whatever the rounding of the logarithms, if no largest exponent
is underestimated the result is the least acceptable size. -/
theorem findNewSizeWith_least (p : Platform) (a2 a3 a5 a7 n : ℕ) (ev : Bool)
    (hn : 1 ≤ n) (hev : ev = true → 2 ≤ n)
    (h2 : n ≤ 2 ^ a2) (h3 : n ≤ 3 ^ a3) (h5 : n ≤ 5 ^ a5) (h7 : n ≤ 7 ^ a7)
    (hrange : 2 ^ a2 * 3 ^ a3 * 5 ^ a5 * 7 ^ a7 ≤ 2 ^ 62) (h53 : 2 ^ a2 ≤ 2 ^ 53) :
    (findNewSizeWith p a2 a3 a5 a7 n ev).Sat fun r => IsLeast {m | Admissible n ev m} r := by
  have hev' : ev = true → 1 ≤ a2 := by
    intro he
    by_contra h0
    have : a2 = 0 := by omega
    subst this
    have := hev he
    omega
  -- no conversion is out of range, so the platform does not matter
  have hind : ∀ q : Platform, findNewSizeWith q a2 a3 a5 a7 n ev =
      findNewSizeWith exactPlatform a2 a3 a5 a7 n ev →
      (findNewSizeWith exactPlatform a2 a3 a5 a7 n ev).Sat
        (fun r => IsLeast {m | Admissible n ev m} r) →
      (findNewSizeWith q a2 a3 a5 a7 n ev).Sat fun r => IsLeast {m | Admissible n ev m} r :=
    fun q h1 h2 => h1 ▸ h2
  cases hov : p.overflow with
  | none => exact findNewSizeWith_sat ⟨h53, by rw [hov]; exact hrange⟩ hn hev' h2 h3 h5 h7
  | some v =>
    by_cases hv : ¬ (n ≤ v ∧ v < 2 ^ a2)
    · exact findNewSizeWith_sat ⟨h53, by rw [hov]; exact hv⟩ hn hev' h2 h3 h5 h7
    · refine hind p ?_ (findNewSizeWith_sat ⟨h53, hrange⟩ hn hev' h2 h3 h5 h7)
      rw [findNewSizeWith_eq, findNewSizeWith_eq, toSizeT_powf _ h53, toSizeT_powf _ h53]
      congr 1
      funext c0
      refine forRange_congr fun i c _ hi => forRange_congr fun j c _ hj =>
        forRange_congr fun k c _ hk => forRange_congr fun l c _ hl => ?_
      have g2 : 2 ^ i ≤ 2 ^ a2 := Nat.pow_le_pow_right (by norm_num) (by omega)
      have g3 : 3 ^ j ≤ 3 ^ a3 := Nat.pow_le_pow_right (by norm_num) (by omega)
      have g5 : 5 ^ k ≤ 5 ^ a5 := Nat.pow_le_pow_right (by norm_num) (by omega)
      have g7 : 7 ^ l ≤ 7 ^ a7 := Nat.pow_le_pow_right (by norm_num) (by omega)
      have := factorD_lt ((Nat.mul_le_mul (Nat.mul_le_mul (Nat.mul_le_mul g2 g3) g5) g7).trans hrange)
      unfold sizeStep toSizeT
      rw [if_pos this, if_pos this]

example : (11 ≤ 2 ^ 4 ∧ 11 ≤ 3 ^ 3 ∧ 11 ≤ 5 ^ 2 ∧ 11 ≤ 7 ^ 2 ∧
    2 ^ 4 * 3 ^ 3 * 5 ^ 2 * 7 ^ 2 ≤ 2 ^ 62) := by norm_num

/-- The chosen size is less than twice the minimum size. -/
theorem findNewSize_lt_two_mul (p : Platform) (n : ℕ) (ev : Bool) (hn : SizeOk p n)
    (hev : ev = true → 2 ≤ n) :
    (findNewSize p n ev).Sat fun r => n ≤ r ∧ r < 2 * n := by
  refine (findNewSize_least_partial p n ev hn hev).mono ?_
  rintro r ⟨⟨h1, -, -⟩, h2⟩
  refine ⟨h1, ?_⟩
  have hn1 := hn.1
  by_cases h : n = 1
  · subst h
    have he : ev = false := by
      cases ev
      · rfl
      · exact absurd (hev rfl) (by norm_num)
    have : r ≤ 1 := h2 ⟨le_rfl, by simpa using smooth7_of_exps 0 0 0 0, by simp [he]⟩
    omega
  · have hc : 0 < Nat.clog 2 n := Nat.clog_pos (by norm_num) (by omega)
    have : r ≤ 2 ^ Nat.clog 2 n := h2 ⟨Nat.le_pow_clog (by norm_num) n,
      by simpa using smooth7_of_exps (Nat.clog 2 n) 0 0 0, fun _ => dvd_pow_self 2 (by omega)⟩
    have h3 : 2 ^ (Nat.clog 2 n - 1) < n := Nat.pow_pred_clog_lt_self (by norm_num) (by omega)
    have h4 : 2 ^ (Nat.clog 2 n) = 2 * 2 ^ (Nat.clog 2 n - 1) := by
      rw [← pow_succ']; congr 1; omega
    omega

/-- A size that is already acceptable is kept. -/
theorem findNewSize_eq_self (p : Platform) (n : ℕ) (ev : Bool) (hn : SizeOk p n)
    (hev : ev = true → 2 ≤ n) (hs : Smooth7 n) (he : ev = true → 2 ∣ n) :
    findNewSize p n ev = .ok n := by
  obtain ⟨r, hr, h1, h2⟩ := findNewSize_least_partial p n ev hn hev
  have : r = n := le_antisymm (h2 ⟨le_rfl, hs, he⟩) h1.1
  rw [hr, this]

/-- **C20 refuted at 1**: asking for an even size of at least 1 returns the odd size 1. -/
theorem findNewSize_one_even_refuted (p : Platform) (ε : ℝ) (hp : LogAcc p ε) :
    findNewSize p 1 true = .ok 1 := by
  have h1 : p.log 1 = 0 := by
    have := hp 1 (Or.inl rfl)
    rw [Real.log_one, mul_zero, sub_zero] at this
    exact abs_eq_zero.1 (le_antisymm this (abs_nonneg _))
  have h2 : maxant p 2 1 = 0 := by
    unfold maxant
    rw [rnd32_nat (by norm_num), Nat.cast_one, h1, zero_div, rnd64_zero, Nat.ceil_zero]
  unfold findNewSize
  rw [if_neg one_ne_zero, findNewSizeWith_eq, h2, toSizeT_powf _ (by norm_num)]
  simp [forRange_empty]

example : LogAcc exactPlatform 0 := logAcc_exact none le_rfl

/-- **C20 refuted in the large**: under the letter of the C++ standard the search executes an
out-of-range floating-point conversion for every size from 65536 on. -/
theorem findNewSize_large_ub (p : Platform) (hov : p.overflow = none) (hp : LogAcc p (2⁻¹ ^ 10)) (n : ℕ)
    (hn : 2 ^ 16 ≤ n) (ev : Bool) :
    findNewSize p n ev = .ub "double to size_t conversion out of range" := by
  unfold findNewSize
  rw [if_neg (by omega), findNewSizeWith_eq]
  have e2 : 15 < maxant p 2 n := le_maxant hp (by norm_num) le_rfl le_rfl (by norm_num) hn (u := 16) (v := 1)
    (by norm_num) (by norm_num) (by norm_num)
  have e3 : 10 < maxant p 3 n := le_maxant hp (by norm_num) le_rfl (by norm_num) (by norm_num) hn (u := 131)
    (v := 13) (by norm_num) (by norm_num) (by norm_num)
  have e5 : 6 < maxant p 5 n := le_maxant hp (by norm_num) le_rfl (by norm_num) (by norm_num) hn (u := 13)
    (v := 2) (by norm_num) (by norm_num) (by norm_num)
  have e7 : 5 < maxant p 7 n := le_maxant hp (by norm_num) le_rfl (by norm_num) (by norm_num) hn (u := 11)
    (v := 2) (by norm_num) (by norm_num) (by norm_num)
  set a2 := maxant p 2 n
  set a3 := maxant p 3 n
  set a5 := maxant p 5 n
  set a7 := maxant p 7 n
  have hconv : ∀ x, (∃ c, toSizeT p x = .ok c) ∨
      toSizeT p x = .ub "double to size_t conversion out of range" := by
    intro x
    unfold toSizeT
    rw [hov]
    split
    · exact Or.inl ⟨_, rfl⟩
    · exact Or.inr rfl
  have hall : ∀ i j k l c, (∃ c', sizeStep p n i j k l c = .ok c') ∨
      sizeStep p n i j k l c = .ub "double to size_t conversion out of range" := by
    intro i j k l c
    unfold sizeStep
    rcases hconv (factorD i j k l) with ⟨f, hf⟩ | hf
    · left
      rw [hf]
      simp only [Res.bind_ok]
      split <;> exact ⟨_, rfl⟩
    · right
      rw [hf]
      rfl
  have hbig : ∀ c, sizeStep p n a2 a3 a5 a7 c =
      .ub "double to size_t conversion out of range" := by
    intro c
    have g2 : 2 ^ 16 ≤ 2 ^ a2 := Nat.pow_le_pow_right (by norm_num) e2
    have g3 : 3 ^ 11 ≤ 3 ^ a3 := Nat.pow_le_pow_right (by norm_num) e3
    have g5 : 5 ^ 7 ≤ 5 ^ a5 := Nat.pow_le_pow_right (by norm_num) e5
    have g7 : 7 ^ 6 ≤ 7 ^ a7 := Nat.pow_le_pow_right (by norm_num) e7
    have h4 := Nat.mul_le_mul (Nat.mul_le_mul (Nat.mul_le_mul g2 g3) g5) g7
    have h5 := factorD_ge (le_trans (by norm_num) h4)
    unfold sizeStep toSizeT
    rw [if_neg (not_lt.2 h5), hov]
    rfl
  rcases hconv (powf 2 a2) with ⟨c0, hc0⟩ | hc0
  · rw [hc0, Res.bind_ok]
    refine forRange_ub a2 (by split <;> omega) (by omega)
      (fun i c => forRange_ok_or_ub (fun j c => forRange_ok_or_ub (fun k c =>
        forRange_ok_or_ub (fun l c => hall i j k l c) c) c) c) ?_ _
    refine forRange_ub a3 (by omega) (by omega)
      (fun j c => forRange_ok_or_ub (fun k c => forRange_ok_or_ub (fun l c => hall _ j k l c) c) c) ?_
    refine forRange_ub a5 (by omega) (by omega)
      (fun k c => forRange_ok_or_ub (fun l c => hall _ _ k l c) c) ?_
    exact forRange_ub a7 (by omega) (by omega) (fun l c => hall _ _ _ l c) hbig
  · rw [hc0]
    rfl

/-- A minimum size of zero is an undefined conversion. -/
theorem findNewSize_zero_ub (p : Platform) (ev : Bool) :
    findNewSize p 0 ev = .ub "int conversion of -inf" := rfl

/-- If the largest exponent of two is underestimated the result is below the minimum size. -/
theorem findNewSize_underestimate (p : Platform) (n : ℕ) (ev : Bool) (hov : p.overflow ≠ none) (hn : 1 ≤ n)
    (h : 2 ^ maxant p 2 n < n) (h53 : n ≤ 2 ^ 53) : findNewSize p n ev = .ok (2 ^ maxant p 2 n) := by
  unfold findNewSize
  rw [if_neg (by omega)]
  exact findNewSizeWith_low h (fun h => absurd h hov) (by omega)

/-- `(float)(2^24 + 1) = 2^24`. -/
theorem rnd32_pow_succ : rnd32 ((2 ^ 24 + 1 : ℕ) : ℝ) = ((2 ^ 24 : ℕ) : ℝ) := by
  have hl : Int.log 2 |((2 ^ 24 + 1 : ℕ) : ℝ)| = 24 := by
    rw [abs_of_pos (by positivity)]
    apply le_antisymm
    · have := (Int.lt_zpow_iff_log_lt (b := 2) (by norm_num) (by positivity) (x := 25)
        (r := ((2 ^ 24 + 1 : ℕ) : ℝ))).1 (by norm_num)
      omega
    · rw [← Int.zpow_le_iff_le_log (by norm_num) (by positivity)]
      norm_num
  have he : Ieee.expo 24 (-149) ((2 ^ 24 + 1 : ℕ) : ℝ) = 1 := by
    unfold Ieee.expo
    rw [hl]
    norm_num
  unfold rnd32 Ieee.rnd
  rw [he]
  have hf : ⌊((2 ^ 24 + 1 : ℕ) : ℝ) / 2 ^ (1 : ℤ)⌋ = 8388608 := by
    rw [Int.floor_eq_iff]
    norm_num
  have hr : Ieee.rne (((2 ^ 24 + 1 : ℕ) : ℝ) / 2 ^ (1 : ℤ)) = 8388608 := by
    unfold Ieee.rne
    rw [hf]
    norm_num
    decide
  rw [hr]
  norm_num

/-- Bounds of `log 2` to twenty digits. -/
theorem log_two_near_20 : |Real.log 2 - 0.69314718055994530942| ≤ 1 / 10 ^ 19 := by
  have t : |(2⁻¹ : ℝ)| = 2⁻¹ := by rw [abs_of_pos]; norm_num
  have z := Real.abs_log_sub_add_sum_range_le (show |(2⁻¹ : ℝ)| < 1 by rw [t]; norm_num) 66
  rw [t, show (1 : ℝ) - 2⁻¹ = 2⁻¹ by norm_num, Real.log_inv, ← sub_eq_add_neg, abs_sub_comm] at z
  refine (abs_sub_le _ _ _).trans (le_trans (add_le_add z le_rfl) ?_)
  norm_num [Finset.sum_range_succ]

/-- Correctly rounded double-precision logarithms of 2 and 2^24, and their rounded quotient. -/
theorem quotient_double : rnd64 (rnd64 (Real.log (2 ^ 24)) / rnd64 (Real.log 2)) = 24 := by
  have h := abs_le.1 log_two_near_20
  have e1 : rnd64 (Real.log 2) = 6243314768165359 * 2 ^ (-53 : ℤ) := by
    have := Ieee.rnd_near (p := 53) (emin := -1074) (x := Real.log 2) (k := -1) (m := 6243314768165359)
      (by norm_num) (by norm_num; linarith [h.1]) (by norm_num; linarith [h.2]) (by
        norm_num
        rw [abs_lt]
        constructor <;> norm_num at h ⊢ <;> linarith [h.1, h.2])
    unfold rnd64
    rw [this]
    norm_num
  have e2 : rnd64 (Real.log (2 ^ 24)) = 4682486076124019 * 2 ^ (-48 : ℤ) := by
    rw [Real.log_pow]
    have := Ieee.rnd_near (p := 53) (emin := -1074) (x := (24 : ℕ) * Real.log 2) (k := 4) (m := 4682486076124019)
      (by norm_num) (by norm_num; linarith [h.1]) (by norm_num; linarith [h.2]) (by
        norm_num
        rw [abs_lt]
        constructor <;> norm_num at h ⊢ <;> linarith [h.1, h.2])
    unfold rnd64
    rw [this]
    norm_num
  rw [e1, e2]
  have := Ieee.rnd_near (p := 53) (emin := -1074)
    (x := 4682486076124019 * 2 ^ (-48 : ℤ) / (6243314768165359 * 2 ^ (-53 : ℤ))) (k := 4) (m := 24 * 2 ^ 48)
      (by norm_num) (by norm_num) (by norm_num) (by norm_num [abs_lt])
  unfold rnd64
  rw [this]
  norm_num

/-- **C20 refuted beyond 2^24, whatever the logarithm's precision.** The size is converted to `float` before its
logarithm is taken, and 2^24 + 1 becomes 2^24. With exact and with correctly rounded double-precision logarithms
the search then returns 2^24, which is *less* than the minimum size. -/
theorem findNewSize_double_refuted (v : ℕ) (ev : Bool) (log : ℝ → ℝ)
    (hlog : log = Real.log ∨ log = fun x => rnd64 (Real.log x)) :
    findNewSize ⟨some v, log⟩ (2 ^ 24 + 1) ev = .ok (2 ^ 24) := by
  have hm : maxant ⟨some v, log⟩ 2 (2 ^ 24 + 1) = 24 := by
    unfold maxant
    rw [rnd32_pow_succ, Nat.cast_pow, Nat.cast_ofNat]
    rcases hlog with rfl | rfl
    · simp only [Real.log_pow]
      have h2 := Real.log_two_gt_d9
      rw [mul_div_assoc, div_self (by linarith), mul_one, rnd64_nat (by norm_num), Nat.ceil_natCast]
    · simp only []
      rw [quotient_double]
      have : (24 : ℝ) = (24 : ℕ) := by norm_num
      rw [this, Nat.ceil_natCast]
  have := findNewSize_underestimate ⟨some v, log⟩ (2 ^ 24 + 1) ev (by simp) (by norm_num)
    (by rw [hm]; norm_num) (by norm_num)
  rw [this, hm]

/-- **C20 refuted for single-precision logarithms from 2^22 + 1.** With correctly rounded single-precision
logarithms the quotient for 2^22 + 1 is exactly 22, and the search returns 2^22. -/
theorem findNewSize_float_refuted (v : ℕ) (ev : Bool) :
    findNewSize ⟨some v, fun x => rnd32 (Real.log x)⟩ (2 ^ 22 + 1) ev = .ok (2 ^ 22) := by
  have h1 := Real.log_two_gt_d9
  have h2 := Real.log_two_lt_d9
  have e1 : rnd32 (Real.log 2) = 11629080 * 2 ^ (-24 : ℤ) := by
    have := Ieee.rnd_near (p := 24) (emin := -149) (x := Real.log 2) (k := -1) (m := 11629080)
      (by norm_num) (by norm_num; linarith) (by norm_num; linarith) (by
        norm_num
        rw [abs_lt]
        constructor <;> norm_num at h1 h2 ⊢ <;> linarith)
    unfold rnd32
    rw [this]
    norm_num
  have e2 : rnd32 (Real.log ((2 ^ 22 + 1 : ℕ) : ℝ)) = 15989985 * 2 ^ (-20 : ℤ) := by
    have l1 : (22 : ℕ) * Real.log 2 ≤ Real.log ((2 ^ 22 + 1 : ℕ) : ℝ) := by
      rw [← Real.log_pow]
      exact Real.log_le_log (by norm_num) (by norm_num)
    have l2 : Real.log ((2 ^ 22 + 1 : ℕ) : ℝ) ≤ (22 : ℕ) * Real.log 2 + 1 / 2 ^ 22 := by
      rw [← Real.log_pow]
      have := Real.log_le_sub_one_of_pos (x := ((2 ^ 22 + 1 : ℕ) : ℝ) / 2 ^ 22) (by positivity)
      rw [Real.log_div (by positivity) (by positivity)] at this
      have e : ((2 ^ 22 + 1 : ℕ) : ℝ) / 2 ^ 22 - 1 = 1 / 2 ^ 22 := by norm_num
      linarith
    push_cast at l1 l2
    have := Ieee.rnd_near (p := 24) (emin := -149) (x := Real.log ((2 ^ 22 + 1 : ℕ) : ℝ)) (k := 3) (m := 15989985)
      (by norm_num) (by push_cast; norm_num at l1 l2 ⊢; linarith) (by push_cast; norm_num at l1 l2 ⊢; linarith) (by
        push_cast
        norm_num at l1 l2 ⊢
        rw [abs_lt]
        constructor <;> norm_num at h1 h2 ⊢ <;> linarith)
    unfold rnd32
    rw [this]
    norm_num
  have hm : maxant ⟨some v, fun x => rnd32 (Real.log x)⟩ 2 (2 ^ 22 + 1) = 22 := by
    unfold maxant
    rw [rnd32_nat (by norm_num)]
    simp only []
    rw [e2, Nat.cast_ofNat, e1]
    have : (15989985 * 2 ^ (-20 : ℤ) / (11629080 * 2 ^ (-24 : ℤ)) : ℝ) = (22 : ℕ) := by norm_num
    rw [this, rnd64_nat (by norm_num), Nat.ceil_natCast]
  have := findNewSize_underestimate ⟨some v, fun x => rnd32 (Real.log x)⟩ (2 ^ 22 + 1) ev (by simp) (by norm_num)
    (by rw [hm]; norm_num) (by norm_num)
  rw [this, hm]

end Verif
