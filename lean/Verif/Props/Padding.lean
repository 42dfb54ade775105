import Verif.Props.Factory
import Verif.Model.Padding
import Verif.Lemmas.Ieee
import Verif.Lemmas.Outcome
import Mathlib.Algebra.Order.Floor.Ring
import Mathlib.Order.Bounds.Defs

/-!
# C17, C18: default padding and `simulation_size`
-/

namespace Verif

open Spec Variogram

/-- Arguments for which the padding of one direction is computed without an out-of-range
conversion: positive step, a range that is not absurdly small (2^-1000), and quotients that fit in an
`int`. (The multiple of the range is negative for `general_exponential` with a power below 0.75.) -/
def PadOk (v : Variogram) (n : ℕ) (range step : ℝ) : Prop :=
  0 < step ∧ 2⁻¹ ^ 1000 ≤ range ∧ (n : ℝ) ≤ 2 ^ 31 ∧ range / step ≤ 2 ^ 31 - 2 ∧
    -2 ^ 31 + 1 ≤ v.rangeToGridRatio * range / step - n ∧
    v.rangeToGridRatio * range / step - n ≤ 2 ^ 31 - 3

/-- The default padding: the least number of cells that exceeds both the range and the type's multiple of the
range minus the grid, measured in cells, with the rounding of double-precision numbers. -/
def IsPad (v : Variogram) (n : ℕ) (range step : ℝ) (q : ℕ) : Prop :=
  IsLeast {q : ℕ | rnd64 (range / step) < q ∧
    rnd64 (rnd64 (rnd64 (v.rangeToGridRatio * range) / step) - n) < q} q

theorem PadOk.range_pos {v : Variogram} {n : ℕ} {range step : ℝ} (h : PadOk v n range step) : 0 < range :=
  lt_of_lt_of_le (by positivity) h.2.1

/-- The rounding errors are small. -/
theorem PadOk.err {v : Variogram} {n : ℕ} {range step : ℝ} (h : PadOk v n range step) :
    |rnd64 (range / step) - range / step| ≤ 2⁻¹ ^ 17 ∧
    |rnd64 (rnd64 (rnd64 (v.rangeToGridRatio * range) / step) - n)
      - (v.rangeToGridRatio * range / step - n)| ≤ 2⁻¹ ^ 17 := by
  have hr0 := h.range_pos
  obtain ⟨hs, hr, hn, hb, hρ, ha⟩ := h
  have hn0 : (0 : ℝ) ≤ n := Nat.cast_nonneg n
  have hstep : 2⁻¹ ^ 1031 ≤ step := by
    have h1 : range ≤ (2 ^ 31 - 2) * step := by rwa [div_le_iff₀ hs] at hb
    have h2 : (2⁻¹ : ℝ) ^ 1000 ≤ 2 ^ 31 * step := hr.trans (h1.trans (by nlinarith))
    have h3 : (2⁻¹ : ℝ) ^ 1031 * 2 ^ 31 = 2⁻¹ ^ 1000 := by
      rw [show 1031 = 1000 + 31 by norm_num, pow_add, mul_assoc, ← mul_pow]
      norm_num
    have h4 : (0 : ℝ) < 2 ^ 31 := by norm_num
    rw [← h3, mul_comm] at h2
    exact le_of_mul_le_mul_left h2 h4
  have hq : 0 < range / step := div_pos hr0 hs
  refine ⟨(rnd64_err_small (by rw [abs_of_pos hq]; linarith)).trans (by norm_num), ?_⟩
  set y := v.rangeToGridRatio * range
  have e1 : |rnd64 y / step - y / step| ≤ 2⁻¹ ^ 19 := by
    rw [← sub_div, abs_div, abs_of_pos hs, div_le_iff₀ hs]
    refine (rnd64_abs_err y).trans ?_
    have h1 : |y| ≤ 2 ^ 33 * step := by
      rw [abs_le]
      constructor
      · have : -2 ^ 31 + 1 ≤ y / step := by linarith
        rw [le_div_iff₀ hs] at this
        nlinarith
      · have : y / step ≤ 2 ^ 33 := by linarith
        rwa [div_le_iff₀ hs] at this
    have h2 : |y| * 2⁻¹ ^ 53 ≤ 2 ^ 33 * step * 2⁻¹ ^ 53 := mul_le_mul_of_nonneg_right h1 (by positivity)
    have h3 : (2⁻¹ : ℝ) ^ 1075 ≤ 2⁻¹ ^ 44 * step := by
      rw [show 1075 = 44 + 1031 by norm_num, pow_add]
      exact mul_le_mul_of_nonneg_left hstep (by positivity)
    refine (add_le_add h2 h3).trans ?_
    rw [show 2 ^ 33 * step * (2⁻¹ : ℝ) ^ 53 + 2⁻¹ ^ 44 * step = (2 ^ 33 * 2⁻¹ ^ 53 + 2⁻¹ ^ 44) * step by ring]
    exact mul_le_mul_of_nonneg_right (by norm_num) hs.le
  have b1 := abs_le.1 e1
  have hsm : (2⁻¹ : ℝ) ^ 19 ≤ 1 := by norm_num
  have e2 := rnd64_err_small (x := rnd64 y / step) (by rw [abs_le]; constructor <;> linarith [b1.1, b1.2])
  have b2 := abs_le.1 e2
  have e3 := rnd64_err_small (x := rnd64 (rnd64 y / step) - n)
    (by rw [abs_le]; constructor <;> linarith [b1.1, b1.2, b2.1, b2.2])
  have b3 := abs_le.1 e3
  have hs2 : (2⁻¹ : ℝ) ^ 19 + 2⁻¹ ^ 19 + 2⁻¹ ^ 19 ≤ 2⁻¹ ^ 17 := by norm_num
  rw [abs_le]
  constructor <;> linarith [b1.1, b1.2, b2.1, b2.2, b3.1, b3.2]

theorem wrap64_natCast {n : ℕ} (h : n < 2 ^ 64) : wrap64 (n : ℤ) = n := by
  unfold wrap64
  rw [Int.emod_eq_of_lt (by positivity) (by exact_mod_cast h)]
  simp

theorem wrap64_of_nonneg {z : ℤ} (h0 : 0 ≤ z) (h : z < 2 ^ 64) : wrap64 z = z.toNat := by
  obtain ⟨n, rfl⟩ := Int.eq_ofNat_of_zero_le h0
  exact wrap64_natCast (by exact_mod_cast h)

/-- **C18, as computed.** The default padding in one direction is the least number of cells that exceeds the
computed quotients. -/
theorem padding_isLeast (v : Variogram) (n : ℕ) (range step : ℝ) (h : PadOk v n range step) :
    (findGaussianFieldPadding v n range step).Sat fun p => p < 2 ^ 31 ∧ IsPad v n range step p := by
  obtain ⟨he1, he2⟩ := h.err
  have hr := h.range_pos
  obtain ⟨hs, -, hn, hb, hρ, ha⟩ := h
  have hn' : n ≤ 2 ^ 31 := by exact_mod_cast hn
  unfold findGaussianFieldPadding IsPad
  rw [if_neg hs.ne', rnd64_nat (hn'.trans (by norm_num))]
  set A := rnd64 (rnd64 (rnd64 (v.rangeToGridRatio * range) / step) - n) with hA
  have hB0 : 0 ≤ rnd64 (range / step) := rnd64_nonneg (div_pos hr hs).le
  have hB2 : rnd64 (range / step) ≤ 2 ^ 31 - 2 := by
    have := rnd64_le_int (x := range / step) (m := 2 ^ 31 - 2) (by push_cast; linarith) (by norm_num)
    exact_mod_cast this
  set B := rnd64 (range / step) with hB
  have hsm : (2⁻¹ : ℝ) ^ 17 ≤ 1 := by norm_num
  have hA0 : -2 ^ 31 ≤ A := by linarith [(abs_le.1 he2).1]
  have hA2 : A ≤ 2 ^ 31 - 2 := by linarith [(abs_le.1 he2).2]
  -- conversions
  have cB : toInt B = .ok ⌊B⌋ := by
    unfold toInt
    simp only [hB0, if_true]
    have h1 : 0 ≤ ⌊B⌋ := Int.floor_nonneg.2 hB0
    have h2 : ⌊B⌋ < 2 ^ 31 := by
      rw [Int.floor_lt]; push_cast; linarith
    rw [if_pos ⟨by omega, h2⟩]
  have cA : ∃ t : ℤ, toInt A = .ok t ∧ (0 ≤ A → t = ⌊A⌋) ∧ (A < 0 → t ≤ 0) := by
    unfold toInt
    by_cases h0 : 0 ≤ A
    · refine ⟨⌊A⌋, ?_, fun _ => rfl, fun h => absurd h (not_lt.2 h0)⟩
      have h1 : 0 ≤ ⌊A⌋ := Int.floor_nonneg.2 h0
      have h2 : ⌊A⌋ < 2 ^ 31 := by
        rw [Int.floor_lt]; push_cast; linarith
      simp only [h0, if_true]
      rw [if_pos ⟨by omega, h2⟩]
    · refine ⟨⌈A⌉, ?_, fun h => absurd h h0, fun h => ?_⟩
      · simp only [h0, if_false]
        have h1 : -2 ^ 31 ≤ ⌈A⌉ := by
          have : ((-2 ^ 31 : ℤ) : ℝ) ≤ (⌈A⌉ : ℝ) := by
            push_cast; linarith [Int.le_ceil A]
          exact_mod_cast this
        have h2 : ⌈A⌉ ≤ 0 := Int.ceil_le.2 (by push_cast; linarith)
        rw [if_pos ⟨h1, by omega⟩]
      · exact Int.ceil_le.2 (by push_cast; linarith)
  obtain ⟨t, ht, htp, htn⟩ := cA
  simp only [ht, cB, Res.monad_bind_eq, Res.bind_ok]
  have hB1 : 0 ≤ ⌊B⌋ := Int.floor_nonneg.2 hB0
  have hBm : ⌊B⌋ + 1 < 2 ^ 31 := by
    have : ⌊B⌋ < 2 ^ 31 - 1 := by rw [Int.floor_lt]; push_cast; linarith
    omega
  have htm : t + 1 < 2 ^ 31 := by
    by_cases h0 : 0 ≤ A
    · rw [htp h0]
      have : ⌊A⌋ < 2 ^ 31 - 1 := by rw [Int.floor_lt]; push_cast; linarith
      omega
    · have := htn (not_le.1 h0)
      omega
  have hmax0 : 0 ≤ max t ⌊B⌋ := le_max_of_le_right hB1
  have hmax1 : max t ⌊B⌋ + 1 < 2 ^ 31 := by
    rcases max_choice t ⌊B⌋ with h | h <;> rw [h] <;> assumption
  rw [if_pos hmax1, Res.sat_ok, wrap64_of_nonneg (by omega) (by omega)]
  set p := (max t ⌊B⌋ + 1).toNat with hp
  have hpz : (p : ℤ) = max t ⌊B⌋ + 1 := Int.toNat_of_nonneg (by omega)
  have hpr : (p : ℝ) = ((max t ⌊B⌋ + 1 : ℤ) : ℝ) := by rw [← hpz]; norm_cast
  refine ⟨by omega, ⟨?_, ?_⟩, ?_⟩
  · rw [hpr]
    have : ((⌊B⌋ : ℤ) : ℝ) ≤ ((max t ⌊B⌋ : ℤ) : ℝ) := by exact_mod_cast le_max_right _ _
    have h2 := Int.lt_floor_add_one B
    push_cast at this ⊢
    linarith
  · by_cases h0 : 0 ≤ A
    · rw [hpr]
      have : ((t : ℤ) : ℝ) ≤ ((max t ⌊B⌋ : ℤ) : ℝ) := by exact_mod_cast le_max_left _ _
      have h2 := Int.lt_floor_add_one A
      rw [← htp h0] at h2
      push_cast at this ⊢
      linarith
    · have : (0 : ℝ) ≤ p := by positivity
      linarith
  · rintro q ⟨g1, g2⟩
    have : ((p : ℕ) : ℤ) ≤ (q : ℤ) := by
      rw [hpz]
      have k1 : ⌊B⌋ < (q : ℤ) := by rw [Int.floor_lt]; exact_mod_cast g1
      have k2 : t < (q : ℤ) := by
        by_cases h0 : 0 ≤ A
        · rw [htp h0, Int.floor_lt]; exact_mod_cast g2
        · have := htn (not_le.1 h0)
          omega
      rcases max_choice t ⌊B⌋ with h | h <;> rw [h] <;> omega
    exact_mod_cast this

theorem IsPad.lt {v : Variogram} {n : ℕ} {range step : ℝ} (h : PadOk v n range step) {q : ℕ}
    (hq : IsPad v n range step q) : q < 2 ^ 31 := by
  obtain ⟨p, -, h1, h2⟩ := padding_isLeast v n range step h
  rwa [hq.unique h2]

/-- **C18, exactly.** Despite the rounding the padding is longer than the range, and the padded grid is longer
than the (rounded) multiple of the range. -/
theorem padding_covers {v : Variogram} {n : ℕ} {range step : ℝ} (h : PadOk v n range step) {q : ℕ}
    (hq : IsPad v n range step q) :
    range < q * step ∧ rnd64 (v.rangeToGridRatio * range) < (n + q) * step := by
  have hlt := hq.lt h
  obtain ⟨hs, -, hn, -⟩ := h
  have hn' : n ≤ 2 ^ 31 := by exact_mod_cast hn
  obtain ⟨⟨h1, h2⟩, -⟩ := hq
  constructor
  · have := lt_of_rnd64_lt h1 (by omega)
    rwa [div_lt_iff₀ hs] at this
  · have h3 := lt_of_rnd64_lt h2 (by omega)
    have h4 : rnd64 (rnd64 (v.rangeToGridRatio * range) / step) < ((n + q : ℕ) : ℝ) := by
      push_cast; linarith
    have h5 := lt_of_rnd64_lt h4 (by omega)
    rw [div_lt_iff₀ hs] at h5
    push_cast at h5
    exact h5

/-- A number of cells with half a cell to spare is enough, despite the rounding. -/
theorem isPad_le {v : Variogram} {n : ℕ} {range step : ℝ} (h : PadOk v n range step) {q q' : ℕ}
    (hq : IsPad v n range step q) (h1 : range ≤ (q' - 1 / 2) * step)
    (h2 : v.rangeToGridRatio * range ≤ (n + q' - 1 / 2) * step) : q ≤ q' := by
  obtain ⟨he1, he2⟩ := h.err
  have hs := h.1
  have hsm : (2⁻¹ : ℝ) ^ 17 < 1 / 2 := by norm_num
  rw [← div_le_iff₀ hs] at h1 h2
  exact hq.2 ⟨by linarith [(abs_le.1 he1).2], by linarith [(abs_le.1 he2).2]⟩

/-- **C18 (partial).** The padding is the least number of cells for which, in exact arithmetic, the padding is
longer than the range and the padded grid is longer than the type's multiple of the range; or, because of the
rounding of the quotients, one more or less than that. (See `padding_not_least_refuted`.) -/
theorem padding_near_partial {v : Variogram} {n : ℕ} {range step : ℝ} (h : PadOk v n range step) {q q₀ : ℕ}
    (hq : IsPad v n range step q)
    (h₀ : IsLeast {q : ℕ | range < q * step ∧ v.rangeToGridRatio * range < (n + q) * step} q₀) :
    q ≤ q₀ + 1 ∧ q₀ ≤ q + 1 := by
  obtain ⟨he1, he2⟩ := h.err
  have hc := padding_covers h hq
  have hs := h.1
  have hsm : (2⁻¹ : ℝ) ^ 17 < 1 / 2 := by norm_num
  constructor
  · refine isPad_le h hq ?_ ?_
    · push_cast
      nlinarith [h₀.1.1]
    · push_cast
      nlinarith [h₀.1.2]
  · refine h₀.2 ⟨?_, ?_⟩
    · push_cast
      nlinarith [hc.1]
    · have h2 := hq.1.2
      have h3 : v.rangeToGridRatio * range / step - n < q + 1 := by linarith [(abs_le.1 he2).1]
      have h4 : v.rangeToGridRatio * range / step < n + (q + 1) := by linarith
      rw [div_lt_iff₀ hs] at h4
      push_cast
      exact h4

/-- The multiples as doubles. -/
theorem ratio_spherical {v : Variogram} (h : v.type = .spherical) :
    1.91 ≤ v.rangeToGridRatio ∧ v.rangeToGridRatio ≤ 1.93 := by
  have h1 := abs_le.1 (rnd64_err_small (x := 1.92) (by norm_num [abs_le]))
  have h2 : (2⁻¹ : ℝ) ^ 19 ≤ 0.01 := by norm_num
  simp only [rangeToGridRatio, h]
  norm_num at h1 h2 ⊢
  constructor <;> linarith [h1.1, h1.2]

theorem ratio_gaussian {v : Variogram} (h : v.type = .gaussian) :
    6.66 ≤ v.rangeToGridRatio ∧ v.rangeToGridRatio ≤ 6.68 := by
  have h1 := abs_le.1 (rnd64_err_small (x := 6.67) (by norm_num [abs_le]))
  have h2 : (2⁻¹ : ℝ) ^ 19 ≤ 0.01 := by norm_num
  simp only [rangeToGridRatio, h]
  norm_num at h1 h2 ⊢
  constructor <;> linarith [h1.1, h1.2]

/-- A way to verify the precondition. -/
theorem padOk_of {v : Variogram} {n : ℕ} {range step : ℝ} (h0 : 0 ≤ v.rangeToGridRatio)
    (h1 : v.rangeToGridRatio ≤ 7) (hn : n ≤ 2 ^ 20) (hr : 2⁻¹ ^ 100 ≤ range) (hs : 0 < step)
    (hb : range / step ≤ 2 ^ 20) : PadOk v n range step := by
  have hr0 : 0 < range := lt_of_lt_of_le (by positivity) hr
  have hq : 0 < range / step := div_pos hr0 hs
  have hn0 : (0 : ℝ) ≤ n := Nat.cast_nonneg n
  have hn' : (n : ℝ) ≤ 2 ^ 20 := by exact_mod_cast hn
  have h2 : 0 ≤ v.rangeToGridRatio * range / step := by positivity
  have h3 : v.rangeToGridRatio * range / step ≤ 7 * 2 ^ 20 := by
    rw [mul_div_assoc]
    exact mul_le_mul h1 hb hq.le (by norm_num)
  refine ⟨hs, le_trans (pow_le_pow_of_le_one (by norm_num) (by norm_num) (by norm_num)) hr, by linarith,
    by linarith, by linarith, by linarith⟩

/-- Concrete arguments satisfying the precondition (the example of the documentation). -/
example : ∃ v, createVariogram "spherical".toList 250 125 (-1) 0 0 1.5 = .ok v ∧
    PadOk v 100 250 10 := by
  obtain ⟨v, hv, -⟩ := createVariogram_params (s := "spherical".toList)
    (by unfold IsAscii; decide +kernel) 250 125 (-1) 0 0 1.5 (by norm_num) (by norm_num)
    (by norm_num)
  refine ⟨v, hv, ?_⟩
  have ht : v.type = .spherical :=
    (createVariogram_names_partial (by unfold IsAscii; decide +kernel) hv).1 "spherical" .spherical
      (by simp [documentedNames]) (by unfold SameIgnoringCase; decide +kernel)
  obtain ⟨h1, h2⟩ := ratio_spherical ht
  exact padOk_of (by linarith) (by linarith) (by norm_num) (by norm_num) (by norm_num) (by norm_num)

/-- **C18 refuted in the last bit.** With cells of size 1 + 2^-52 and a range of 3 + 2^-51 (both are
double-precision numbers) three cells are longer than the range, but the computed quotient is 3 and the padding
has four cells. -/
theorem padding_not_least_refuted : ∃ v, Variogram.create .constant 2 (3 + 2⁻¹ ^ 51) 1 1 0 0 1 = .ok v ∧
    rnd64 (3 + 2⁻¹ ^ 51) = 3 + 2⁻¹ ^ 51 ∧ rnd64 (1 + 2⁻¹ ^ 52) = 1 + 2⁻¹ ^ 52 ∧
    findGaussianFieldPadding v 10 v.rangeX (1 + 2⁻¹ ^ 52) = .ok 4 ∧
    IsLeast {q : ℕ | v.rangeX < q * (1 + 2⁻¹ ^ 52) ∧
      v.rangeToGridRatio * v.rangeX < ((10 : ℕ) + q) * (1 + 2⁻¹ ^ 52)} 3 := by
  obtain ⟨v, hv⟩ := (create_ok_iff (t := .constant) (p := 2) (az := 0) (dp := 0) (sd := 1)
    (rx := 3 + 2⁻¹ ^ 51) (ry := 1) (rz := 1)).2 ⟨by norm_num, by norm_num, by norm_num⟩
  obtain ⟨e0, -, e1, -⟩ := create_fields hv
  have hρ : v.rangeToGridRatio = 1 := by
    simp only [rangeToGridRatio, e0]
    norm_num
  have r1 : rnd64 (3 + 2⁻¹ ^ 51) = 3 + 2⁻¹ ^ 51 := by
    have := Ieee.rnd_rep (p := 53) (emin := -1074) (m := 3 * 2 ^ 51 + 1) (k := -51) (by norm_num)
      (by norm_num) (by norm_num)
    have e : (((3 * 2 ^ 51 + 1 : ℤ) : ℝ) * 2 ^ (-51 : ℤ)) = 3 + 2⁻¹ ^ 51 := by norm_num
    rw [e] at this
    exact this
  have r2 : rnd64 (1 + 2⁻¹ ^ 52) = 1 + 2⁻¹ ^ 52 := by
    have := Ieee.rnd_rep (p := 53) (emin := -1074) (m := 2 ^ 52 + 1) (k := -52) (by norm_num)
      (by norm_num) (by norm_num)
    have e : (((2 ^ 52 + 1 : ℤ) : ℝ) * 2 ^ (-52 : ℤ)) = 1 + 2⁻¹ ^ 52 := by norm_num
    rw [e] at this
    exact this
  have q1 : rnd64 ((3 + 2⁻¹ ^ 51) / (1 + 2⁻¹ ^ 52)) = 3 := by
    have := Ieee.rnd_near (p := 53) (emin := -1074) (x := (3 + 2⁻¹ ^ 51) / (1 + 2⁻¹ ^ 52)) (k := 1)
      (m := 3 * 2 ^ 51) (by norm_num) (by norm_num) (by norm_num) (by norm_num [abs_lt])
    unfold rnd64
    rw [this]
    norm_num
  refine ⟨v, hv, r1, r2, ?_, ?_⟩
  · have t3 : toInt 3 = .ok 3 := by
      have := Int.floor_intCast (R := ℝ) 3
      unfold toInt
      norm_num
    have t7 : toInt (-7) = .ok (-7) := by
      unfold toInt
      have : ⌈(-7 : ℝ)⌉ = -7 := by norm_num
      norm_num
    have e3 : rnd64 (3 - rnd64 ((10 : ℕ) : ℝ)) = -7 := by
      rw [rnd64_nat (by norm_num)]
      have := rnd64_int (m := -7) (by norm_num)
      push_cast at this ⊢
      rw [← this]
      norm_num
    unfold findGaussianFieldPadding
    rw [if_neg (by positivity), e1, hρ, one_mul, r1, q1, e3, t3, t7]
    simp only [Res.monad_bind_eq, Res.bind_ok]
    norm_num [wrap64]
    rfl
  · rw [e1, hρ]
    refine ⟨⟨by norm_num, by norm_num⟩, ?_⟩
    rintro q ⟨h1, -⟩
    by_contra hlt
    have : (q : ℝ) ≤ 2 := by exact_mod_cast (by omega : q ≤ 2)
    norm_num at h1
    nlinarith

/-- The range of the variogram that governs the padding in each direction: in two and three
dimensions the larger horizontal range, except that y uses the perpendicular range if the
azimuth is exactly zero. -/
noncomputable def padRangeX (v : Variogram) (ny : ℕ) : ℝ :=
  if ny ≤ 1 then v.rangeX else max v.rangeX v.rangeY

noncomputable def padRangeY (v : Variogram) : ℝ :=
  if v.azimuth = 0 then v.rangeY else max v.rangeX v.rangeY

/-- **C17 / C18** for `simulation_size`. One number per direction with more than one cell (x
always), each the requested size plus the least padding of C18; in particular strictly greater
than the requested size. -/
theorem simulationSize_spec (v : Variogram) (nx : ℕ) (dx : ℝ) (ny : ℕ) (dy : ℝ) (nz : ℕ) (dz : ℝ)
    (hx : PadOk v nx (padRangeX v ny) dx)
    (hy : 1 < ny → PadOk v ny (padRangeY v) dy)
    (hz : 1 < ny → 1 < nz → PadOk v nz v.rangeZ dz) :
    (simulationSize v nx dx ny dy nz dz).Sat fun out =>
      (out.length = if ny ≤ 1 then 1 else if nz ≤ 1 then 2 else 3) ∧
      (∀ m, out[0]? = some m → ∃ q, IsPad v nx (padRangeX v ny) dx q ∧ m = nx + q) ∧
      (∀ m, out[1]? = some m → ∃ q, IsPad v ny (padRangeY v) dy q ∧ m = ny + q) ∧
      (∀ m, out[2]? = some m → ∃ q, IsPad v nz v.rangeZ dz q ∧ m = nz + q) := by
  have shift : ∀ (n : ℕ) (R s : ℝ) (p : ℕ), IsPad v n R s p → ∃ q, IsPad v n R s q ∧ p + n = n + q :=
    fun n R s p h => ⟨p, h, add_comm _ _⟩
  have fits : ∀ (n : ℕ) (R s : ℝ) (p : ℕ), PadOk v n R s → p < 2 ^ 31 →
      wrap64 ((p : ℤ) + (n : ℤ)) = p + n := by
    rintro n R s p ⟨-, -, hn, -⟩ hp
    have hn' : n ≤ 2 ^ 31 := by exact_mod_cast hn
    exact wrap64_natCast (n := p + n) (by omega)
  have z0 : (0.0 : ℝ) = 0 := by norm_num
  obtain ⟨px, hpx, bx, lx⟩ := padding_isLeast v nx _ dx hx
  unfold simulationSize findNDimPadding
  by_cases h1 : ny ≤ 1
  · simp only [padRangeX, if_pos h1] at hpx hx lx ⊢
    simp only [hpx, Res.monad_bind_eq, Res.bind_ok, rd, wr, List.getElem?_cons_zero, List.length_cons,
      List.length_nil, List.set_cons_zero]
    rw [if_pos (by norm_num)]
    simp only [Res.bind_ok, List.length_cons, List.length_nil]
    rw [if_neg (by norm_num), Res.sat_ok]
    rw [fits nx _ dx px hx bx]
    refine ⟨rfl, ?_, by simp, by simp⟩
    intro m hm
    simp only [List.getElem?_cons_zero, Option.some.injEq] at hm
    subst hm
    exact shift _ _ _ _ lx
  · have hy' := hy (by omega)
    obtain ⟨py, hpy, bY, ly⟩ := padding_isLeast v ny _ dy hy'
    simp only [padRangeX, if_neg h1] at hpx hx lx ⊢
    by_cases h2 : nz ≤ 1
    · simp only [if_pos h2, z0]
      unfold padRangeY at hpy hy' ly ⊢
      simp only [hpx, hpy, Res.monad_bind_eq, Res.bind_ok, rd, wr, List.getElem?_cons_zero,
        List.length_cons, List.length_nil, List.set_cons_zero]
      generalize (if v.azimuth = 0 then v.rangeY else max v.rangeX v.rangeY) = Ry at *
      generalize max v.rangeX v.rangeY = Rx at *
      norm_num
      rw [fits nx _ dx px hx bx, fits ny _ dy py hy' bY]
      exact ⟨shift _ _ _ _ lx, shift _ _ _ _ ly, fun m hm => by cases hm⟩
    · have hz' := hz (by omega) (by omega)
      obtain ⟨pz, hpz, bZ, lz⟩ := padding_isLeast v nz _ dz hz'
      simp only [if_neg h2, z0]
      unfold padRangeY at hpy hy' ly ⊢
      simp only [hpx, hpy, hpz, Res.monad_bind_eq, Res.bind_ok, rd, wr, List.getElem?_cons_zero,
        List.length_cons, List.length_nil, List.set_cons_zero]
      generalize (if v.azimuth = 0 then v.rangeY else max v.rangeX v.rangeY) = Ry at *
      generalize max v.rangeX v.rangeY = Rx at *
      norm_num
      rw [fits nx _ dx px hx bx, fits ny _ dy py hy' bY, fits nz _ dz pz hz' bZ]
      exact ⟨shift _ _ _ _ lx, shift _ _ _ _ ly, shift _ _ _ _ lz⟩

/-- The documented example: `variogram('spherical', 250, 125)` on 100 x 100 cells of 10 m gives
`[126, 113]`. -/
theorem simulationSize_doc_example :
    ∃ v, createVariogram "spherical".toList 250 125 (-1) 0 0 1.5 = .ok v ∧
      simulationSize v 100 10 100 10 1 (-1) = .ok [126, 113] := by
  obtain ⟨v, hv, hrx, hry, hrz, haz, -⟩ := createVariogram_params (s := "spherical".toList)
    (by unfold IsAscii; decide +kernel) 250 125 (-1) 0 0 1.5 (by norm_num) (by norm_num)
    (by norm_num)
  refine ⟨v, hv, ?_⟩
  have ht : v.type = .spherical :=
    (createVariogram_names_partial (by unfold IsAscii; decide +kernel) hv).1 "spherical" .spherical
      (by simp [documentedNames]) (by unfold SameIgnoringCase; decide +kernel)
  have haz : v.azimuth = 0 := by simpa using haz
  have hry : v.rangeY = 125 := by rw [hry]; norm_num
  have e1 : padRangeX v 100 = 250 := by unfold padRangeX; rw [hrx, hry]; norm_num
  have e2 : padRangeY v = 125 := by unfold padRangeY; rw [haz, hry]; norm_num
  obtain ⟨r1, r2⟩ := ratio_spherical ht
  have px : PadOk v 100 250 10 :=
    padOk_of (by linarith) (by linarith) (by norm_num) (by norm_num) (by norm_num) (by norm_num)
  have py : PadOk v 100 125 10 :=
    padOk_of (by linarith) (by linarith) (by norm_num) (by norm_num) (by norm_num) (by norm_num)
  obtain ⟨out, ho, hlen, h0, h1, -⟩ := simulationSize_spec v 100 10 100 10 1 (-1)
    (by rw [e1]; exact px) (by rw [e2]; intro _; exact py) (by norm_num)
  rw [ho]
  norm_num at hlen
  obtain ⟨a, b, rfl⟩ := List.length_eq_two.1 hlen
  obtain ⟨qa, ha, rfl⟩ := h0 a rfl
  obtain ⟨qb, hb, rfl⟩ := h1 b rfl
  rw [e1] at ha
  rw [e2] at hb
  have ea : qa = 26 := by
    apply le_antisymm
    · exact isPad_le px ha (by norm_num) (by push_cast; linarith)
    · have := (padding_covers px ha).1
      by_contra hlt
      have : (qa : ℝ) ≤ 25 := by exact_mod_cast (by omega : qa ≤ 25)
      linarith
  have eb : qb = 13 := by
    apply le_antisymm
    · exact isPad_le py hb (by norm_num) (by push_cast; linarith)
    · have := (padding_covers py hb).1
      by_contra hlt
      have : (qb : ℝ) ≤ 12 := by exact_mod_cast (by omega : qb ≤ 12)
      linarith
  rw [ea, eb]

/-- Conversion of a number between two integers. -/
theorem toInt_mem {x : ℝ} {a b : ℤ} (h1 : (a : ℝ) ≤ x) (h2 : x ≤ b) (ha : -2 ^ 31 ≤ a) (hb : b < 2 ^ 31) :
    ∃ t, toInt x = .ok t ∧ a ≤ t ∧ t ≤ b := by
  unfold toInt
  have f1 : a ≤ ⌊x⌋ := Int.le_floor.2 h1
  have f2 : ⌊x⌋ ≤ b := by
    have := (Int.floor_le x).trans h2
    exact_mod_cast this
  have c1 : a ≤ ⌈x⌉ := by
    have := h1.trans (Int.le_ceil x)
    exact_mod_cast this
  have c2 : ⌈x⌉ ≤ b := Int.ceil_le.2 h2
  simp only
  split_ifs with h3 h4 h4
  · exact ⟨_, rfl, f1, f2⟩
  · omega
  · exact ⟨_, rfl, c1, c2⟩
  · omega

theorem toInt_int {z : ℤ} (h1 : -2 ^ 31 ≤ z) (h2 : z < 2 ^ 31) : toInt z = .ok z := by
  obtain ⟨t, h, h3, h4⟩ := toInt_mem (x := z) le_rfl le_rfl h1 h2
  rw [h, le_antisymm h4 h3]

/-- **C43 refuted outside the precondition.** A zero step is an undefined conversion. -/
theorem padding_zero_step_ub (v : Variogram) (n : ℕ) (range : ℝ) :
    findGaussianFieldPadding v n range 0 = .ub "int conversion of inf or NaN" := by
  simp [findGaussianFieldPadding]

/-- A range of 2^31 steps or more is an undefined conversion. -/
theorem padding_huge_ub (v : Variogram) (n : ℕ) (range step : ℝ) (hs : 0 < step)
    (hr : 2 ^ 31 ≤ range / step) :
    ∃ w, findGaussianFieldPadding v n range step = .ub w := by
  unfold findGaussianFieldPadding
  rw [if_neg hs.ne']
  have h0 : (0 : ℝ) ≤ range / step := le_trans (by norm_num) hr
  have : toInt (rnd64 (range / step)) = .ub "double to int conversion out of range" := by
    have hr' : ((2 ^ 31 : ℤ) : ℝ) ≤ rnd64 (range / step) :=
      int_le_rnd64 (by push_cast; linarith) (by norm_num)
    unfold toInt
    simp only [rnd64_nonneg h0, if_true]
    rw [if_neg]
    rintro ⟨-, h⟩
    have h2 : (2 ^ 31 : ℤ) ≤ ⌊rnd64 (range / step)⌋ := by rw [Int.le_floor]; exact hr'
    omega
  rw [this]
  unfold toInt
  simp only [Res.monad_bind_eq, Res.bind_ub]
  split <;> split <;> simp

/-- The first quotient for a spherical variogram of range 250, 100 cells and a step of -10. -/
theorem padArg_neg {r : ℝ} (h : 1.91 ≤ r ∧ r ≤ 1.93) :
    ∃ t, toInt (rnd64 (rnd64 (rnd64 (r * 250) / (-10)) - rnd64 ((100 : ℕ) : ℝ))) = .ok t ∧ -150 ≤ t ∧
      t ≤ -140 := by
  rw [rnd64_nat (by norm_num)]
  have a1 := int_le_rnd64 (x := r * 250) (m := 400) (by push_cast; linarith) (by norm_num)
  have a2 := rnd64_le_int (x := r * 250) (m := 500) (by push_cast; linarith) (by norm_num)
  push_cast at a1 a2
  have b1 := int_le_rnd64 (x := rnd64 (r * 250) / (-10)) (m := -50) (by push_cast; linarith) (by norm_num)
  have b2 := rnd64_le_int (x := rnd64 (r * 250) / (-10)) (m := -40) (by push_cast; linarith) (by norm_num)
  push_cast at b1 b2
  refine toInt_mem ?_ ?_ (by norm_num) (by norm_num)
  · exact int_le_rnd64 (by push_cast; linarith) (by norm_num)
  · exact rnd64_le_int (by push_cast; linarith) (by norm_num)

/-- **C17 refuted for negative steps.** With a negative step the "padding" is negative and wraps
around in `size_t`; `simulation_size` then reports fewer cells than requested. -/
theorem simulationSize_negative_step_refuted :
    ∃ v, createVariogram "spherical".toList 250 (-1) (-1) 0 0 1.5 = .ok v ∧
      simulationSize v 100 (-10) 1 (-1) 1 (-1) = .ok [76] := by
  obtain ⟨v, hv, hrx, -⟩ := createVariogram_params (s := "spherical".toList)
    (by unfold IsAscii; decide +kernel) 250 (-1) (-1) 0 0 1.5 (by norm_num) (by norm_num)
    (by norm_num)
  refine ⟨v, hv, ?_⟩
  have ht : v.type = .spherical :=
    (createVariogram_names_partial (by unfold IsAscii; decide +kernel) hv).1 "spherical" .spherical
      (by simp [documentedNames]) (by unfold SameIgnoringCase; decide +kernel)
  obtain ⟨t, c1, -, c1'⟩ := padArg_neg (ratio_spherical ht)
  have c2 : toInt (rnd64 (250 / (-10))) = .ok (-25) := by
    rw [show (250 / (-10) : ℝ) = ((-25 : ℤ) : ℝ) by norm_num, rnd64_int (by norm_num)]
    exact toInt_int (by norm_num) (by norm_num)
  have m : max t (-25) = -25 := max_eq_right (by omega)
  unfold simulationSize findNDimPadding findGaussianFieldPadding
  simp only [hrx, le_refl, if_true]
  rw [if_neg (by norm_num)]
  simp only [c1, c2, m, Res.monad_bind_eq, Res.bind_ok]
  norm_num [rd, wr, wrap64]
  rfl

end Verif
