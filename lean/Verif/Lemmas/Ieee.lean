import Verif.Model.Ieee
import Mathlib.Tactic.Linarith
import Mathlib.Tactic.Positivity
import Mathlib.Tactic.FieldSimp
import Mathlib.Algebra.Ring.Int.Parity
import Mathlib.Algebra.Order.Field.Power
import Mathlib.Algebra.Order.Floor.Semiring

/-! Lemmas about rounding. -/

namespace Verif.Ieee

theorem rne_int (n : ℤ) : rne n = n := by
  unfold rne
  rw [Int.floor_intCast, sub_self, if_pos (by norm_num)]

theorem rne_err (x : ℝ) : |(rne x : ℝ) - x| ≤ 1 / 2 := by
  unfold rne
  have h1 := Int.floor_le x
  have h2 := Int.lt_floor_add_one x
  split_ifs with h h' h'' <;> rw [abs_le] <;> push_cast <;> constructor <;> linarith

theorem rne_mono : Monotone rne := by
  intro x y hxy
  rcases lt_or_eq_of_le (Int.floor_mono hxy) with h | h
  · have h1 : rne x ≤ ⌊x⌋ + 1 := by
      unfold rne
      split_ifs <;> omega
    have h2 : ⌊y⌋ ≤ rne y := by
      unfold rne
      split_ifs <;> omega
    omega
  · unfold rne
    rw [← h]
    split_ifs <;> first | omega | (exfalso; linarith)

theorem floor_neg' {x : ℝ} (h : x ≠ ⌊x⌋) : ⌊-x⌋ = -⌊x⌋ - 1 := by
  rw [Int.floor_eq_iff]
  have h1 := Int.floor_le x
  have h2 := Int.lt_floor_add_one x
  have h3 : (⌊x⌋ : ℝ) < x := lt_of_le_of_ne h1 (Ne.symm h)
  push_cast
  constructor <;> linarith

theorem rne_neg (x : ℝ) : rne (-x) = -rne x := by
  by_cases h : x = ⌊x⌋
  · rw [h, ← Int.cast_neg, rne_int, rne_int]
  · unfold rne
    rw [floor_neg' h]
    push_cast
    have e : Even (-⌊x⌋ - 1) ↔ ¬ Even ⌊x⌋ := by
      rw [Int.even_sub_one, even_neg]
    simp only [e]
    split_ifs <;> first | omega | (exfalso; linarith)

variable {p : ℕ} {emin : ℤ}

theorem expo_neg (x : ℝ) : expo p emin (-x) = expo p emin x := by
  unfold expo
  rw [abs_neg]

theorem rnd_neg (x : ℝ) : rnd p emin (-x) = -rnd p emin x := by
  unfold rnd
  rw [expo_neg, neg_div, rne_neg]
  push_cast
  ring

theorem rnd_zero : rnd p emin 0 = 0 := by
  unfold rnd
  rw [zero_div, show (0 : ℝ) = ((0 : ℤ) : ℝ) by simp, rne_int]
  simp

theorem two_zpow_pos (e : ℤ) : (0 : ℝ) < 2 ^ e := zpow_pos (by norm_num) e

/-- Numbers of the format. -/
theorem rnd_rep {m k : ℤ} (hp : 1 ≤ p) (hm : |m| ≤ 2 ^ p) (hk : emin ≤ k) :
    rnd p emin (m * 2 ^ k) = m * 2 ^ k := by
  have key : ∀ (m k : ℤ), |m| < 2 ^ p → emin ≤ k → rnd p emin (m * 2 ^ k) = m * 2 ^ k := by
    intro m k hm hk
    by_cases h0 : m = 0
    · rw [h0]; simp [rnd_zero]
    have hx : 0 < |(m : ℝ) * 2 ^ k| := by
      have : (m : ℝ) ≠ 0 := by exact_mod_cast h0
      have := two_zpow_pos k
      positivity
    have hlt : |(m : ℝ) * 2 ^ k| < (2 : ℕ) ^ ((p : ℤ) + k) := by
      rw [abs_mul, abs_of_pos (two_zpow_pos k)]
      push_cast
      rw [zpow_add₀ (by norm_num), zpow_natCast]
      have : (|m| : ℝ) < 2 ^ p := by exact_mod_cast hm
      exact mul_lt_mul_of_pos_right this (two_zpow_pos k)
    have hlog := (Int.lt_zpow_iff_log_lt (by norm_num) hx).1 hlt
    have he : expo p emin (m * 2 ^ k) ≤ k := by
      unfold expo
      refine max_le ?_ hk
      have : Int.log 2 |(m : ℝ) * 2 ^ k| < p + k := hlog
      omega
    unfold rnd
    obtain ⟨d, hd⟩ := Int.eq_ofNat_of_zero_le (sub_nonneg.2 he)
    have e : (m : ℝ) * 2 ^ k / 2 ^ expo p emin (m * 2 ^ k) = ((m * 2 ^ d : ℤ) : ℝ) := by
      have : k = expo p emin (m * 2 ^ k) + d := by omega
      rw [mul_div_assoc, ← zpow_sub₀ (by norm_num), hd]
      push_cast
      simp
    rw [e, rne_int, ← e, div_mul_cancel₀ _ (two_zpow_pos _).ne']
  rcases lt_or_eq_of_le hm with h | h
  · exact key m k h hk
  · have h1 : ∃ s : ℤ, m = s * 2 ∧ |s| < 2 ^ p := by
      obtain ⟨q, rfl⟩ : ∃ q, p = q + 1 := ⟨p - 1, by omega⟩
      have h2 : (0 : ℤ) < 2 ^ q := by positivity
      rw [pow_succ] at h ⊢
      rcases abs_cases m with ⟨hc, _⟩ | ⟨hc, _⟩
      · refine ⟨2 ^ q, by omega, ?_⟩
        rw [abs_of_pos h2]
        omega
      · refine ⟨-2 ^ q, by omega, ?_⟩
        rw [abs_neg, abs_of_pos h2]
        omega
    obtain ⟨s, rfl, hs⟩ := h1
    have := key s (k + 1) hs (by omega)
    rw [zpow_add_one₀ (by norm_num)] at this
    push_cast
    rw [show (s : ℝ) * 2 * 2 ^ k = s * (2 ^ k * 2) by ring]
    exact this

theorem rnd_int (hp : 1 ≤ p) (h0 : emin ≤ 0) {m : ℤ} (hm : |m| ≤ 2 ^ p) : rnd p emin m = m := by
  have := rnd_rep (k := 0) hp hm h0
  simpa using this

theorem rnd_nonneg {x : ℝ} (hx : 0 ≤ x) : 0 ≤ rnd p emin x := by
  unfold rnd
  have := rne_mono (div_nonneg hx (two_zpow_pos (expo p emin x)).le)
  have h0 : rne 0 = 0 := by
    have := rne_int 0
    simpa using this
  rw [h0] at this
  have h1 : (0 : ℝ) ≤ rne (x / 2 ^ expo p emin x) := by exact_mod_cast this
  exact mul_nonneg h1 (two_zpow_pos _).le

theorem rnd_mono_pos (hp : 1 ≤ p) {x y : ℝ} (hx : 0 < x) (hxy : x ≤ y) : rnd p emin x ≤ rnd p emin y := by
  have hy : 0 < y := hx.trans_le hxy
  have hlog : Int.log 2 |x| ≤ Int.log 2 |y| := by
    rw [abs_of_pos hx, abs_of_pos hy]
    exact Int.log_mono_right hx hxy
  have hle : expo p emin x ≤ expo p emin y := by
    unfold expo
    exact max_le_max (by omega) le_rfl
  rcases lt_or_eq_of_le hle with h | h
  · -- a power of two lies between
    have ey : expo p emin y = Int.log 2 |y| - (p - 1) := by
      have h1 : emin ≤ expo p emin x := le_max_right _ _
      have h2 : expo p emin y = max (Int.log 2 |y| - (p - 1)) emin := rfl
      rcases max_choice (Int.log 2 |y| - ((p : ℤ) - 1)) emin with h3 | h3 <;> omega
    have hxl : Int.log 2 |x| < Int.log 2 |y| := by
      have h2 : Int.log 2 |x| - (p - 1) ≤ expo p emin x := le_max_left _ _
      omega
    set k := Int.log 2 |y| with hk
    have hyk : ((2 : ℕ) : ℝ) ^ k ≤ y := by
      have := Int.zpow_log_le_self (b := 2) (r := y) (by norm_num) hy
      rwa [hk, abs_of_pos hy]
    have hxk : x < ((2 : ℕ) : ℝ) ^ k := by
      rw [Int.lt_zpow_iff_log_lt (by norm_num) hx]
      rwa [abs_of_pos hx] at hxl
    push_cast at hyk hxk
    have hke : expo p emin x ≤ k := by omega
    have mul : ∀ e : ℤ, e ≤ k → ∃ n : ℤ, (2 : ℝ) ^ k / 2 ^ e = n ∧ (n : ℝ) * 2 ^ e = 2 ^ k := by
      intro e he
      obtain ⟨d, hd⟩ := Int.eq_ofNat_of_zero_le (sub_nonneg.2 he)
      refine ⟨2 ^ d, ?_, ?_⟩
      · rw [← zpow_sub₀ (by norm_num), hd]
        push_cast
        simp
      · push_cast
        rw [← zpow_natCast, ← zpow_add₀ (by norm_num)]
        congr 1
        omega
    have h1 : rnd p emin x ≤ 2 ^ k := by
      obtain ⟨n, hn, hn'⟩ := mul _ hke
      unfold rnd
      rw [← hn']
      have : rne (x / 2 ^ expo p emin x) ≤ n := by
        rw [← rne_int n, ← hn]
        exact rne_mono (div_le_div_of_nonneg_right hxk.le (two_zpow_pos _).le)
      exact mul_le_mul_of_nonneg_right (by exact_mod_cast this) (two_zpow_pos _).le
    have h2 : 2 ^ k ≤ rnd p emin y := by
      obtain ⟨n, hn, hn'⟩ := mul (expo p emin y) (by omega)
      unfold rnd
      rw [← hn']
      have : n ≤ rne (y / 2 ^ expo p emin y) := by
        rw [← rne_int n, ← hn]
        exact rne_mono (div_le_div_of_nonneg_right hyk (two_zpow_pos _).le)
      exact mul_le_mul_of_nonneg_right (by exact_mod_cast this) (two_zpow_pos _).le
    exact h1.trans h2
  · unfold rnd
    rw [h]
    have : rne (x / 2 ^ expo p emin y) ≤ rne (y / 2 ^ expo p emin y) :=
      rne_mono (div_le_div_of_nonneg_right hxy (two_zpow_pos _).le)
    exact mul_le_mul_of_nonneg_right (by exact_mod_cast this) (two_zpow_pos _).le

/-- Rounding keeps the order. -/
theorem rnd_mono (hp : 1 ≤ p) : Monotone (rnd p emin) := by
  intro x y hxy
  rcases lt_trichotomy x 0 with hx | rfl | hx
  · rcases lt_or_ge y 0 with hy | hy
    · have := rnd_mono_pos (emin := emin) hp (neg_pos.2 hy) (neg_le_neg hxy)
      rw [rnd_neg, rnd_neg] at this
      linarith
    · have h1 : 0 ≤ rnd p emin (-x) := rnd_nonneg (by linarith)
      rw [rnd_neg] at h1
      exact le_trans (by linarith) (rnd_nonneg hy)
  · rw [rnd_zero]
    exact rnd_nonneg hxy
  · exact rnd_mono_pos hp hx hxy

/-- The error is at most half a unit in the last place. -/
theorem rnd_err (x : ℝ) : |rnd p emin x - x| ≤ 2 ^ expo p emin x / 2 := by
  have h := rne_err (x / 2 ^ expo p emin x)
  have hpos := two_zpow_pos (expo p emin x)
  unfold rnd
  rw [show (rne (x / 2 ^ expo p emin x) : ℝ) * 2 ^ expo p emin x - x
    = (rne (x / 2 ^ expo p emin x) - x / 2 ^ expo p emin x) * 2 ^ expo p emin x by
      field_simp, abs_mul, abs_of_pos hpos]
  nlinarith

/-- Relative error of normal numbers. -/
theorem rnd_rel {x : ℝ} (hx : 2 ^ (emin + p - 1) ≤ |x|) : |rnd p emin x - x| ≤ |x| * 2⁻¹ ^ p := by
  have h0 : 0 < |x| := lt_of_lt_of_le (two_zpow_pos _) hx
  have h1 : emin + p - 1 ≤ Int.log 2 |x| := by
    rw [← Int.zpow_le_iff_le_log (by norm_num) h0]
    push_cast
    exact hx
  have he : expo p emin x = Int.log 2 |x| - (p - 1) := by
    unfold expo
    exact max_eq_left (by omega)
  refine (rnd_err x).trans ?_
  have h2 : ((2 : ℕ) : ℝ) ^ Int.log 2 |x| ≤ |x| := Int.zpow_log_le_self (by norm_num) h0
  push_cast at h2
  have h3 : (2 : ℝ) ^ (Int.log 2 |x| - (p - 1)) / 2 = 2 ^ Int.log 2 |x| * 2⁻¹ ^ p := by
    rw [show Int.log 2 |x| - ((p : ℤ) - 1) = Int.log 2 |x| + (-(p : ℤ)) + 1 by ring,
      zpow_add_one₀ (by norm_num), zpow_add₀ (by norm_num), zpow_neg, zpow_natCast, inv_pow]
    field_simp
  rw [he, h3]
  exact mul_le_mul_of_nonneg_right h2 (by positivity)

theorem rne_near {x : ℝ} {m : ℤ} (h : |x - m| < 1 / 2) : rne x = m := by
  have h1 := rne_err x
  have h2 : |((rne x - m : ℤ) : ℝ)| < 1 := by
    push_cast
    calc |(rne x : ℝ) - m| = |(rne x - x) + (x - m)| := by ring_nf
      _ ≤ |(rne x : ℝ) - x| + |x - m| := abs_add_le _ _
      _ < 1 := by linarith
  rw [abs_lt] at h2
  have h3 : (-1 : ℤ) < rne x - m := by exact_mod_cast h2.1
  have h4 : rne x - m < 1 := by exact_mod_cast h2.2
  omega

/-- The rounded value from an enclosure of the exact one. -/
theorem rnd_near {x : ℝ} {k m : ℤ} (hk : emin + p - 1 ≤ k) (h1 : 2 ^ k ≤ x) (h2 : x < 2 ^ (k + 1))
    (h : |x - m * 2 ^ (k - (p - 1))| < 2 ^ (k - (p - 1)) / 2) : rnd p emin x = m * 2 ^ (k - (p - 1)) := by
  have hx : 0 < x := lt_of_lt_of_le (two_zpow_pos _) h1
  have hl : Int.log 2 |x| = k := by
    rw [abs_of_pos hx]
    apply le_antisymm
    · have := (Int.lt_zpow_iff_log_lt (b := 2) (by norm_num) hx (x := k + 1)).1 (by push_cast; exact h2)
      omega
    · rw [← Int.zpow_le_iff_le_log (by norm_num) hx]
      push_cast
      exact h1
  have he : expo p emin x = k - (p - 1) := by
    unfold expo
    rw [hl]
    exact max_eq_left (by omega)
  unfold rnd
  rw [he]
  have hpos := two_zpow_pos (k - (p - 1))
  rw [rne_near (m := m)]
  rw [show x / 2 ^ (k - ((p : ℤ) - 1)) - m = (x - m * 2 ^ (k - (p - 1))) / 2 ^ (k - (p - 1)) by
    field_simp, abs_div, abs_of_pos hpos, div_lt_iff₀ hpos]
  linarith

end Verif.Ieee

namespace Verif

open Ieee

theorem rnd64_mono : Monotone rnd64 := rnd_mono (by norm_num)

theorem rnd32_mono : Monotone rnd32 := rnd_mono (by norm_num)

theorem rnd64_neg (x : ℝ) : rnd64 (-x) = -rnd64 x := rnd_neg x

theorem rnd64_zero : rnd64 0 = 0 := rnd_zero

theorem rnd64_nonneg {x : ℝ} (hx : 0 ≤ x) : 0 ≤ rnd64 x := rnd_nonneg hx

theorem rnd64_int {m : ℤ} (hm : |m| ≤ 2 ^ 53) : rnd64 m = m := rnd_int (by norm_num) (by norm_num) hm

theorem rnd64_nat {n : ℕ} (hn : n ≤ 2 ^ 53) : rnd64 n = n := by
  have := rnd64_int (m := n) (by rw [Nat.abs_cast]; exact_mod_cast hn)
  exact_mod_cast this

theorem rnd32_nat {n : ℕ} (hn : n ≤ 2 ^ 24) : rnd32 n = n := by
  have := rnd_int (p := 24) (emin := -149) (m := n) (by norm_num) (by norm_num)
    (by rw [Nat.abs_cast]; exact_mod_cast hn)
  exact_mod_cast this

theorem rnd64_rel {x : ℝ} (hx : 2⁻¹ ^ 1000 ≤ |x|) : |rnd64 x - x| ≤ |x| * 2⁻¹ ^ 53 := by
  refine rnd_rel (le_trans ?_ hx)
  rw [inv_pow, ← zpow_natCast, ← zpow_neg]
  exact zpow_le_zpow_right₀ (by norm_num) (by norm_num)

theorem rnd64_le {x : ℝ} (hx : 2⁻¹ ^ 1000 ≤ x) : rnd64 x ≤ x * (1 + 2⁻¹ ^ 53) := by
  have h0 : 0 < x := lt_of_lt_of_le (by positivity) hx
  have := rnd64_rel (x := x) (by rwa [abs_of_pos h0])
  rw [abs_of_pos h0, abs_le] at this
  linarith [this.2]

theorem le_rnd64 {x : ℝ} (hx : 2⁻¹ ^ 1000 ≤ x) : x * (1 - 2⁻¹ ^ 53) ≤ rnd64 x := by
  have h0 : 0 < x := lt_of_lt_of_le (by positivity) hx
  have := rnd64_rel (x := x) (by rwa [abs_of_pos h0])
  rw [abs_of_pos h0, abs_le] at this
  linarith [this.1]

/-- Rounding moves a number by at most a part in 2^53, or by 2^-1075 near zero. -/
theorem rnd64_abs_err (x : ℝ) : |rnd64 x - x| ≤ |x| * 2⁻¹ ^ 53 + 2⁻¹ ^ 1075 := by
  by_cases h0 : x = 0
  · rw [h0, rnd64_zero]
    simp
  have hx : 0 < |x| := abs_pos.2 h0
  have h1 := rnd_err (p := 53) (emin := -1074) x
  have h3 : (0 : ℝ) ≤ 2⁻¹ ^ 1075 := by positivity
  have h4 : (0 : ℝ) ≤ |x| * 2⁻¹ ^ 53 := by positivity
  unfold rnd64
  rcases max_choice (Int.log 2 |x| - (((53 : ℕ) : ℤ) - 1)) (-1074) with h | h
  · have he : expo 53 (-1074) x = Int.log 2 |x| - (((53 : ℕ) : ℤ) - 1) := h
    have h2 : ((2 : ℕ) : ℝ) ^ Int.log 2 |x| ≤ |x| := Int.zpow_log_le_self (by norm_num) hx
    push_cast at h2
    have h5 : (2 : ℝ) ^ (Int.log 2 |x| - (((53 : ℕ) : ℤ) - 1)) / 2 = 2 ^ Int.log 2 |x| * 2⁻¹ ^ 53 := by
      rw [show Int.log 2 |x| - (((53 : ℕ) : ℤ) - 1) = Int.log 2 |x| + (-(53 : ℕ) : ℤ) + 1 by push_cast; ring,
        zpow_add_one₀ (by norm_num), zpow_add₀ (by norm_num), zpow_neg, zpow_natCast, inv_pow]
      field_simp
    rw [he, h5] at h1
    have h6 := mul_le_mul_of_nonneg_right h2 (by positivity : (0 : ℝ) ≤ 2⁻¹ ^ 53)
    exact h1.trans (h6.trans (le_add_of_nonneg_right h3))
  · have he : expo 53 (-1074) x = -1074 := h
    have h5 : (2 : ℝ) ^ (-1074 : ℤ) / 2 = 2⁻¹ ^ 1075 := by
      rw [show (-1074 : ℤ) = -((1074 : ℕ) : ℤ) by norm_num, zpow_neg, zpow_natCast, inv_pow, pow_succ]
      field_simp
    rw [he, h5] at h1
    exact h1.trans (le_add_of_nonneg_left h4)

theorem rnd64_le_int {x : ℝ} {m : ℤ} (h : x ≤ m) (hm : |m| ≤ 2 ^ 53) : rnd64 x ≤ m := by
  rw [← rnd64_int hm]
  exact rnd64_mono h

theorem int_le_rnd64 {x : ℝ} {m : ℤ} (h : (m : ℝ) ≤ x) (hm : |m| ≤ 2 ^ 53) : (m : ℝ) ≤ rnd64 x := by
  rw [← rnd64_int hm]
  exact rnd64_mono h

theorem nat_le_rnd64 {x : ℝ} {n : ℕ} (h : (n : ℝ) ≤ x) (hn : n ≤ 2 ^ 53) : (n : ℝ) ≤ rnd64 x := by
  rw [← rnd64_nat hn]
  exact rnd64_mono h

/-- A number whose rounding is below an integer is below that integer. -/
theorem lt_of_rnd64_lt {x : ℝ} {n : ℕ} (h : rnd64 x < n) (hn : n ≤ 2 ^ 53) : x < n := by
  by_contra hx
  exact absurd (nat_le_rnd64 (not_lt.1 hx) hn) (not_le.2 h)

/-- Numbers up to 2^33 are rounded by at most 2^-19. -/
theorem rnd64_err_small {x : ℝ} (h : |x| ≤ 2 ^ 33) : |rnd64 x - x| ≤ 2⁻¹ ^ 19 := by
  refine (rnd64_abs_err x).trans ?_
  have h1 : |x| * 2⁻¹ ^ 53 ≤ 2 ^ 33 * 2⁻¹ ^ 53 := mul_le_mul_of_nonneg_right h (by positivity)
  have h2 : (2⁻¹ : ℝ) ^ 1075 ≤ 2⁻¹ ^ 20 := pow_le_pow_of_le_one (by norm_num) (by norm_num) (by norm_num)
  have h3 : (2 : ℝ) ^ 33 * 2⁻¹ ^ 53 + 2⁻¹ ^ 20 ≤ 2⁻¹ ^ 19 := by norm_num
  exact (add_le_add h1 h2).trans h3

end Verif
