import Verif.Model.VariogramFl
import Verif.Lemmas.Ieee

/-!
# Propagation of rounding errors

`App M k x' x`: the number `x` is at most `M` in absolute value and `x'` differs from it by at most `k` units of
`2^-52 M`.
-/

namespace Verif.Fl

open scoped Verif.Fl

/-- The unit of the error bounds. -/
noncomputable def u : ℝ := 2⁻¹ ^ 52

theorem u_pos : 0 < u := by unfold u; positivity

theorem u_eq : u = 1 / 4503599627370496 := by unfold u; norm_num

def App (M : ℝ) (k : ℕ) (x' x : ℝ) : Prop := |x| ≤ M ∧ |x' - x| ≤ k * u * M

theorem App.nonneg {M : ℝ} {k : ℕ} {x' x : ℝ} (h : App M k x' x) : 0 ≤ M := (abs_nonneg x).trans h.1

theorem App.mono {M : ℝ} {k l : ℕ} {x' x : ℝ} (h : App M k x' x) (hkl : k ≤ l) : App M l x' x := by
  refine ⟨h.1, h.2.trans ?_⟩
  have : (k : ℝ) ≤ l := by exact_mod_cast hkl
  exact mul_le_mul_of_nonneg_right (mul_le_mul_of_nonneg_right this u_pos.le) h.nonneg

theorem App.exact {M x : ℝ} (h : |x| ≤ M) : App M 0 x x := by
  refine ⟨h, ?_⟩
  simp

theorem App.abs_le {M : ℝ} {k : ℕ} {x' x : ℝ} (h : App M k x' x) (hk : k ≤ 2 ^ 20) : |x'| ≤ 1.5 * M := by
  have h1 : (k : ℝ) ≤ 2 ^ 20 := by exact_mod_cast hk
  have h2 : (k : ℝ) * u ≤ 1 / 2 := by rw [u_eq]; linarith
  have h3 := mul_le_mul_of_nonneg_right h2 h.nonneg
  have h4 : |x'| ≤ |x' - x| + |x| := by
    have := abs_add_le (x' - x) x
    simpa using this
  linarith [h.1, h.2]

theorem App.rnd {M : ℝ} {k : ℕ} {x' x : ℝ} (h : App M k x' x) (hk : k ≤ 2 ^ 20) (hM : 2⁻¹ ^ 1000 ≤ M) :
    App M (k + 1) (rnd64 x') x := by
  refine ⟨h.1, ?_⟩
  have h1 := h.abs_le hk
  have h2 := rnd64_abs_err x'
  have h3 : (2⁻¹ : ℝ) ^ 1075 ≤ 2⁻¹ ^ 55 * M := by
    refine le_trans ?_ (mul_le_mul_of_nonneg_left hM (by positivity))
    rw [← pow_add]
    exact pow_le_pow_of_le_one (by norm_num) (by norm_num) (by norm_num)
  have h4 : |x'| * 2⁻¹ ^ 53 ≤ 1.5 * M * 2⁻¹ ^ 53 := mul_le_mul_of_nonneg_right h1 (by positivity)
  have h5 : |rnd64 x' - x| ≤ |rnd64 x' - x'| + |x' - x| := abs_sub_le _ _ _
  have h6 : (1.5 : ℝ) * M * 2⁻¹ ^ 53 + 2⁻¹ ^ 55 * M ≤ u * M := by
    have := h.nonneg
    have e : (1.5 : ℝ) * M * 2⁻¹ ^ 53 + 2⁻¹ ^ 55 * M = (1.5 * 2⁻¹ ^ 53 + 2⁻¹ ^ 55) * M := by ring
    rw [e]
    refine mul_le_mul_of_nonneg_right ?_ this
    rw [u_eq]
    norm_num
  have h7 : ((k + 1 : ℕ) : ℝ) * u * M = k * u * M + u * M := by push_cast; ring
  rw [h7]
  have h8 : |rnd64 x' - x'| ≤ u * M := h2.trans ((add_le_add h4 h3).trans h6)
  linarith [h.2]

theorem App.mulE {M N : ℝ} {k l : ℕ} {x' x y' y : ℝ} (hx : App M k x' x) (hy : App N l y' y) (hk : k ≤ 2 ^ 20)
    (hl : l ≤ 2 ^ 20) : App (M * N) (k + l + 1) (x' * y') (x * y) := by
  have hM := hx.nonneg
  have hN := hy.nonneg
  constructor
  · rw [abs_mul]
    exact mul_le_mul hx.1 hy.1 (abs_nonneg _) hM
  have e : x' * y' - x * y = (x' - x) * y + x * (y' - y) + (x' - x) * (y' - y) := by ring
  have h1 : |(x' - x) * y| ≤ k * u * M * N := by
    rw [abs_mul]
    exact mul_le_mul hx.2 hy.1 (abs_nonneg _) ((abs_nonneg _).trans hx.2)
  have h2 : |x * (y' - y)| ≤ M * (l * u * N) := by
    rw [abs_mul]
    exact mul_le_mul hx.1 hy.2 (abs_nonneg _) hM
  have h3 : |(x' - x) * (y' - y)| ≤ k * u * M * (l * u * N) := by
    rw [abs_mul]
    exact mul_le_mul hx.2 hy.2 (abs_nonneg _) ((abs_nonneg _).trans hx.2)
  have hkl : (k : ℝ) * l ≤ 2 ^ 20 * 2 ^ 20 :=
    mul_le_mul (by exact_mod_cast hk) (by exact_mod_cast hl) (Nat.cast_nonneg _) (by norm_num)
  have h4 : (k : ℝ) * u * M * (l * u * N) ≤ u * (M * N) := by
    have : (k : ℝ) * u * M * (l * u * N) = (k * l * u) * (u * (M * N)) := by ring
    rw [this]
    have h5 : (k : ℝ) * l * u ≤ 1 := by rw [u_eq]; linarith
    have h6 : 0 ≤ u * (M * N) := mul_nonneg u_pos.le (mul_nonneg hM hN)
    nlinarith
  rw [e]
  have h7 := (abs_add_le ((x' - x) * y + x * (y' - y)) ((x' - x) * (y' - y))).trans
    (add_le_add_left (abs_add_le _ _) _)
  push_cast
  nlinarith

/-- Rounded product. -/
theorem App.mul {M N : ℝ} {k l : ℕ} {x' x y' y : ℝ} (hx : App M k x' x) (hy : App N l y' y)
    (hMN : 2⁻¹ ^ 1000 ≤ M * N) (hk : k ≤ 2 ^ 10 := by norm_num) (hl : l ≤ 2 ^ 10 := by norm_num) :
    App (M * N) (k + l + 2) (x' *ᶠ y') (x * y) :=
  (hx.mulE hy (hk.trans (by norm_num)) (hl.trans (by norm_num))).rnd
    ((Nat.add_le_add_right (Nat.add_le_add hk hl) 1).trans (by norm_num)) hMN

/-- Rounded product with a factor of at most 1. -/
theorem App.mul1 {N : ℝ} {k l : ℕ} {x' x y' y : ℝ} (hx : App 1 k x' x) (hy : App N l y' y) (hN : 2⁻¹ ^ 1000 ≤ N)
    (hk : k ≤ 2 ^ 10 := by norm_num) (hl : l ≤ 2 ^ 10 := by norm_num) :
    App N (k + l + 2) (x' *ᶠ y') (x * y) := by
  have := hx.mul hy (by rwa [one_mul]) hk hl
  rwa [one_mul] at this

theorem App.addE {M N : ℝ} {k : ℕ} {x' x y' y : ℝ} (hx : App M k x' x) (hy : App N k y' y) :
    App (M + N) k (x' + y') (x + y) := by
  refine ⟨(abs_add_le _ _).trans (add_le_add hx.1 hy.1), ?_⟩
  have e : x' + y' - (x + y) = (x' - x) + (y' - y) := by ring
  rw [e]
  have := (abs_add_le (x' - x) (y' - y)).trans (add_le_add hx.2 hy.2)
  linarith

theorem App.neg {M : ℝ} {k : ℕ} {x' x : ℝ} (hx : App M k x' x) : App M k (-x') (-x) := by
  refine ⟨by rw [abs_neg]; exact hx.1, ?_⟩
  rw [show -x' - -x = -(x' - x) by ring, abs_neg]
  exact hx.2

/-- Rounded sum. -/
theorem App.add {M N : ℝ} {k l : ℕ} (m : ℕ) {x' x y' y : ℝ} (hx : App M k x' x) (hy : App N l y' y)
    (hM : 2⁻¹ ^ 1000 ≤ M) (hk : k ≤ m := by norm_num) (hl : l ≤ m := by norm_num)
    (hm : m ≤ 2 ^ 10 := by norm_num) : App (M + N) (m + 1) (x' +ᶠ y') (x + y) :=
  ((hx.mono hk).addE (hy.mono hl)).rnd (hm.trans (by norm_num)) (hM.trans (le_add_of_nonneg_right hy.nonneg))

/-- Rounded difference. -/
theorem App.sub {M N : ℝ} {k l : ℕ} (m : ℕ) {x' x y' y : ℝ} (hx : App M k x' x) (hy : App N l y' y)
    (hM : 2⁻¹ ^ 1000 ≤ M) (hk : k ≤ m := by norm_num) (hl : l ≤ m := by norm_num)
    (hm : m ≤ 2 ^ 10 := by norm_num) : App (M + N) (m + 1) (x' -ᶠ y') (x - y) := by
  have := hx.add m hy.neg hM hk hl hm
  unfold Fl.add at this
  unfold Fl.sub
  rwa [← sub_eq_add_neg, ← sub_eq_add_neg] at this

end Verif.Fl
