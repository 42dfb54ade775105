import Verif.Model.TrendKit
import Verif.Lemmas.Outcome
import Mathlib.Tactic.Linarith
import Mathlib.Tactic.FieldSimp
import Mathlib.Tactic.Ring

/-! Reasoning rules for the estimation of trends. -/

namespace Verif

open Classical

namespace TrendKit

/-- The numbers of a regular grid. -/
def IsGrid (g : List ℝ) (a h : ℝ) : Prop := ∀ k (hk : k < g.length), g[k] = a + k * h

theorem fdiv_ok {x y : ℝ} (h : y ≠ 0) : fdiv x y = .ok (x / y) := if_neg h

theorem floorSize_ok {a h x : ℝ} (hh : 0 < h) {k : ℕ} (hk : k < 2 ^ 64) (h1 : a + k * h ≤ x) (h2 : x < a + (k + 1 : ℕ) * h) :
    floorSize ((x - a) * (1 / h)) = .ok k := by
  have e : ⌊(x - a) * (1 / h)⌋ = (k : ℤ) := by
    rw [Int.floor_eq_iff, mul_one_div]
    push_cast at h2 ⊢
    exact ⟨by rw [le_div_iff₀ hh]; linarith, by rw [div_lt_iff₀ hh]; linarith⟩
  unfold floorSize
  rw [e, if_pos ⟨by omega, by exact_mod_cast hk⟩]
  rfl

theorem hat_ok {x c h : ℝ} (hh : 0 < h) (h1 : c ≤ x) (h2 : x ≤ c + h) : hat x c (1 / h) = 1 - (x - c) / h := by
  unfold hat
  rw [abs_of_nonneg (by linarith), mul_one_div, max_eq_left]
  have : (x - c) / h ≤ 1 := by rw [div_le_one hh]; linarith
  linarith

/-- A place between the ends of a grid is in a cell. -/
theorem exists_cell {g : List ℝ} {a h : ℝ} (hg : IsGrid g a h) (hh : 0 < h) (hn : 2 ≤ g.length) {x : ℝ} (h1 : a ≤ x)
    (h2 : x < a + (g.length - 1 : ℕ) * h) : ∃ k, ∃ hk : k + 1 < g.length, g[k] ≤ x ∧ x < g[k + 1] := by
  have h0 : 0 ≤ (x - a) / h := div_nonneg (by linarith) hh.le
  refine ⟨⌊(x - a) / h⌋₊, ?_, ?_, ?_⟩
  · have : ⌊(x - a) / h⌋₊ < g.length - 1 := by
      rw [Nat.floor_lt h0, div_lt_iff₀ hh]
      linarith
    omega
  · rw [hg]
    have := Nat.floor_le h0
    rw [le_div_iff₀ hh] at this
    linarith
  · rw [hg]
    have := Nat.lt_floor_add_one ((x - a) / h)
    rw [div_lt_iff₀ hh] at this
    push_cast
    linarith

end TrendKit
end Verif
