import Verif.Model.SegyGeometry
import Verif.Lemmas.Surface
import Mathlib.Tactic.LinearCombination
import Mathlib.Tactic.FieldSimp
import Mathlib.Tactic.Linarith
import Mathlib.Tactic.Push

/-! Lemmas on the geometry of seismic cubes. -/

namespace Verif.SegyGeometry

open Classical

theorem divD_eq {a b : ℝ} (h : b ≠ 0) : divD a b = .ok (a / b) := by rw [divD, if_neg h]

/-- The transformation to lines is undone if its matrix is regular and no small quotient is dropped. -/
theorem findXY_inverse (g : SegyGeometry)
    (hdet : g.ilStepX * g.xlStepY - g.ilStepY * g.xlStepX ≠ 0)
    (hex : tiny g.ilStepX g.xlStepX ∨ tiny g.xlStepY g.ilStepY → g.ilStepX = 0 ∧ g.xlStepY = 0) (x y : ℝ) :
    g.findXYFromContILXL (g.findContILXL x y).1 (g.findContILXL x y).2 = .ok (x, y) := by
  unfold findXYFromContILXL findContILXL
  have z : (0.0 : ℝ) = 0 := by norm_num
  simp only [z]
  rw [if_neg, if_neg]
  · by_cases h : tiny g.ilStepX g.xlStepX ∨ tiny g.xlStepY g.ilStepY
    · rw [if_pos h]
      obtain ⟨h1, h2⟩ := hex h
      have hX : g.xlStepX ≠ 0 := by intro e; apply hdet; rw [h1, e]; ring
      have hY : g.ilStepY ≠ 0 := by intro e; apply hdet; rw [h1, e]; ring
      simp only [Res.monad_bind_eq]
      rw [divD_eq hX, Res.bind_ok, divD_eq hY, Res.bind_ok]
      rw [h1, h2]
      refine congrArg Res.ok (Prod.ext ?_ ?_) <;> dsimp only <;> field_simp <;> ring
    · rw [if_neg h]
      have hI : g.ilStepX ≠ 0 := by
        intro e
        have hX : g.xlStepX ≠ 0 := by intro e'; apply hdet; rw [e, e']; ring
        exact h (Or.inl ⟨hX, by rw [e]; norm_num⟩)
      have hD : g.xlStepY - g.ilStepY * g.xlStepX / g.ilStepX ≠ 0 := by
        intro e
        apply hdet
        field_simp at e
        linarith
      simp only [Res.monad_bind_eq]
      rw [divD_eq hI, Res.bind_ok, divD_eq hI, Res.bind_ok, divD_eq hD, Res.bind_ok, divD_eq hI, Res.bind_ok]
      have e1 : (g.crossLine0 + (x - g.x0) * g.xlStepX + (y - g.y0) * g.xlStepY - g.crossLine0 -
          (g.inLine0 + (x - g.x0) * g.ilStepX + (y - g.y0) * g.ilStepY - g.inLine0) * g.xlStepX / g.ilStepX) /
          (g.xlStepY - g.ilStepY * g.xlStepX / g.ilStepX) = y - g.y0 := by
        rw [div_eq_iff hD]
        field_simp
        ring
      rw [e1]
      refine congrArg Res.ok (Prod.ext ?_ ?_) <;> dsimp only
      · field_simp
        ring
      · ring
  · rintro ⟨a, b⟩
    exact hdet (by rw [a, b]; ring)
  · rintro ⟨a, b⟩
    exact hdet (by rw [a, b]; ring)

theorem divInt_mul {k s : ℤ} (hs : 0 < s) : divInt (k * s) s = .ok k := by
  rw [divInt, if_neg hs.ne', Int.mul_tdiv_cancel _ hs.ne']

theorem wrapInt_small {n : ℕ} (h : n < 2 ^ 31) : wrapInt n = n := by
  unfold wrapInt
  rw [Int.bmod_def]
  have : (n : ℤ) % ((2 ^ 32 : ℕ) : ℤ) = n := Int.emod_eq_of_lt (by omega) (by push_cast; omega)
  rw [this, if_pos]
  push_cast
  omega

theorem truncZ_half {k : ℤ} (h : 0 ≤ k) : truncZ ((k : ℝ) + 1 / 2) = k := by
  have h0 : (0 : ℝ) ≤ k := by exact_mod_cast h
  unfold truncZ
  rw [if_pos (by linarith), Int.floor_eq_iff]
  constructor <;> linarith

theorem truncZ_half_neg {k : ℤ} (h : k < 0) : truncZ ((k : ℝ) + 1 / 2) = k + 1 := by
  have h0 : (k : ℝ) ≤ -1 := by exact_mod_cast (by omega : k ≤ -1)
  unfold truncZ
  rw [if_neg (by push Not; linarith), Int.ceil_eq_iff]
  push_cast
  constructor <;> linarith

end Verif.SegyGeometry
