import Mathlib.Tactic.Ring
import Mathlib.Tactic.Linarith
import Mathlib.Tactic.FieldSimp
import Mathlib.Tactic.NormNum
import Mathlib.Tactic.Positivity
import Verif.Lemmas.Outcome
import Verif.Model.SegyCompare
import Verif.Props.SegyCheck

/-!
C164: the comparison of two traces.
-/

namespace Verif.SegyCheck

open Verif

private theorem good_iff {k : ℝ} (hk : 0 ≤ k) :
    goodUnit k = true ↔ 3.125 < k ∧ k < 53.125 ∧ ∃ n : ℕ, |k - 6.25 * n| ≤ 1 := by
  unfold goodUnit fmodR
  simp only [decide_eq_true_eq]
  have hf : 0 ≤ ⌊k / 6.25⌋ := Int.floor_nonneg.2 (by positivity)
  have h1 : (⌊k / 6.25⌋ : ℝ) ≤ k / 6.25 := Int.floor_le _
  have h2 : k / 6.25 < ⌊k / 6.25⌋ + 1 := Int.lt_floor_add_one _
  have e : k = 6.25 * (k / 6.25) := by ring
  constructor
  · rintro ⟨a, b, c⟩
    refine ⟨by linarith, by linarith, ?_⟩
    rcases c with c | c
    · refine ⟨⌊k / 6.25⌋.toNat, ?_⟩
      have : ((⌊k / 6.25⌋.toNat : ℕ) : ℝ) = (⌊k / 6.25⌋ : ℝ) := by exact_mod_cast Int.toNat_of_nonneg hf
      rw [this, abs_le]
      constructor <;> linarith
    · refine ⟨⌊k / 6.25⌋.toNat + 1, ?_⟩
      have : ((⌊k / 6.25⌋.toNat : ℕ) : ℝ) = (⌊k / 6.25⌋ : ℝ) := by exact_mod_cast Int.toNat_of_nonneg hf
      push_cast
      rw [this, abs_le]
      constructor <;> linarith
  · rintro ⟨a, b, n, hn⟩
    rw [abs_le] at hn
    refine ⟨by linarith, by linarith, ?_⟩
    by_cases hle : (n : ℤ) ≤ ⌊k / 6.25⌋
    · left
      have : (n : ℝ) ≤ (⌊k / 6.25⌋ : ℝ) := by exact_mod_cast hle
      linarith
    · right
      have : (⌊k / 6.25⌋ : ℝ) + 1 ≤ (n : ℝ) := by exact_mod_cast (not_le.1 hle)
      linarith

/-- The distance of two traces. -/
noncomputable def distance (a b : Header) : ℝ := Real.sqrt ((a.x - b.x) ^ 2 + (a.y - b.y) ^ 2)

private theorem dist_eq (a b : Header) :
    Real.sqrt (|a.x - b.x| * |a.x - b.x| + |a.y - b.y| * |a.y - b.y|) = distance a b := by
  unfold distance
  rw [abs_mul_abs_self, abs_mul_abs_self, sq, sq]

/-- **C164**: the result is the same when the traces are exchanged. -/
theorem segy_compare_symm (a b : Header) : compare a b = compare b a := by
  unfold compare
  rw [abs_sub_comm a.x, abs_sub_comm a.y, abs_sub_comm a.il, abs_sub_comm a.xl]

/-- **C164**: two traces with the same line numbers or the same place are refused. -/
theorem segy_compare_same (a b : Header) (h : (a.il = b.il ∧ a.xl = b.xl) ∨ (a.x = b.x ∧ a.y = b.y)) :
    compare a b = .ok (false, none) := by
  unfold compare
  simp only [abs_eq_zero, sub_eq_zero]
  rcases h with h | h
  · rw [if_pos h]
  · by_cases h' : a.il = b.il ∧ a.xl = b.xl
    · rw [if_pos h']
    · rw [if_neg h', if_pos h]

/-- **C164**: two traces of one inline are accepted, and reported as such, exactly when the distance for each crossline
is more than 3.125, less than 53.125, and within 1 of a multiple of 6.25. -/
theorem segy_compare_inline (a b : Header) (hil : a.il = b.il) (hxl : a.xl ≠ b.xl) (hp : ¬ (a.x = b.x ∧ a.y = b.y)) :
    ∃ r, compare a b = .ok (r, some (if r then 1 else 0)) ∧ (r = true ↔
      3.125 < distance a b / |(a.xl : ℝ) - b.xl| ∧ distance a b / |(a.xl : ℝ) - b.xl| < 53.125 ∧
      ∃ n : ℕ, |distance a b / |(a.xl : ℝ) - b.xl| - 6.25 * n| ≤ 1) := by
  have hnn : 0 ≤ distance a b / |(a.xl : ℝ) - b.xl| := div_nonneg (Real.sqrt_nonneg _) (abs_nonneg _)
  rw [← good_iff hnn]
  unfold compare
  simp only [abs_eq_zero, sub_eq_zero]
  rw [if_neg (fun h => hxl h.2), if_neg hp, if_pos hil, dist_eq]
  push_cast
  split
  · rename_i h; exact ⟨true, rfl, by simp [h]⟩
  · rename_i h; exact ⟨false, rfl, by simpa using h⟩

/-- **C164**: the same for two traces of one crossline. -/
theorem segy_compare_crossline (a b : Header) (hil : a.il ≠ b.il) (hxl : a.xl = b.xl) (hp : ¬ (a.x = b.x ∧ a.y = b.y)) :
    ∃ r, compare a b = .ok (r, some (if r then 2 else 0)) ∧ (r = true ↔
      3.125 < distance a b / |(a.il : ℝ) - b.il| ∧ distance a b / |(a.il : ℝ) - b.il| < 53.125 ∧
      ∃ n : ℕ, |distance a b / |(a.il : ℝ) - b.il| - 6.25 * n| ≤ 1) := by
  have hnn : 0 ≤ distance a b / |(a.il : ℝ) - b.il| := div_nonneg (Real.sqrt_nonneg _) (abs_nonneg _)
  rw [← good_iff hnn]
  unfold compare
  simp only [abs_eq_zero, sub_eq_zero]
  rw [if_neg (fun h => hil h.1), if_neg hp, if_neg hil, if_pos hxl, dist_eq]
  push_cast
  split
  · rename_i h; exact ⟨true, rfl, by simp [h]⟩
  · rename_i h; exact ⟨false, rfl, by simpa using h⟩

private theorem search_true {dist p rel : ℝ} {il2 xl2 : ℤ} : ∀ {n : ℕ}, search dist p rel il2 xl2 n = .ok true →
    ∃ (i : ℕ) (j : ℤ), 1 ≤ i ∧ 0 ≤ j ∧ goodUnit (dist / Real.sqrt ((((i : ℤ)) * (i : ℤ) * il2 + j * j * xl2 : ℤ) : ℝ)) = true
  | 0, h => by simp [search] at h
  | n + 1, h => by
    unfold search at h
    simp only at h
    split at h
    · exact absurd h (by simp)
    · split at h
      · rename_i hg
        rw [Bool.or_eq_true] at hg
        have hj : 0 ≤ ⌊Real.sqrt (p - ((n + 1 : ℕ) : ℝ) * ((n + 1 : ℕ) : ℝ) * rel)⌋ := Int.floor_nonneg.2 (Real.sqrt_nonneg _)
        rcases hg with hg | hg
        · exact ⟨n + 1, _, by omega, hj, hg⟩
        · exact ⟨n + 1, _, by omega, by omega, hg⟩
      · exact search_true h

/-- **C164**: two traces that differ in inline and crossline are accepted only if there are whole numbers `i`, positive,
and `j`, such that the distance is that of a right-angled grid with steps of `i` and `j` units, and the unit is more
than 3.125, less than 53.125, and within 1 of a multiple of 6.25. The direction is never reported. -/
theorem segy_compare_both (a b : Header) (hil : a.il ≠ b.il) (hxl : a.xl ≠ b.xl) (r : Bool × Option ℤ)
    (h : compare a b = .ok r) (hr : r.1 = true) : r.2 = some 0 ∧ ∃ (i : ℕ) (j : ℤ) (u : ℝ), 1 ≤ i ∧ 0 ≤ j ∧
      3.125 < u ∧ u < 53.125 ∧ (∃ n : ℕ, |u - 6.25 * n| ≤ 1) ∧
      distance a b ^ 2 = (u * i * (a.il - b.il)) ^ 2 + (u * j * (a.xl - b.xl)) ^ 2 := by
  unfold compare at h
  simp only [abs_eq_zero, sub_eq_zero, dist_eq] at h
  rw [if_neg (fun h => hil h.1)] at h
  split at h
  · cases h; simp at hr
  · obtain ⟨ok, hs, ho⟩ := Res.bind_eq_ok.1 h
    cases ho
    simp only at hr
    subst hr
    obtain ⟨i, j, hi, hj, hg⟩ := search_true hs
    have hd0 : 0 ≤ distance a b := Real.sqrt_nonneg _
    rw [good_iff (div_nonneg hd0 (Real.sqrt_nonneg _))] at hg
    refine ⟨rfl, i, j, _, hi, hj, hg.1, hg.2.1, hg.2.2, ?_⟩
    have e : ((((i : ℤ)) * (i : ℤ) * (|a.il - b.il| * |a.il - b.il|) + j * j * (|a.xl - b.xl| * |a.xl - b.xl|) : ℤ) : ℝ)
        = (i * (a.il - b.il)) ^ 2 + (j * (a.xl - b.xl)) ^ 2 := by
      rw [abs_mul_abs_self, abs_mul_abs_self]
      push_cast
      ring
    rw [e]
    have hil' : (a.il : ℝ) - b.il ≠ 0 := by exact_mod_cast sub_ne_zero.2 hil
    have hi' : (0 : ℝ) < i := by exact_mod_cast hi
    have hpos : 0 < ((i : ℝ) * (a.il - b.il)) ^ 2 + (j * ((a.xl : ℝ) - b.xl)) ^ 2 := by positivity
    have hsq := Real.sq_sqrt hpos.le
    have hne : Real.sqrt (((i : ℝ) * (a.il - b.il)) ^ 2 + (j * ((a.xl : ℝ) - b.xl)) ^ 2) ≠ 0 := (Real.sqrt_pos.2 hpos).ne'
    set w := Real.sqrt (((i : ℝ) * (a.il - b.il)) ^ 2 + (j * ((a.xl : ℝ) - b.xl)) ^ 2) with hw
    have : (distance a b / w * i * (a.il - b.il)) ^ 2 + (distance a b / w * j * (a.xl - b.xl)) ^ 2
        = (distance a b / w) ^ 2 * (((i : ℝ) * (a.il - b.il)) ^ 2 + (j * ((a.xl : ℝ) - b.xl)) ^ 2) := by ring
    rw [this, ← hsq]
    field_simp

private theorem search_total {dist p : ℝ} (hp : 0 ≤ p) {il2 xl2 : ℤ} : ∀ n : ℕ, ∃ r, search dist p 0 il2 xl2 n = .ok r
  | 0 => ⟨false, rfl⟩
  | n + 1 => by
    unfold search
    simp only [mul_zero, sub_zero]
    rw [if_neg (not_lt.2 hp)]
    split
    · exact ⟨true, rfl⟩
    · exact search_total hp n

/-- **C164**: there is a result when the crosslines differ by more than the inlines. What is missing: the other pairs, for
which `segy_compare_violation` shows that there may be none. -/
theorem segy_compare_total_partial (a b : Header) (h : |a.il - b.il| < |a.xl - b.xl|) : ∃ r, compare a b = .ok r := by
  have h0 : 0 ≤ |a.il - b.il| := abs_nonneg _
  have hq : (|a.il - b.il| * |a.il - b.il|) / (|a.xl - b.xl| * |a.xl - b.xl|) = 0 :=
    Int.ediv_eq_zero_of_lt (by positivity) (mul_self_lt_mul_self h0 h)
  unfold compare
  simp only [hq, Int.cast_zero]
  have hs : ∀ (d : ℝ) (n : ℕ), ∃ r, (search d (d / 6.25 * (d / 6.25) / ((|a.xl - b.xl| * |a.xl - b.xl| : ℤ) : ℝ)) 0
      (|a.il - b.il| * |a.il - b.il|) (|a.xl - b.xl| * |a.xl - b.xl|) n).bind
        (fun ok => Res.ok (ok, some (0 : ℤ))) = .ok r := by
    intro d n
    obtain ⟨r, hr⟩ := search_total (dist := d) (p := d / 6.25 * (d / 6.25) / ((|a.xl - b.xl| * |a.xl - b.xl| : ℤ) : ℝ))
      (div_nonneg (mul_self_nonneg _) (by exact_mod_cast mul_self_nonneg _))
      (il2 := |a.il - b.il| * |a.il - b.il|) (xl2 := |a.xl - b.xl| * |a.xl - b.xl|) n
    exact ⟨_, by rw [hr]; rfl⟩
  split
  · exact ⟨_, rfl⟩
  · split
    · exact ⟨_, rfl⟩
    · split
      · split <;> exact ⟨_, rfl⟩
      · split
        · split <;> exact ⟨_, rfl⟩
        · exact hs _ _

/-- A case of `segy_compare_total_partial`: across two crosslines and one inline of the grid of the violation. -/
theorem segy_compare_total_example : ∃ r, compare (trace25 0 0) (trace25 1 2) = .ok r :=
  segy_compare_total_partial _ _ (by decide)

/-- A case of `segy_compare_inline`: neighbours on one inline of a grid with steps of 25. -/
theorem segy_compare_example : compare (trace25 100 7) (trace25 100 8) = .ok (true, some 1) := by
  have hd : distance (trace25 100 7) (trace25 100 8) = 25 := by
    unfold distance trace25
    rw [Real.sqrt_eq_iff_mul_self_eq_of_pos (by norm_num)]
    norm_num
  obtain ⟨r, h, hr⟩ := segy_compare_inline (trace25 100 7) (trace25 100 8) rfl (by decide) (by unfold trace25; norm_num)
  have : r = true := by
    rw [hr, hd]
    unfold trace25
    norm_num
    exact ⟨4, by norm_num⟩
  rw [h, this]
  rfl

/-- A case of `segy_compare_both`. -/
theorem segy_compare_both_example : compare ⟨0, 0, 0, 0⟩ ⟨2, 1, 30.625, 0⟩ = .ok (true, some 0) := by
  have hg : goodUnit (6.125 : ℝ) = true := (good_iff (by norm_num)).2 ⟨by norm_num, by norm_num, 1, by norm_num [abs_le]⟩
  have hj : ⌊Real.sqrt 8.01⌋ = 2 := by
    rw [Int.floor_eq_iff]
    constructor
    · exact Real.le_sqrt_of_sq_le (by norm_num)
    · rw [Real.sqrt_lt' (by norm_num)]; norm_num
  have h5 : Real.sqrt 25 = 5 := by
    rw [show (25 : ℝ) = 5 ^ 2 by norm_num]
    exact Real.sqrt_sq (by norm_num)
  have hs : search 30.625 24.01 4 4 1 2 = .ok true := by
    unfold search
    rw [show (24.01 : ℝ) - ((1 + 1 : ℕ) : ℝ) * ((1 + 1 : ℕ) : ℝ) * 4 = 8.01 by norm_num, if_neg (by norm_num), hj]
    have : goodUnit (30.625 / Real.sqrt ((((1 + 1 : ℕ) : ℤ) * ((1 + 1 : ℕ) : ℤ) * 4 + (2 + 1) * (2 + 1) * 1 : ℤ) : ℝ)) = true := by
      rw [show ((((1 + 1 : ℕ) : ℤ) * ((1 + 1 : ℕ) : ℤ) * 4 + (2 + 1) * (2 + 1) * 1 : ℤ) : ℝ) = 25 by norm_num, h5,
        show (30.625 : ℝ) / 5 = 6.125 by norm_num]
      exact hg
    simp only [this, Bool.or_true, if_true]
  have hi : ⌊(0.5 : ℝ) + 30.625 / 6.25 / 2⌋ = 2 := by
    rw [Int.floor_eq_iff]
    constructor <;> norm_num
  unfold compare
  have hdd : Real.sqrt (|(0 : ℝ) - 30.625| * |(0 : ℝ) - 30.625| + |(0 : ℝ) - 0| * |(0 : ℝ) - 0|) = 30.625 := by
    rw [abs_mul_abs_self, abs_mul_abs_self, Real.sqrt_eq_iff_mul_self_eq_of_pos (by norm_num)]
    norm_num
  simp only [hdd]
  rw [ if_neg (by decide), if_neg (by norm_num), if_neg (by decide), if_neg (by decide)]
  have e1 : ((|(0 : ℤ) - 2| : ℤ) : ℝ) = 2 := by norm_num
  have e2 : (|(0 : ℤ) - 2| * |(0 : ℤ) - 2| : ℤ) = 4 := by decide
  have e3 : (|(0 : ℤ) - 1| * |(0 : ℤ) - 1| : ℤ) = 1 := by decide
  rw [e1, e2, e3, hi]
  have e4 : (30.625 : ℝ) / 6.25 * (30.625 / 6.25) / ((1 : ℤ) : ℝ) = 24.01 := by norm_num
  have e5 : (((4 : ℤ) / 1 : ℤ) : ℝ) = 4 := by norm_num
  rw [e4, e5, show (2 : ℤ).toNat = 2 from rfl, hs]
  rfl

/-- **C164**, violated: the first two traces lie across a cell of a grid with steps of 25. The root of a negative
number is converted to an integer. -/
theorem segy_compare_violation : ∃ w, compare (trace25 0 0) (trace25 1 1) = .ub w := by
  have hq : Real.sqrt 1250 * Real.sqrt 1250 = 1250 := Real.mul_self_sqrt (by norm_num)
  have hi : ⌊(0.5 : ℝ) + Real.sqrt 1250 / 6.25 / 1⌋ = 6 := by
    have h1 : (35 : ℝ) ≤ Real.sqrt 1250 := Real.le_sqrt_of_sq_le (by norm_num)
    have h2 : Real.sqrt 1250 < 36 := by rw [Real.sqrt_lt' (by norm_num)]; norm_num
    rw [Int.floor_eq_iff]
    constructor
    · norm_num at h1 h2 ⊢; linarith
    · norm_num at h1 h2 ⊢; linarith
  unfold compare
  simp only [dist_eq, distance]
  have hdd : Real.sqrt (((trace25 0 0).x - (trace25 1 1).x) ^ 2 + ((trace25 0 0).y - (trace25 1 1).y) ^ 2) = Real.sqrt 1250 := by
    unfold trace25; congr 1; norm_num
  have n2 : ¬ (|(trace25 0 0).x - (trace25 1 1).x| = 0 ∧ |(trace25 0 0).y - (trace25 1 1).y| = 0) := by
    unfold trace25; norm_num
  have e1 : (|(trace25 0 0).il - (trace25 1 1).il| : ℤ) = 1 := by decide
  have e2 : (|(trace25 0 0).xl - (trace25 1 1).xl| : ℤ) = 1 := by decide
  rw [hdd, e1, e2, if_neg (by decide), if_neg n2, if_neg (by decide), if_neg (by decide)]
  rw [show (((1 : ℤ) : ℝ)) = 1 by norm_num, hi]
  have e4 : Real.sqrt 1250 / 6.25 * (Real.sqrt 1250 / 6.25) / (((1 * 1 : ℤ)) : ℝ) = 32 := by
    rw [show Real.sqrt 1250 / 6.25 * (Real.sqrt 1250 / 6.25) = Real.sqrt 1250 * Real.sqrt 1250 / 39.0625 by ring, hq]
    norm_num
  rw [e4, show (6 : ℤ).toNat = 5 + 1 from rfl]
  unfold search
  rw [if_pos (by norm_num)]
  exact ⟨_, rfl⟩

end Verif.SegyCheck
