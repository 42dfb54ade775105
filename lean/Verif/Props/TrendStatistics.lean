import Verif.Model.Trend
import Verif.Lemmas.TrendKit
import Mathlib.Algebra.BigOperators.Group.List.Basic

/-!
# C154: numbers of trends: limits, means, scaling and signs
-/

namespace Verif

open Classical

namespace Trend

theorem foldl_sum : ∀ (l : List ℝ) (a : ℝ), l.foldl (· + ·) a = a + l.sum
  | [], a => by simp
  | v :: l, a => by rw [List.foldl_cons, foldl_sum l, List.sum_cons]; ring

theorem sum_scaled (c : ℝ) : ∀ l : List ℝ, (l.map (· * c)).sum = l.sum * c
  | [] => by simp
  | v :: l => by simp only [List.map_cons, List.sum_cons, sum_scaled c l]; ring

theorem foldl_check : ∀ (l : List ℝ) (b : Bool), l.foldl (fun ok v => if v < 0 then false else ok) b = true ↔ b = true ∧ ∀ v ∈ l, 0 ≤ v
  | [], b => by simp
  | v :: l, b => by
    rw [List.foldl_cons, foldl_check l]
    by_cases h : v < 0
    · rw [if_pos h]
      constructor
      · rintro ⟨h', -⟩; cases h'
      · rintro ⟨-, h'⟩; exact absurd (h' v List.mem_cons_self) (not_le.2 h)
    · rw [if_neg h]
      constructor
      · rintro ⟨h1, h2⟩
        exact ⟨h1, fun w hw => by
          rcases List.mem_cons.1 hw with rfl | hw
          · exact not_lt.1 h
          · exact h2 w hw⟩
      · rintro ⟨h1, h2⟩
        exact ⟨h1, fun w hw => h2 w (List.mem_cons_of_mem _ hw)⟩

theorem foldl_max : ∀ (l : List ℝ) (a : ℝ), (l.foldl (fun m x => if x > m then x else m) a = a ∨
    l.foldl (fun m x => if x > m then x else m) a ∈ l) ∧ a ≤ l.foldl (fun m x => if x > m then x else m) a ∧
    ∀ v ∈ l, v ≤ l.foldl (fun m x => if x > m then x else m) a
  | [], a => by simp
  | v :: l, a => by
    rw [List.foldl_cons]
    obtain ⟨h1, h2, h3⟩ := foldl_max l (if v > a then v else a)
    have hv : v ≤ if v > a then v else a := by split_ifs with h; exact le_refl _; exact not_lt.1 h
    have ha : a ≤ if v > a then v else a := by split_ifs with h; exact h.le; exact le_refl _
    refine ⟨?_, ha.trans h2, fun w hw => ?_⟩
    · rcases h1 with h1 | h1
      · rw [h1]
        split_ifs with h
        · exact .inr List.mem_cons_self
        · exact .inl rfl
      · exact .inr (List.mem_cons_of_mem _ h1)
    · rcases List.mem_cons.1 hw with rfl | hw
      · exact hv.trans h2
      · exact h3 w hw

theorem foldl_min : ∀ (l : List ℝ) (a : ℝ), (l.foldl (fun m x => if x < m then x else m) a = a ∨
    l.foldl (fun m x => if x < m then x else m) a ∈ l) ∧ l.foldl (fun m x => if x < m then x else m) a ≤ a ∧
    ∀ v ∈ l, l.foldl (fun m x => if x < m then x else m) a ≤ v
  | [], a => by simp
  | v :: l, a => by
    rw [List.foldl_cons]
    obtain ⟨h1, h2, h3⟩ := foldl_min l (if v < a then v else a)
    have hv : (if v < a then v else a) ≤ v := by split_ifs with h; exact le_refl _; exact not_lt.1 h
    have ha : (if v < a then v else a) ≤ a := by split_ifs with h; exact h.le; exact le_refl _
    refine ⟨?_, h2.trans ha, fun w hw => ?_⟩
    · rcases h1 with h1 | h1
      · rw [h1]
        split_ifs with h
        · exact .inr List.mem_cons_self
        · exact .inl rfl
      · exact .inr (List.mem_cons_of_mem _ h1)
    · rcases List.mem_cons.1 hw with rfl | hw
      · exact h2.trans hv
      · exact h3 w hw

end Trend

open Trend

/-- **C154 (limits).** The greatest and the least value are numbers of the trend that no number exceeds. -/
theorem trend_limits {t : List ℝ} (h : t ≠ []) : ∃ lo hi, minValue t = .ok lo ∧ maxValue t = .ok hi ∧ lo ∈ t ∧ hi ∈ t ∧
    ∀ v ∈ t, lo ≤ v ∧ v ≤ hi := by
  cases t with
  | nil => exact absurd rfl h
  | cons v vs =>
    obtain ⟨a1, a2, a3⟩ := foldl_min vs v
    obtain ⟨b1, b2, b3⟩ := foldl_max vs v
    refine ⟨_, _, rfl, rfl, ?_, ?_, ?_⟩
    · rcases a1 with h | h
      · rw [h]; exact List.mem_cons_self
      · exact List.mem_cons_of_mem _ h
    · rcases b1 with h | h
      · rw [h]; exact List.mem_cons_self
      · exact List.mem_cons_of_mem _ h
    · intro w hw
      rcases List.mem_cons.1 hw with rfl | hw
      · exact ⟨a2, b2⟩
      · exact ⟨a3 w hw, b3 w hw⟩

/-- **C154 (truncation).** After truncation each number is the nearest one between the limits: it is between them, and unchanged if it
was. A constant is added to each number. -/
theorem trend_truncate (t : List ℝ) {lo hi : ℝ} (h : lo ≤ hi) (c : ℝ) :
    List.Forall₂ (fun v w => lo ≤ w ∧ w ≤ hi ∧ (lo ≤ v → v ≤ hi → w = v) ∧ (v < lo → w = lo) ∧ (hi < v → w = hi)) t (truncate t lo hi) ∧
    List.Forall₂ (fun v w => w = v + c) t (addConstant t c) := by
  constructor
  · unfold truncate
    rw [List.forall₂_map_right_iff, List.forall₂_same]
    intro v _
    unfold truncOne
    simp only
    refine ⟨?_, ?_, fun h1 h2 => ?_, fun h1 => ?_, fun h1 => ?_⟩ <;> split_ifs <;> first | rfl | linarith
  · unfold addConstant
    rw [List.forall₂_map_right_iff, List.forall₂_same]
    intro v _
    rfl

/-- **C154 (means).** In two and three dimensions the mean is the sum divided by the number, and after scaling it is the one asked for,
if it was not 0. -/
theorem trend_mean {t : List ℝ} (h : t ≠ []) : mean t = .ok (t.sum / t.length) ∧
    ∀ target, t.sum ≠ 0 → ∃ c, scaleTo mean t target = .ok (t.map (· * c)) ∧ mean (t.map (· * c)) = .ok target := by
  have hl : (t.length : ℝ) ≠ 0 := by
    have := List.length_pos_iff.2 h
    exact_mod_cast this.ne'
  have key : ∀ {u : List ℝ}, u ≠ [] → mean u = .ok (u.sum / u.length) := by
    intro u hu
    have hl : (u.length : ℝ) ≠ 0 := by
      have := List.length_pos_iff.2 hu
      exact_mod_cast this.ne'
    unfold mean
    rw [if_neg hu, foldl_sum, zero_add, TrendKit.fdiv_ok hl]
  refine ⟨key h, fun target h0 => ?_⟩
  refine ⟨target / (t.sum / t.length), ?_, ?_⟩
  · unfold scaleTo
    rw [key h, Res.monad_bind_eq, Res.bind_ok, TrendKit.fdiv_ok (div_ne_zero h0 hl)]
    rfl
  · rw [key (by simpa using h), sum_scaled, List.length_map]
    congr 1
    field_simp

/-- **C154 (violation, means).** In one dimension the first number is left out of the sum but counted, so that the mean is too small by
the first number divided by their number; and the trend scaled to a mean has another one. -/
theorem trend_mean_violation {v : ℝ} {t : List ℝ} : mean1D (v :: t) = .ok ((v :: t).sum / (v :: t).length - v / (v :: t).length) ∧
    ∀ target, t.sum ≠ 0 → ∃ r, scaleTo mean1D (v :: t) target = .ok r ∧ r.sum / r.length = target * (1 + v / t.sum) := by
  have hl : ((v :: t).length : ℝ) ≠ 0 := by
    have : (v :: t).length ≠ 0 := by simp
    exact_mod_cast this
  have e : mean1D (v :: t) = .ok (t.sum / (v :: t).length) := by
    unfold mean1D
    rw [if_neg (by simp), foldl_sum, List.drop_one, List.tail_cons, zero_add, TrendKit.fdiv_ok hl]
  refine ⟨?_, fun target h0 => ?_⟩
  · rw [e, List.sum_cons]
    congr 1
    field_simp
    ring
  · refine ⟨(v :: t).map (· * (target / (t.sum / (v :: t).length))), ?_, ?_⟩
    · unfold scaleTo
      rw [e, Res.monad_bind_eq, Res.bind_ok, TrendKit.fdiv_ok (div_ne_zero h0 hl)]
      rfl
    · rw [sum_scaled, List.length_map, List.sum_cons]
      field_simp
      ring

/-- **C154 (signs).** In two and three dimensions the check fails exactly if there is a negative number. -/
theorem trend_check (t : List ℝ) : check t = true ↔ ∀ v ∈ t, 0 ≤ v := by
  unfold check
  rw [foldl_check]
  simp

/-- **C154 (violation, signs).** In one dimension the first number is not checked. -/
theorem trend_check_violation (v : ℝ) {t : List ℝ} (h : ∀ w ∈ t, 0 ≤ w) : check1D (v :: t) = true := by
  unfold check1D
  rw [List.drop_one, List.tail_cons, foldl_check]
  exact ⟨rfl, h⟩

/-- Trends that meet the hypotheses. -/
theorem trend_statistics_example : mean [1, 2, 6] = .ok 3 ∧ mean1D [1, 2, 6] = .ok (8 / 3) ∧ check1D [-1, 2] = true ∧ check [-1, 2] ≠ true := by
  refine ⟨?_, ?_, trend_check_violation (-1) (by simp), ?_⟩
  · rw [(trend_mean (by simp)).1]
    norm_num
  · rw [trend_mean_violation.1]
    norm_num
  · intro h
    have := (trend_check _).1 h (-1) (by simp)
    norm_num at this

end Verif
