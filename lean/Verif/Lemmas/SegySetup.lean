import Verif.Model.SegySetup
import Verif.Lemmas.SegyGeometry

/-!
# Lemmas about the set-up of a seismic cube
-/

namespace Verif

open Classical

namespace SegyGeometry

/-- The number of the corner at the lower (`false`) or upper end of the in-lines and of the cross-lines. -/
def idx (α β : Bool) : ℕ := (if α then 1 else 0) + (if β then 2 else 0)

theorem argMin_eq {c : ℕ → ℝ} {u v : ℝ} (h1 : c 1 = c 0 + u) (h2 : c 2 = c 0 + v) (h3 : c 3 = c 0 + u + v) :
    argMin c = idx (decide (u < 0)) (decide (v < 0)) := by
  unfold argMin idx
  simp only [List.foldl_cons, List.foldl_nil, decide_eq_true_eq]
  by_cases hu : u < 0 <;> by_cases hv : v < 0
  · have e1 : c 1 < c 0 := by linarith
    have e3 : c 3 < c 1 := by linarith
    have e3' : c 3 < c 2 := by linarith
    simp only [hu, hv, e1, if_true]
    by_cases h : c 2 < c 1 <;> simp [h, e3, e3']
  · have e1 : c 1 < c 0 := by linarith
    have e2 : ¬ c 2 < c 1 := by linarith
    have e3 : ¬ c 3 < c 1 := by linarith
    simp [hu, hv, e1, e2, e3]
  · have e1 : ¬ c 1 < c 0 := by linarith
    have e2 : c 2 < c 0 := by linarith
    have e3 : ¬ c 3 < c 2 := by linarith
    simp [hu, hv, e1, e2, e3]
  · have e1 : ¬ c 1 < c 0 := by linarith
    have e2 : ¬ c 2 < c 0 := by linarith
    have e3 : ¬ c 3 < c 0 := by linarith
    simp [hu, hv, e1, e2, e3]

theorem argMax_eq {c : ℕ → ℝ} {u v : ℝ} (h1 : c 1 = c 0 + u) (h2 : c 2 = c 0 + v) (h3 : c 3 = c 0 + u + v) :
    argMax c = idx (decide (0 < u)) (decide (0 < v)) := by
  have h : argMax c = argMin (fun k => -c k) := by
    unfold argMax argMin
    simp only [gt_iff_lt, neg_lt_neg_iff]
  rw [h, argMin_eq (u := -u) (v := -v) (by simp only [h1]; ring) (by simp only [h2]; ring) (by simp only [h3]; ring)]
  simp only [Left.neg_neg_iff]

/-- The four corners are the lower left one, its neighbours to the right and above, and the opposite one. -/
structure Corners (x y : ℕ → ℝ) (c : ℕ × ℕ × ℕ × ℕ) (α β sw : Bool) : Prop where
  eq : c = (idx α β, (if sw then idx α (!β) else idx (!α) β), (if sw then idx (!α) β else idx α (!β)), idx (!α) (!β))
  right : 0 < x c.2.1 - x c.1
  up : 0 ≤ y c.2.1 - y c.1
  perp : ∃ l : ℝ, 0 < l ∧ x c.2.2.1 - x c.1 = -l * (y c.2.1 - y c.1) ∧ y c.2.2.1 - y c.1 = l * (x c.2.1 - x c.1)

/-- The sign of a side that starts in a corner. -/
def sgn (b : Bool) : ℝ := if b then -1 else 1

theorem corners_mk {x y : ℕ → ℝ} {a1 a2 k : ℝ} (hx : x 1 = x 0 + a1 ∧ x 2 = x 0 + -k * a2 ∧ x 3 = x 0 + a1 + -k * a2)
    (hy : y 1 = y 0 + a2 ∧ y 2 = y 0 + k * a1 ∧ y 3 = y 0 + a2 + k * a1) (hk : k ≠ 0) (α β sw : Bool)
    {c : ℕ × ℕ × ℕ × ℕ}
    (hc : c = (idx α β, (if sw then idx α (!β) else idx (!α) β), (if sw then idx (!α) β else idx α (!β)), idx (!α) (!β)))
    (h : if sw then 0 < -sgn β * k * a2 ∧ 0 ≤ sgn β * k * a1 ∧ 0 < -sgn α * sgn β * k
      else 0 < sgn α * a1 ∧ 0 ≤ sgn α * a2 ∧ 0 < sgn α * sgn β * k) : Corners x y c α β sw := by
  obtain ⟨x1, x2, x3⟩ := hx
  obtain ⟨y1, y2, y3⟩ := hy
  have ik : 1 / k * k = 1 := by field_simp
  cases α <;> cases β <;> cases sw <;> simp only [idx, sgn, Bool.not_true, Bool.not_false, if_true, if_false,
    Bool.false_eq_true, zero_add, add_zero, one_mul, neg_mul, mul_neg, neg_neg, Nat.reduceAdd] at h hc <;>
    subst hc <;> obtain ⟨h1, h2, h3⟩ := h
  all_goals refine ⟨rfl, by simp only [x1, x2, x3]; linarith, by simp only [y1, y2, y3]; linarith, ?_⟩
  all_goals simp only [x1, x2, x3, y1, y2, y3]
  · exact ⟨k, by linarith, by ring, by ring⟩
  · exact ⟨-(1 / k), by rw [neg_pos, one_div, inv_lt_zero]; linarith, by field_simp; ring, by field_simp; ring⟩
  · exact ⟨-k, by linarith, by ring, by ring⟩
  · exact ⟨1 / k, by rw [one_div, inv_pos]; linarith, by field_simp; ring, by field_simp; ring⟩
  · exact ⟨-k, by linarith, by ring, by ring⟩
  · exact ⟨1 / k, by rw [one_div, inv_pos]; linarith, by field_simp; ring, by field_simp; ring⟩
  · exact ⟨k, by linarith, by ring, by ring⟩
  · exact ⟨-(1 / k), by rw [neg_pos, one_div, inv_lt_zero]; linarith, by field_simp; ring, by field_simp; ring⟩

theorem decide_signs {a : ℝ} (h : 0 < a) :
    decide (a < 0) = false ∧ decide (0 < a) = true ∧ decide (-a < 0) = true ∧ decide (0 < -a) = false := by
  refine ⟨decide_eq_false (by linarith), decide_eq_true h, decide_eq_true (by linarith), decide_eq_false (by linarith)⟩

theorem decide_signs' {a : ℝ} (h : a < 0) :
    decide (a < 0) = true ∧ decide (0 < a) = false ∧ decide (-a < 0) = false ∧ decide (0 < -a) = true := by
  refine ⟨decide_eq_true h, decide_eq_false (by linarith), decide_eq_false (by linarith), decide_eq_true (by linarith)⟩

theorem pick_flat {x y : ℕ → ℝ} {a1 a2 k dl : ℝ} (hx : x 1 = x 0 + a1 ∧ x 2 = x 0 + -k * a2 ∧ x 3 = x 0 + a1 + -k * a2)
    (hy : y 1 = y 0 + a2 ∧ y 2 = y 0 + k * a1 ∧ y 3 = y 0 + a2 + k * a1) (hk : k ≠ 0) (h1 : a1 ≠ 0) (h2 : a2 = 0)
    (hdl : 0 < dl) (hdl' : a2 = 0 → dl ≤ |a1|) :
    ∃ α β sw, Corners x y (pickCorners x y dl) α β sw := by
  have r1 := argMin_eq hy.1 hy.2.1 hy.2.2
  have r2 := argMax_eq hx.1 hx.2.1 hx.2.2
  have r3 := argMin_eq hx.1 hx.2.1 hx.2.2
  have r4 := argMax_eq hy.1 hy.2.1 hy.2.2
  rw [neg_mul] at r2 r3
  subst h2
  have t : ¬ |x 0 - x 1| < 0.2 * dl := by
    rw [hx.1, show x 0 - (x 0 + a1) = -a1 by ring, abs_neg]
    have := hdl' rfl
    norm_num
    linarith
  have z1 : decide ((0 : ℝ) < 0) = false := decide_eq_false (lt_irrefl 0)
  unfold pickCorners
  simp only [r1, r2, r3, r4, if_neg t, mul_zero, neg_zero, z1]
  obtain ⟨x1, x2, x3⟩ := hx
  obtain ⟨y1, y2, y3⟩ := hy
  have hx := And.intro x1 (And.intro x2 x3)
  have hy := And.intro y1 (And.intro y2 y3)
  rcases lt_or_gt_of_ne hk with hk' | hk' <;> rcases lt_or_gt_of_ne h1 with h1' | h1'
  · have p1 : 0 < k * a1 := by nlinarith
    obtain ⟨d1, d2, -, -⟩ := decide_signs p1
    obtain ⟨d5, d6, -, -⟩ := decide_signs' h1'
    simp only [d1, d2, d5, d6]
    rw [if_pos (by decide), if_neg (show ¬ y 2 < y 0 by linarith), if_neg (show ¬ x 0 < x 1 by linarith)]
    first
      | exact ⟨false, false, false, corners_mk hx hy hk _ _ _ (by decide) (by simp [sgn]; first | done | linarith | (constructor <;> linarith))⟩
      | exact ⟨false, false, true, corners_mk hx hy hk _ _ _ (by decide) (by simp [sgn]; first | done | linarith | (constructor <;> linarith))⟩
      | exact ⟨false, true, false, corners_mk hx hy hk _ _ _ (by decide) (by simp [sgn]; first | done | linarith | (constructor <;> linarith))⟩
      | exact ⟨false, true, true, corners_mk hx hy hk _ _ _ (by decide) (by simp [sgn]; first | done | linarith | (constructor <;> linarith))⟩
      | exact ⟨true, false, false, corners_mk hx hy hk _ _ _ (by decide) (by simp [sgn]; first | done | linarith | (constructor <;> linarith))⟩
      | exact ⟨true, false, true, corners_mk hx hy hk _ _ _ (by decide) (by simp [sgn]; first | done | linarith | (constructor <;> linarith))⟩
      | exact ⟨true, true, false, corners_mk hx hy hk _ _ _ (by decide) (by simp [sgn]; first | done | linarith | (constructor <;> linarith))⟩
      | exact ⟨true, true, true, corners_mk hx hy hk _ _ _ (by decide) (by simp [sgn]; first | done | linarith | (constructor <;> linarith))⟩
  · have p1 : k * a1 < 0 := by nlinarith
    obtain ⟨d1, d2, -, -⟩ := decide_signs' p1
    obtain ⟨d5, d6, -, -⟩ := decide_signs h1'
    simp only [d1, d2, d5, d6]
    rw [if_pos (by decide), if_pos (show y 2 < y 0 by linarith), if_pos (show x 2 < x 3 by linarith)]
    first
      | exact ⟨false, false, false, corners_mk hx hy hk _ _ _ (by decide) (by simp [sgn]; first | done | linarith | (constructor <;> linarith))⟩
      | exact ⟨false, false, true, corners_mk hx hy hk _ _ _ (by decide) (by simp [sgn]; first | done | linarith | (constructor <;> linarith))⟩
      | exact ⟨false, true, false, corners_mk hx hy hk _ _ _ (by decide) (by simp [sgn]; first | done | linarith | (constructor <;> linarith))⟩
      | exact ⟨false, true, true, corners_mk hx hy hk _ _ _ (by decide) (by simp [sgn]; first | done | linarith | (constructor <;> linarith))⟩
      | exact ⟨true, false, false, corners_mk hx hy hk _ _ _ (by decide) (by simp [sgn]; first | done | linarith | (constructor <;> linarith))⟩
      | exact ⟨true, false, true, corners_mk hx hy hk _ _ _ (by decide) (by simp [sgn]; first | done | linarith | (constructor <;> linarith))⟩
      | exact ⟨true, true, false, corners_mk hx hy hk _ _ _ (by decide) (by simp [sgn]; first | done | linarith | (constructor <;> linarith))⟩
      | exact ⟨true, true, true, corners_mk hx hy hk _ _ _ (by decide) (by simp [sgn]; first | done | linarith | (constructor <;> linarith))⟩
  · have p1 : k * a1 < 0 := by nlinarith
    obtain ⟨d1, d2, -, -⟩ := decide_signs' p1
    obtain ⟨d5, d6, -, -⟩ := decide_signs' h1'
    simp only [d1, d2, d5, d6]
    rw [if_pos (by decide), if_pos (show y 2 < y 0 by linarith), if_neg (show ¬ x 2 < x 3 by linarith)]
    first
      | exact ⟨false, false, false, corners_mk hx hy hk _ _ _ (by decide) (by simp [sgn]; first | done | linarith | (constructor <;> linarith))⟩
      | exact ⟨false, false, true, corners_mk hx hy hk _ _ _ (by decide) (by simp [sgn]; first | done | linarith | (constructor <;> linarith))⟩
      | exact ⟨false, true, false, corners_mk hx hy hk _ _ _ (by decide) (by simp [sgn]; first | done | linarith | (constructor <;> linarith))⟩
      | exact ⟨false, true, true, corners_mk hx hy hk _ _ _ (by decide) (by simp [sgn]; first | done | linarith | (constructor <;> linarith))⟩
      | exact ⟨true, false, false, corners_mk hx hy hk _ _ _ (by decide) (by simp [sgn]; first | done | linarith | (constructor <;> linarith))⟩
      | exact ⟨true, false, true, corners_mk hx hy hk _ _ _ (by decide) (by simp [sgn]; first | done | linarith | (constructor <;> linarith))⟩
      | exact ⟨true, true, false, corners_mk hx hy hk _ _ _ (by decide) (by simp [sgn]; first | done | linarith | (constructor <;> linarith))⟩
      | exact ⟨true, true, true, corners_mk hx hy hk _ _ _ (by decide) (by simp [sgn]; first | done | linarith | (constructor <;> linarith))⟩
  · have p1 : 0 < k * a1 := by nlinarith
    obtain ⟨d1, d2, -, -⟩ := decide_signs p1
    obtain ⟨d5, d6, -, -⟩ := decide_signs h1'
    simp only [d1, d2, d5, d6]
    rw [if_pos (by decide), if_neg (show ¬ y 2 < y 0 by linarith), if_pos (show x 0 < x 1 by linarith)]
    first
      | exact ⟨false, false, false, corners_mk hx hy hk _ _ _ (by decide) (by simp [sgn]; first | done | linarith | (constructor <;> linarith))⟩
      | exact ⟨false, false, true, corners_mk hx hy hk _ _ _ (by decide) (by simp [sgn]; first | done | linarith | (constructor <;> linarith))⟩
      | exact ⟨false, true, false, corners_mk hx hy hk _ _ _ (by decide) (by simp [sgn]; first | done | linarith | (constructor <;> linarith))⟩
      | exact ⟨false, true, true, corners_mk hx hy hk _ _ _ (by decide) (by simp [sgn]; first | done | linarith | (constructor <;> linarith))⟩
      | exact ⟨true, false, false, corners_mk hx hy hk _ _ _ (by decide) (by simp [sgn]; first | done | linarith | (constructor <;> linarith))⟩
      | exact ⟨true, false, true, corners_mk hx hy hk _ _ _ (by decide) (by simp [sgn]; first | done | linarith | (constructor <;> linarith))⟩
      | exact ⟨true, true, false, corners_mk hx hy hk _ _ _ (by decide) (by simp [sgn]; first | done | linarith | (constructor <;> linarith))⟩
      | exact ⟨true, true, true, corners_mk hx hy hk _ _ _ (by decide) (by simp [sgn]; first | done | linarith | (constructor <;> linarith))⟩

theorem pick_steep {x y : ℕ → ℝ} {a1 a2 k dl : ℝ} (hx : x 1 = x 0 + a1 ∧ x 2 = x 0 + -k * a2 ∧ x 3 = x 0 + a1 + -k * a2)
    (hy : y 1 = y 0 + a2 ∧ y 2 = y 0 + k * a1 ∧ y 3 = y 0 + a2 + k * a1) (hk : k ≠ 0) (h1 : a1 = 0) (h2 : a2 ≠ 0)
    (hdl : 0 < dl) :
    ∃ α β sw, Corners x y (pickCorners x y dl) α β sw := by
  have r1 := argMin_eq hy.1 hy.2.1 hy.2.2
  have r2 := argMax_eq hx.1 hx.2.1 hx.2.2
  have r3 := argMin_eq hx.1 hx.2.1 hx.2.2
  have r4 := argMax_eq hy.1 hy.2.1 hy.2.2
  rw [neg_mul] at r2 r3
  subst h1
  have t : |x 0 - x 1| < 0.2 * dl := by
    rw [hx.1]
    norm_num
    exact hdl
  have z1 : decide ((0 : ℝ) < 0) = false := decide_eq_false (lt_irrefl 0)
  unfold pickCorners
  simp only [r1, r2, r3, r4, if_pos t, mul_zero, z1]
  obtain ⟨x1, x2, x3⟩ := hx
  obtain ⟨y1, y2, y3⟩ := hy
  have hx := And.intro x1 (And.intro x2 x3)
  have hy := And.intro y1 (And.intro y2 y3)
  rcases lt_or_gt_of_ne hk with hk' | hk' <;> rcases lt_or_gt_of_ne h2 with h2' | h2'
  · have p1 : 0 < k * a2 := by nlinarith
    obtain ⟨-, -, d1, d2⟩ := decide_signs p1
    obtain ⟨d5, d6, -, -⟩ := decide_signs' h2'
    simp only [d1, d2, d5, d6]
    rw [if_pos (by decide), if_pos (show x 2 < x 0 by linarith), if_neg (show ¬ y 2 < y 3 by linarith)]
    first
      | exact ⟨false, false, false, corners_mk hx hy hk _ _ _ (by decide) (by simp [sgn]; first | done | linarith | (constructor <;> linarith))⟩
      | exact ⟨false, false, true, corners_mk hx hy hk _ _ _ (by decide) (by simp [sgn]; first | done | linarith | (constructor <;> linarith))⟩
      | exact ⟨false, true, false, corners_mk hx hy hk _ _ _ (by decide) (by simp [sgn]; first | done | linarith | (constructor <;> linarith))⟩
      | exact ⟨false, true, true, corners_mk hx hy hk _ _ _ (by decide) (by simp [sgn]; first | done | linarith | (constructor <;> linarith))⟩
      | exact ⟨true, false, false, corners_mk hx hy hk _ _ _ (by decide) (by simp [sgn]; first | done | linarith | (constructor <;> linarith))⟩
      | exact ⟨true, false, true, corners_mk hx hy hk _ _ _ (by decide) (by simp [sgn]; first | done | linarith | (constructor <;> linarith))⟩
      | exact ⟨true, true, false, corners_mk hx hy hk _ _ _ (by decide) (by simp [sgn]; first | done | linarith | (constructor <;> linarith))⟩
      | exact ⟨true, true, true, corners_mk hx hy hk _ _ _ (by decide) (by simp [sgn]; first | done | linarith | (constructor <;> linarith))⟩
  · have p1 : k * a2 < 0 := by nlinarith
    obtain ⟨-, -, d1, d2⟩ := decide_signs' p1
    obtain ⟨d5, d6, -, -⟩ := decide_signs h2'
    simp only [d1, d2, d5, d6]
    rw [if_pos (by decide), if_neg (show ¬ x 2 < x 0 by linarith), if_pos (show y 0 < y 1 by linarith)]
    first
      | exact ⟨false, false, false, corners_mk hx hy hk _ _ _ (by decide) (by simp [sgn]; first | done | linarith | (constructor <;> linarith))⟩
      | exact ⟨false, false, true, corners_mk hx hy hk _ _ _ (by decide) (by simp [sgn]; first | done | linarith | (constructor <;> linarith))⟩
      | exact ⟨false, true, false, corners_mk hx hy hk _ _ _ (by decide) (by simp [sgn]; first | done | linarith | (constructor <;> linarith))⟩
      | exact ⟨false, true, true, corners_mk hx hy hk _ _ _ (by decide) (by simp [sgn]; first | done | linarith | (constructor <;> linarith))⟩
      | exact ⟨true, false, false, corners_mk hx hy hk _ _ _ (by decide) (by simp [sgn]; first | done | linarith | (constructor <;> linarith))⟩
      | exact ⟨true, false, true, corners_mk hx hy hk _ _ _ (by decide) (by simp [sgn]; first | done | linarith | (constructor <;> linarith))⟩
      | exact ⟨true, true, false, corners_mk hx hy hk _ _ _ (by decide) (by simp [sgn]; first | done | linarith | (constructor <;> linarith))⟩
      | exact ⟨true, true, true, corners_mk hx hy hk _ _ _ (by decide) (by simp [sgn]; first | done | linarith | (constructor <;> linarith))⟩
  · have p1 : k * a2 < 0 := by nlinarith
    obtain ⟨-, -, d1, d2⟩ := decide_signs' p1
    obtain ⟨d5, d6, -, -⟩ := decide_signs' h2'
    simp only [d1, d2, d5, d6]
    rw [if_pos (by decide), if_neg (show ¬ x 2 < x 0 by linarith), if_neg (show ¬ y 0 < y 1 by linarith)]
    first
      | exact ⟨false, false, false, corners_mk hx hy hk _ _ _ (by decide) (by simp [sgn]; first | done | linarith | (constructor <;> linarith))⟩
      | exact ⟨false, false, true, corners_mk hx hy hk _ _ _ (by decide) (by simp [sgn]; first | done | linarith | (constructor <;> linarith))⟩
      | exact ⟨false, true, false, corners_mk hx hy hk _ _ _ (by decide) (by simp [sgn]; first | done | linarith | (constructor <;> linarith))⟩
      | exact ⟨false, true, true, corners_mk hx hy hk _ _ _ (by decide) (by simp [sgn]; first | done | linarith | (constructor <;> linarith))⟩
      | exact ⟨true, false, false, corners_mk hx hy hk _ _ _ (by decide) (by simp [sgn]; first | done | linarith | (constructor <;> linarith))⟩
      | exact ⟨true, false, true, corners_mk hx hy hk _ _ _ (by decide) (by simp [sgn]; first | done | linarith | (constructor <;> linarith))⟩
      | exact ⟨true, true, false, corners_mk hx hy hk _ _ _ (by decide) (by simp [sgn]; first | done | linarith | (constructor <;> linarith))⟩
      | exact ⟨true, true, true, corners_mk hx hy hk _ _ _ (by decide) (by simp [sgn]; first | done | linarith | (constructor <;> linarith))⟩
  · have p1 : 0 < k * a2 := by nlinarith
    obtain ⟨-, -, d1, d2⟩ := decide_signs p1
    obtain ⟨d5, d6, -, -⟩ := decide_signs h2'
    simp only [d1, d2, d5, d6]
    rw [if_pos (by decide), if_pos (show x 2 < x 0 by linarith), if_pos (show y 2 < y 3 by linarith)]
    first
      | exact ⟨false, false, false, corners_mk hx hy hk _ _ _ (by decide) (by simp [sgn]; first | done | linarith | (constructor <;> linarith))⟩
      | exact ⟨false, false, true, corners_mk hx hy hk _ _ _ (by decide) (by simp [sgn]; first | done | linarith | (constructor <;> linarith))⟩
      | exact ⟨false, true, false, corners_mk hx hy hk _ _ _ (by decide) (by simp [sgn]; first | done | linarith | (constructor <;> linarith))⟩
      | exact ⟨false, true, true, corners_mk hx hy hk _ _ _ (by decide) (by simp [sgn]; first | done | linarith | (constructor <;> linarith))⟩
      | exact ⟨true, false, false, corners_mk hx hy hk _ _ _ (by decide) (by simp [sgn]; first | done | linarith | (constructor <;> linarith))⟩
      | exact ⟨true, false, true, corners_mk hx hy hk _ _ _ (by decide) (by simp [sgn]; first | done | linarith | (constructor <;> linarith))⟩
      | exact ⟨true, true, false, corners_mk hx hy hk _ _ _ (by decide) (by simp [sgn]; first | done | linarith | (constructor <;> linarith))⟩
      | exact ⟨true, true, true, corners_mk hx hy hk _ _ _ (by decide) (by simp [sgn]; first | done | linarith | (constructor <;> linarith))⟩

theorem pick_oblique {x y : ℕ → ℝ} {a1 a2 k dl : ℝ} (hx : x 1 = x 0 + a1 ∧ x 2 = x 0 + -k * a2 ∧ x 3 = x 0 + a1 + -k * a2)
    (hy : y 1 = y 0 + a2 ∧ y 2 = y 0 + k * a1 ∧ y 3 = y 0 + a2 + k * a1) (hk : k ≠ 0) (h1 : a1 ≠ 0) (h2 : a2 ≠ 0) :
    ∃ α β sw, Corners x y (pickCorners x y dl) α β sw := by
  have r1 := argMin_eq hy.1 hy.2.1 hy.2.2
  have r2 := argMax_eq hx.1 hx.2.1 hx.2.2
  have r3 := argMin_eq hx.1 hx.2.1 hx.2.2
  have r4 := argMax_eq hy.1 hy.2.1 hy.2.2
  rw [neg_mul] at r2 r3
  unfold pickCorners
  simp only [r1, r2, r3, r4]
  rcases lt_or_gt_of_ne hk with hk' | hk' <;> rcases lt_or_gt_of_ne h1 with h1' | h1' <;>
    rcases lt_or_gt_of_ne h2 with h2' | h2'
  all_goals first
    | have p1 : k * a1 < 0 := by nlinarith
      obtain ⟨d1, d2, -, -⟩ := decide_signs' p1
      have q1 := p1
    | have p1 : 0 < k * a1 := by nlinarith
      obtain ⟨d1, d2, -, -⟩ := decide_signs p1
      have q1 := p1
  all_goals first
    | have p2 : k * a2 < 0 := by nlinarith
      obtain ⟨-, -, d3, d4⟩ := decide_signs' p2
      have q2 := p2
    | have p2 : 0 < k * a2 := by nlinarith
      obtain ⟨-, -, d3, d4⟩ := decide_signs p2
      have q2 := p2
  all_goals first
    | obtain ⟨d5, d6, -, -⟩ := decide_signs h1'
      have q3 := h1'
    | obtain ⟨d5, d6, -, -⟩ := decide_signs' h1'
      have q3 := h1'
  all_goals first
    | obtain ⟨d7, d8, -, -⟩ := decide_signs h2'
      have q4 := h2'
    | obtain ⟨d7, d8, -, -⟩ := decide_signs' h2'
      have q4 := h2'
  all_goals
    simp only [d1, d2, d3, d4, d5, d6, d7, d8]
    rw [if_neg (by decide)]
  all_goals first
    | exact ⟨false, false, false, corners_mk hx hy hk _ _ _ (by decide) (by simp [sgn]; constructor <;> [linarith; constructor <;> linarith])⟩
    | exact ⟨false, false, true, corners_mk hx hy hk _ _ _ (by decide) (by simp [sgn]; constructor <;> [linarith; constructor <;> linarith])⟩
    | exact ⟨false, true, false, corners_mk hx hy hk _ _ _ (by decide) (by simp [sgn]; constructor <;> [linarith; constructor <;> linarith])⟩
    | exact ⟨false, true, true, corners_mk hx hy hk _ _ _ (by decide) (by simp [sgn]; constructor <;> [linarith; constructor <;> linarith])⟩
    | exact ⟨true, false, false, corners_mk hx hy hk _ _ _ (by decide) (by simp [sgn]; constructor <;> [linarith; constructor <;> linarith])⟩
    | exact ⟨true, false, true, corners_mk hx hy hk _ _ _ (by decide) (by simp [sgn]; constructor <;> [linarith; constructor <;> linarith])⟩
    | exact ⟨true, true, false, corners_mk hx hy hk _ _ _ (by decide) (by simp [sgn]; constructor <;> [linarith; constructor <;> linarith])⟩
    | exact ⟨true, true, true, corners_mk hx hy hk _ _ _ (by decide) (by simp [sgn]; constructor <;> [linarith; constructor <;> linarith])⟩

/-- The corners are found for every rectangle. -/
theorem pickCorners_spec {x y : ℕ → ℝ} {a1 a2 k dl : ℝ} (hx : x 1 = x 0 + a1 ∧ x 2 = x 0 + -k * a2 ∧ x 3 = x 0 + a1 + -k * a2)
    (hy : y 1 = y 0 + a2 ∧ y 2 = y 0 + k * a1 ∧ y 3 = y 0 + a2 + k * a1) (hk : k ≠ 0) (ha : a1 ≠ 0 ∨ a2 ≠ 0)
    (hdl : 0 < dl) (hdl' : a2 = 0 → dl ≤ |a1|) :
    ∃ α β sw, Corners x y (pickCorners x y dl) α β sw := by
  rcases eq_or_ne a2 0 with h2 | h2
  · exact pick_flat hx hy hk (by tauto) h2 hdl hdl'
  · rcases eq_or_ne a1 0 with h1 | h1
    · exact pick_steep hx hy hk h1 h2 hdl
    · exact pick_oblique hx hy hk h1 h2

theorem arctan_frame {u1 u2 : ℝ} (h : 0 < u1) :
    0 < √(u2 * u2 + u1 * u1) ∧ √(u2 * u2 + u1 * u1) * Real.cos (Real.arctan (u2 / u1)) = u1 ∧
      √(u2 * u2 + u1 * u1) * Real.sin (Real.arctan (u2 / u1)) = u2 := by
  have e : √(1 + (u2 / u1) ^ 2) = √(u2 * u2 + u1 * u1) / u1 := by
    rw [show 1 + (u2 / u1) ^ 2 = (u2 * u2 + u1 * u1) / u1 ^ 2 by field_simp; ring, Real.sqrt_div (by nlinarith [sq_nonneg u2]),
      Real.sqrt_sq h.le]
  have p : 0 < √(u2 * u2 + u1 * u1) := Real.sqrt_pos.2 (by nlinarith [mul_pos h h, mul_self_nonneg u2])
  refine ⟨p, ?_, ?_⟩
  · rw [Real.cos_arctan, e]
    field_simp
  · rw [Real.sin_arctan, e]
    field_simp

/-- Lengths and a rotation that lead from corner `o` to its neighbours `e1` and `e2`. -/
structure Frame (x y : ℕ → ℝ) (o e1 e2 : ℕ) (rot lx ly : ℝ) : Prop where
  posx : 0 < lx
  posy : 0 < ly
  x1 : lx * Real.cos rot = x e1 - x o
  y1 : lx * Real.sin rot = y e1 - y o
  x2 : -ly * Real.sin rot = x e2 - x o
  y2 : ly * Real.cos rot = y e2 - y o

theorem frame_mk {x y : ℕ → ℝ} {o e1 e2 : ℕ} {l : ℝ} (h : 0 < x e1 - x o) (hl : 0 < l)
    (h1 : x e2 - x o = -l * (y e1 - y o)) (h2 : y e2 - y o = l * (x e1 - x o)) :
    Frame x y o e1 e2 (Real.arctan ((y e1 - y o) / (x e1 - x o)))
      (√((y e1 - y o) * (y e1 - y o) + (x e1 - x o) * (x e1 - x o)))
      (√((y e2 - y o) * (y e2 - y o) + (x e2 - x o) * (x e2 - x o))) := by
  obtain ⟨p, c, s⟩ := arctan_frame (u2 := y e1 - y o) h
  have e : √((y e2 - y o) * (y e2 - y o) + (x e2 - x o) * (x e2 - x o)) =
      l * √((y e1 - y o) * (y e1 - y o) + (x e1 - x o) * (x e1 - x o)) := by
    rw [h1, h2, show l * (x e1 - x o) * (l * (x e1 - x o)) + -l * (y e1 - y o) * (-l * (y e1 - y o)) =
      l ^ 2 * ((y e1 - y o) * (y e1 - y o) + (x e1 - x o) * (x e1 - x o)) by ring, Real.sqrt_mul (sq_nonneg l),
      Real.sqrt_sq hl.le]
  rw [e]
  refine ⟨p, mul_pos hl p, c, s, ?_, ?_⟩
  · rw [h1]
    linear_combination -l * s
  · rw [h2]
    linear_combination l * c

theorem frameOf_spec {x y xl il : ℕ → ℝ} {dXL dIL : ℤ} {nI nX : ℕ} {c : ℕ × ℕ × ℕ × ℕ} {α β sw : Bool}
    (h : Corners x y c α β sw)
    (px : ∀ a b, x (idx (!a) (!b)) + x (idx a b) = x (idx (!a) b) + x (idx a (!b)))
    (py : ∀ a b, y (idx (!a) (!b)) + y (idx a b) = y (idx (!a) b) + y (idx a (!b)))
    (hI : ∀ a b, cellsBetween xl il dXL dIL (idx a b) (idx (!a) b) = .ok nI)
    (hX : ∀ a b, cellsBetween xl il dXL dIL (idx a b) (idx a (!b)) = .ok nX) :
    ∃ (α' β' sw' : Bool) (rot lx ly : ℝ), frameOf x y xl il dXL dIL c =
        .ok (idx α' β', rot, (lx, ly), (if sw' then nX else nI, if sw' then nI else nX)) ∧
      Frame x y (idx α' β') (if sw' then idx α' (!β') else idx (!α') β') (if sw' then idx (!α') β' else idx α' (!β'))
        rot lx ly ∧ |rot| ≤ Real.pi / 4 := by
  obtain ⟨hc, right, up, l, hl, w1, w2⟩ := h
  obtain ⟨p, q, r, m⟩ := c
  obtain ⟨hp, hq, hr, hm⟩ : p = _ ∧ q = _ ∧ r = _ ∧ m = _ := by simpa using hc
  simp only at right up w1 w2
  have neg_div' : (y p - y q) / (x p - x q) = (y q - y p) / (x q - x p) := by
    rw [← neg_sub (y q), ← neg_sub (x q), neg_div_neg_eq]
  have rne : x p - x q ≠ 0 := by intro e; linarith
  unfold frameOf
  simp only
  rw [if_neg (show ¬ (x p - x q = 0.0) by norm_num; exact rne), neg_div']
  split
  · rename_i hrot
    have F := frame_mk right hl w1 w2
    refine ⟨α, β, sw, Real.arctan ((y q - y p) / (x q - x p)),
      √((y q - y p) * (y q - y p) + (x q - x p) * (x q - x p)),
      √((y r - y p) * (y r - y p) + (x r - x p) * (x r - x p)), ?_, ?_, by norm_num at hrot; linarith⟩
    rotate_left
    · cases sw <;> simp only [if_true, if_false, Bool.false_eq_true] at hq hr ⊢ <;> rw [← hp, ← hq, ← hr] <;> exact F
    · have c1 : cellsBetween xl il dXL dIL p q = .ok (if sw then nX else nI) := by
        rw [hp, hq]; cases sw <;> simp [hI, hX]
      have c2 : cellsBetween xl il dXL dIL p r = .ok (if sw then nI else nX) := by
        rw [hp, hr]; cases sw <;> simp [hI, hX]
      simp only [Res.monad_bind_eq]
      rw [c1, c2, Res.bind_ok, Res.bind_ok, ← hp]
      simp only [Res.ok.injEq, Prod.mk.injEq, true_and]
      exact ⟨⟨congrArg Real.sqrt (by ring), congrArg Real.sqrt (by ring)⟩, by cases sw <;> simp⟩
  · rename_i hrot
    have u2 : 0 < y q - y p := by
      rcases up.lt_or_eq with h | h
      · exact h
      · exfalso
        apply hrot
        rw [← h, zero_div, Real.arctan_zero, abs_zero]
        positivity
    have mx : x m - x r = x q - x p := by
      have := px α β
      rw [hm, hr, hq, hp]
      cases sw <;> simp only [if_true, if_false, Bool.false_eq_true] <;> linarith
    have my : y m - y r = y q - y p := by
      have := py α β
      rw [hm, hr, hq, hp]
      cases sw <;> simp only [if_true, if_false, Bool.false_eq_true] <;> linarith
    have ex : 0 < x p - x r := by
      have := mul_pos hl u2
      linarith
    have F := frame_mk (x := x) (y := y) (o := r) (e1 := p) (e2 := m) (l := 1 / l) ex (by positivity)
      (by rw [mx]; field_simp; linarith) (by rw [my]; field_simp; linarith)
    have bound : |Real.arctan ((y p - y r) / (x p - x r))| ≤ Real.pi / 4 := by
      have hu : 0 < (y q - y p) / (x q - x p) := div_pos u2 right
      have e : (y p - y r) / (x p - x r) = -((y q - y p) / (x q - x p))⁻¹ := by
        rw [inv_div, ← neg_div, div_eq_div_iff ex.ne' u2.ne', ← neg_sub (y r), w2, ← neg_sub (x r), w1]
        ring
      have p0 := Real.arctan_pos.2 hu
      have p1 := Real.arctan_lt_pi_div_two ((y q - y p) / (x q - x p))
      rw [abs_of_pos p0] at hrot
      norm_num at hrot
      rw [e, Real.arctan_neg, abs_neg, Real.arctan_inv_of_pos hu, abs_of_pos (by linarith)]
      linarith
    rw [if_pos ex]
    refine ⟨if sw then !α else α, if sw then β else !β, !sw, Real.arctan ((y p - y r) / (x p - x r)),
      √((y p - y r) * (y p - y r) + (x p - x r) * (x p - x r)),
      √((y m - y r) * (y m - y r) + (x m - x r) * (x m - x r)), ?_, ?_, bound⟩
    rotate_left
    · cases sw <;> simp only [if_true, if_false, Bool.false_eq_true, Bool.not_true, Bool.not_false, Bool.not_not] at hr ⊢ <;>
        rw [← hp, ← hm, ← hr] <;> exact F
    · have c1 : cellsBetween xl il dXL dIL p r = .ok (if sw then nI else nX) := by
        rw [hp, hr]; cases sw <;> simp [hI, hX]
      have c2 : cellsBetween xl il dXL dIL m r = .ok (if sw then nX else nI) := by
        have a1 := hI (!α) (!β)
        have a2 := hX (!α) (!β)
        rw [Bool.not_not] at a1 a2
        rw [hm, hr]; cases sw <;> simp [a1, a2]
      simp only [Res.monad_bind_eq]
      rw [c1, c2, Res.bind_ok, Res.bind_ok]
      have o : r = idx (if sw then !α else α) (if sw then β else !β) := by rw [hr]; cases sw <;> simp
      rw [← o]
      cases sw <;> simp

theorem toSize_nat {n : ℕ} (h : n < 2 ^ 64) : toSize (n : ℝ) = .ok n := by
  have e : truncZ (n : ℝ) = n := by simp [truncZ]
  unfold toSize
  rw [e, if_pos ⟨by positivity, by exact_mod_cast h⟩, Int.toNat_natCast]

theorem cells_IL {minIL maxIL minXL maxXL dIL dXL : ℤ} {n : ℕ} (hI : 0 < dIL) (hX : dXL ≠ 0) (h : maxIL = minIL + n * dIL)
    (hn : n + 1 < 2 ^ 64) (a b : Bool) :
    cellsBetween (cornerXL minXL maxXL dXL) (cornerIL minIL maxIL dIL) dXL dIL (idx a b) (idx (!a) b) = .ok (n + 1) := by
  have hI' : (0 : ℝ) < dIL := by exact_mod_cast hI
  have hX' : (dXL : ℝ) ≠ 0 := by exact_mod_cast hX
  have e : cornerXL minXL maxXL dXL (idx a b) - cornerXL minXL maxXL dXL (idx (!a) b) = 0 := by
    cases a <;> cases b <;> simp [cornerXL, idx]
  have e' : |cornerIL minIL maxIL dIL (idx a b) - cornerIL minIL maxIL dIL (idx (!a) b)| = (n + 1 : ℕ) * (dIL : ℝ) := by
    have p : (0 : ℝ) ≤ (n + 1 : ℕ) * (dIL : ℝ) := by positivity
    rw [← abs_of_nonneg p]
    cases a <;> cases b <;> simp only [cornerIL, idx, h] <;> norm_num
    all_goals first
      | (rw [← abs_mul, abs_eq_abs]; left; ring1)
      | (rw [← abs_mul, abs_eq_abs]; right; ring1)
  unfold cellsBetween
  simp only [Res.monad_bind_eq]
  have z := toSize_nat (n := 0) (by norm_num)
  rw [Nat.cast_zero] at z
  rw [e, abs_zero, divD_eq hX', Res.bind_ok, zero_div, z, Res.bind_ok, if_pos rfl, e', divD_eq hI'.ne', Res.bind_ok,
    mul_div_assoc, div_self hI'.ne', mul_one, toSize_nat hn]

theorem cells_XL {minIL maxIL minXL maxXL dIL dXL : ℤ} {n : ℕ} (hX : 0 < dXL) (h : maxXL = minXL + n * dXL)
    (hn : n + 1 < 2 ^ 64) (a b : Bool) :
    cellsBetween (cornerXL minXL maxXL dXL) (cornerIL minIL maxIL dIL) dXL dIL (idx a b) (idx a (!b)) = .ok (n + 1) := by
  have hX' : (0 : ℝ) < dXL := by exact_mod_cast hX
  have e' : |cornerXL minXL maxXL dXL (idx a b) - cornerXL minXL maxXL dXL (idx a (!b))| = (n + 1 : ℕ) * (dXL : ℝ) := by
    have p : (0 : ℝ) ≤ (n + 1 : ℕ) * (dXL : ℝ) := by positivity
    rw [← abs_of_nonneg p]
    cases a <;> cases b <;> simp only [cornerXL, idx, h] <;> norm_num
    all_goals first
      | (rw [← abs_mul, abs_eq_abs]; left; ring1)
      | (rw [← abs_mul, abs_eq_abs]; right; ring1)
  unfold cellsBetween
  simp only [Res.monad_bind_eq]
  rw [e', divD_eq hX'.ne', Res.bind_ok,
    mul_div_assoc, div_self hX'.ne', mul_one, toSize_nat hn, Res.bind_ok, if_neg (by omega)]

theorem corner_coord (r a b : ℝ) (ilRef xlRef : ℤ) {minIL maxIL minXL maxXL dIL dXL : ℤ} {nI nX : ℕ} (eI : maxIL = minIL + nI * dIL)
    (eX : maxXL = minXL + nX * dXL) {x : ℕ → ℝ}
    (hx : x = cornerAt (r - xlRef * b - ilRef * a) b a (cornerXL minXL maxXL dXL) (cornerIL minIL maxIL dIL))
    (α β sw : Bool) (s t : ℝ) :
    x (idx α β) + s / ((if sw then nX + 1 else nI + 1 : ℕ) : ℕ) *
        (x (if sw then idx α (!β) else idx (!α) β) - x (idx α β)) + t / ((if sw then nI + 1 else nX + 1 : ℕ) : ℕ) *
        (x (if sw then idx (!α) β else idx α (!β)) - x (idx α β)) =
      r + ((if α then maxIL else minIL : ℤ) + ((if α then -1 else 1) * dIL : ℤ) * ((if !sw then s else t) - 1 / 2) - ilRef) * a +
        ((if β then maxXL else minXL : ℤ) + ((if β then -1 else 1) * dXL : ℤ) * ((if !sw then t else s) - 1 / 2) - xlRef) * b := by
  have cI : (maxIL : ℝ) = minIL + nI * dIL := by rw [eI]; push_cast; ring
  have cX : (maxXL : ℝ) = minXL + nX * dXL := by rw [eX]; push_cast; ring
  have q1 : (nI : ℝ) + 1 ≠ 0 := by positivity
  have q2 : (nX : ℝ) + 1 ≠ 0 := by positivity
  have h5 : (0.5 : ℝ) = 1 / 2 := by norm_num
  have at0 : x 0 = r + (minIL - 1 / 2 * dIL - ilRef) * a + (minXL - 1 / 2 * dXL - xlRef) * b := by
    rw [hx]; simp only [cornerAt, cornerIL, cornerXL, h5]; simp; ring
  have at1 : x 1 = x 0 + (nI + 1) * dIL * a := by
    rw [hx]; simp only [cornerAt, cornerIL, cornerXL, h5, cI]; simp; ring
  have at2 : x 2 = x 0 + (nX + 1) * dXL * b := by
    rw [hx]; simp only [cornerAt, cornerIL, cornerXL, h5, cX]; simp; ring
  have at3 : x 3 = x 0 + (nI + 1) * dIL * a + (nX + 1) * dXL * b := by
    rw [hx]; simp only [cornerAt, cornerIL, cornerXL, h5, cI, cX]; simp; ring
  cases α <;> cases β <;> cases sw <;> simp only [idx, Bool.not_true, Bool.not_false, if_true, if_false, Bool.false_eq_true,
    zero_add, add_zero, Nat.reduceAdd, at1, at2, at3, Nat.cast_add, Nat.cast_one, cI, cX, Int.cast_mul, Int.cast_neg,
    Int.cast_one] <;> rw [at0] <;> field_simp <;> ring

/-- The steps are the inverse of the directions. -/
theorem stepsOf_spec {aI aX bI bX : ℝ} (h : aI * bX - aX * bI ≠ 0) :
    stepsOf aI aX bI bX = .ok (-bI / (aI * bX - aX * bI), bX / (aI * bX - aX * bI)) := by
  unfold stepsOf
  simp only [Res.monad_bind_eq]
  split
  · rename_i hb
    have d : aX - aI * bX / bI ≠ 0 := by
      intro e
      apply h
      field_simp at e
      linarith
    rw [divD_eq hb, Res.bind_ok, divD_eq d, Res.bind_ok, divD_eq hb, Res.bind_ok]
    have e : 1 / (aX - aI * bX / bI) = -bI / (aI * bX - aX * bI) := by
      rw [div_eq_div_iff d h]
      field_simp
      ring
    rw [e]
    congr 2
    field_simp
  · rename_i hb
    have hb' : bI = 0 := by tauto
    subst hb'
    have ha : aI ≠ 0 := by rintro rfl; simp at h
    have hX : bX ≠ 0 := by rintro rfl; simp at h
    rw [divD_eq ha, Res.bind_ok]
    simp
    field_simp

end SegyGeometry
end Verif
