import Verif.Lemmas.LineLine
import Verif.Props.Line

/-!
# C110: the nearest points of two lines
-/

namespace Verif.Geo

/-- C110: `FindDistance` finds the least distance of the points of two lines, rays or segments in any combination, and two points at that
distance, if the line it is given has two different points. The line itself need not. -/
theorem findNearest_partial (l m : Line) (h : m.p1 ≠ m.p2) :
    ∃ p r, l.findNearest m = .ok (euclid p r, p, r) ∧ l.Has p ∧ m.Has r ∧ ∀ p' r', l.Has p' → m.Has r' → euclid p r ≤ euclid p' r' := by
  set u := l.p2 - l.p1 with hu
  set v := m.p2 - m.p1 with hv
  set w := l.p1 - m.p1 with hw
  have hc : 0 < v.dot v := by
    by_contra hcon
    unfold Pt.dot at hcon
    obtain ⟨h1, h2, h3⟩ := three_sq (a := v.x) (b := v.y) (c := v.z)
      (by nlinarith [mul_self_nonneg v.x, mul_self_nonneg v.y, mul_self_nonneg v.z])
    apply h
    rw [hv] at h1 h2 h3
    simp only [Pt.sub_x, Pt.sub_y, Pt.sub_z] at h1 h2 h3
    exact Pt.ext (by linarith) (by linarith) (by linarith)
  have ha : 0 ≤ u.dot u := by
    unfold Pt.dot
    nlinarith [mul_self_nonneg u.x, mul_self_nonneg u.y, mul_self_nonneg u.z]
  have hL : u.dot u * v.dot v - u.dot v * u.dot v = (u.x * v.y - u.y * v.x) ^ 2 + (u.y * v.z - u.z * v.y) ^ 2 + (u.z * v.x - u.x * v.z) ^ 2 := by
    unfold Pt.dot
    ring
  have hD : 0 ≤ u.dot u * v.dot v - u.dot v * u.dot v := by
    rw [hL]
    positivity
  have hp : u.dot u * v.dot v - u.dot v * u.dot v = 0 → v.dot v * u.dot w = u.dot v * v.dot w := by
    intro hz
    rw [hL] at hz
    obtain ⟨h1, h2, h3⟩ := three_sq hz
    unfold Pt.dot
    linear_combination (w.x * v.y - w.y * v.x) * h1 + (w.y * v.z - w.z * v.y) * h2 + (w.z * v.x - w.x * v.z) * h3
  have h0 : u.dot u = 0 → u.dot v = 0 ∧ u.dot w = 0 := by
    intro hz
    unfold Pt.dot at hz
    obtain ⟨h1, h2, h3⟩ := three_sq (a := u.x) (b := u.y) (c := u.z) (by linarith [hz])
    unfold Pt.dot
    rw [h1, h2, h3]
    constructor <;> ring
  obtain ⟨s, t, ⟨h1, h2⟩, h3, h4, h5, h6⟩ := near_spec (e1 := l.end1) (e2 := l.end2) (f1 := m.end1) (f2 := m.end2) ha hc hD hp h0
  have hF : ∀ s t, ((l.at s).x - (m.at t).x) ^ 2 + ((l.at s).y - (m.at t).y) ^ 2 + ((l.at s).z - (m.at t).z) ^ 2 =
      w.dot w + u.dot u * s ^ 2 + v.dot v * t ^ 2 - 2 * u.dot v * s * t + 2 * u.dot w * s - 2 * v.dot w * t := by
    intro s t
    rw [hu, hv, hw]
    unfold Line.at Pt.dot
    simp only [Pt.sub_x, Pt.sub_y, Pt.sub_z]
    ring
  refine ⟨l.at s, m.at t, ?_, Line.has_iff.2 ⟨s, h3, rfl⟩, Line.has_iff.2 ⟨t, h4, rfl⟩, fun p' r' hp' hr' => ?_⟩
  · unfold Line.findNearest
    simp only
    rw [← hu, ← hv, ← hw, h1, h2]
    simp only [Res.monad_bind_eq, Res.bind_ok]
    rw [hu, hv, l.at_eq, m.at_eq, Pt.norm_sub]
  · obtain ⟨s', hs', rfl⟩ := Line.has_iff.1 hp'
    obtain ⟨t', ht', rfl⟩ := Line.has_iff.1 hr'
    apply euclid_le
    rw [hF, hF]
    have k1 := h5 s' hs'
    have k2 := h6 t' ht'
    have k3 : 0 ≤ u.dot u * (s' - s) ^ 2 - 2 * u.dot v * (s' - s) * (t' - t) + v.dot v * (t' - t) ^ 2 := by
      have e1 : v.dot v * (u.dot u * (s' - s) ^ 2 - 2 * u.dot v * (s' - s) * (t' - t) + v.dot v * (t' - t) ^ 2) =
          (u.dot u * v.dot v - u.dot v * u.dot v) * (s' - s) ^ 2 + (v.dot v * (t' - t) - u.dot v * (s' - s)) ^ 2 := by ring
      have e2 : 0 ≤ v.dot v * (u.dot u * (s' - s) ^ 2 - 2 * u.dot v * (s' - s) * (t' - t) + v.dot v * (t' - t) ^ 2) := by
        rw [e1]
        positivity
      exact nonneg_of_mul_nonneg_right e2 hc
    linarith

/-- C110: for a line given as one point twice, the answer is the distance of that point to the first point of the line. -/
theorem findNearest_degenerate (l m : Line) (h : m.p1 = m.p2) : l.findNearest m = .ok (euclid l.p1 m.p1, l.p1, m.p1) := by
  have hv : m.p2 - m.p1 = ⟨0, 0, 0⟩ := by
    rw [h]
    ext <;> simp
  have e0 : ∀ p : Pt, p.dot ⟨0, 0, 0⟩ = 0 := fun p => by unfold Pt.dot; simp
  have e1 : ∀ p : Pt, Pt.dot ⟨0, 0, 0⟩ p = 0 := fun p => by unfold Pt.dot; simp
  have e2 : Line.quotOrZero 0 1 = .ok 0 := by rw [quotOrZero_ok one_ne_zero, zero_div]
  have e3 : Line.quotOrZero 0 0 = .ok 0 := by
    unfold Line.quotOrZero
    rw [if_pos (by norm_num)]
    norm_num
  unfold Line.findNearest
  simp only
  rw [hv]
  simp only [e0, e1]
  unfold Line.nearStart
  simp only [mul_zero, sub_self, if_true]
  unfold Line.nearEnd
  simp only [lt_irrefl, and_false, if_false, gt_iff_lt, e2, e3, Res.monad_bind_eq, Res.bind_ok]
  have e4 : l.p1 + (0 : ℝ) * (l.p2 - l.p1) = l.p1 := by ext <;> simp
  have e5 : m.p1 + (0 : ℝ) * (⟨0, 0, 0⟩ : Pt) = m.p1 := by ext <;> simp
  rw [e4, e5, Pt.norm_sub]

/-- C110, violated: the distance of the segment from (0, 0, 0) to (2, 0, 0) to its own end, given as a segment of no length, is found to be 2. -/
theorem findNearest_violation :
    (Line.segment ⟨0, 0, 0⟩ ⟨2, 0, 0⟩).findNearest (Line.segment ⟨2, 0, 0⟩ ⟨2, 0, 0⟩) = .ok (2, ⟨0, 0, 0⟩, ⟨2, 0, 0⟩) ∧
      (Line.segment ⟨0, 0, 0⟩ ⟨2, 0, 0⟩).Has ⟨2, 0, 0⟩ := by
  refine ⟨?_, 1, fun _ => zero_le_one, fun _ => le_rfl, ?_⟩
  · rw [findNearest_degenerate _ _ rfl]
    unfold Line.segment euclid
    norm_num
    rw [show (4 : ℝ) = 2 ^ 2 by norm_num, Real.sqrt_sq (by norm_num)]
  · unfold Line.segment
    ext <;> norm_num

/-- The hypotheses are met: two parallel segments that overlap in part. -/
theorem concrete_findNearest : ∃ p r, (Line.segment ⟨0, 0, 0⟩ ⟨2, 0, 0⟩).findNearest (Line.segment ⟨1, 1, 0⟩ ⟨3, 1, 0⟩) = .ok (1, p, r) := by
  obtain ⟨p, r, h1, h2, h3, h4⟩ := findNearest_partial (Line.segment ⟨0, 0, 0⟩ ⟨2, 0, 0⟩) (Line.segment ⟨1, 1, 0⟩ ⟨3, 1, 0⟩)
    (fun h => by have := congrArg Pt.x h; norm_num [Line.segment] at this)
  refine ⟨p, r, ?_⟩
  rw [h1]
  congr 2
  apply le_antisymm
  · have := h4 ⟨1, 0, 0⟩ ⟨1, 1, 0⟩ ⟨1 / 2, by norm_num, by norm_num, by ext <;> norm_num [Line.segment]⟩
      ⟨0, by norm_num, by norm_num, by ext <;> norm_num [Line.segment]⟩
    refine le_trans this ?_
    unfold euclid
    norm_num
  · obtain ⟨s, -, -, rfl⟩ := h2
    obtain ⟨t, -, -, rfl⟩ := h3
    unfold euclid Line.segment
    apply Real.le_sqrt_of_sq_le
    norm_num
    positivity

end Verif.Geo
