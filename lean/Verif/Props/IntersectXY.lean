import Verif.Props.LineLine

/-!
# C111: where two segments cross, seen from above
-/

namespace Verif.Geo

/-- A point of the plane on the straight line through two different points has a parameter. -/
theorem exists_param {x1 y1 x2 y2 x y : ℝ} (h : (x2 - x1) ^ 2 + (y2 - y1) ^ 2 ≠ 0) (he : (x2 - x1) * (y - y1) = (y2 - y1) * (x - x1)) :
    ∃ t : ℝ, x = x1 + t * (x2 - x1) ∧ y = y1 + t * (y2 - y1) := by
  refine ⟨((x2 - x1) * (x - x1) + (y2 - y1) * (y - y1)) / ((x2 - x1) ^ 2 + (y2 - y1) ^ 2), ?_, ?_⟩
  · field_simp
    linear_combination (-(y2 - y1)) * he
  · field_simp
    linear_combination (x2 - x1) * he

theorem lineXY_has {l : Line} {p : Pt} : l.lineXY.Has p ↔ ∃ t : ℝ, (l.end1 = true → 0 ≤ t) ∧ (l.end2 = true → t ≤ 1) ∧
    p.x = l.p1.x + t * (l.p2.x - l.p1.x) ∧ p.y = l.p1.y + t * (l.p2.y - l.p1.y) ∧ p.z = 0 := by
  constructor
  · rintro ⟨t, h1, h2, rfl⟩
    exact ⟨t, h1, h2, rfl, rfl, by simp [Line.lineXY]⟩
  · rintro ⟨t, h1, h2, h3, h4, h5⟩
    exact ⟨t, h1, h2, Pt.ext h3 h4 (by rw [h5]; simp [Line.lineXY])⟩

theorem lineXY_findParameter (l : Line) (h : (l.p2.x - l.p1.x) ^ 2 + (l.p2.y - l.p1.y) ^ 2 ≠ 0) (t : ℝ) :
    l.lineXY.findParameter ⟨l.p1.x + t * (l.p2.x - l.p1.x), l.p1.y + t * (l.p2.y - l.p1.y), 0⟩ = .ok t := by
  have h1 := (findParameter_spec l.lineXY).1 (fun hc => h (by
    have e1 := congrArg Pt.x hc
    have e2 := congrArg Pt.y hc
    simp only [Line.lineXY] at e1 e2
    rw [e1, e2]
    ring)) t
  rw [← h1]
  congr 1
  ext <;> simp [Line.lineXY]

/-- The solution of the two equations. -/
theorem cross_point (l m : Line) (h : (l.p2.x - l.p1.x) * (m.p2.y - m.p1.y) ≠ (l.p2.y - l.p1.y) * (m.p2.x - m.p1.x)) :
    ∃ t1 t2 : ℝ, ∃ x y : ℝ, x = l.p1.x + t1 * (l.p2.x - l.p1.x) ∧ y = l.p1.y + t1 * (l.p2.y - l.p1.y) ∧
      x = m.p1.x + t2 * (m.p2.x - m.p1.x) ∧ y = m.p1.y + t2 * (m.p2.y - m.p1.y) ∧
      (∀ s1 s2 : ℝ, l.p1.x + s1 * (l.p2.x - l.p1.x) = m.p1.x + s2 * (m.p2.x - m.p1.x) →
        l.p1.y + s1 * (l.p2.y - l.p1.y) = m.p1.y + s2 * (m.p2.y - m.p1.y) → s1 = t1 ∧ s2 = t2) ∧
      l.intersectXY m false = .ok (if t1 ≤ 1 ∧ 0 ≤ t1 ∧ t2 ≤ 1 ∧ 0 ≤ t2 then some ⟨x, y, 0⟩ else none) ∧
      l.intersectXY m true = .ok (if t2 ≤ 1 ∧ 0 ≤ t2 then some ⟨x, y, 0⟩ else none) := by
  have hl : (l.p2.x - l.p1.x) ^ 2 + (l.p2.y - l.p1.y) ^ 2 ≠ 0 := by
    intro hc
    apply h
    have e1 : l.p2.x - l.p1.x = 0 := by nlinarith [sq_nonneg (l.p2.x - l.p1.x), sq_nonneg (l.p2.y - l.p1.y)]
    have e2 : l.p2.y - l.p1.y = 0 := by nlinarith [sq_nonneg (l.p2.x - l.p1.x), sq_nonneg (l.p2.y - l.p1.y)]
    rw [e1, e2]
    ring
  have hm : (m.p2.x - m.p1.x) ^ 2 + (m.p2.y - m.p1.y) ^ 2 ≠ 0 := by
    intro hc
    apply h
    have e1 : m.p2.x - m.p1.x = 0 := by nlinarith [sq_nonneg (m.p2.x - m.p1.x), sq_nonneg (m.p2.y - m.p1.y)]
    have e2 : m.p2.y - m.p1.y = 0 := by nlinarith [sq_nonneg (m.p2.x - m.p1.x), sq_nonneg (m.p2.y - m.p1.y)]
    rw [e1, e2]
    ring
  set den := (l.p1.y - l.p2.y) * (m.p2.x - m.p1.x) - (l.p2.x - l.p1.x) * (m.p1.y - m.p2.y) with hden
  have hd : den ≠ 0 := by
    rw [hden]
    intro hc
    apply h
    linarith
  set c1 := l.p1.y * l.p2.x - l.p2.y * l.p1.x with hc1
  set c2 := m.p1.y * m.p2.x - m.p2.y * m.p1.x with hc2
  set x := (c1 * (m.p2.x - m.p1.x) - (l.p2.x - l.p1.x) * c2) / den with hx
  set y := ((l.p1.y - l.p2.y) * c2 - c1 * (m.p1.y - m.p2.y)) / den with hy
  have hx' : x * den = c1 * (m.p2.x - m.p1.x) - (l.p2.x - l.p1.x) * c2 := div_mul_cancel₀ _ hd
  have hy' : y * den = (l.p1.y - l.p2.y) * c2 - c1 * (m.p1.y - m.p2.y) := div_mul_cancel₀ _ hd
  obtain ⟨t1, h1, h2⟩ := exists_param (x := x) (y := y) hl (by
    apply mul_right_cancel₀ hd
    have : (l.p2.x - l.p1.x) * (y - l.p1.y) * den - (l.p2.y - l.p1.y) * (x - l.p1.x) * den =
      (l.p2.x - l.p1.x) * (y * den) - (l.p2.y - l.p1.y) * (x * den) - (l.p2.x - l.p1.x) * l.p1.y * den + (l.p2.y - l.p1.y) * l.p1.x * den := by ring
    rw [← sub_eq_zero, this, hx', hy', hden, hc1, hc2]
    ring)
  obtain ⟨t2, h3, h4⟩ := exists_param (x := x) (y := y) hm (by
    apply mul_right_cancel₀ hd
    have : (m.p2.x - m.p1.x) * (y - m.p1.y) * den - (m.p2.y - m.p1.y) * (x - m.p1.x) * den =
      (m.p2.x - m.p1.x) * (y * den) - (m.p2.y - m.p1.y) * (x * den) - (m.p2.x - m.p1.x) * m.p1.y * den + (m.p2.y - m.p1.y) * m.p1.x * den := by ring
    rw [← sub_eq_zero, this, hx', hy', hden, hc1, hc2]
    ring)
  have f1 : l.lineXY.findParameter ⟨x, y, 0.0⟩ = .ok t1 := by
    rw [← lineXY_findParameter l hl t1, ← h1, ← h2]
    norm_num
  have f2 : m.lineXY.findParameter ⟨x, y, 0.0⟩ = .ok t2 := by
    rw [← lineXY_findParameter m hm t2, ← h3, ← h4]
    norm_num
  refine ⟨t1, t2, x, y, h1, h2, h3, h4, fun s1 s2 k1 k2 => ?_, ?_, ?_⟩
  · have k3 : (s1 - t1) * (l.p2.x - l.p1.x) = (s2 - t2) * (m.p2.x - m.p1.x) := by linarith
    have k4 : (s1 - t1) * (l.p2.y - l.p1.y) = (s2 - t2) * (m.p2.y - m.p1.y) := by linarith
    constructor
    · have : (s1 - t1) * den = 0 := by
        rw [hden]
        linear_combination (m.p2.y - m.p1.y) * k3 - (m.p2.x - m.p1.x) * k4
      rcases mul_eq_zero.1 this with h' | h'
      · linarith
      · exact absurd h' hd
    · have : (s2 - t2) * den = 0 := by
        rw [hden]
        linear_combination (l.p2.y - l.p1.y) * k3 - (l.p2.x - l.p1.x) * k4
      rcases mul_eq_zero.1 this with h' | h'
      · linarith
      · exact absurd h' hd
  · unfold Line.intersectXY
    simp only
    rw [if_pos hd, fdiv_ok hd, fdiv_ok hd]
    simp only [Res.monad_bind_eq, Res.bind_ok, Bool.not_false, if_true]
    rw [← hx, ← hy, f1, f2]
    simp only [Res.bind_ok]
    norm_num
    split_ifs <;> rfl
  · unfold Line.intersectXY
    simp only
    rw [if_pos hd, fdiv_ok hd, fdiv_ok hd]
    simp only [Res.monad_bind_eq, Res.bind_ok, Bool.not_true, if_false, Bool.false_eq_true]
    rw [← hx, ← hy, f2]
    simp only [Res.bind_ok]
    norm_num
    split_ifs <;> rfl

/-- C111: for two segments that are not parallel, seen from above, `IntersectXY` finds their common point there, and only that. -/
theorem intersectXY_partial (l m : Line) (hl : l.end1 = true ∧ l.end2 = true) (hm : m.end1 = true ∧ m.end2 = true)
    (h : (l.p2.x - l.p1.x) * (m.p2.y - m.p1.y) ≠ (l.p2.y - l.p1.y) * (m.p2.x - m.p1.x)) :
    ∃ o, l.intersectXY m false = .ok o ∧ ∀ p : Pt, o = some p ↔ l.lineXY.Has p ∧ m.lineXY.Has p := by
  obtain ⟨t1, t2, x, y, h1, h2, h3, h4, h5, h6, -⟩ := cross_point l m h
  refine ⟨_, h6, fun p => ?_⟩
  constructor
  · intro hp
    split_ifs at hp with hc
    cases hp
    exact ⟨lineXY_has.2 ⟨t1, fun _ => hc.2.1, fun _ => hc.1, h1, h2, rfl⟩, lineXY_has.2 ⟨t2, fun _ => hc.2.2.2, fun _ => hc.2.2.1, h3, h4, rfl⟩⟩
  · rintro ⟨ha, hb⟩
    obtain ⟨s1, k1, k2, k3, k4, k5⟩ := lineXY_has.1 ha
    obtain ⟨s2, k6, k7, k8, k9, -⟩ := lineXY_has.1 hb
    obtain ⟨rfl, rfl⟩ := h5 s1 s2 (by linarith) (by linarith)
    rw [if_pos ⟨k2 hl.2, k1 hl.1, k7 hm.2, k6 hm.1⟩]
    congr 1
    exact Pt.ext (by rw [h1, k3]) (by rw [h2, k4]) k5.symm

/-- C111: with `infinite`, the common point of the whole line and the segment given, seen from above. -/
theorem intersectXY_infinite (l m : Line) (hl : l.end1 = false ∧ l.end2 = false) (hm : m.end1 = true ∧ m.end2 = true)
    (h : (l.p2.x - l.p1.x) * (m.p2.y - m.p1.y) ≠ (l.p2.y - l.p1.y) * (m.p2.x - m.p1.x)) :
    ∃ o, l.intersectXY m true = .ok o ∧ ∀ p : Pt, o = some p ↔ l.lineXY.Has p ∧ m.lineXY.Has p := by
  obtain ⟨t1, t2, x, y, h1, h2, h3, h4, h5, -, h6⟩ := cross_point l m h
  refine ⟨_, h6, fun p => ?_⟩
  constructor
  · intro hp
    split_ifs at hp with hc
    cases hp
    exact ⟨lineXY_has.2 ⟨t1, fun h => (by rw [hl.1] at h; cases h), fun h => (by rw [hl.2] at h; cases h), h1, h2, rfl⟩,
      lineXY_has.2 ⟨t2, fun _ => hc.2, fun _ => hc.1, h3, h4, rfl⟩⟩
  · rintro ⟨ha, hb⟩
    obtain ⟨s1, k1, k2, k3, k4, k5⟩ := lineXY_has.1 ha
    obtain ⟨s2, k6, k7, k8, k9, -⟩ := lineXY_has.1 hb
    obtain ⟨rfl, rfl⟩ := h5 s1 s2 (by linarith) (by linarith)
    rw [if_pos ⟨k7 hm.2, k6 hm.1⟩]
    congr 1
    exact Pt.ext (by rw [h1, k3]) (by rw [h2, k4]) k5.symm

/-- C111: parallel lines, seen from above, never have a common point according to `IntersectXY`. -/
theorem intersectXY_parallel (l m : Line) (i : Bool)
    (h : (l.p2.x - l.p1.x) * (m.p2.y - m.p1.y) = (l.p2.y - l.p1.y) * (m.p2.x - m.p1.x)) : l.intersectXY m i = .ok none := by
  unfold Line.intersectXY
  simp only
  rw [if_neg (by push Not; linarith)]

/-- C111, violated: two segments of one line that share a third of it have no common point. -/
theorem intersectXY_violation_overlap :
    (Line.segment ⟨0, 0, 0⟩ ⟨2, 0, 0⟩).intersectXY (Line.segment ⟨1, 0, 0⟩ ⟨3, 0, 0⟩) = .ok none ∧
      (Line.segment ⟨0, 0, 0⟩ ⟨2, 0, 0⟩).Has ⟨1, 0, 0⟩ ∧ (Line.segment ⟨1, 0, 0⟩ ⟨3, 0, 0⟩).Has ⟨1, 0, 0⟩ := by
  refine ⟨intersectXY_parallel _ _ _ (by norm_num [Line.segment]), ⟨1 / 2, by norm_num, by norm_num, ?_⟩, 0, by norm_num, by norm_num, ?_⟩ <;>
  · ext <;> norm_num [Line.segment]

/-- C111, violated: a line without ends and a segment that crosses it have no common point, for the line is taken to end at its two points. -/
theorem intersectXY_violation_infinite :
    (⟨⟨0, 0, 0⟩, ⟨1, 0, 0⟩, false, false⟩ : Line).intersectXY (Line.segment ⟨2, -1, 0⟩ ⟨2, 1, 0⟩) = .ok none ∧
      (⟨⟨0, 0, 0⟩, ⟨1, 0, 0⟩, false, false⟩ : Line).Has ⟨2, 0, 0⟩ ∧ (Line.segment ⟨2, -1, 0⟩ ⟨2, 1, 0⟩).Has ⟨2, 0, 0⟩ := by
  refine ⟨?_, ⟨2, by simp, by simp, by ext <;> norm_num⟩, 1 / 2, by norm_num, by norm_num, by ext <;> norm_num [Line.segment]⟩
  obtain ⟨t1, t2, x, y, h1, h2, h3, h4, h5, h6, -⟩ := cross_point (⟨⟨0, 0, 0⟩, ⟨1, 0, 0⟩, false, false⟩ : Line)
    (Line.segment ⟨2, -1, 0⟩ ⟨2, 1, 0⟩) (by norm_num [Line.segment])
  rw [h6, if_neg]
  rintro ⟨h7, -⟩
  norm_num [Line.segment] at h1 h3
  linarith

/-- The hypotheses are met: the diagonals of a square. -/
theorem concrete_intersectXY :
    (Line.segment ⟨0, 0, 5⟩ ⟨2, 2, 5⟩).intersectXY (Line.segment ⟨0, 2, 7⟩ ⟨2, 0, 7⟩) = .ok (some ⟨1, 1, 0⟩) := by
  obtain ⟨o, h1, h2⟩ := intersectXY_partial (Line.segment ⟨0, 0, 5⟩ ⟨2, 2, 5⟩) (Line.segment ⟨0, 2, 7⟩ ⟨2, 0, 7⟩) ⟨rfl, rfl⟩ ⟨rfl, rfl⟩
    (by norm_num [Line.segment])
  rw [h1, (h2 ⟨1, 1, 0⟩).2]
  refine ⟨⟨1 / 2, by norm_num, by norm_num, ?_⟩, 1 / 2, by norm_num, by norm_num, ?_⟩ <;>
  · ext <;> norm_num [Line.segment, Line.lineXY]

end Verif.Geo
