import Verif.Props.PolygonMore

/-!
# Making polygons convex, lengths and positions
-/

namespace Verif.Geo

open Classical

/-! ## `MakeConvex` -/

theorem dropLoop_sublist {f : ℝ} {ps : List Pt} (n i j k : ℕ) {qs : List Pt} (h : Polygon.dropLoop f ps n i j k = .ok qs) : qs.Sublist ps := by
  induction n generalizing i j k with
  | zero =>
    unfold Polygon.dropLoop at h
    cases h
    exact List.Sublist.refl _
  | succ n ih =>
    unfold Polygon.dropLoop at h
    simp only [Res.monad_bind_eq] at h
    obtain ⟨a, -, h⟩ := Res.bind_eq_ok.1 h
    obtain ⟨b, -, h⟩ := Res.bind_eq_ok.1 h
    obtain ⟨c, -, h⟩ := Res.bind_eq_ok.1 h
    split_ifs at h with hc
    · cases h
      exact List.eraseIdx_sublist ..
    · exact ih _ _ _ h

/-- If `MakeConvex` comes to an end, it has deleted corners so that `IsConvex` says yes. -/
theorem makeConvex_partial {ps qs : List Pt} (h : Polygon.makeConvex ps = .ok qs) : qs.Sublist ps ∧ Polygon.isConvex qs = .ok true := by
  unfold Polygon.makeConvex at h
  simp only [Res.monad_bind_eq] at h
  obtain ⟨c, -, h⟩ := Res.bind_eq_ok.1 h
  obtain ⟨⟨u, rs⟩, h1, h2⟩ := Res.bind_eq_ok.1 h
  cases h2
  refine untilLoop_inv (P := fun l => l.Sublist ps) (Q := fun _ l => l.Sublist ps ∧ Polygon.isConvex l = .ok true) ?_ (List.Sublist.refl _) h1
  intro l hl o l' hs
  unfold Polygon.convexRound at hs
  simp only [Res.monad_bind_eq] at hs
  obtain ⟨b, hb, hs⟩ := Res.bind_eq_ok.1 hs
  cases b with
  | true =>
    simp at hs
    obtain ⟨rfl, rfl⟩ := hs
    exact ⟨hl, hb⟩
  | false =>
    simp only [Bool.false_eq_true, if_false] at hs
    obtain ⟨r, hr, hs⟩ := Res.bind_eq_ok.1 hs
    cases hs
    exact (dropLoop_sublist _ _ _ _ hr).trans hl

/-- A polygon that `IsConvex` accepts is not changed. -/
theorem makeConvex_convex {ps : List Pt} (h : Polygon.isConvex ps = .ok true) : Polygon.makeConvex ps = .ok ps := by
  have hne : ps ≠ [] := by
    rintro rfl
    obtain ⟨m, hm⟩ := polygon_empty.2.2.1
    rw [hm] at h
    cases h
  match ps, hne, h with
  | p :: ps, _, h =>
    unfold Polygon.makeConvex
    rw [ccw_cons, Res.monad_bind_eq, Res.bind_ok, Res.monad_bind_eq, untilLoop_unfold]
    have : ∀ f, Polygon.convexRound f (p :: ps) = .ok (some (), p :: ps) := by
      intro f
      unfold Polygon.convexRound
      rw [h]
      rfl
    rw [this]
    rfl

/-- `MakeConvex` deletes a corner of a triangle. -/
theorem makeConvex_violation_triangle :
    Polygon.makeConvex [⟨-2, 0, 0⟩, ⟨-1, 0, 0⟩, ⟨-2, 1, 0⟩] = .ok [⟨-2, 0, 0⟩, ⟨-1, 0, 0⟩] := by
  have r1 : Polygon.convexRound (-1) [⟨-2, 0, 0⟩, ⟨-1, 0, 0⟩, ⟨-2, 1, 0⟩] = .ok (none, [⟨-2, 0, 0⟩, ⟨-1, 0, 0⟩]) := by
    unfold Polygon.convexRound
    rw [isConvex_violation.1.2]
    norm_num [Polygon.dropLoop, rd, Polygon.turn]
  have r2 : Polygon.convexRound (-1) [⟨-2, 0, 0⟩, ⟨-1, 0, 0⟩] = .ok (some (), [⟨-2, 0, 0⟩, ⟨-1, 0, 0⟩]) := by
    norm_num [Polygon.convexRound, Polygon.isConvex, ccw_cons, Polygon.doubleArea, Polygon.turnsLoop, Polygon.turn, rd]
  unfold Polygon.makeConvex
  rw [isCounterclockwise_violation.2, Res.monad_bind_eq, Res.bind_ok, Res.monad_bind_eq, if_neg (by simp), untilLoop_unfold, r1]
  show Res.bind (untilLoop (Polygon.convexRound (-1)) _) _ = _
  rw [untilLoop_unfold, r2]
  rfl

/-- `MakeConvex` never ends for this quadrangle: the triangle that is left when the corner (-30, 2) is deleted is turned the other way in the
eyes of `IsCounterclockwise`, so that it is not convex, but has no corner to be deleted. -/
theorem makeConvex_violation_loop : Polygon.makeConvex [⟨-40, 0, 0⟩, ⟨-20, 0, 0⟩, ⟨-40, 20, 0⟩, ⟨-30, 2, 0⟩] = .diverges := by
  have r1 : Polygon.convexRound 1 [⟨-40, 0, 0⟩, ⟨-20, 0, 0⟩, ⟨-40, 20, 0⟩, ⟨-30, 2, 0⟩] = .ok (none, [⟨-40, 0, 0⟩, ⟨-20, 0, 0⟩, ⟨-40, 20, 0⟩]) := by
    norm_num [Polygon.convexRound, Polygon.isConvex, ccw_cons, Polygon.doubleArea, Polygon.turnsLoop, Polygon.turn, rd, Polygon.dropLoop]
  have r2 : Polygon.convexRound 1 [⟨-40, 0, 0⟩, ⟨-20, 0, 0⟩, ⟨-40, 20, 0⟩] = .ok (none, [⟨-40, 0, 0⟩, ⟨-20, 0, 0⟩, ⟨-40, 20, 0⟩]) := by
    norm_num [Polygon.convexRound, Polygon.isConvex, ccw_cons, Polygon.doubleArea, Polygon.turnsLoop, Polygon.turn, rd, Polygon.dropLoop]
  have c : Polygon.isCounterclockwise [⟨-40, 0, 0⟩, ⟨-20, 0, 0⟩, ⟨-40, 20, 0⟩, ⟨-30, 2, 0⟩] = .ok true := by
    norm_num [ccw_cons, Polygon.doubleArea]
  unfold Polygon.makeConvex
  rw [c, Res.monad_bind_eq, Res.bind_ok, Res.monad_bind_eq, if_pos rfl, untilLoop_unfold, r1]
  show Res.bind (untilLoop (Polygon.convexRound 1) _) _ = _
  rw [untilLoop_diverges]
  · rfl
  · intro n
    induction n with
    | zero => rfl
    | succ n ih =>
      unfold untilFuel
      rw [r2]
      exact ih

/-! ## Lengths -/

theorem euclid_norm (p q : Pt) : (q - p).norm = euclid p q := by
  rw [Pt.norm_sub, euclid_comm]

theorem rd_corner {ps : List Pt} {i : ℕ} (h : i < ps.length) : rd ps i = .ok (corner ps i) := by
  unfold rd corner
  rw [List.getD_eq_getElem?_getD, List.getElem?_eq_getElem h]
  rfl

/-- The lengths of the edges between two corners. -/
theorem lengthFrom_eq (ps : List Pt) (lo hi : ℕ) (h : hi < ps.length) (hle : lo ≤ hi) (s : ℝ) : Polygon.lengthFrom ps lo hi s = .ok (s + way ps lo hi) := by
  unfold Polygon.lengthFrom
  have := forRange_sat (fun i r => r = s + way ps lo i) hle (body := fun i s => do
    let q ← rd ps (i + 1)
    let p ← rd ps i
    .ok (s + (q - p).norm)) (s := s) (by simp [way]) ?_
  · obtain ⟨r, h1, h2⟩ := this
    rw [h1, h2]
  · intro i r hi1 hi2 hr
    rw [rd_corner (by omega : i + 1 < ps.length), rd_corner (by omega : i < ps.length)]
    refine ⟨_, rfl, ?_⟩
    rw [hr, euclid_norm]
    unfold way
    rw [Finset.sum_Ico_succ_top hi1]
    ring

theorem edgesFrom_way (p : Pt) (ps : List Pt) : ((edgesFrom p ps).map fun e => euclid e.1 e.2).sum = way (p :: ps) 0 ps.length := by
  induction ps generalizing p with
  | nil => simp [edgesFrom, way]
  | cons q ps ih =>
    rw [show edgesFrom p (q :: ps) = (p, q) :: edgesFrom q ps from rfl, List.map_cons, List.sum_cons, ih]
    unfold way
    rw [← Finset.range_eq_Ico, ← Finset.range_eq_Ico, List.length_cons, Finset.sum_range_succ', add_comm]
    rfl

/-- The length of a closed polygon: the way along the corners, and back from the last one. -/
theorem perimeter_eq (ps : List Pt) (h : ps ≠ []) : perimeter ps = euclid (corner ps (ps.length - 1)) (corner ps 0) + way ps 0 (ps.length - 1) := by
  match ps, h with
  | p :: ps, _ =>
    unfold perimeter
    rw [edges_cons, show ∀ q, edgesFrom q (p :: ps) = (q, p) :: edgesFrom p ps from fun _ => rfl, List.map_cons, List.sum_cons, edgesFrom_way]
    have : corner (p :: ps) ((p :: ps).length - 1) = (p :: ps).getLast (List.cons_ne_nil _ _) := by
      unfold corner
      rw [List.getLast_eq_getElem, List.getD_eq_getElem?_getD, List.getElem?_eq_getElem (by simp)]
      rfl
    rw [this]
    rfl

/-- `GetCircumferenceXY` gives the length of the polygon in space without the edge before the last corner. -/
theorem getCircumferenceXY_partial (ps : List Pt) (h : 2 ≤ ps.length) :
    ∃ c, Polygon.getCircumferenceXY ps = .ok c ∧ c + euclid (corner ps (ps.length - 2)) (corner ps (ps.length - 1)) = perimeter ps := by
  unfold Polygon.getCircumferenceXY
  rw [if_neg (by omega), rd_corner (by omega : ps.length - 1 < ps.length), rd_corner (by omega : 0 < ps.length)]
  show ∃ c, Polygon.lengthFrom ps 0 (ps.length - 2) _ = .ok c ∧ _
  rw [lengthFrom_eq ps 0 (ps.length - 2) (by omega) (Nat.zero_le _)]
  refine ⟨_, rfl, ?_⟩
  rw [perimeter_eq ps (by rintro rfl; simp at h), euclid_norm, euclid_comm (corner ps 0)]
  have : way ps 0 (ps.length - 1) = way ps 0 (ps.length - 2) + euclid (corner ps (ps.length - 2)) (corner ps (ps.length - 1)) := by
    unfold way
    rw [show ps.length - 1 = ps.length - 2 + 1 by omega, Finset.sum_Ico_succ_top (Nat.zero_le _)]
  rw [this]
  ring

theorem euclid_one {p q : Pt} (h : (p.x - q.x) ^ 2 + (p.y - q.y) ^ 2 + (p.z - q.z) ^ 2 = 1) : euclid p q = 1 := by
  unfold euclid
  rw [h, Real.sqrt_one]

/-- The circumference of the unit square is 4, and the answer is 3; and heights count, although the name says XY. -/
theorem getCircumferenceXY_violation :
    (perimeterXY [⟨0, 0, 0⟩, ⟨1, 0, 0⟩, ⟨1, 1, 0⟩, ⟨0, 1, 0⟩] = 4 ∧ Polygon.getCircumferenceXY [⟨0, 0, 0⟩, ⟨1, 0, 0⟩, ⟨1, 1, 0⟩, ⟨0, 1, 0⟩] = .ok 3) ∧
    (perimeterXY [⟨0, 0, 0⟩, ⟨0, 0, 5⟩] = 0 ∧ Polygon.getCircumferenceXY [⟨0, 0, 0⟩, ⟨0, 0, 5⟩] = .ok 5) := by
  refine ⟨⟨?_, ?_⟩, ?_, ?_⟩
  · norm_num [perimeterXY, edges_cons, edgesFrom]
  · norm_num [Polygon.getCircumferenceXY, Polygon.lengthFrom, forRange, forN, rd, Pt.norm]
  · norm_num [perimeterXY, edges_cons, edgesFrom]
  · norm_num [Polygon.getCircumferenceXY, Polygon.lengthFrom, forRange, forN, rd, Pt.norm]
    rw [show (25 : ℝ) = 5 ^ 2 by norm_num, Real.sqrt_sq (by norm_num)]

/-- `DistanceBetweenPointsXY` gives the way along the corners if that is not more than half of what `GetCircumferenceXY` says. -/
theorem distanceBetweenXY_partial (ps : List Pt) (h : 2 ≤ ps.length) (i j : ℕ) (hij : i ≤ j) (hj : j < ps.length)
    (hs : 2 * way ps i j + euclid (corner ps (ps.length - 2)) (corner ps (ps.length - 1)) ≤ perimeter ps) :
    Polygon.distanceBetweenXY ps i j = .ok (way ps i j) ∧ Polygon.distanceBetweenXY ps j i = .ok (way ps i j) := by
  obtain ⟨c, h1, h2⟩ := getCircumferenceXY_partial ps h
  have key : ∀ a b, min a b = i → max a b = j → Polygon.distanceBetweenXY ps a b = .ok (way ps i j) := by
    intro a b ha hb
    unfold Polygon.distanceBetweenXY
    rw [ha, hb, lengthFrom_eq ps i j hj hij, h1]
    show Res.ok (min (0 + way ps i j) (c - (0 + way ps i j))) = _
    rw [zero_add, min_eq_left (by linarith)]
  exact ⟨key i j (min_eq_left hij) (max_eq_right hij), key j i (min_eq_right hij) (max_eq_left hij)⟩

/-- Otherwise it may be wrong: the first and the last corner of the unit square are one apart, and the answer is 0. -/
theorem distanceBetweenXY_violation : Polygon.distanceBetweenXY [⟨0, 0, 0⟩, ⟨1, 0, 0⟩, ⟨1, 1, 0⟩, ⟨0, 1, 0⟩] 0 3 = .ok 0 := by
  unfold Polygon.distanceBetweenXY
  rw [getCircumferenceXY_violation.1.2]
  norm_num [Polygon.lengthFrom, forRange, forN, rd, Pt.norm]

/-! ## Positions -/

/-- `FindPointPosition` gives the first corner that is the given point, or the number of corners if there is none. -/
theorem findPointPosition_spec (ps : List Pt) (p : Pt) :
    (∀ k < Polygon.findPointPosition ps p, ps[k]? ≠ some p) ∧
    (p ∈ ps → ps[Polygon.findPointPosition ps p]? = some p) ∧ (p ∉ ps → Polygon.findPointPosition ps p = ps.length) := by
  unfold Polygon.findPointPosition
  refine ⟨fun k hk h => ?_, fun h => ?_, fun h => ?_⟩
  · obtain ⟨hl, he⟩ := List.getElem?_eq_some_iff.1 h
    have := List.not_of_lt_findIdx hk
    rw [he] at this
    simp at this
  · have hl : List.findIdx (fun q => decide (q = p)) ps < ps.length := List.findIdx_lt_length_of_exists ⟨p, h, by simp⟩
    rw [List.getElem?_eq_getElem hl]
    have := List.findIdx_getElem (w := hl)
    rw [decide_eq_true_iff] at this
    rw [this]
  · rw [List.findIdx_eq_length]
    intro q hq
    simp only [decide_eq_false_iff_not]
    rintro rfl
    exact h hq

/-! ## A concrete case -/

/-- The square with corners (0, 0), (4, 0), (4, 4), (0, 4) is strictly convex; (1, 2) is inside, (5, 2) outside. -/
theorem concrete_polygon :
    StrictlyConvex [⟨0, 0, 0⟩, ⟨4, 0, 0⟩, ⟨4, 4, 0⟩, ⟨0, 4, 0⟩] ∧
    Polygon.isInsideXY [⟨0, 0, 0⟩, ⟨4, 0, 0⟩, ⟨4, 4, 0⟩, ⟨0, 4, 0⟩] 1 2 = .ok true ∧
    Polygon.isInsideXY [⟨0, 0, 0⟩, ⟨4, 0, 0⟩, ⟨4, 4, 0⟩, ⟨0, 4, 0⟩] 5 2 = .ok false ∧
    Polygon.isCounterclockwise [⟨0, 0, 0⟩, ⟨4, 0, 0⟩, ⟨4, 4, 0⟩, ⟨0, 4, 0⟩] = .ok true ∧
    (¬ OnEdge (⟨4, 0, 0⟩, ⟨4, 4, 0⟩) (1, 2)) ∧
    Polygon.distanceBetweenXY [⟨0, 0, 0⟩, ⟨1, 0, 0⟩, ⟨1, 1, 0⟩, ⟨0, 1, 0⟩] 0 1 = .ok 1 := by
  have sc : StrictlyConvex [⟨0, 0, 0⟩, ⟨4, 0, 0⟩, ⟨4, 4, 0⟩, ⟨0, 4, 0⟩] := by
    refine ⟨by simp, by norm_num, ?_⟩
    intro e he v hv h1 h2
    rw [edges_cons] at he
    simp only [edgesFrom, List.getLast_cons_cons, List.getLast_singleton, List.mem_cons, List.not_mem_nil, or_false] at he hv
    rcases he with h | h | h | h <;> rcases hv with g | g | g | g <;> subst h <;> subst g <;>
      first | (exfalso; exact h1 rfl) | (exfalso; exact h2 rfl) | norm_num [side]
  refine ⟨sc, ?_, ?_, ?_, ?_, ?_⟩
  · refine (insideXY_convex sc (1, 2)).1 ?_
    intro e he
    rw [edges_cons] at he
    simp only [edgesFrom, List.getLast_cons_cons, List.getLast_singleton, List.mem_cons, List.not_mem_nil, or_false] at he
    rcases he with h | h | h | h <;> subst h <;> norm_num [side]
  · refine (insideXY_convex sc (5, 2)).2 ⟨(⟨4, 0, 0⟩, ⟨4, 4, 0⟩), ?_, by norm_num [side]⟩
    rw [edges_cons]
    simp [edgesFrom]
  · norm_num [ccw_cons, Polygon.doubleArea]
  · rintro ⟨t, -, -, h, -⟩
    norm_num at h
  · unfold Polygon.distanceBetweenXY
    rw [getCircumferenceXY_violation.1.2]
    norm_num [Polygon.lengthFrom, forRange, forN, rd, Pt.norm]

end Verif.Geo
