import Verif.Spec.Box
import Verif.Props.Plane

/-!
# C114: boxes
-/

namespace Verif.Geo

theorem local_place (B : Box) (s t r : ℝ) : B.globalToLocal (B.place s t r) = ⟨s, t, r⟩ := by
  have h := Real.sin_sq_add_cos_sq B.angle
  unfold Box.globalToLocal Box.place
  ext
  · simp only
    linear_combination s * h
  · simp only
    linear_combination t * h
  · simp only
    ring

theorem place_local (B : Box) (p : Pt) : B.place (B.globalToLocal p).x (B.globalToLocal p).y (B.globalToLocal p).z = p := by
  have h := Real.sin_sq_add_cos_sq B.angle
  unfold Box.globalToLocal Box.place
  ext
  · simp only
    linear_combination (p.x - B.ref.x) * h
  · simp only
    linear_combination (p.y - B.ref.y) * h
  · simp only
    ring

theorem localToGlobal_eq (B : Box) (p : Pt) : B.localToGlobal p = B.place p.x p.y p.z := by
  unfold Box.localToGlobal Box.place
  ext <;> simp only <;> ring

theorem place_inj {B : Box} {s t r s' t' r' : ℝ} (h : B.place s t r = B.place s' t' r') : s = s' ∧ t = t' ∧ r = r' := by
  have := congrArg B.globalToLocal h
  rw [local_place, local_place] at this
  cases this
  exact ⟨rfl, rfl, rfl⟩

/-- Turning does not change distances. -/
theorem euclid_place (B : Box) (s t r s' t' r' : ℝ) : euclid (B.place s t r) (B.place s' t' r') = euclid ⟨s, t, r⟩ ⟨s', t', r'⟩ := by
  have h := Real.sin_sq_add_cos_sq B.angle
  unfold euclid Box.place
  congr 1
  simp only
  linear_combination ((s - s') ^ 2 + (t - t') ^ 2) * h

theorem has_local {B : Box} {p : Pt} : B.Has p ↔ 0 ≤ (B.globalToLocal p).x ∧ (B.globalToLocal p).x ≤ B.lx ∧ 0 ≤ (B.globalToLocal p).y ∧
    (B.globalToLocal p).y ≤ B.ly ∧ 0 ≤ (B.globalToLocal p).z ∧ (B.globalToLocal p).z ≤ B.lz := by
  constructor
  · rintro ⟨s, t, r, h1, h2, h3, h4, h5, h6, rfl⟩
    rw [local_place]
    exact ⟨h1, h2, h3, h4, h5, h6⟩
  · rintro ⟨h1, h2, h3, h4, h5, h6⟩
    exact ⟨_, _, _, h1, h2, h3, h4, h5, h6, (place_local B p).symm⟩

/-- C114: `IsInside` says whether a point is one of the box. -/
theorem isInside_spec (B : Box) (p : Pt) : B.isInside p = true ↔ B.Has p := by
  rw [has_local]
  unfold Box.isInside
  simp only
  rw [decide_eq_true_iff]
  norm_num

/-- The point of an interval that is nearest. -/
noncomputable def near (x L : ℝ) : ℝ := if x < 0 then 0 else if x > L then L else x

theorem near_mem {x L : ℝ} (h : 0 ≤ L) : 0 ≤ near x L ∧ near x L ≤ L := by
  unfold near
  split_ifs with h1 h2
  · exact ⟨le_rfl, h⟩
  · exact ⟨h, le_rfl⟩
  · exact ⟨not_lt.1 h1, not_lt.1 h2⟩

theorem near_le {x L y : ℝ} (h0 : 0 ≤ y) (h1 : y ≤ L) : (x - near x L) ^ 2 ≤ (x - y) ^ 2 := by
  unfold near
  split_ifs with g1 g2
  · nlinarith
  · nlinarith
  · nlinarith [sq_nonneg (x - y)]

/-- Outside the box, the answer is the distance to the nearest point. -/
theorem findDistance_near (B : Box) (p : Pt) (h : ¬ B.isInside p = true) :
    B.findDistance p = euclid (B.globalToLocal p) ⟨near (B.globalToLocal p).x B.lx, near (B.globalToLocal p).y B.ly, near (B.globalToLocal p).z B.lz⟩ := by
  unfold Box.findDistance
  simp only
  rw [if_neg h]
  have hin := fun hh => h ((isInside_spec B p).2 (has_local.2 hh))
  set q := B.globalToLocal p with hq
  simp only [Pt.getDistance_eq]
  norm_num
  unfold near
  have one : ∀ a b : ℝ, euclid ⟨a, q.y, q.z⟩ ⟨b, q.y, q.z⟩ = |a - b| := fun a b => by
    unfold euclid; rw [← Real.sqrt_sq_eq_abs]; congr 1; simp only; ring
  have two : ∀ a b : ℝ, euclid ⟨q.x, a, q.z⟩ ⟨q.x, b, q.z⟩ = |a - b| := fun a b => by
    unfold euclid; rw [← Real.sqrt_sq_eq_abs]; congr 1; simp only; ring
  have three : ∀ a b : ℝ, euclid ⟨q.x, q.y, a⟩ ⟨q.x, q.y, b⟩ = |a - b| := fun a b => by
    unfold euclid; rw [← Real.sqrt_sq_eq_abs]; congr 1; simp only; ring
  by_cases x1 : q.x < 0
  · simp only [if_pos x1]
    by_cases y1 : q.y < 0
    · simp only [if_pos y1]
      split_ifs <;> rfl
    · simp only [if_neg y1]
      by_cases y2 : B.ly < q.y
      · simp only [if_pos y2, gt_iff_lt]
        split_ifs <;> rfl
      · simp only [if_neg y2, gt_iff_lt]
        split_ifs
        · rfl
        · rfl
        · rw [one q.x 0, sub_zero, abs_of_neg x1]
  · simp only [if_neg x1]
    by_cases x2 : B.lx < q.x
    · simp only [if_pos x2, gt_iff_lt]
      by_cases y1 : q.y < 0
      · simp only [if_pos y1]
        split_ifs <;> rfl
      · simp only [if_neg y1]
        by_cases y2 : B.ly < q.y
        · simp only [if_pos y2]
          split_ifs <;> rfl
        · simp only [if_neg y2]
          split_ifs
          · rfl
          · rfl
          · rw [one q.x B.lx, abs_of_pos (by linarith)]
    · simp only [if_neg x2, gt_iff_lt]
      by_cases y1 : q.y < 0
      · simp only [if_pos y1]
        split_ifs
        · rfl
        · rfl
        · rw [two q.y 0, sub_zero, abs_of_neg y1]
      · simp only [if_neg y1]
        by_cases y2 : B.ly < q.y
        · simp only [if_pos y2]
          split_ifs
          · rfl
          · rfl
          · rw [two q.y B.ly, abs_of_pos (by linarith)]
        · simp only [if_neg y2]
          split_ifs with z1 z2
          · rw [three q.z 0, sub_zero, abs_of_neg z1]
          · rw [three q.z B.lz, abs_of_pos (by linarith)]
          · exact absurd ⟨not_lt.1 x1, not_lt.1 x2, not_lt.1 y1, not_lt.1 y2, not_lt.1 z1, not_lt.1 z2⟩ hin

/-- C114: outside the box, `FindDistance` is the least distance to a point of the box. -/
theorem box_findDistance_outside (B : Box) (hx : 0 ≤ B.lx) (hy : 0 ≤ B.ly) (hz : 0 ≤ B.lz) (p : Pt) (h : ¬ B.Has p) :
    (∃ q, B.Has q ∧ euclid p q = B.findDistance p) ∧ ∀ q, B.Has q → B.findDistance p ≤ euclid p q := by
  rw [findDistance_near B p (fun hc => h ((isInside_spec B p).1 hc))]
  set q := B.globalToLocal p with hq
  have hp : p = B.place q.x q.y q.z := (place_local B p).symm
  constructor
  · refine ⟨B.place (near q.x B.lx) (near q.y B.ly) (near q.z B.lz), ⟨_, _, _, (near_mem hx).1, (near_mem hx).2, (near_mem hy).1, (near_mem hy).2,
      (near_mem hz).1, (near_mem hz).2, rfl⟩, ?_⟩
    conv_lhs => rw [hp]
    rw [euclid_place]
  · rintro r ⟨s, t, u, h1, h2, h3, h4, h5, h6, rfl⟩
    conv_rhs => rw [hp]
    rw [euclid_place]
    apply euclid_le
    have g1 := near_le (x := q.x) h1 h2
    have g2 := near_le (x := q.y) h3 h4
    have g3 := near_le (x := q.z) h5 h6
    simp only
    linarith

theorem leastSide_spec (B : Box) (p : Pt) :
    B.leastSide p = min (min (min (min (min p.z (B.lz - p.z)) p.y) (B.ly - p.y)) p.x) (B.lx - p.x) := by
  have e : ∀ m d : ℝ, (if m > d then d else m) = min m d := by
    intro m d
    by_cases h : m > d
    · rw [if_pos h, min_eq_right h.le]
    · rw [if_neg h, min_eq_left (not_lt.1 h)]
  unfold Box.leastSide
  simp only [List.foldl, e]

/-- C114: inside the box, `FindDistance` is the least distance to a point of a side. -/
theorem box_findDistance_inside (B : Box) (p : Pt) (h : B.Has p) :
    (∃ q, B.Surface q ∧ euclid p q = B.findDistance p) ∧ ∀ q, B.Surface q → B.findDistance p ≤ euclid p q := by
  have hd : B.findDistance p = B.leastSide (B.globalToLocal p) := by
    unfold Box.findDistance
    simp only
    rw [if_pos ((isInside_spec B p).2 h)]
  obtain ⟨h1, h2, h3, h4, h5, h6⟩ := has_local.1 h
  rw [hd, leastSide_spec]
  set q := B.globalToLocal p with hq
  have hp : p = B.place q.x q.y q.z := (place_local B p).symm
  have one : ∀ a b c d : ℝ, euclid ⟨a, c, d⟩ ⟨b, c, d⟩ = |a - b| := fun a b c d => by
    unfold euclid; rw [← Real.sqrt_sq_eq_abs]; congr 1; simp only; ring
  have two : ∀ a b c d : ℝ, euclid ⟨c, a, d⟩ ⟨c, b, d⟩ = |a - b| := fun a b c d => by
    unfold euclid; rw [← Real.sqrt_sq_eq_abs]; congr 1; simp only; ring
  have three : ∀ a b c d : ℝ, euclid ⟨c, d, a⟩ ⟨c, d, b⟩ = |a - b| := fun a b c d => by
    unfold euclid; rw [← Real.sqrt_sq_eq_abs]; congr 1; simp only; ring
  have hlx := le_trans h1 h2
  have hly := le_trans h3 h4
  have hlz := le_trans h5 h6
  constructor
  · have c1 : ∃ r, B.Surface r ∧ euclid p r = q.z :=
      ⟨B.place q.x q.y 0, ⟨_, _, _, h1, h2, h3, h4, le_rfl, hlz, rfl, by tauto⟩, by
        conv_lhs => rw [hp]
        rw [euclid_place, three, sub_zero, abs_of_nonneg h5]⟩
    have c2 : ∃ r, B.Surface r ∧ euclid p r = B.lz - q.z :=
      ⟨B.place q.x q.y B.lz, ⟨_, _, _, h1, h2, h3, h4, hlz, le_rfl, rfl, by tauto⟩, by
        conv_lhs => rw [hp]
        rw [euclid_place, three, abs_sub_comm, abs_of_nonneg (by linarith)]⟩
    have c3 : ∃ r, B.Surface r ∧ euclid p r = q.y :=
      ⟨B.place q.x 0 q.z, ⟨_, _, _, h1, h2, le_rfl, hly, h5, h6, rfl, by tauto⟩, by
        conv_lhs => rw [hp]
        rw [euclid_place, two, sub_zero, abs_of_nonneg h3]⟩
    have c4 : ∃ r, B.Surface r ∧ euclid p r = B.ly - q.y :=
      ⟨B.place q.x B.ly q.z, ⟨_, _, _, h1, h2, hly, le_rfl, h5, h6, rfl, by tauto⟩, by
        conv_lhs => rw [hp]
        rw [euclid_place, two, abs_sub_comm, abs_of_nonneg (by linarith)]⟩
    have c5 : ∃ r, B.Surface r ∧ euclid p r = q.x :=
      ⟨B.place 0 q.y q.z, ⟨_, _, _, le_rfl, hlx, h3, h4, h5, h6, rfl, by tauto⟩, by
        conv_lhs => rw [hp]
        rw [euclid_place, one, sub_zero, abs_of_nonneg h1]⟩
    have c6 : ∃ r, B.Surface r ∧ euclid p r = B.lx - q.x :=
      ⟨B.place B.lx q.y q.z, ⟨_, _, _, hlx, le_rfl, h3, h4, h5, h6, rfl, by tauto⟩, by
        conv_lhs => rw [hp]
        rw [euclid_place, one, abs_sub_comm, abs_of_nonneg (by linarith)]⟩
    have pick : ∀ a b : ℝ, (∃ r, B.Surface r ∧ euclid p r = a) → (∃ r, B.Surface r ∧ euclid p r = b) →
        ∃ r, B.Surface r ∧ euclid p r = min a b := by
      intro a b ha hb
      rcases min_choice a b with h | h <;> rw [h]
      · exact ha
      · exact hb
    exact pick _ _ (pick _ _ (pick _ _ (pick _ _ (pick _ _ c1 c2) c3) c4) c5) c6
  · rintro r ⟨s, t, u, g1, g2, g3, g4, g5, g6, rfl, hside⟩
    conv_rhs => rw [hp]
    rw [euclid_place]
    have ax : |q.x - s| ≤ euclid ⟨q.x, q.y, q.z⟩ ⟨s, t, u⟩ := by
      apply Real.le_sqrt_of_sq_le
      rw [sq_abs]
      simp only
      nlinarith [sq_nonneg (q.y - t), sq_nonneg (q.z - u)]
    have ay : |q.y - t| ≤ euclid ⟨q.x, q.y, q.z⟩ ⟨s, t, u⟩ := by
      apply Real.le_sqrt_of_sq_le
      rw [sq_abs]
      simp only
      nlinarith [sq_nonneg (q.x - s), sq_nonneg (q.z - u)]
    have az : |q.z - u| ≤ euclid ⟨q.x, q.y, q.z⟩ ⟨s, t, u⟩ := by
      apply Real.le_sqrt_of_sq_le
      rw [sq_abs]
      simp only
      nlinarith [sq_nonneg (q.x - s), sq_nonneg (q.y - t)]
    simp only [min_le_iff]
    rcases hside with hs | hs | hs | hs | hs | hs
    · subst hs
      left; right
      linarith [le_abs_self (q.x - 0)]
    · subst hs
      right
      linarith [neg_abs_le (q.x - B.lx)]
    · subst hs
      left; left; left; right
      linarith [le_abs_self (q.y - 0)]
    · subst hs
      left; left; right
      linarith [neg_abs_le (q.y - B.ly)]
    · subst hs
      left; left; left; left; left
      linarith [le_abs_self (q.z - 0)]
    · subst hs
      left; left; left; left; right
      linarith [neg_abs_le (q.z - B.lz)]

/-- C114: the corners. -/
theorem getCorner_spec (B : Box) (i j k : Bool) :
    B.getCorner (if i then 1 else 0) (if j then 1 else 0) (if k then 1 else 0) =
      B.place (if i then B.lx else 0) (if j then B.ly else 0) (if k then B.lz else 0) := by
  unfold Box.getCorner
  rw [localToGlobal_eq]
  cases i <;> cases j <;> cases k <;> norm_num

/-- One side. -/
theorem sidePts_spec (p n : Pt) (hn : n.norm = 1) (inside : Pt → Prop) (m : Line) :
    ∃ ps, Box.sidePts (Plane.ofNormal p n) inside m = .ok ps ∧ ps.length ≤ 1 ∧
      ∀ q, q ∈ ps ↔ n.dot (m.p2 - m.p1) ≠ 0 ∧ m.Has q ∧ InPlane p n q ∧ inside q := by
  have hn0 : n ≠ ⟨0, 0, 0⟩ := fun h => by rw [norm_eq_zero.2 h] at hn; norm_num at hn
  have hdot : (Plane.ofNormal p n).nvec.dot (m.p2 - m.p1) = n.dot (m.p2 - m.p1) := by
    show n.getNormalized.dot _ = _
    rw [getNormalized_dot hn0, hn, div_one]
  unfold Box.sidePts
  by_cases h : n.dot (m.p2 - m.p1) = 0
  · rw [(plane_findIntersection_parallel _ m (hdot.trans h)).1]
    refine ⟨[], rfl, by simp, fun q => ⟨fun hq => (by cases hq), fun hq => absurd h hq.1⟩⟩
  · obtain ⟨o, h1, h2⟩ := plane_findIntersection_spec (Plane.ofNormal p n) m (by rw [hdot]; exact h)
    rw [h1]
    simp only [Res.monad_bind_eq, Res.bind_ok]
    cases o with
    | none =>
      refine ⟨[], rfl, by simp, fun q => ⟨fun hq => (by cases hq), fun hq => ?_⟩⟩
      have := (h2 q).2 ⟨hq.2.1, ((ofNormal_spec p n hn0).2 q).2 hq.2.2.1⟩
      cases this
    | some r =>
      have hr := (h2 r).1 rfl
      have hr2 := ((ofNormal_spec p n hn0).2 r).1 hr.2
      by_cases hi : inside r
      · refine ⟨[r], by simp only; rw [if_pos hi], by simp, fun q => ⟨fun hq => ?_, fun hq => ?_⟩⟩
        · rw [List.mem_singleton] at hq
          subst hq
          exact ⟨h, hr.1, hr2, hi⟩
        · have := (h2 q).2 ⟨hq.2.1, ((ofNormal_spec p n hn0).2 q).2 hq.2.2.1⟩
          cases this
          simp
      · refine ⟨[], by simp only; rw [if_neg hi], by simp, fun q => ⟨fun hq => (by cases hq), fun hq => ?_⟩⟩
        have := (h2 q).2 ⟨hq.2.1, ((ofNormal_spec p n hn0).2 q).2 hq.2.2.1⟩
        cases this
        exact absurd hq.2.2.2 hi

theorem local_has {B : Box} {l : Line} {s t r : ℝ} :
    (⟨B.globalToLocal l.p1, B.globalToLocal l.p2, l.end1, l.end2⟩ : Line).Has ⟨s, t, r⟩ ↔ l.Has (B.place s t r) := by
  have key : ∀ u, (⟨B.globalToLocal l.p1, B.globalToLocal l.p2, l.end1, l.end2⟩ : Line).at u = B.globalToLocal (l.at u) := by
    intro u
    unfold Line.at Box.globalToLocal
    ext <;> simp only <;> ring
  rw [Line.has_iff, Line.has_iff]
  constructor
  · rintro ⟨u, h1, h2⟩
    refine ⟨u, h1, ?_⟩
    rw [key] at h2
    rw [← place_local B (l.at u), ← h2]
  · rintro ⟨u, h1, h2⟩
    refine ⟨u, h1, ?_⟩
    rw [key, ← h2, local_place]

theorem pushInside_eq (B : Box) {p : Pt} (h1 : 0 ≤ p.x) (h2 : p.x ≤ B.lx) (h3 : 0 ≤ p.y) (h4 : p.y ≤ B.ly) (h5 : 0 ≤ p.z) (h6 : p.z ≤ B.lz) :
    B.pushInside p = p := by
  unfold Box.pushInside
  norm_num
  rw [if_neg (not_lt.2 h1), if_neg (not_lt.2 h3), if_neg (not_lt.2 h5), if_neg (not_lt.2 h2), if_neg (not_lt.2 h4), if_neg (not_lt.2 h6)]

theorem six {H dX dY dZ : Prop} {x y z lx ly lz : ℝ} (hx : 0 ≤ lx) (hy : 0 ≤ ly) (hz : 0 ≤ lz) :
    ((((((dX ∧ H ∧ x = 0 ∧ y ≥ 0.0 ∧ y ≤ ly ∧ z ≥ 0.0 ∧ z ≤ lz) ∨ (dX ∧ H ∧ x = lx ∧ y ≥ 0.0 ∧ y ≤ ly ∧ z ≥ 0.0 ∧ z ≤ lz)) ∨
      (dY ∧ H ∧ y = 0 ∧ x ≥ 0.0 ∧ x ≤ lx ∧ z ≥ 0.0 ∧ z ≤ lz)) ∨ (dY ∧ H ∧ y = ly ∧ x ≥ 0.0 ∧ x ≤ lx ∧ z ≥ 0.0 ∧ z ≤ lz)) ∨
      (dZ ∧ H ∧ z = 0 ∧ x ≥ 0.0 ∧ x ≤ lx ∧ y ≥ 0.0 ∧ y ≤ ly)) ∨ (dZ ∧ H ∧ z = lz ∧ x ≥ 0.0 ∧ x ≤ lx ∧ y ≥ 0.0 ∧ y ≤ ly)) ↔
    H ∧ 0 ≤ x ∧ x ≤ lx ∧ 0 ≤ y ∧ y ≤ ly ∧ 0 ≤ z ∧ z ≤ lz ∧ (((x = 0 ∨ x = lx) ∧ dX) ∨ ((y = 0 ∨ y = ly) ∧ dY) ∨ ((z = 0 ∨ z = lz) ∧ dZ)) := by
  have z0 : (0.0 : ℝ) = 0 := by norm_num
  simp only [z0, ge_iff_le]
  constructor
  · rintro (((((⟨d, h, e, g1, g2, g3, g4⟩ | ⟨d, h, e, g1, g2, g3, g4⟩) | ⟨d, h, e, g1, g2, g3, g4⟩) | ⟨d, h, e, g1, g2, g3, g4⟩) |
      ⟨d, h, e, g1, g2, g3, g4⟩) | ⟨d, h, e, g1, g2, g3, g4⟩)
    · exact ⟨h, e.ge, e.le.trans hx, g1, g2, g3, g4, Or.inl ⟨Or.inl e, d⟩⟩
    · exact ⟨h, hx.trans e.ge, e.le, g1, g2, g3, g4, Or.inl ⟨Or.inr e, d⟩⟩
    · exact ⟨h, g1, g2, e.ge, e.le.trans hy, g3, g4, Or.inr (Or.inl ⟨Or.inl e, d⟩)⟩
    · exact ⟨h, g1, g2, hy.trans e.ge, e.le, g3, g4, Or.inr (Or.inl ⟨Or.inr e, d⟩)⟩
    · exact ⟨h, g1, g2, g3, g4, e.ge, e.le.trans hz, Or.inr (Or.inr ⟨Or.inl e, d⟩)⟩
    · exact ⟨h, g1, g2, g3, g4, hz.trans e.ge, e.le, Or.inr (Or.inr ⟨Or.inr e, d⟩)⟩
  · rintro ⟨h, h1, h2, h3, h4, h5, h6, (⟨e | e, d⟩ | ⟨e | e, d⟩ | ⟨e | e, d⟩)⟩
    · exact Or.inl (Or.inl (Or.inl (Or.inl (Or.inl ⟨d, h, e, h3, h4, h5, h6⟩))))
    · exact Or.inl (Or.inl (Or.inl (Or.inl (Or.inr ⟨d, h, e, h3, h4, h5, h6⟩))))
    · exact Or.inl (Or.inl (Or.inl (Or.inr ⟨d, h, e, h1, h2, h5, h6⟩)))
    · exact Or.inl (Or.inl (Or.inr ⟨d, h, e, h1, h2, h5, h6⟩))
    · exact Or.inl (Or.inr ⟨d, h, e, h1, h2, h3, h4⟩)
    · exact Or.inr ⟨d, h, e, h1, h2, h3, h4⟩

/-- C114: `FindIntersections` returns the points that the line, ray or segment has in common with the sides it is not parallel to, and no others.
A point may be returned several times. -/
theorem findIntersections_partial (B : Box) (hx : 0 ≤ B.lx) (hy : 0 ≤ B.ly) (hz : 0 ≤ B.lz) (l : Line) :
    ∃ ps, B.findIntersections l = .ok ps ∧ ps.length ≤ 6 ∧ ∀ q, q ∈ ps ↔ l.Has q ∧ B.Crosses l q := by
  set m : Line := ⟨B.globalToLocal l.p1, B.globalToLocal l.p2, l.end1, l.end2⟩ with hm
  have n1 : (⟨1, 0, 0⟩ : Pt).norm = 1 := by unfold Pt.norm; norm_num
  have n2 : (⟨0, 1, 0⟩ : Pt).norm = 1 := by unfold Pt.norm; norm_num
  have n3 : (⟨0, 0, 1⟩ : Pt).norm = 1 := by unfold Pt.norm; norm_num
  obtain ⟨p1, a1, b1, c1⟩ := sidePts_spec ⟨0, 0, 0⟩ ⟨1, 0, 0⟩ n1 (fun p : Pt => p.y ≥ 0.0 ∧ p.y ≤ B.ly ∧ p.z ≥ 0.0 ∧ p.z ≤ B.lz) m
  obtain ⟨p2, a2, b2, c2⟩ := sidePts_spec ⟨B.lx, 0, 0⟩ ⟨1, 0, 0⟩ n1 (fun p : Pt => p.y ≥ 0.0 ∧ p.y ≤ B.ly ∧ p.z ≥ 0.0 ∧ p.z ≤ B.lz) m
  obtain ⟨p3, a3, b3, c3⟩ := sidePts_spec ⟨0, 0, 0⟩ ⟨0, 1, 0⟩ n2 (fun p : Pt => p.x ≥ 0.0 ∧ p.x ≤ B.lx ∧ p.z ≥ 0.0 ∧ p.z ≤ B.lz) m
  obtain ⟨p4, a4, b4, c4⟩ := sidePts_spec ⟨0, B.ly, 0⟩ ⟨0, 1, 0⟩ n2 (fun p : Pt => p.x ≥ 0.0 ∧ p.x ≤ B.lx ∧ p.z ≥ 0.0 ∧ p.z ≤ B.lz) m
  obtain ⟨p5, a5, b5, c5⟩ := sidePts_spec ⟨0, 0, 0⟩ ⟨0, 0, 1⟩ n3 (fun p : Pt => p.x ≥ 0.0 ∧ p.x ≤ B.lx ∧ p.y ≥ 0.0 ∧ p.y ≤ B.ly) m
  obtain ⟨p6, a6, b6, c6⟩ := sidePts_spec ⟨0, 0, B.lz⟩ ⟨0, 0, 1⟩ n3 (fun p : Pt => p.x ≥ 0.0 ∧ p.x ≤ B.lx ∧ p.y ≥ 0.0 ∧ p.y ≤ B.ly) m
  have dx : (⟨1, 0, 0⟩ : Pt).dot (m.p2 - m.p1) = (l.p2.x - l.p1.x) * Real.cos B.angle + (l.p2.y - l.p1.y) * Real.sin B.angle := by
    rw [hm]
    unfold Pt.dot Box.globalToLocal
    simp only [Pt.sub_x, Pt.sub_y, Pt.sub_z]
    ring
  have dy : (⟨0, 1, 0⟩ : Pt).dot (m.p2 - m.p1) = -((l.p2.x - l.p1.x) * Real.sin B.angle) + (l.p2.y - l.p1.y) * Real.cos B.angle := by
    rw [hm]
    unfold Pt.dot Box.globalToLocal
    simp only [Pt.sub_x, Pt.sub_y, Pt.sub_z]
    ring
  have dz : (⟨0, 0, 1⟩ : Pt).dot (m.p2 - m.p1) = l.p2.z - l.p1.z := by
    rw [hm]
    unfold Pt.dot Box.globalToLocal
    simp only [Pt.sub_x, Pt.sub_y, Pt.sub_z]
    ring
  rw [dx] at c1 c2
  rw [dy] at c3 c4
  rw [dz] at c5 c6
  refine ⟨_, by
    unfold Box.findIntersections
    simp only [Res.monad_bind_eq]
    rw [← hm, a1, a2, a3, a4, a5, a6]
    rfl, ?_, fun q => ?_⟩
  · simp only [List.length_map, List.length_append]
    omega
  · have hin : ∀ r : Pt, r ∈ p1 ++ p2 ++ p3 ++ p4 ++ p5 ++ p6 ↔ m.Has r ∧ 0 ≤ r.x ∧ r.x ≤ B.lx ∧ 0 ≤ r.y ∧ r.y ≤ B.ly ∧ 0 ≤ r.z ∧ r.z ≤ B.lz ∧
        (((r.x = 0 ∨ r.x = B.lx) ∧ (l.p2.x - l.p1.x) * Real.cos B.angle + (l.p2.y - l.p1.y) * Real.sin B.angle ≠ 0) ∨
         ((r.y = 0 ∨ r.y = B.ly) ∧ -((l.p2.x - l.p1.x) * Real.sin B.angle) + (l.p2.y - l.p1.y) * Real.cos B.angle ≠ 0) ∨
         ((r.z = 0 ∨ r.z = B.lz) ∧ l.p2.z - l.p1.z ≠ 0)) := by
      intro r
      have i1 : InPlane ⟨0, 0, 0⟩ ⟨1, 0, 0⟩ r ↔ r.x = 0 := by unfold InPlane; norm_num
      have i2 : InPlane ⟨B.lx, 0, 0⟩ ⟨1, 0, 0⟩ r ↔ r.x = B.lx := by unfold InPlane; norm_num [sub_eq_zero]
      have i3 : InPlane ⟨0, 0, 0⟩ ⟨0, 1, 0⟩ r ↔ r.y = 0 := by unfold InPlane; norm_num
      have i4 : InPlane ⟨0, B.ly, 0⟩ ⟨0, 1, 0⟩ r ↔ r.y = B.ly := by unfold InPlane; norm_num [sub_eq_zero]
      have i5 : InPlane ⟨0, 0, 0⟩ ⟨0, 0, 1⟩ r ↔ r.z = 0 := by unfold InPlane; norm_num
      have i6 : InPlane ⟨0, 0, B.lz⟩ ⟨0, 0, 1⟩ r ↔ r.z = B.lz := by unfold InPlane; norm_num [sub_eq_zero]
      simp only [List.mem_append, c1, c2, c3, c4, c5, c6, i1, i2, i3, i4, i5, i6]
      exact six hx hy hz
    rw [List.mem_map]
    constructor
    · rintro ⟨r, h1, rfl⟩
      obtain ⟨g1, g2, g3, g4, g5, g6, g7, g8⟩ := (hin r).1 h1
      rw [pushInside_eq B g2 g3 g4 g5 g6 g7, localToGlobal_eq]
      exact ⟨local_has.1 g1, r.x, r.y, r.z, g2, g3, g4, g5, g6, g7, rfl, g8⟩
    · rintro ⟨h1, s, t, u, g2, g3, g4, g5, g6, g7, rfl, g8⟩
      refine ⟨⟨s, t, u⟩, (hin _).2 ⟨local_has.2 h1, g2, g3, g4, g5, g6, g7, g8⟩, ?_⟩
      rw [pushInside_eq B g2 g3 g4 g5 g6 g7, localToGlobal_eq]

/-- C114: of three points that `FindIntersections` returns, two are equal. -/
theorem findIntersections_two (B : Box) (hx : 0 ≤ B.lx) (hy : 0 ≤ B.ly) (hz : 0 ≤ B.lz) (l : Line) {ps : List Pt}
    (h : B.findIntersections l = .ok ps) : ∀ p ∈ ps, ∀ q ∈ ps, ∀ r ∈ ps, p = q ∨ q = r ∨ p = r := by
  obtain ⟨ps', h1, -, h2⟩ := findIntersections_partial B hx hy hz l
  rw [h] at h1
  cases h1
  -- the parameter of a point found is between the parameters of no two others of the box
  have key : ∀ t1 t2 t3 : ℝ, t1 < t2 → t2 < t3 → B.Has (l.at t1) → B.Crosses l (l.at t2) → B.Has (l.at t3) → False := by
    intro t1 t2 t3 g1 g2 b1 b2 b3
    obtain ⟨u1, u2, u3, u4, u5, u6⟩ := has_local.1 b1
    obtain ⟨w1, w2, w3, w4, w5, w6⟩ := has_local.1 b3
    obtain ⟨s, t, r, k1, k2, k3, k4, k5, k6, k7, k8⟩ := b2
    have e := local_place B s t r
    rw [← k7] at e
    have ex := congrArg Pt.x e
    have ey := congrArg Pt.y e
    have ez := congrArg Pt.z e
    have lin : ∀ a b A C : ℝ, A + t2 * C = b → C ≠ 0 → 0 ≤ A + t1 * C → A + t1 * C ≤ a → 0 ≤ A + t3 * C → A + t3 * C ≤ a → b = 0 ∨ b = a → False := by
      intro a b A C f1 f2 f3 f4 f5 f6 f7
      rcases lt_or_gt_of_ne f2 with hC | hC
      · have := mul_lt_mul_of_neg_right g1 hC
        have := mul_lt_mul_of_neg_right g2 hC
        rcases f7 with f7 | f7 <;> linarith
      · have := mul_lt_mul_of_pos_right g1 hC
        have := mul_lt_mul_of_pos_right g2 hC
        rcases f7 with f7 | f7 <;> linarith
    have fx : ∀ u, (B.globalToLocal (l.at u)).x = (B.globalToLocal l.p1).x + u * ((l.p2.x - l.p1.x) * Real.cos B.angle + (l.p2.y - l.p1.y) * Real.sin B.angle) := by
      intro u
      unfold Box.globalToLocal Line.at
      simp only
      ring
    have fy : ∀ u, (B.globalToLocal (l.at u)).y = (B.globalToLocal l.p1).y + u * (-((l.p2.x - l.p1.x) * Real.sin B.angle) + (l.p2.y - l.p1.y) * Real.cos B.angle) := by
      intro u
      unfold Box.globalToLocal Line.at
      simp only
      ring
    have fz : ∀ u, (B.globalToLocal (l.at u)).z = (B.globalToLocal l.p1).z + u * (l.p2.z - l.p1.z) := by
      intro u
      unfold Box.globalToLocal Line.at
      simp only
      ring
    rw [fx] at u1 u2 w1 w2 ex
    rw [fy] at u3 u4 w3 w4 ey
    rw [fz] at u5 u6 w5 w6 ez
    rcases k8 with ⟨j1, j2⟩ | ⟨j1, j2⟩ | ⟨j1, j2⟩
    · exact lin _ _ _ _ ex j2 u1 u2 w1 w2 j1
    · exact lin _ _ _ _ ey j2 u3 u4 w3 w4 j1
    · exact lin _ _ _ _ ez j2 u5 u6 w5 w6 j1
  have crossHas : ∀ q, B.Crosses l q → B.Has q := by
    rintro q ⟨s, t, r, k1, k2, k3, k4, k5, k6, k7, -⟩
    exact ⟨s, t, r, k1, k2, k3, k4, k5, k6, k7⟩
  intro p hp q hq r hr
  obtain ⟨hp1, hp2⟩ := (h2 p).1 hp
  obtain ⟨hq1, hq2⟩ := (h2 q).1 hq
  obtain ⟨hr1, hr2⟩ := (h2 r).1 hr
  obtain ⟨a, -, rfl⟩ := Line.has_iff.1 hp1
  obtain ⟨b, -, rfl⟩ := Line.has_iff.1 hq1
  obtain ⟨c, -, rfl⟩ := Line.has_iff.1 hr1
  have pa := crossHas _ hp2
  have pb := crossHas _ hq2
  have pc := crossHas _ hr2
  rcases lt_trichotomy a b with h3 | h3 | h3
  · rcases lt_trichotomy b c with h4 | h4 | h4
    · exact (key a b c h3 h4 pa hq2 pc).elim
    · exact Or.inr (Or.inl (by rw [h4]))
    · rcases lt_trichotomy a c with h5 | h5 | h5
      · exact (key a c b h5 h4 pa hr2 pb).elim
      · exact Or.inr (Or.inr (by rw [h5]))
      · exact (key c a b h5 h3 pc hp2 pb).elim
  · exact Or.inl (by rw [h3])
  · rcases lt_trichotomy b c with h4 | h4 | h4
    · rcases lt_trichotomy a c with h5 | h5 | h5
      · exact (key b a c h3 h5 pb hp2 pc).elim
      · exact Or.inr (Or.inr (by rw [h5]))
      · exact (key b c a h4 h5 pb hr2 pa).elim
    · exact Or.inr (Or.inl (by rw [h4]))
    · exact (key c b a h4 h3 pc hq2 pa).elim

/-- The cube of side one. -/
noncomputable def unitCube : Box := Box.ofLimits 0 0 0 1 1 1

theorem unitCube_place (s t r : ℝ) : unitCube.place s t r = ⟨s, t, r⟩ := by
  unfold unitCube Box.ofLimits Box.place
  norm_num

theorem diagonal_side (p n : Pt) (hn : n.norm = 1) (hd : n.dot ⟨1, 1, 1⟩ ≠ 0) (inside : Pt → Prop) (e : Bool) (m : Line)
    (hm : m = ⟨⟨0, 0, 0⟩, ⟨1, 1, 1⟩, e, e⟩) {t : ℝ} (h0 : 0 ≤ t) (h1 : t ≤ 1) (hp : InPlane p n ⟨t, t, t⟩) (hi : inside ⟨t, t, t⟩) :
    Box.sidePts (Plane.ofNormal p n) inside m = .ok [⟨t, t, t⟩] := by
  subst hm
  obtain ⟨ps, h2, h3, h4⟩ := sidePts_spec p n hn inside ⟨⟨0, 0, 0⟩, ⟨1, 1, 1⟩, e, e⟩
  have hmem := (h4 ⟨t, t, t⟩).2 ⟨by
    have : (⟨1, 1, 1⟩ : Pt) - ⟨0, 0, 0⟩ = ⟨1, 1, 1⟩ := by ext <;> simp
    rw [show (⟨⟨0, 0, 0⟩, ⟨1, 1, 1⟩, e, e⟩ : Line).p2 - (⟨⟨0, 0, 0⟩, ⟨1, 1, 1⟩, e, e⟩ : Line).p1 = ⟨1, 1, 1⟩ from this]
    exact hd, ⟨t, fun _ => h0, fun _ => h1, by ext <;> simp⟩, hp, hi⟩
  rw [h2]
  match ps, h3, hmem with
  | [x], _, hmem =>
    rw [List.mem_singleton] at hmem
    rw [hmem]

/-- C114, violated: the diagonal of a cube is said to meet its sides in six points; the documentation allows two. -/
theorem findIntersections_violation :
    unitCube.findIntersections (Line.segment ⟨0, 0, 0⟩ ⟨1, 1, 1⟩) =
      .ok [⟨0, 0, 0⟩, ⟨1, 1, 1⟩, ⟨0, 0, 0⟩, ⟨1, 1, 1⟩, ⟨0, 0, 0⟩, ⟨1, 1, 1⟩] := by
  have n1 : (⟨1, 0, 0⟩ : Pt).norm = 1 := by unfold Pt.norm; norm_num
  have n2 : (⟨0, 1, 0⟩ : Pt).norm = 1 := by unfold Pt.norm; norm_num
  have n3 : (⟨0, 0, 1⟩ : Pt).norm = 1 := by unfold Pt.norm; norm_num
  have d1 : (⟨1, 0, 0⟩ : Pt).dot ⟨1, 1, 1⟩ ≠ 0 := by norm_num [Pt.dot]
  have d2 : (⟨0, 1, 0⟩ : Pt).dot ⟨1, 1, 1⟩ ≠ 0 := by norm_num [Pt.dot]
  have d3 : (⟨0, 0, 1⟩ : Pt).dot ⟨1, 1, 1⟩ ≠ 0 := by norm_num [Pt.dot]
  have lx : unitCube.lx = 1 := by norm_num [unitCube, Box.ofLimits]
  have ly : unitCube.ly = 1 := by norm_num [unitCube, Box.ofLimits]
  have lz : unitCube.lz = 1 := by norm_num [unitCube, Box.ofLimits]
  have hm : (⟨unitCube.globalToLocal (Line.segment ⟨0, 0, 0⟩ ⟨1, 1, 1⟩).p1, unitCube.globalToLocal (Line.segment ⟨0, 0, 0⟩ ⟨1, 1, 1⟩).p2,
      (Line.segment ⟨0, 0, 0⟩ ⟨1, 1, 1⟩).end1, (Line.segment ⟨0, 0, 0⟩ ⟨1, 1, 1⟩).end2⟩ : Line) = ⟨⟨0, 0, 0⟩, ⟨1, 1, 1⟩, true, true⟩ := by
    have e1 := local_place unitCube 0 0 0
    have e2 := local_place unitCube 1 1 1
    rw [unitCube_place] at e1 e2
    show (⟨unitCube.globalToLocal ⟨0, 0, 0⟩, unitCube.globalToLocal ⟨1, 1, 1⟩, true, true⟩ : Line) = _
    rw [e1, e2]
  have push : ∀ t : ℝ, 0 ≤ t → t ≤ 1 → unitCube.localToGlobal (unitCube.pushInside ⟨t, t, t⟩) = ⟨t, t, t⟩ := by
    intro t h0 h1
    rw [pushInside_eq unitCube h0 (by rw [lx]; exact h1) h0 (by rw [ly]; exact h1) h0 (by rw [lz]; exact h1), localToGlobal_eq, unitCube_place]
  unfold Box.findIntersections
  simp only
  rw [diagonal_side ⟨0, 0, 0⟩ ⟨1, 0, 0⟩ n1 d1 _ true _ hm (t := 0) le_rfl zero_le_one (by unfold InPlane; norm_num) (by rw [ly, lz]; norm_num),
    diagonal_side ⟨unitCube.lx, 0, 0⟩ ⟨1, 0, 0⟩ n1 d1 _ true _ hm (t := 1) zero_le_one le_rfl (by unfold InPlane; rw [lx]; norm_num) (by rw [ly, lz]; norm_num),
    diagonal_side ⟨0, 0, 0⟩ ⟨0, 1, 0⟩ n2 d2 _ true _ hm (t := 0) le_rfl zero_le_one (by unfold InPlane; norm_num) (by rw [lx, lz]; norm_num),
    diagonal_side ⟨0, unitCube.ly, 0⟩ ⟨0, 1, 0⟩ n2 d2 _ true _ hm (t := 1) zero_le_one le_rfl (by unfold InPlane; rw [ly]; norm_num) (by rw [lx, lz]; norm_num),
    diagonal_side ⟨0, 0, 0⟩ ⟨0, 0, 1⟩ n3 d3 _ true _ hm (t := 0) le_rfl zero_le_one (by unfold InPlane; norm_num) (by rw [lx, ly]; norm_num),
    diagonal_side ⟨0, 0, unitCube.lz⟩ ⟨0, 0, 1⟩ n3 d3 _ true _ hm (t := 1) zero_le_one le_rfl (by unfold InPlane; rw [lz]; norm_num) (by rw [lx, ly]; norm_num)]
  simp only [Res.monad_bind_eq, Res.bind_ok, List.cons_append, List.nil_append, List.map_cons, List.map_nil]
  rw [push 0 le_rfl zero_le_one, push 1 zero_le_one le_rfl]

/-- The hypotheses are met: the cube has its centre, at the distance 1/2 from its sides. -/
theorem concrete_box : unitCube.Has ⟨1 / 2, 1 / 2, 1 / 2⟩ ∧ unitCube.findDistance ⟨1 / 2, 1 / 2, 1 / 2⟩ = 1 / 2 ∧ ¬ unitCube.Has ⟨3, 0, 0⟩ := by
  have lx : unitCube.lx = 1 := by norm_num [unitCube, Box.ofLimits]
  have ly : unitCube.ly = 1 := by norm_num [unitCube, Box.ofLimits]
  have lz : unitCube.lz = 1 := by norm_num [unitCube, Box.ofLimits]
  have h : unitCube.Has ⟨1 / 2, 1 / 2, 1 / 2⟩ := by
    refine ⟨1 / 2, 1 / 2, 1 / 2, ?_⟩
    rw [unitCube_place, lx, ly, lz]
    norm_num
  refine ⟨h, ?_, ?_⟩
  · unfold Box.findDistance
    simp only
    rw [if_pos ((isInside_spec _ _).2 h), leastSide_spec]
    have e := local_place unitCube (1 / 2) (1 / 2) (1 / 2)
    rw [unitCube_place] at e
    rw [e, lx, ly, lz]
    norm_num
  · rw [has_local]
    have e := local_place unitCube 3 0 0
    rw [unitCube_place] at e
    rw [e, lx]
    norm_num

end Verif.Geo
