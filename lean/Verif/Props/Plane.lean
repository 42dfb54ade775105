import Verif.Props.LineLine

/-!
# C112: planes
-/

namespace Verif.Geo

theorem getNormalized_dot {n : Pt} (h : n ≠ ⟨0, 0, 0⟩) (q : Pt) : n.getNormalized.dot q = n.dot q / n.norm := by
  have h1 : n.norm ≠ 0 := fun hc => h (norm_eq_zero.1 hc)
  unfold Pt.getNormalized
  rw [if_neg (by norm_num; exact h1)]
  unfold Pt.dot
  ring

theorem getNormalized_unit {n : Pt} (h : n ≠ ⟨0, 0, 0⟩) : n.getNormalized.dot n.getNormalized = 1 := by
  have h1 : n.norm ≠ 0 := fun hc => h (norm_eq_zero.1 hc)
  have h2 : n.getNormalized.dot n.getNormalized = (n.getNormalized.dot n) / n.norm := by
    unfold Pt.getNormalized
    rw [if_neg (by norm_num; exact h1)]
    unfold Pt.dot
    ring
  rw [h2, getNormalized_dot h, ← norm_sq]
  field_simp

theorem inPlane_iff {p n q : Pt} : InPlane p n q ↔ n.dot (q - p) = 0 := Iff.rfl

/-- C112: the plane through a point with a given normal has a normal of length one, and the points it should have. -/
theorem ofNormal_spec (p n : Pt) (h : n ≠ ⟨0, 0, 0⟩) :
    (Plane.ofNormal p n).nvec.norm = 1 ∧ ∀ q, InPlane (Plane.ofNormal p n).pt (Plane.ofNormal p n).nvec q ↔ InPlane p n q := by
  constructor
  · have := norm_sq (Plane.ofNormal p n).nvec
    rw [show (Plane.ofNormal p n).nvec.dot (Plane.ofNormal p n).nvec = 1 from getNormalized_unit h] at this
    nlinarith [norm_nonneg (Plane.ofNormal p n).nvec]
  · intro q
    rw [inPlane_iff, inPlane_iff]
    show n.getNormalized.dot (q - p) = 0 ↔ _
    rw [getNormalized_dot h, div_eq_zero_iff]
    exact ⟨fun h1 => h1.resolve_right (fun hc => h (norm_eq_zero.1 hc)), Or.inl⟩

/-- C112: the plane through three points that are not on one line has a normal of length one, and has the three points. -/
theorem ofPoints_spec (p q r : Pt) (h : (q - p).cross (r - p) ≠ ⟨0, 0, 0⟩) :
    (Plane.ofPoints p q r).nvec.norm = 1 ∧ ∀ s ∈ [p, q, r], InPlane (Plane.ofPoints p q r).pt (Plane.ofPoints p q r).nvec s := by
  have e : (p - q).cross (p - r) = (q - p).cross (r - p) := by
    unfold Pt.cross
    ext <;> simp only [Pt.sub_x, Pt.sub_y, Pt.sub_z] <;> ring
  have e2 : Plane.ofPoints p q r = Plane.ofNormal p ((q - p).cross (r - p)) := by
    unfold Plane.ofPoints Plane.ofNormal
    rw [e]
  rw [e2]
  refine ⟨(ofNormal_spec p _ h).1, fun s hs => ((ofNormal_spec p _ h).2 s).2 ?_⟩
  unfold InPlane Pt.cross
  simp only [Pt.sub_x, Pt.sub_y, Pt.sub_z]
  simp only [List.mem_cons, List.not_mem_nil, or_false] at hs
  rcases hs with rfl | rfl | rfl <;> ring

theorem dot_self_one {n : Pt} (h : n.norm = 1) : n.x * n.x + n.y * n.y + n.z * n.z = 1 := by
  have := norm_sq n
  rw [h] at this
  unfold Pt.dot at this
  linarith

/-- C112: `FindProjection` returns the point of the plane that is nearest, and `FindDistance` its distance. -/
theorem plane_projection_spec (a : Plane) (h : a.nvec.norm = 1) (p : Pt) :
    InPlane a.pt a.nvec (a.findProjection p) ∧ a.findDistance p = euclid p (a.findProjection p) ∧
      ∀ r, InPlane a.pt a.nvec r → a.findDistance p ≤ euclid p r ∧ (euclid p r = a.findDistance p → r = a.findProjection p) := by
  have h1 := dot_self_one h
  set k := a.nvec.dot (a.pt - p) with hk
  have hk2 : k = a.nvec.x * (a.pt.x - p.x) + a.nvec.y * (a.pt.y - p.y) + a.nvec.z * (a.pt.z - p.z) := rfl
  have hproj : a.findProjection p = ⟨p.x + a.nvec.x * k, p.y + a.nvec.y * k, p.z + a.nvec.z * k⟩ := rfl
  have hd : a.findDistance p = |k| := by
    unfold Plane.findDistance
    rw [show a.nvec.dot (p - a.pt) = -k by rw [hk2]; unfold Pt.dot; simp only [Pt.sub_x, Pt.sub_y, Pt.sub_z]; ring, abs_neg]
  have hd2 : euclid p (a.findProjection p) = |k| := by
    unfold euclid
    rw [hproj, ← Real.sqrt_sq_eq_abs]
    congr 1
    simp only
    linear_combination k ^ 2 * h1
  have hin : InPlane a.pt a.nvec (a.findProjection p) := by
    rw [hproj]
    unfold InPlane
    simp only
    rw [hk2]
    linear_combination (a.nvec.x * (a.pt.x - p.x) + a.nvec.y * (a.pt.y - p.y) + a.nvec.z * (a.pt.z - p.z)) * h1
  refine ⟨hin, by rw [hd, hd2], fun r hr => ?_⟩
  unfold InPlane at hr
  have key : (p.x - r.x) ^ 2 + (p.y - r.y) ^ 2 + (p.z - r.z) ^ 2 =
      k ^ 2 + ((r.x - (p.x + a.nvec.x * k)) ^ 2 + (r.y - (p.y + a.nvec.y * k)) ^ 2 + (r.z - (p.z + a.nvec.z * k)) ^ 2) := by
    have h2 : a.nvec.x * (r.x - p.x) + a.nvec.y * (r.y - p.y) + a.nvec.z * (r.z - p.z) = k := by
      rw [hk2]
      linarith
    linear_combination 2 * k * h2 - k ^ 2 * h1
  constructor
  · rw [hd]
    apply Real.le_sqrt_of_sq_le
    rw [sq_abs, key]
    have := sq_nonneg (r.x - (p.x + a.nvec.x * k))
    have := sq_nonneg (r.y - (p.y + a.nvec.y * k))
    have := sq_nonneg (r.z - (p.z + a.nvec.z * k))
    linarith
  · intro he
    have h3 := euclid_sq p r
    rw [he, hd, sq_abs, key] at h3
    obtain ⟨g1, g2, g3⟩ := three_sq (a := r.x - (p.x + a.nvec.x * k)) (b := r.y - (p.y + a.nvec.y * k)) (c := r.z - (p.z + a.nvec.z * k))
      (by linarith)
    rw [hproj]
    exact Pt.ext (by simp only; linarith) (by simp only; linarith) (by simp only; linarith)

/-- C112: `IsPointOnPlane` says whether a point of the plane is within the limit. -/
theorem isPointOnPlane_spec (a : Plane) (h : a.nvec.norm = 1) (p : Pt) (min : ℝ) :
    a.isPointOnPlane p min = true ↔ ∃ r, InPlane a.pt a.nvec r ∧ euclid p r ≤ min := by
  obtain ⟨h1, h2, h3⟩ := plane_projection_spec a h p
  unfold Plane.isPointOnPlane
  rw [decide_eq_true_iff]
  exact ⟨fun h => ⟨_, h1, by rw [← h2]; exact h⟩, fun ⟨r, h4, h5⟩ => le_trans (h3 r h4).1 h5⟩

/-- C112: `IsOnPositiveSide` says whether the point is reached from the plane by going along the normal. -/
theorem isOnPositiveSide_spec (a : Plane) (h : a.nvec.norm = 1) (p : Pt) :
    a.isOnPositiveSide p = true ↔ ∃ (r : Pt) (t : ℝ), InPlane a.pt a.nvec r ∧ 0 < t ∧
      p = ⟨r.x + t * a.nvec.x, r.y + t * a.nvec.y, r.z + t * a.nvec.z⟩ := by
  have h1 := dot_self_one h
  unfold Plane.isOnPositiveSide
  rw [decide_eq_true_iff]
  constructor
  · intro hp
    refine ⟨a.findProjection p, a.nvec.dot (p - a.pt), (plane_projection_spec a h p).1, hp, ?_⟩
    unfold Plane.findProjection Pt.dot
    ext <;> simp only [Pt.add_x, Pt.add_y, Pt.add_z, Pt.mul_x, Pt.mul_y, Pt.mul_z, Pt.sub_x, Pt.sub_y, Pt.sub_z] <;> ring
  · rintro ⟨r, t, h2, h3, rfl⟩
    unfold InPlane at h2
    have : a.nvec.dot ((⟨r.x + t * a.nvec.x, r.y + t * a.nvec.y, r.z + t * a.nvec.z⟩ : Pt) - a.pt) = t := by
      unfold Pt.dot
      simp only [Pt.sub_x, Pt.sub_y, Pt.sub_z]
      linear_combination h2 + t * h1
    rw [this]
    exact h3

theorem plane_at {a : Plane} {l : Line} (h : a.nvec.dot (l.p2 - l.p1) ≠ 0) (t : ℝ) :
    InPlane a.pt a.nvec (l.at t) ↔ t = a.nvec.dot (a.pt - l.p1) / a.nvec.dot (l.p2 - l.p1) := by
  rw [eq_div_iff h]
  unfold InPlane Line.at Pt.dot
  simp only [Pt.sub_x, Pt.sub_y, Pt.sub_z]
  constructor <;> intro h1 <;> linarith

/-- C112: `FindIntersection` of a line, ray or segment that is not parallel to the plane finds their common point, and only that. -/
theorem plane_findIntersection_spec (a : Plane) (l : Line) (h : a.nvec.dot (l.p2 - l.p1) ≠ 0) :
    ∃ o, a.findIntersection l = .ok o ∧ ∀ p, o = some p ↔ l.Has p ∧ InPlane a.pt a.nvec p := by
  have h1 : ¬ (a.isParallel l = true) := by
    unfold Plane.isParallel
    rw [decide_eq_true_iff]
    norm_num
    exact h
  unfold Plane.findIntersection
  rw [if_neg h1, fdiv_ok h]
  simp only [Res.monad_bind_eq, Res.bind_ok]
  rw [l.at_eq]
  set t := a.nvec.dot (a.pt - l.p1) / a.nvec.dot (l.p2 - l.p1) with ht
  by_cases h2 : (l.end1 = true ∧ t < 0) ∨ (l.end2 = true ∧ t > 1)
  · refine ⟨none, by rw [if_pos h2], fun p => ⟨fun hp => (by cases hp), fun hp => ?_⟩⟩
    exfalso
    obtain ⟨s, hs, rfl⟩ := Line.has_iff.1 hp.1
    have h3 := (plane_at h s).1 hp.2
    rw [← ht] at h3
    subst h3
    rcases h2 with h2 | h2
    · linarith [hs.1 h2.1, h2.2]
    · linarith [hs.2 h2.1, h2.2]
  · refine ⟨some (l.at t), by rw [if_neg h2], fun p => ⟨fun hp => ?_, fun hp => ?_⟩⟩
    · cases hp
      refine ⟨Line.has_iff.2 ⟨t, ⟨fun he => ?_, fun he => ?_⟩, rfl⟩, (plane_at h t).2 ht⟩
      · by_contra hc
        exact h2 (Or.inl ⟨he, by linarith⟩)
      · by_contra hc
        exact h2 (Or.inr ⟨he, by linarith⟩)
    · obtain ⟨s, hs, rfl⟩ := Line.has_iff.1 hp.1
      have h3 := (plane_at h s).1 hp.2
      rw [h3]

/-- C112: lines parallel to the plane are said to have no common point with it; and the function that has no other answer divides by zero. -/
theorem plane_findIntersection_parallel (a : Plane) (l : Line) (h : a.nvec.dot (l.p2 - l.p1) = 0) :
    a.findIntersection l = .ok none ∧ a.findIntersectionPt l = .nonfinite "division by zero" := by
  constructor
  · unfold Plane.findIntersection
    rw [if_pos]
    unfold Plane.isParallel
    rw [decide_eq_true_iff, h]
    norm_num
  · unfold Plane.findIntersectionPt
    rw [show fdiv (a.nvec.dot (a.pt - l.p1)) (a.nvec.dot (l.p2 - l.p1)) = .nonfinite "division by zero" from if_pos h]
    rfl

/-- C112: the other `FindIntersection` finds the common point of the plane and the whole straight line. -/
theorem plane_findIntersectionPt_spec (a : Plane) (l : Line) (h : a.nvec.dot (l.p2 - l.p1) ≠ 0) :
    ∃ p, a.findIntersectionPt l = .ok p ∧ ∀ q, q = p ↔ (⟨l.p1, l.p2, false, false⟩ : Line).Has q ∧ InPlane a.pt a.nvec q := by
  refine ⟨l.at (a.nvec.dot (a.pt - l.p1) / a.nvec.dot (l.p2 - l.p1)), ?_, fun q => ⟨?_, ?_⟩⟩
  · unfold Plane.findIntersectionPt
    rw [fdiv_ok h]
    simp only [Res.monad_bind_eq, Res.bind_ok]
    rw [l.at_eq]
  · rintro rfl
    exact ⟨⟨_, fun hc => (by cases hc), fun hc => (by cases hc), rfl⟩, (plane_at h _).2 rfl⟩
  · rintro ⟨⟨s, -, -, rfl⟩, h2⟩
    have h3 := (plane_at (l := l) h s).1 h2
    show l.at s = _
    rw [h3]

/-- C112: the `FindIntersection` of two planes that are not parallel is the line of their common points. Neither plane need be other than
horizontal. -/
theorem plane_findLine_spec (a b : Plane) (ha : a.nvec.norm = 1) (hb : b.nvec.norm = 1) (h : a.nvec.cross b.nvec ≠ ⟨0, 0, 0⟩) :
    ∃ l, a.findLine b = .ok l ∧ ∀ q, l.Has q ↔ InPlane a.pt a.nvec q ∧ InPlane b.pt b.nvec q := by
  have h1 := dot_self_one ha
  have h2 := dot_self_one hb
  set X := a.nvec.cross b.nvec with hX
  have hN : 1 - a.nvec.dot b.nvec * a.nvec.dot b.nvec = X.x ^ 2 + X.y ^ 2 + X.z ^ 2 := by
    rw [hX]
    unfold Pt.dot Pt.cross
    simp only
    linear_combination (-(b.nvec.x * b.nvec.x + b.nvec.y * b.nvec.y + b.nvec.z * b.nvec.z)) * h1 - h2
  have hpos : X.x ^ 2 + X.y ^ 2 + X.z ^ 2 ≠ 0 := by
    intro hc
    obtain ⟨g1, g2, g3⟩ := three_sq hc
    exact h (Pt.ext g1 g2 g3)
  have hne : 1.0 - a.nvec.dot b.nvec * a.nvec.dot b.nvec ≠ 0 := by
    norm_num
    rw [hN]
    exact hpos
  set k := a.nvec.dot b.nvec with hk
  set d1 := -a.nvec.dot a.pt with hd1
  set d2 := -b.nvec.dot b.pt with hd2
  set c1 := (d2 * k - d1) / (1.0 - k * k) with hc1
  set c2 := (d1 * k - d2) / (1.0 - k * k) with hc2
  have e1 : c1 * (1 - k * k) = d2 * k - d1 := by
    have := div_mul_cancel₀ (d2 * k - d1) hne
    rw [← hc1] at this
    norm_num at this
    exact this
  have e2 : c2 * (1 - k * k) = d1 * k - d2 := by
    have := div_mul_cancel₀ (d1 * k - d2) hne
    rw [← hc2] at this
    norm_num at this
    exact this
  have f1 : c1 + c2 * k = -d1 := by
    have : (c1 + c2 * k) * (1 - k * k) = -d1 * (1 - k * k) := by linear_combination e1 + k * e2
    exact mul_right_cancel₀ (by rw [hN]; exact hpos) this
  have f2 : c1 * k + c2 = -d2 := by
    have : (c1 * k + c2) * (1 - k * k) = -d2 * (1 - k * k) := by linear_combination k * e1 + e2
    exact mul_right_cancel₀ (by rw [hN]; exact hpos) this
  refine ⟨Line.infiniteLine (c1 * a.nvec + c2 * b.nvec) X, ?_, fun q => ?_⟩
  · unfold Plane.findLine
    simp only
    rw [if_neg (fun hc => h (norm_eq_zero.1 hc)), fdiv_ok hne, fdiv_ok hne]
    rfl
  · have hk3 : k = a.nvec.x * b.nvec.x + a.nvec.y * b.nvec.y + a.nvec.z * b.nvec.z := rfl
    have hd13 : d1 = -(a.nvec.x * a.pt.x + a.nvec.y * a.pt.y + a.nvec.z * a.pt.z) := rfl
    have hd23 : d2 = -(b.nvec.x * b.pt.x + b.nvec.y * b.pt.y + b.nvec.z * b.pt.z) := rfl
    have hXx : X.x = a.nvec.y * b.nvec.z - a.nvec.z * b.nvec.y := rfl
    have hXy : X.y = a.nvec.z * b.nvec.x - a.nvec.x * b.nvec.z := rfl
    have hXz : X.z = a.nvec.x * b.nvec.y - a.nvec.y * b.nvec.x := rfl
    unfold InPlane
    constructor
    · rintro ⟨t, -, -, rfl⟩
      simp only [Line.infiniteLine, Pt.add_x, Pt.add_y, Pt.add_z, Pt.mul_x, Pt.mul_y, Pt.mul_z]
      constructor
      · have : a.nvec.x * (a.nvec.x * c1 + b.nvec.x * c2 + t * (a.nvec.x * c1 + b.nvec.x * c2 + X.x - (a.nvec.x * c1 + b.nvec.x * c2)) - a.pt.x) +
            a.nvec.y * (a.nvec.y * c1 + b.nvec.y * c2 + t * (a.nvec.y * c1 + b.nvec.y * c2 + X.y - (a.nvec.y * c1 + b.nvec.y * c2)) - a.pt.y) +
            a.nvec.z * (a.nvec.z * c1 + b.nvec.z * c2 + t * (a.nvec.z * c1 + b.nvec.z * c2 + X.z - (a.nvec.z * c1 + b.nvec.z * c2)) - a.pt.z) =
          c1 * (a.nvec.x * a.nvec.x + a.nvec.y * a.nvec.y + a.nvec.z * a.nvec.z) + c2 * k + d1 +
            t * (a.nvec.x * X.x + a.nvec.y * X.y + a.nvec.z * X.z) := by
          rw [hk3, hd13]
          ring
        rw [this, h1, hXx, hXy, hXz]
        linear_combination f1
      · have : b.nvec.x * (a.nvec.x * c1 + b.nvec.x * c2 + t * (a.nvec.x * c1 + b.nvec.x * c2 + X.x - (a.nvec.x * c1 + b.nvec.x * c2)) - b.pt.x) +
            b.nvec.y * (a.nvec.y * c1 + b.nvec.y * c2 + t * (a.nvec.y * c1 + b.nvec.y * c2 + X.y - (a.nvec.y * c1 + b.nvec.y * c2)) - b.pt.y) +
            b.nvec.z * (a.nvec.z * c1 + b.nvec.z * c2 + t * (a.nvec.z * c1 + b.nvec.z * c2 + X.z - (a.nvec.z * c1 + b.nvec.z * c2)) - b.pt.z) =
          c2 * (b.nvec.x * b.nvec.x + b.nvec.y * b.nvec.y + b.nvec.z * b.nvec.z) + c1 * k + d2 +
            t * (b.nvec.x * X.x + b.nvec.y * X.y + b.nvec.z * X.z) := by
          rw [hk3, hd23]
          ring
        rw [this, h2, hXx, hXy, hXz]
        linear_combination f2
    · rintro ⟨g1, g2⟩
      set wx := q.x - (a.nvec.x * c1 + b.nvec.x * c2) with hwx
      set wy := q.y - (a.nvec.y * c1 + b.nvec.y * c2) with hwy
      set wz := q.z - (a.nvec.z * c1 + b.nvec.z * c2) with hwz
      have w1 : wx * a.nvec.x + wy * a.nvec.y + wz * a.nvec.z = 0 := by
        have : wx * a.nvec.x + wy * a.nvec.y + wz * a.nvec.z =
          (a.nvec.x * (q.x - a.pt.x) + a.nvec.y * (q.y - a.pt.y) + a.nvec.z * (q.z - a.pt.z)) - d1 -
            c1 * (a.nvec.x * a.nvec.x + a.nvec.y * a.nvec.y + a.nvec.z * a.nvec.z) - c2 * k := by
          rw [hwx, hwy, hwz, hk3, hd13]
          ring
        rw [this, g1, h1]
        linear_combination -f1
      have w2 : wx * b.nvec.x + wy * b.nvec.y + wz * b.nvec.z = 0 := by
        have : wx * b.nvec.x + wy * b.nvec.y + wz * b.nvec.z =
          (b.nvec.x * (q.x - b.pt.x) + b.nvec.y * (q.y - b.pt.y) + b.nvec.z * (q.z - b.pt.z)) - d2 -
            c2 * (b.nvec.x * b.nvec.x + b.nvec.y * b.nvec.y + b.nvec.z * b.nvec.z) - c1 * k := by
          rw [hwx, hwy, hwz, hk3, hd23]
          ring
        rw [this, g2, h2]
        linear_combination -f2
      have m1 : wx * (X.x ^ 2 + X.y ^ 2 + X.z ^ 2) = (wx * X.x + wy * X.y + wz * X.z) * X.x := by
        rw [hXx, hXy, hXz]
        linear_combination ((a.nvec.z * b.nvec.x - a.nvec.x * b.nvec.z) * a.nvec.z - (a.nvec.x * b.nvec.y - a.nvec.y * b.nvec.x) * a.nvec.y) * w2 -
          ((a.nvec.z * b.nvec.x - a.nvec.x * b.nvec.z) * b.nvec.z - (a.nvec.x * b.nvec.y - a.nvec.y * b.nvec.x) * b.nvec.y) * w1
      have m2 : wy * (X.x ^ 2 + X.y ^ 2 + X.z ^ 2) = (wx * X.x + wy * X.y + wz * X.z) * X.y := by
        rw [hXx, hXy, hXz]
        linear_combination ((a.nvec.x * b.nvec.y - a.nvec.y * b.nvec.x) * a.nvec.x - (a.nvec.y * b.nvec.z - a.nvec.z * b.nvec.y) * a.nvec.z) * w2 -
          ((a.nvec.x * b.nvec.y - a.nvec.y * b.nvec.x) * b.nvec.x - (a.nvec.y * b.nvec.z - a.nvec.z * b.nvec.y) * b.nvec.z) * w1
      have m3 : wz * (X.x ^ 2 + X.y ^ 2 + X.z ^ 2) = (wx * X.x + wy * X.y + wz * X.z) * X.z := by
        rw [hXx, hXy, hXz]
        linear_combination ((a.nvec.y * b.nvec.z - a.nvec.z * b.nvec.y) * a.nvec.y - (a.nvec.z * b.nvec.x - a.nvec.x * b.nvec.z) * a.nvec.x) * w2 -
          ((a.nvec.y * b.nvec.z - a.nvec.z * b.nvec.y) * b.nvec.y - (a.nvec.z * b.nvec.x - a.nvec.x * b.nvec.z) * b.nvec.x) * w1
      have n1 : wx = (wx * X.x + wy * X.y + wz * X.z) / (X.x ^ 2 + X.y ^ 2 + X.z ^ 2) * X.x := by
        rw [div_mul_eq_mul_div, eq_div_iff hpos, m1]
      have n2 : wy = (wx * X.x + wy * X.y + wz * X.z) / (X.x ^ 2 + X.y ^ 2 + X.z ^ 2) * X.y := by
        rw [div_mul_eq_mul_div, eq_div_iff hpos, m2]
      have n3 : wz = (wx * X.x + wy * X.y + wz * X.z) / (X.x ^ 2 + X.y ^ 2 + X.z ^ 2) * X.z := by
        rw [div_mul_eq_mul_div, eq_div_iff hpos, m3]
      refine ⟨(wx * X.x + wy * X.y + wz * X.z) / (X.x ^ 2 + X.y ^ 2 + X.z ^ 2), fun hc => (by cases hc), fun hc => (by cases hc), ?_⟩
      simp only [Line.infiniteLine, Pt.add_x, Pt.add_y, Pt.add_z, Pt.mul_x, Pt.mul_y, Pt.mul_z, add_sub_cancel_left]
      rw [← n1, ← n2, ← n3]
      exact Pt.ext (by simp only; rw [hwx]; ring) (by simp only; rw [hwy]; ring) (by simp only; rw [hwz]; ring)

/-- C112: for parallel planes the answer is a line of one point, the origin. -/
theorem plane_findLine_parallel (a b : Plane) (h : a.nvec.cross b.nvec = ⟨0, 0, 0⟩) :
    a.findLine b = .ok ⟨⟨0, 0, 0⟩, ⟨0, 0, 0⟩, true, true⟩ := by
  unfold Plane.findLine
  simp only
  rw [if_pos (norm_eq_zero.2 h)]

/-- The hypotheses are met: the horizontal plane at 2 and the plane through three points of the xz-plane meet in a line. -/
theorem concrete_planes :
    (Plane.ofNormal ⟨0, 0, 2⟩ ⟨0, 0, 5⟩).nvec.norm = 1 ∧ (Plane.ofPoints ⟨0, 0, 0⟩ ⟨1, 0, 0⟩ ⟨0, 0, 1⟩).nvec.norm = 1 ∧
      ∃ l, (Plane.ofNormal ⟨0, 0, 2⟩ ⟨0, 0, 5⟩).findLine (Plane.ofPoints ⟨0, 0, 0⟩ ⟨1, 0, 0⟩ ⟨0, 0, 1⟩) = .ok l ∧ l.Has ⟨7, 0, 2⟩ := by
  have h1 : (⟨0, 0, 5⟩ : Pt) ≠ ⟨0, 0, 0⟩ := fun h => by have := congrArg Pt.z h; norm_num at this
  have h2 : ((⟨1, 0, 0⟩ : Pt) - ⟨0, 0, 0⟩).cross (⟨0, 0, 1⟩ - ⟨0, 0, 0⟩) ≠ ⟨0, 0, 0⟩ := fun h => by
    have := congrArg Pt.y h
    norm_num [Pt.cross] at this
  have g1 := (ofNormal_spec ⟨0, 0, 2⟩ ⟨0, 0, 5⟩ h1)
  have g2 := (ofPoints_spec ⟨0, 0, 0⟩ ⟨1, 0, 0⟩ ⟨0, 0, 1⟩ h2)
  have i1 := (g1.2 ⟨7, 0, 2⟩).2 (by unfold InPlane; norm_num)
  have i2 := g2.2 ⟨0, 0, 0⟩ (by simp)
  have i3 := g2.2 ⟨1, 0, 0⟩ (by simp)
  have i4 := g2.2 ⟨0, 0, 1⟩ (by simp)
  have i5 : InPlane (Plane.ofPoints ⟨0, 0, 0⟩ ⟨1, 0, 0⟩ ⟨0, 0, 1⟩).pt (Plane.ofPoints ⟨0, 0, 0⟩ ⟨1, 0, 0⟩ ⟨0, 0, 1⟩).nvec ⟨7, 0, 2⟩ := by
    unfold InPlane at *
    simp only at i2 i3 i4 ⊢
    linarith
  refine ⟨g1.1, g2.1, ?_⟩
  obtain ⟨l, k1, k2⟩ := plane_findLine_spec _ _ g1.1 g2.1 (by
    intro hc
    have nx : (Plane.ofNormal ⟨0, 0, 2⟩ ⟨0, 0, 5⟩).nvec.x = 0 := by
      unfold Plane.ofNormal Pt.getNormalized
      simp only
      split_ifs <;> simp
    have ny : (Plane.ofNormal ⟨0, 0, 2⟩ ⟨0, 0, 5⟩).nvec.y = 0 := by
      unfold Plane.ofNormal Pt.getNormalized
      simp only
      split_ifs <;> simp
    have nz := dot_self_one g1.1
    rw [nx, ny] at nz
    have mx : (Plane.ofPoints ⟨0, 0, 0⟩ ⟨1, 0, 0⟩ ⟨0, 0, 1⟩).nvec.x = 0 := by
      unfold InPlane at i2 i3
      simp only at i2 i3
      linarith
    have mz : (Plane.ofPoints ⟨0, 0, 0⟩ ⟨1, 0, 0⟩ ⟨0, 0, 1⟩).nvec.z = 0 := by
      unfold InPlane at i2 i4
      simp only at i2 i4
      linarith
    have my := dot_self_one g2.1
    rw [mx, mz] at my
    have hx := congrArg Pt.x hc
    unfold Pt.cross at hx
    simp only at hx
    rw [ny, mz] at hx
    have : (Plane.ofNormal ⟨0, 0, 2⟩ ⟨0, 0, 5⟩).nvec.z * (Plane.ofPoints ⟨0, 0, 0⟩ ⟨1, 0, 0⟩ ⟨0, 0, 1⟩).nvec.y = 0 := by linarith
    rcases mul_eq_zero.1 this with h | h
    · rw [h] at nz; norm_num at nz
    · rw [h] at my; norm_num at my)
  exact ⟨l, k1, (k2 _).2 ⟨i1, i5⟩⟩

end Verif.Geo
