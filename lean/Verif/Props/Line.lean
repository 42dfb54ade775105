import Verif.Lemmas.Geometry
import Verif.Props.ApiSafe

/-!
# C109: projections on lines, rays and segments
-/

namespace Verif.Geo

/-- C109: `FindProjection` returns the point of the line, ray or segment that is nearest. -/
theorem findProjection_spec (l : Line) (p : Pt) :
    ∃ q, l.findProjection p = .ok q ∧ l.Has q ∧ ∀ r, l.Has r → euclid p q ≤ euclid p r ∧ (euclid p r = euclid p q → r = q) := by
  by_cases h : l.sq = 0
  · have hz : ∀ t, l.at t = l.p1 := by
      intro t
      obtain ⟨h1, h2, h3⟩ := three_sq h
      unfold Line.at
      ext <;> simp [h1, h2, h3]
    refine ⟨l.p1, ?_, Line.has_iff.2 ⟨0, l.par_zero, l.at_zero.symm⟩, fun r hr => ?_⟩
    · unfold Line.findProjection
      simp only
      rw [if_pos (l.dist_zero.2 h)]
    · obtain ⟨t, -, rfl⟩ := Line.has_iff.1 hr
      rw [hz]
      exact ⟨le_rfl, fun _ => rfl⟩
  · obtain ⟨t, h1, h2, h3⟩ := l.findProjection_eq h p
    have hpos : 0 < l.sq := lt_of_le_of_ne l.sq_nonneg (Ne.symm h)
    refine ⟨l.at t, h1, Line.has_iff.2 ⟨t, h2, rfl⟩, fun r hr => ?_⟩
    obtain ⟨s, hs, rfl⟩ := Line.has_iff.1 hr
    have h4 := h3 s hs
    have e1 := l.dist_at h p t
    have e2 := l.dist_at h p s
    have hsq : (s - l.proj p) ^ 2 = (t - l.proj p) ^ 2 + 2 * ((t - l.proj p) * (s - t)) + (s - t) ^ 2 := by ring
    constructor
    · refine euclid_le ?_
      rw [e1, e2]
      have : (t - l.proj p) ^ 2 ≤ (s - l.proj p) ^ 2 := by nlinarith [sq_nonneg (s - t)]
      nlinarith
    · intro he
      have h5 := sq_le_of_euclid he.le
      rw [e1, e2, hsq] at h5
      have h6 : l.sq * (s - t) ^ 2 ≤ 0 := by nlinarith
      have h7 : (s - t) ^ 2 ≤ 0 := by
        by_contra hc
        push Not at hc
        nlinarith
      have h8 : s = t := by nlinarith [sq_nonneg (s - t)]
      rw [h8]

/-- C109: `FindDistance` of a point is the least distance to a point of the line. -/
theorem findDistance_spec (l : Line) (p : Pt) :
    ∃ d, l.findDistance p = .ok d ∧ (∃ q, l.Has q ∧ euclid p q = d) ∧ ∀ r, l.Has r → d ≤ euclid p r := by
  obtain ⟨q, h1, h2, h3⟩ := findProjection_spec l p
  refine ⟨euclid p q, ?_, ⟨q, h2, rfl⟩, fun r hr => (h3 r hr).1⟩
  unfold Line.findDistance
  rw [h1]
  simp only [Res.monad_bind_eq, Res.bind_ok, Pt.getDistance_eq]

/-- C109: `IsPointOnLine` says whether a point of the line is nearer than the limit. -/
theorem isPointOnLine_spec (l : Line) (p : Pt) (min : ℝ) :
    ∃ b, l.isPointOnLine p min = .ok b ∧ (b = true ↔ ∃ q, l.Has q ∧ euclid p q < min) := by
  obtain ⟨d, h1, ⟨q, h2, h3⟩, h4⟩ := findDistance_spec l p
  refine ⟨decide (d < min), ?_, ?_⟩
  · unfold Line.isPointOnLine
    rw [h1]
    rfl
  · rw [decide_eq_true_iff]
    exact ⟨fun h => ⟨q, h2, by rw [h3]; exact h⟩, fun ⟨r, h5, h6⟩ => lt_of_le_of_lt (h4 r h5) h6⟩

/-- C109: `FindParameter` gives the parameter of every point of a line with two different points, and fails for other lines. -/
theorem findParameter_spec (l : Line) :
    (l.p1 ≠ l.p2 → ∀ t : ℝ, l.findParameter ⟨l.p1.x + t * (l.p2.x - l.p1.x), l.p1.y + t * (l.p2.y - l.p1.y),
      l.p1.z + t * (l.p2.z - l.p1.z)⟩ = .ok t) ∧
    (l.p1 = l.p2 → ∀ p, l.findParameter p = .nonfinite "division by zero") := by
  have h0 : l.sq = 0 ↔ l.p1 = l.p2 := by
    rw [← l.dist_zero, Pt.getDistance_eq]
    norm_num [euclid_eq_zero]
  constructor
  · intro h t
    have h1 : l.sq ≠ 0 := fun hc => h (h0.1 hc)
    unfold Line.findParameter
    simp only
    rw [l.dist_mul, fdiv_ok h1]
    congr 1
    rw [div_eq_iff h1]
    unfold Line.sq Pt.dot
    simp only [Pt.sub_x, Pt.sub_y, Pt.sub_z]
    ring
  · intro h p
    unfold Line.findParameter
    simp only
    rw [l.dist_mul]
    exact if_pos (h0.2 h)

/-- C109: `GetLength` of a segment is the distance of its ends. -/
theorem getLength_spec (l : Line) (h1 : l.end1 = true) (h2 : l.end2 = true) : l.getLength = .ok (euclid l.p1 l.p2) := by
  unfold Line.getLength
  rw [h1, h2, Bool.and_self, if_pos rfl, Pt.norm_sub, euclid_comm]

/-- C109: where the projection comes before `p2`, `FindDistanceAndSide` says whether the point is on the right of the line, seen from above. -/
theorem findDistanceAndSide_partial (l : Line) (p : Pt) {q : Pt} (hq : l.findProjection p = .ok q) {t : ℝ} (ht : t < 1)
    (he : q = ⟨l.p1.x + t * (l.p2.x - l.p1.x), l.p1.y + t * (l.p2.y - l.p1.y), l.p1.z + t * (l.p2.z - l.p1.z)⟩) :
    l.findDistanceAndSide p = .ok (euclid p q, decide ((l.p2.x - l.p1.x) * (p.y - l.p1.y) - (l.p2.y - l.p1.y) * (p.x - l.p1.x) ≤ 0)) := by
  unfold Line.findDistanceAndSide
  rw [hq]
  simp only [Res.monad_bind_eq, Res.bind_ok, Pt.getDistance_eq]
  congr 2
  rw [decide_eq_decide, he]
  unfold Pt.cross
  simp only [Pt.sub_x, Pt.sub_y]
  have e1 : (p.x - (l.p1.x + t * (l.p2.x - l.p1.x))) * (l.p2.y - (l.p1.y + t * (l.p2.y - l.p1.y))) -
      (p.y - (l.p1.y + t * (l.p2.y - l.p1.y))) * (l.p2.x - (l.p1.x + t * (l.p2.x - l.p1.x))) =
      -((1 - t) * ((l.p2.x - l.p1.x) * (p.y - l.p1.y) - (l.p2.y - l.p1.y) * (p.x - l.p1.x))) := by ring
  rw [ge_iff_le, e1]
  constructor
  · intro h
    by_contra hc
    push Not at hc
    have : 0 < (1 - t) * ((l.p2.x - l.p1.x) * (p.y - l.p1.y) - (l.p2.y - l.p1.y) * (p.x - l.p1.x)) := mul_pos (by linarith) hc
    linarith
  · intro h
    have : (1 - t) * ((l.p2.x - l.p1.x) * (p.y - l.p1.y) - (l.p2.y - l.p1.y) * (p.x - l.p1.x)) ≤ 0 :=
      mul_nonpos_of_nonneg_of_nonpos (by linarith) h
    linarith

theorem findProjection_along {x y : ℝ} (e1 e2 : Bool) (h0 : 0 ≤ x) (h1 : x ≤ 1 ∨ e2 = false) :
    (⟨⟨0, 0, 0⟩, ⟨1, 0, 0⟩, e1, e2⟩ : Line).findProjection ⟨x, y, 0⟩ = .ok ⟨x, 0, 0⟩ := by
  have hd : (⟨0, 0, 0⟩ : Pt).getDistance ⟨1, 0, 0⟩ = 1 := by
    rw [Pt.getDistance_eq]
    unfold euclid
    norm_num
  unfold Line.findProjection
  simp only [hd]
  rw [if_neg (by norm_num), fdiv_ok (by norm_num)]
  simp only [Res.monad_bind_eq, Res.bind_ok, Pt.dot, Pt.sub_x, Pt.sub_y, Pt.sub_z]
  norm_num
  rw [if_neg (by rintro ⟨h, -⟩; linarith), if_neg (by
    rintro ⟨h, h2⟩
    rcases h1 with h1 | h1
    · linarith
    · rw [h1] at h2; cases h2)]
  congr 1
  ext <;> simp

/-- C109, violated: `FindDistanceAndSide` says that (0, 1, 0) is on the left of the line from (0, 0, 0) to (1, 0, 0), and that (2, 1, 0) is on
its right. -/
theorem findDistanceAndSide_violation :
    (⟨⟨0, 0, 0⟩, ⟨1, 0, 0⟩, false, false⟩ : Line).findDistanceAndSide ⟨0, 1, 0⟩ = .ok (1, false) ∧
      (⟨⟨0, 0, 0⟩, ⟨1, 0, 0⟩, false, false⟩ : Line).findDistanceAndSide ⟨2, 1, 0⟩ = .ok (1, true) := by
  constructor <;>
  · unfold Line.findDistanceAndSide
    rw [findProjection_along false false (by norm_num) (Or.inr rfl)]
    simp only [Res.monad_bind_eq, Res.bind_ok, Pt.getDistance_eq, Pt.cross, Pt.sub_x, Pt.sub_y]
    unfold euclid
    norm_num

/-- C109, violated: with its default limit, `IsParallel` is false for all pairs of lines, also for a line and itself. -/
theorem isParallel_violation (l m : Line) : l.isParallel m = false := by
  unfold Line.isParallel
  rw [decide_eq_false_iff_not]
  have := norm_nonneg (l.getDir.cross m.getDir)
  norm_num
  exact this

theorem getNormalized_scaled (p : Pt) : ∃ k : ℝ, p.getNormalized = k * p := by
  unfold Pt.getNormalized
  split_ifs with h
  · exact ⟨1, by ext <;> simp⟩
  · exact ⟨1 / p.norm, by ext <;> simp only [Pt.mul_x, Pt.mul_y, Pt.mul_z] <;> ring⟩

/-- C109: two parallel lines, rays or segments with a common point overlap according to `IsOverLapping`, for all positive limits. -/
theorem isOverLapping_common (l m : Line) (min : ℝ) (hmin : 0 < min) (hl : l.p1 ≠ l.p2) (hp : (l.p2 - l.p1).cross (m.p2 - m.p1) = ⟨0, 0, 0⟩)
    (hc : ∃ p, l.Has p ∧ m.Has p) : l.isOverLapping m min = .ok true := by
  have hpar : l.isParallel m min = true := by
    obtain ⟨k, hk⟩ := getNormalized_scaled (l.p2 - l.p1)
    obtain ⟨j, hj⟩ := getNormalized_scaled (m.p2 - m.p1)
    have : l.getDir.cross m.getDir = ⟨0, 0, 0⟩ := by
      unfold Line.getDir
      rw [hk, hj]
      have h1 := congrArg Pt.x hp
      have h2 := congrArg Pt.y hp
      have h3 := congrArg Pt.z hp
      unfold Pt.cross at h1 h2 h3 ⊢
      simp only [Pt.mul_x, Pt.mul_y, Pt.mul_z] at h1 h2 h3 ⊢
      ext
      · simp only
        linear_combination k * j * h1
      · simp only
        linear_combination k * j * h2
      · simp only
        linear_combination k * j * h3
    unfold Line.isParallel
    rw [decide_eq_true_iff, this, norm_eq_zero.2 rfl]
    exact hmin
  have hon : ∀ (k : Line) (p : Pt), k.Has p → k.isPointOnLine p min = .ok true := by
    intro k p hp
    obtain ⟨b, h1, h2⟩ := isPointOnLine_spec k p min
    rw [h1, h2.2 ⟨p, hp, by rw [euclid_eq_zero.2 rfl]; exact hmin⟩]
  have hex : ∀ (k : Line) (p : Pt), ∃ b, k.isPointOnLine p min = .ok b := fun k p => ⟨_, (isPointOnLine_spec k p min).choose_spec.1⟩
  have key : l.Has m.p1 ∨ m.Has l.p1 ∨ m.Has l.p2 := by
    obtain ⟨p, hp1, hp2⟩ := hc
    obtain ⟨s, hs, rfl⟩ := Line.has_iff.1 hp1
    obtain ⟨t, ht, he⟩ := Line.has_iff.1 hp2
    have hsq : l.sq ≠ 0 := fun h => hl (euclid_eq_zero.1 (by rw [← Pt.getDistance_eq]; have := l.dist_zero.2 h; norm_num at this; exact this))
    -- the direction of `m` in terms of the direction of `l`
    set c := (l.p2 - l.p1).dot (m.p2 - m.p1) / l.sq with hcdef
    have hcs : c * l.sq = (l.p2 - l.p1).dot (m.p2 - m.p1) := div_mul_cancel₀ _ hsq
    have h1 := congrArg Pt.x hp
    have h2 := congrArg Pt.y hp
    have h3 := congrArg Pt.z hp
    unfold Pt.cross at h1 h2 h3
    simp only [Pt.sub_x, Pt.sub_y, Pt.sub_z] at h1 h2 h3
    unfold Pt.dot at hcs
    simp only [Pt.sub_x, Pt.sub_y, Pt.sub_z] at hcs
    have vx : m.p2.x - m.p1.x = c * (l.p2.x - l.p1.x) := by
      apply mul_right_cancel₀ hsq
      have : c * (l.p2.x - l.p1.x) * l.sq = (c * l.sq) * (l.p2.x - l.p1.x) := by ring
      rw [this, hcs]
      unfold Line.sq
      linear_combination (l.p2.z - l.p1.z) * h2 - (l.p2.y - l.p1.y) * h3
    have vy : m.p2.y - m.p1.y = c * (l.p2.y - l.p1.y) := by
      apply mul_right_cancel₀ hsq
      have : c * (l.p2.y - l.p1.y) * l.sq = (c * l.sq) * (l.p2.y - l.p1.y) := by ring
      rw [this, hcs]
      unfold Line.sq
      linear_combination (l.p2.x - l.p1.x) * h3 - (l.p2.z - l.p1.z) * h1
    have vz : m.p2.z - m.p1.z = c * (l.p2.z - l.p1.z) := by
      apply mul_right_cancel₀ hsq
      have : c * (l.p2.z - l.p1.z) * l.sq = (c * l.sq) * (l.p2.z - l.p1.z) := by ring
      rw [this, hcs]
      unfold Line.sq
      linear_combination (l.p2.y - l.p1.y) * h1 - (l.p2.x - l.p1.x) * h2
    have q1 := congrArg Pt.x he
    have q2 := congrArg Pt.y he
    have q3 := congrArg Pt.z he
    unfold Line.at at q1 q2 q3
    simp only at q1 q2 q3
    -- the first point of `m` has the parameter `s - t c`
    have hm1 : m.p1 = l.at (s - t * c) := by
      unfold Line.at
      ext
      · simp only
        linear_combination -q1 - t * vx
      · simp only
        linear_combination -q2 - t * vy
      · simp only
        linear_combination -q3 - t * vz
    have hback : ∀ κ, 0 ≤ κ → κ ≤ 1 → ∀ τ, s - t * c + κ * (t * c) = τ → m.Has (l.at τ) := by
      intro κ k0 k1 τ hτ
      refine Line.has_iff.2 ⟨κ * t, ⟨fun he => mul_nonneg k0 (ht.1 he), fun he => ?_⟩, ?_⟩
      · have := ht.2 he
        by_cases h0 : 0 ≤ t
        · nlinarith
        · nlinarith
      · rw [← hτ]
        unfold Line.at
        ext
        · simp only
          linear_combination q1 + (1 - κ) * t * vx
        · simp only
          linear_combination q2 + (1 - κ) * t * vy
        · simp only
          linear_combination q3 + (1 - κ) * t * vz
    by_cases g1 : l.end1 = true ∧ s - t * c < 0
    · right; left
      have hs0 := hs.1 g1.1
      have htc : 0 < t * c := by linarith
      have := hback ((t * c - s) / (t * c)) (div_nonneg (by linarith [g1.2]) htc.le) (by rw [div_le_one htc]; linarith) 0
        (by rw [div_mul_cancel₀ _ htc.ne']; ring)
      rwa [l.at_zero] at this
    · by_cases g2 : l.end2 = true ∧ 1 < s - t * c
      · right; right
        have hs1 := hs.2 g2.1
        have htc : 0 < -(t * c) := by linarith [g2.2]
        have := hback ((s - t * c - 1) / (-(t * c))) (div_nonneg (by linarith [g2.2]) htc.le) (by rw [div_le_one htc]; linarith) 1
          (by
            have : (s - t * c - 1) / (-(t * c)) * (t * c) = -(s - t * c - 1) := by
              have hne : t * c ≠ 0 := by linarith
              rw [div_neg, neg_mul, div_mul_cancel₀ _ hne]
            rw [this]; ring)
        rwa [l.at_one] at this
      · left
        refine Line.has_iff.2 ⟨s - t * c, ⟨fun he => ?_, fun he => ?_⟩, hm1⟩
        · by_contra hcon
          exact g1 ⟨he, by linarith⟩
        · by_contra hcon
          exact g2 ⟨he, by linarith⟩
  unfold Line.isOverLapping
  rw [hpar]
  simp only [not_true_eq_false, if_false, Res.monad_bind_eq]
  obtain ⟨b1, hb1⟩ := hex l m.p1
  obtain ⟨b2, hb2⟩ := hex l m.p2
  obtain ⟨b3, hb3⟩ := hex m l.p1
  have hb4 : m.Has l.p2 → m.isPointOnLine l.p2 min = .ok true := hon m l.p2
  rw [hb1, Res.bind_ok]
  by_cases j1 : b1 = true
  · rw [if_pos j1]
  rw [if_neg j1, hb2, Res.bind_ok]
  by_cases j2 : b2 = true
  · rw [if_pos j2]
  rw [if_neg j2, hb3, Res.bind_ok]
  by_cases j3 : b3 = true
  · rw [if_pos j3]
  rw [if_neg j3]
  rcases key with k | k | k
  · rw [hon l _ k] at hb1
    exact absurd (Res.ok.inj hb1).symm j1
  · rw [hon m _ k] at hb3
    exact absurd (Res.ok.inj hb3).symm j3
  · exact hb4 k

/-- C109: lines that overlap according to `IsOverLapping` have points nearer to each other than the limit. -/
theorem isOverLapping_near (l m : Line) (min : ℝ) (h : l.isOverLapping m min = .ok true) : ∃ p q, l.Has p ∧ m.Has q ∧ euclid p q < min := by
  have hon : ∀ (k : Line) (p : Pt), ∃ b, k.isPointOnLine p min = .ok b ∧ (b = true → ∃ q, k.Has q ∧ euclid p q < min) := fun k p => by
    obtain ⟨b, h1, h2⟩ := isPointOnLine_spec k p min
    exact ⟨b, h1, h2.1⟩
  have e1 : ∀ k : Line, k.Has k.p1 := fun k => Line.has_iff.2 ⟨0, k.par_zero, k.at_zero.symm⟩
  have e2 : ∀ k : Line, k.Has k.p2 := fun k => Line.has_iff.2 ⟨1, k.par_one, k.at_one.symm⟩
  obtain ⟨b1, a1, a2⟩ := hon l m.p1
  obtain ⟨b2, a3, a4⟩ := hon l m.p2
  obtain ⟨b3, a5, a6⟩ := hon m l.p1
  obtain ⟨b4, a7, a8⟩ := hon m l.p2
  unfold Line.isOverLapping at h
  split_ifs at h with j
  · simp only [Res.monad_bind_eq, a1, a3, a5, a7, Res.bind_ok] at h
    by_cases j1 : b1 = true
    · obtain ⟨q, g1, g2⟩ := a2 j1
      exact ⟨q, _, g1, e1 m, by rw [euclid_comm]; exact g2⟩
    rw [if_neg j1] at h
    by_cases j2 : b2 = true
    · obtain ⟨q, g1, g2⟩ := a4 j2
      exact ⟨q, _, g1, e2 m, by rw [euclid_comm]; exact g2⟩
    rw [if_neg j2] at h
    by_cases j3 : b3 = true
    · obtain ⟨q, g1, g2⟩ := a6 j3
      exact ⟨_, q, e1 l, g1, g2⟩
    rw [if_neg j3] at h
    obtain ⟨q, g1, g2⟩ := a8 (Res.ok.inj h)
    exact ⟨_, q, e2 l, g1, g2⟩
  · cases Res.ok.inj h

/-- The hypotheses are met: the segment from (0, 0, 0) to (1, 0, 0) and a point beside it. -/
theorem concrete_projection :
    (⟨⟨0, 0, 0⟩, ⟨1, 0, 0⟩, true, true⟩ : Line).findProjection ⟨1 / 2, 3, 0⟩ = .ok ⟨1 / 2, 0, 0⟩ ∧
      (⟨⟨0, 0, 0⟩, ⟨1, 0, 0⟩, true, true⟩ : Line).findDistanceAndSide ⟨1 / 2, 3, 0⟩ = .ok (3, false) := by
  have h1 := findProjection_along (x := 1 / 2) (y := 3) true true (by norm_num) (Or.inl (by norm_num))
  refine ⟨h1, ?_⟩
  rw [findDistanceAndSide_partial _ _ h1 (t := 1 / 2) (by norm_num) (by ext <;> norm_num)]
  unfold euclid
  norm_num
  rw [show (9 : ℝ) = 3 ^ 2 by norm_num, Real.sqrt_sq (by norm_num)]

end Verif.Geo
