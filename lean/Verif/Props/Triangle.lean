import Verif.Lemmas.Triangle
import Verif.Props.LineLine

/-!
# C113: triangles
-/

namespace Verif.Geo

/-- C113: `FindIntersection` of a triangle with a line, ray or segment that is not parallel to it finds their common point, and only that;
points of the edges count if they should. -/
theorem triangle_findIntersection_spec (T : Triangle) (l : Line) (edge : Bool) (h : (T.p2 - T.p1).cross (T.p3 - T.p1) ≠ ⟨0, 0, 0⟩)
    (hb : ((T.p2 - T.p1).cross (T.p3 - T.p1)).dot (l.p2 - l.p1) ≠ 0) :
    ∃ o, T.findIntersection l edge = .ok o ∧ ∀ p, o = some p ↔ l.Has p ∧ (if edge then T.Has p else T.HasInside p) := by
  set n := (T.p2 - T.p1).cross (T.p3 - T.p1) with hn
  set r := (-n.dot (l.p1 - T.p1)) / n.dot (l.p2 - l.p1) with hr
  have hplane : ∀ t, n.dot (l.at t - T.p1) = 0 ↔ t = r := by
    intro t
    rw [hr, eq_div_iff hb]
    unfold Line.at Pt.dot
    simp only [Pt.sub_x, Pt.sub_y, Pt.sub_z]
    constructor <;> intro hh <;> linarith
  have hplane2 : ∀ p, (if edge then T.Has p else T.HasInside p) → n.dot (p - T.p1) = 0 := by
    intro p hp
    cases edge
    · obtain ⟨a, b, c, -, -, -, hs, rfl⟩ := hp
      exact mix_plane T hs
    · obtain ⟨a, b, c, -, -, -, hs, rfl⟩ := hp
      exact mix_plane T hs
  have hn0 : ¬ (n.x = 0.0 ∧ n.y = 0.0 ∧ n.z = 0.0) := by
    rintro ⟨h1, h2, h3⟩
    norm_num at h1 h2 h3
    exact h (Pt.ext h1 h2 h3)
  have hb0 : ¬ (n.dot (l.p2 - l.p1) = 0.0) := by
    norm_num
    exact hb
  have hunf : T.findIntersection l edge = (if (l.end1 = true ∧ r < 0.0) ∨ (l.end2 = true ∧ r > 1.0) then .ok none
      else (T.holds (l.at r) edge).bind fun x => if x = true then .ok (some (l.at r)) else .ok none) := by
    unfold Triangle.findIntersection
    simp only
    rw [← hn, if_neg hn0, if_neg hb0, fdiv_ok hb]
    simp only [Res.monad_bind_eq, Res.bind_ok]
    rw [← hr, l.at_eq]
  rw [hunf]
  obtain ⟨a, b, c, hs, hmix⟩ := exists_weights h ((hplane r).2 rfl)
  have hh : T.holds (l.at r) edge = .ok (decide (if edge then 0 ≤ a ∧ 0 ≤ b ∧ 0 ≤ c else 0 < a ∧ 0 < b ∧ 0 < c)) := by
    rw [hmix]
    exact holds_spec h a b c hs edge
  have hw : (if edge then 0 ≤ a ∧ 0 ≤ b ∧ 0 ≤ c else 0 < a ∧ 0 < b ∧ 0 < c) ↔ (if edge then T.Has (l.at r) else T.HasInside (l.at r)) := by
    cases edge
    · simp only [Bool.false_eq_true, if_false]
      constructor
      · rintro ⟨h1, h2, h3⟩
        exact ⟨a, b, c, h1, h2, h3, hs, hmix⟩
      · rintro ⟨a', b', c', h1, h2, h3, hs', he⟩
        obtain ⟨rfl, rfl, rfl⟩ := weights_unique h hs hs' (hmix.symm.trans he)
        exact ⟨h1, h2, h3⟩
    · simp only [if_true]
      constructor
      · rintro ⟨h1, h2, h3⟩
        exact ⟨a, b, c, h1, h2, h3, hs, hmix⟩
      · rintro ⟨a', b', c', h1, h2, h3, hs', he⟩
        obtain ⟨rfl, rfl, rfl⟩ := weights_unique h hs hs' (hmix.symm.trans he)
        exact ⟨h1, h2, h3⟩
  have honly : ∀ p, l.Has p → (if edge then T.Has p else T.HasInside p) → p = l.at r ∧ l.Par r := by
    intro p hp1 hp2
    obtain ⟨t, ht, rfl⟩ := Line.has_iff.1 hp1
    have := (hplane t).1 (hplane2 _ hp2)
    subst this
    exact ⟨rfl, ht⟩
  by_cases k : (l.end1 = true ∧ r < 0.0) ∨ (l.end2 = true ∧ r > 1.0)
  · refine ⟨none, if_pos k, fun p => ⟨fun hp => (by cases hp), fun hp => ?_⟩⟩
    exfalso
    obtain ⟨-, hpar⟩ := honly p hp.1 hp.2
    norm_num at k
    rcases k with k | k
    · linarith [hpar.1 k.1, k.2]
    · linarith [hpar.2 k.1, k.2]
  · rw [if_neg k, hh, Res.bind_ok]
    have hpar : l.Par r := by
      norm_num at k
      exact ⟨fun he => k.1 he, fun he => k.2 he⟩
    by_cases hin : (if edge then T.Has (l.at r) else T.HasInside (l.at r))
    · rw [if_pos (decide_eq_true (hw.2 hin))]
      refine ⟨some (l.at r), rfl, fun p => ⟨fun hp => ?_, fun hp => ?_⟩⟩
      · cases hp
        exact ⟨Line.has_iff.2 ⟨r, hpar, rfl⟩, hin⟩
      · rw [(honly p hp.1 hp.2).1]
    · rw [if_neg (fun hc => hin (hw.1 (of_decide_eq_true hc)))]
      refine ⟨none, rfl, fun p => ⟨fun hp => (by cases hp), fun hp => ?_⟩⟩
      exact absurd ((honly p hp.1 hp.2).1 ▸ hp.2) hin

/-- C113: lines in or parallel to the plane of the triangle, and triangles without area, have no common points. -/
theorem triangle_findIntersection_parallel (T : Triangle) (l : Line) (edge : Bool)
    (h : (T.p2 - T.p1).cross (T.p3 - T.p1) = ⟨0, 0, 0⟩ ∨ ((T.p2 - T.p1).cross (T.p3 - T.p1)).dot (l.p2 - l.p1) = 0) :
    T.findIntersection l edge = .ok none := by
  unfold Triangle.findIntersection
  simp only
  by_cases h0 : ((T.p2 - T.p1).cross (T.p3 - T.p1)).x = 0.0 ∧ ((T.p2 - T.p1).cross (T.p3 - T.p1)).y = 0.0 ∧
      ((T.p2 - T.p1).cross (T.p3 - T.p1)).z = 0.0
  · rw [if_pos h0]
  · rw [if_neg h0, if_pos]
    rcases h with h | h
    · exfalso
      apply h0
      rw [h]
      norm_num
    · rw [h]
      norm_num

/-- C113: `FindNearestPoint` finds a common point and the distance zero, or, if `FindIntersection` finds none, the least distance of the edges to
the line and the point of an edge at that distance. -/
theorem findNearestPoint_edges (T : Triangle) (m : Line) (hm : m.p1 ≠ m.p2) :
    ∃ d p o, T.findIntersection m true = .ok o ∧ T.findNearestPoint m = .ok (d, p) ∧ T.Has p ∧ (∃ r, m.Has r ∧ euclid p r = d) ∧
      (∀ q, o = some q → d = 0 ∧ p = q) ∧ (o = none → ∀ q r, T.OnEdge q → m.Has r → d ≤ euclid q r) := by
  have hI : ∃ o, T.findIntersection m true = .ok o ∧ ∀ p, o = some p → m.Has p ∧ T.Has p := by
    by_cases h : (T.p2 - T.p1).cross (T.p3 - T.p1) = ⟨0, 0, 0⟩ ∨ ((T.p2 - T.p1).cross (T.p3 - T.p1)).dot (m.p2 - m.p1) = 0
    · exact ⟨none, triangle_findIntersection_parallel T m true h, fun p hp => by cases hp⟩
    · push Not at h
      obtain ⟨o, h1, h2⟩ := triangle_findIntersection_spec T m true h.1 h.2
      exact ⟨o, h1, fun p hp => (h2 p).1 hp⟩
  obtain ⟨o, ho, hI⟩ := hI
  cases o with
  | some p =>
    refine ⟨0, p, some p, ho, ?_, (hI p rfl).2, ⟨p, (hI p rfl).1, euclid_eq_zero.2 rfl⟩, fun q hq => ⟨rfl, by cases hq; rfl⟩, fun hc => by cases hc⟩
    unfold Triangle.findNearestPoint
    rw [ho]
    simp only [Res.monad_bind_eq, Res.bind_ok]
    norm_num
  | none =>
    obtain ⟨q1, r1, a1, a2, a3, a4⟩ := findNearest_partial (Line.segment T.p1 T.p2) m hm
    obtain ⟨q2, r2, b1, b2, b3, b4⟩ := findNearest_partial (Line.segment T.p2 T.p3) m hm
    obtain ⟨q3, r3, c1, c2, c3, c4⟩ := findNearest_partial (Line.segment T.p1 T.p3) m hm
    have hunf : ∀ d p, (if euclid q3 r3 < (if euclid q2 r2 < euclid q1 r1 then (euclid q2 r2, q2) else (euclid q1 r1, q1)).1 then
        (euclid q3 r3, q3) else (if euclid q2 r2 < euclid q1 r1 then (euclid q2 r2, q2) else (euclid q1 r1, q1))) = (d, p) →
        T.findNearestPoint m = .ok (d, p) := by
      intro d p hdp
      unfold Triangle.findNearestPoint
      rw [ho]
      simp only [Res.monad_bind_eq, Res.bind_ok, a1, b1, c1]
      rw [← hdp]
    have t1 := has_onEdge (T := T) (Or.inl a2)
    have t2 := has_onEdge (T := T) (Or.inr (Or.inl b2))
    have t3 := has_onEdge (T := T) (Or.inr (Or.inr c2))
    have least : ∀ d, d ≤ euclid q1 r1 → d ≤ euclid q2 r2 → d ≤ euclid q3 r3 → ∀ q r, T.OnEdge q → m.Has r → d ≤ euclid q r := by
      intro d g1 g2 g3 q r hq hr
      rcases hq with hq | hq | hq
      · exact le_trans g1 (a4 q r hq hr)
      · exact le_trans g2 (b4 q r hq hr)
      · exact le_trans g3 (c4 q r hq hr)
    by_cases k1 : euclid q2 r2 < euclid q1 r1
    · by_cases k2 : euclid q3 r3 < euclid q2 r2
      · refine ⟨_, _, none, ho, hunf (euclid q3 r3) q3 (by rw [if_pos k1, if_pos k2]), t3, ⟨r3, c3, rfl⟩, fun q hq => (by cases hq), fun _ => ?_⟩
        exact least _ (by linarith) k2.le le_rfl
      · refine ⟨_, _, none, ho, hunf (euclid q2 r2) q2 (by rw [if_pos k1, if_neg k2]), t2, ⟨r2, b3, rfl⟩, fun q hq => (by cases hq), fun _ => ?_⟩
        exact least _ k1.le le_rfl (not_lt.1 k2)
    · by_cases k2 : euclid q3 r3 < euclid q1 r1
      · refine ⟨_, _, none, ho, hunf (euclid q3 r3) q3 (by rw [if_neg k1, if_pos k2]), t3, ⟨r3, c3, rfl⟩, fun q hq => (by cases hq), fun _ => ?_⟩
        exact least _ k2.le (le_trans k2.le (not_lt.1 k1)) le_rfl
      · refine ⟨_, _, none, ho, hunf (euclid q1 r1) q1 (by rw [if_neg k1, if_neg k2]), t1, ⟨r1, a3, rfl⟩, fun q hq => (by cases hq), fun _ => ?_⟩
        exact least _ le_rfl (not_lt.1 k1) (not_lt.1 k2)

/-- C113: for a line without ends, `FindNearestPoint` finds the least distance of a point of the triangle to a point of the line, and the point of
the triangle. The triangle may be one without area, and the line may be parallel to it. -/
theorem findNearestPoint_partial (T : Triangle) (m : Line) (hm : m.p1 ≠ m.p2) (hinf : m.end1 = false ∧ m.end2 = false) :
    ∃ d p, T.findNearestPoint m = .ok (d, p) ∧ T.Has p ∧ (∃ r, m.Has r ∧ euclid p r = d) ∧
      ∀ q r, T.Has q → m.Has r → d ≤ euclid q r := by
  obtain ⟨d, p, o, h0, h1, h2, h3, h4, h5⟩ := findNearestPoint_edges T m hm
  refine ⟨d, p, h1, h2, h3, fun q r hq hr => ?_⟩
  cases o with
  | some p' =>
    rw [(h4 p' rfl).1]
    exact euclid_nonneg _ _
  | none =>
    obtain ⟨a, b, c, ha, hb, hc, hs, rfl⟩ := hq
    obtain ⟨t, ht, rfl⟩ := Line.has_iff.1 hr
    have key : ∃ q s, T.OnEdge q ∧ m.Has s ∧ euclid q s ≤ euclid (T.mix a b c) (m.at t) := by
      by_cases hn : (T.p2 - T.p1).cross (T.p3 - T.p1) = ⟨0, 0, 0⟩
      · obtain ⟨β, γ, hne, e1, e2, e3⟩ : ∃ β γ : ℝ, (β ≠ 0 ∨ γ ≠ 0) ∧ β * (T.p2.x - T.p1.x) + γ * (T.p3.x - T.p1.x) = 0 ∧
            β * (T.p2.y - T.p1.y) + γ * (T.p3.y - T.p1.y) = 0 ∧ β * (T.p2.z - T.p1.z) + γ * (T.p3.z - T.p1.z) = 0 := by
          have n1 := congrArg Pt.x hn
          have n2 := congrArg Pt.y hn
          have n3 := congrArg Pt.z hn
          unfold Pt.cross at n1 n2 n3
          simp only [Pt.sub_x, Pt.sub_y, Pt.sub_z] at n1 n2 n3
          by_cases hv : T.p3.x - T.p1.x = 0 ∧ T.p3.y - T.p1.y = 0 ∧ T.p3.z - T.p1.z = 0
          · obtain ⟨v1, v2, v3⟩ := hv
            exact ⟨0, 1, Or.inr one_ne_zero, by rw [v1]; ring, by rw [v2]; ring, by rw [v3]; ring⟩
          · by_cases v1 : T.p3.x - T.p1.x = 0
            · by_cases v2 : T.p3.y - T.p1.y = 0
              · have v3 : T.p3.z - T.p1.z ≠ 0 := fun v3 => hv ⟨v1, v2, v3⟩
                exact ⟨T.p3.z - T.p1.z, -(T.p2.z - T.p1.z), Or.inl v3, by linarith, by linarith, by ring⟩
              · exact ⟨T.p3.y - T.p1.y, -(T.p2.y - T.p1.y), Or.inl v2, by linarith, by ring, by linarith⟩
            · exact ⟨T.p3.x - T.p1.x, -(T.p2.x - T.p1.x), Or.inl v1, by ring, by linarith, by linarith⟩
        obtain ⟨K, hK⟩ := direction_out ha hb hc hne
        refine edge_no_further hinf ha hb hc hs (a' := a - K * (β + γ)) (b' := b + K * β) (c' := c + K * γ) (by linarith) hK (r' := t) ?_
        apply le_of_eq
        congr 1
        unfold Triangle.mix
        ext
        · simp only
          linear_combination K * e1
        · simp only
          linear_combination K * e2
        · simp only
          linear_combination K * e3
      · by_cases hb0 : ((T.p2 - T.p1).cross (T.p3 - T.p1)).dot (m.p2 - m.p1) = 0
        · obtain ⟨g1, g2, g3⟩ := combine hb0
          have hD := det_ne hn
          set u := T.p2 - T.p1 with hu
          set v := T.p3 - T.p1 with hv
          set w := m.p2 - m.p1 with hw
          set β := u.dot v * w.dot v - v.dot v * w.dot u with hβ
          set γ := u.dot v * w.dot u - u.dot u * w.dot v with hγ
          set D := u.dot v * u.dot v - u.dot u * v.dot v with hDdef
          have hne : β ≠ 0 ∨ γ ≠ 0 := by
            by_contra hcon
            push Not at hcon
            rw [hcon.1, hcon.2] at g1 g2 g3
            have w1 : w.x = 0 := (mul_eq_zero.1 (show D * w.x = 0 by linarith)).resolve_left hD
            have w2 : w.y = 0 := (mul_eq_zero.1 (show D * w.y = 0 by linarith)).resolve_left hD
            have w3 : w.z = 0 := (mul_eq_zero.1 (show D * w.z = 0 by linarith)).resolve_left hD
            rw [hw] at w1 w2 w3
            simp only [Pt.sub_x, Pt.sub_y, Pt.sub_z] at w1 w2 w3
            exact hm (Pt.ext (by linarith) (by linarith) (by linarith))
          obtain ⟨K, hK⟩ := direction_out ha hb hc hne
          refine edge_no_further hinf ha hb hc hs (a' := a - K * (β + γ)) (b' := b + K * β) (c' := c + K * γ) (by linarith) hK
            (r' := t + K * D) ?_
          apply le_of_eq
          rw [hu, hv, hw] at g1 g2 g3
          simp only [Pt.sub_x, Pt.sub_y, Pt.sub_z] at g1 g2 g3
          unfold euclid Triangle.mix Line.at
          congr 1
          simp only
          have f1 : (a - K * (β + γ)) * T.p1.x + (b + K * β) * T.p2.x + (c + K * γ) * T.p3.x - (m.p1.x + (t + K * D) * (m.p2.x - m.p1.x)) =
              a * T.p1.x + b * T.p2.x + c * T.p3.x - (m.p1.x + t * (m.p2.x - m.p1.x)) := by linear_combination -K * g1
          have f2 : (a - K * (β + γ)) * T.p1.y + (b + K * β) * T.p2.y + (c + K * γ) * T.p3.y - (m.p1.y + (t + K * D) * (m.p2.y - m.p1.y)) =
              a * T.p1.y + b * T.p2.y + c * T.p3.y - (m.p1.y + t * (m.p2.y - m.p1.y)) := by linear_combination -K * g2
          have f3 : (a - K * (β + γ)) * T.p1.z + (b + K * β) * T.p2.z + (c + K * γ) * T.p3.z - (m.p1.z + (t + K * D) * (m.p2.z - m.p1.z)) =
              a * T.p1.z + b * T.p2.z + c * T.p3.z - (m.p1.z + t * (m.p2.z - m.p1.z)) := by linear_combination -K * g3
          rw [f1, f2, f3]
        · obtain ⟨o', i1, i2⟩ := triangle_findIntersection_spec T m true hn hb0
          rw [i1] at h0
          cases h0
          set n := (T.p2 - T.p1).cross (T.p3 - T.p1) with hnd
          set r := (-n.dot (m.p1 - T.p1)) / n.dot (m.p2 - m.p1) with hr
          have hpl : n.dot (m.at r - T.p1) = 0 := by
            have : r * n.dot (m.p2 - m.p1) = -n.dot (m.p1 - T.p1) := div_mul_cancel₀ _ hb0
            unfold Line.at Pt.dot at *
            simp only [Pt.sub_x, Pt.sub_y, Pt.sub_z] at *
            linarith
          obtain ⟨a', b', c', hs', he⟩ := exists_weights hn hpl
          have hparr : m.Par r := ⟨fun hc => (by rw [hinf.1] at hc; cases hc), fun hc => (by rw [hinf.2] at hc; cases hc)⟩
          have hout : a' ≤ 0 ∨ b' ≤ 0 ∨ c' ≤ 0 := by
            by_contra hcon
            push Not at hcon
            have := (i2 (m.at r)).2 ⟨Line.has_iff.2 ⟨r, hparr, rfl⟩, a', b', c', hcon.1.le, hcon.2.1.le, hcon.2.2.le, hs', he⟩
            cases this
          refine edge_no_further hinf ha hb hc hs hs' hout (r' := r) ?_
          rw [← he, euclid_eq_zero.2 rfl]
          exact euclid_nonneg _ _
    obtain ⟨q, s, k1, k2, k3⟩ := key
    exact le_trans (h5 rfl q s k1 k2) k3

/-- C113, violated: the segment from (1/4, 1/4, 1) to (1/4, 1/4, 2) has distance 1 to a triangle in the xy-plane, and the answer is more. -/
theorem findNearestPoint_violation :
    ∃ d p, (⟨⟨0, 0, 0⟩, ⟨1, 0, 0⟩, ⟨0, 1, 0⟩⟩ : Triangle).findNearestPoint (Line.segment ⟨1 / 4, 1 / 4, 1⟩ ⟨1 / 4, 1 / 4, 2⟩) = .ok (d, p) ∧ 1 < d ∧
      (⟨⟨0, 0, 0⟩, ⟨1, 0, 0⟩, ⟨0, 1, 0⟩⟩ : Triangle).Has ⟨1 / 4, 1 / 4, 0⟩ ∧ euclid ⟨1 / 4, 1 / 4, 0⟩ ⟨1 / 4, 1 / 4, 1⟩ = 1 := by
  set T : Triangle := ⟨⟨0, 0, 0⟩, ⟨1, 0, 0⟩, ⟨0, 1, 0⟩⟩ with hT
  obtain ⟨d, p, o, h0, h1, h2, ⟨r, h3, h3'⟩, h4, h5⟩ := findNearestPoint_edges T (Line.segment ⟨1 / 4, 1 / 4, 1⟩ ⟨1 / 4, 1 / 4, 2⟩)
    (fun h => by have := congrArg Pt.z h; norm_num [Line.segment] at this)
  refine ⟨d, p, h1, ?_, ⟨1 / 2, 1 / 4, 1 / 4, by norm_num, by norm_num, by norm_num, by norm_num, by rw [hT]; ext <;> norm_num⟩, ?_⟩
  · by_contra hcon
    push Not at hcon
    have hz : p.z = 0 := by
      obtain ⟨a, b, c, -, -, -, -, rfl⟩ := h2
      simp [hT]
    obtain ⟨t, ht0, ht1, rfl⟩ := h3
    have ht := ht0 rfl
    simp only [Line.segment] at h3'
    norm_num at h3'
    have hsq := euclid_sq p ⟨1 / 4, 1 / 4, 1 + t⟩
    have hd0 : 0 ≤ d := by rw [← h3']; exact euclid_nonneg _ _
    have hsum : (p.x - 1 / 4) ^ 2 + (p.y - 1 / 4) ^ 2 + (p.z - (1 + t)) ^ 2 ≤ 1 := by
      have e : euclid p ⟨1 / 4, 1 / 4, 1 + t⟩ = d := by
        rw [← h3']
      rw [e] at hsq
      simp only at hsq
      nlinarith
    rw [hz] at hsum
    have hx : p.x = 1 / 4 := by nlinarith [sq_nonneg (p.x - 1 / 4), sq_nonneg (p.y - 1 / 4)]
    have hy : p.y = 1 / 4 := by nlinarith [sq_nonneg (p.x - 1 / 4), sq_nonneg (p.y - 1 / 4)]
    have ht2 : t = 0 := by nlinarith [sq_nonneg (p.x - 1 / 4), sq_nonneg (p.y - 1 / 4)]
    cases o with
    | some q =>
      obtain ⟨o', i1, i2⟩ := triangle_findIntersection_spec T (Line.segment ⟨1 / 4, 1 / 4, 1⟩ ⟨1 / 4, 1 / 4, 2⟩) true
        (fun h => by have := congrArg Pt.z h; norm_num [hT, Pt.cross] at this) (by norm_num [hT, Pt.cross, Pt.dot, Line.segment])
      rw [i1] at h0
      cases h0
      obtain ⟨⟨s, s0, -, hs⟩, a, b, c, -, -, -, -, he⟩ := (i2 q).1 rfl
      have k1 := congrArg Pt.z hs
      have k2 := congrArg Pt.z he
      have := s0 rfl
      norm_num [Line.segment, hT] at k1 k2
      linarith
    | none =>
      -- the point found lies on an edge, and is not (1/4, 1/4, 0)
      have hp : T.OnEdge p := by
        by_contra hne
        obtain ⟨q1, r1, a1, a2, -, -⟩ := findNearest_partial (Line.segment T.p1 T.p2) (Line.segment ⟨1 / 4, 1 / 4, 1⟩ ⟨1 / 4, 1 / 4, 2⟩)
          (fun h => by have := congrArg Pt.z h; norm_num [Line.segment] at this)
        obtain ⟨q2, r2, b1, b2, -, -⟩ := findNearest_partial (Line.segment T.p2 T.p3) (Line.segment ⟨1 / 4, 1 / 4, 1⟩ ⟨1 / 4, 1 / 4, 2⟩)
          (fun h => by have := congrArg Pt.z h; norm_num [Line.segment] at this)
        obtain ⟨q3, r3, c1, c2, -, -⟩ := findNearest_partial (Line.segment T.p1 T.p3) (Line.segment ⟨1 / 4, 1 / 4, 1⟩ ⟨1 / 4, 1 / 4, 2⟩)
          (fun h => by have := congrArg Pt.z h; norm_num [Line.segment] at this)
        unfold Triangle.findNearestPoint at h1
        rw [h0] at h1
        simp only [Res.monad_bind_eq, Res.bind_ok, a1, b1, c1] at h1
        have h1' := Res.ok.inj h1
        apply hne
        split_ifs at h1' with j1 j2 j3
        all_goals
          cases h1'
          first
          | exact Or.inl a2
          | exact Or.inr (Or.inl b2)
          | exact Or.inr (Or.inr c2)
      rcases hp with ⟨s, -, -, hs⟩ | ⟨s, -, -, hs⟩ | ⟨s, -, -, hs⟩
      · have k := congrArg Pt.y hs
        norm_num [Line.segment, hT] at k
        linarith
      · have k := congrArg Pt.x hs
        have k2 := congrArg Pt.y hs
        norm_num [Line.segment, hT] at k k2
        linarith
      · have k := congrArg Pt.x hs
        norm_num [Line.segment, hT] at k
        linarith
  · unfold euclid
    norm_num

/-- The hypotheses are met: a vertical line through the triangle, and one beside it. -/
theorem concrete_triangle :
    (⟨⟨0, 0, 0⟩, ⟨1, 0, 0⟩, ⟨0, 1, 0⟩⟩ : Triangle).findIntersection ⟨⟨1 / 4, 1 / 4, 1⟩, ⟨1 / 4, 1 / 4, 2⟩, false, false⟩ false =
        .ok (some ⟨1 / 4, 1 / 4, 0⟩) ∧
      ∃ p, (⟨⟨0, 0, 0⟩, ⟨1, 0, 0⟩, ⟨0, 1, 0⟩⟩ : Triangle).findNearestPoint ⟨⟨-1, 0, 1⟩, ⟨-1, 0, 2⟩, false, false⟩ = .ok (1, p) := by
  set T : Triangle := ⟨⟨0, 0, 0⟩, ⟨1, 0, 0⟩, ⟨0, 1, 0⟩⟩ with hT
  constructor
  · obtain ⟨o, h1, h2⟩ := triangle_findIntersection_spec T ⟨⟨1 / 4, 1 / 4, 1⟩, ⟨1 / 4, 1 / 4, 2⟩, false, false⟩ false
      (fun h => by have := congrArg Pt.z h; norm_num [hT, Pt.cross] at this) (by norm_num [hT, Pt.cross, Pt.dot])
    rw [h1, (h2 ⟨1 / 4, 1 / 4, 0⟩).2]
    refine ⟨⟨-1, by simp, by simp, by ext <;> norm_num⟩, ?_⟩
    simp only [Bool.false_eq_true, if_false]
    exact ⟨1 / 2, 1 / 4, 1 / 4, by norm_num, by norm_num, by norm_num, by norm_num, by rw [hT]; ext <;> norm_num⟩
  · obtain ⟨d, p, h1, h2, ⟨r, h3, h4⟩, h5⟩ := findNearestPoint_partial T ⟨⟨-1, 0, 1⟩, ⟨-1, 0, 2⟩, false, false⟩
      (fun h => by have := congrArg Pt.z h; norm_num at this) ⟨rfl, rfl⟩
    refine ⟨p, ?_⟩
    rw [h1]
    congr 2
    apply le_antisymm
    · refine le_trans (h5 ⟨0, 0, 0⟩ ⟨-1, 0, 0⟩ ⟨1, 0, 0, by norm_num, le_rfl, le_rfl, by norm_num, by rw [hT]; ext <;> norm_num⟩
        ⟨-1, by simp, by simp, by ext <;> norm_num⟩) ?_
      unfold euclid
      norm_num
    · rw [← h4]
      obtain ⟨a, b, c, ha, hb, hc, hs, rfl⟩ := h2
      obtain ⟨t, -, -, rfl⟩ := h3
      unfold euclid
      apply Real.le_sqrt_of_sq_le
      simp only [hT]
      norm_num
      nlinarith [sq_nonneg c, sq_nonneg (1 + t)]

end Verif.Geo
