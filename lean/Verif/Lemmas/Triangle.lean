import Verif.Lemmas.LineLine
import Mathlib.Topology.Order.IntermediateValue
import Mathlib.Topology.Algebra.Order.Field

/-!
# Lemmas on triangles
-/

namespace Verif.Geo

/-- The point with given weights of a triangle. -/
noncomputable def Triangle.mix (T : Triangle) (a b c : ℝ) : Pt :=
  ⟨a * T.p1.x + b * T.p2.x + c * T.p3.x, a * T.p1.y + b * T.p2.y + c * T.p3.y, a * T.p1.z + b * T.p2.z + c * T.p3.z⟩

/-- The point a part `τ` of the way from `p` to `q`. -/
noncomputable def Pt.toward (p q : Pt) (τ : ℝ) : Pt :=
  ⟨(1 - τ) * p.x + τ * q.x, (1 - τ) * p.y + τ * q.y, (1 - τ) * p.z + τ * q.z⟩

theorem euclid_toward {p q r s : Pt} {τ : ℝ} (h0 : 0 ≤ τ) (h1 : τ ≤ 1) (h : euclid q s ≤ euclid p r) :
    euclid (p.toward q τ) (r.toward s τ) ≤ euclid p r := by
  have h2 := sq_le_of_euclid h
  apply euclid_le
  unfold Pt.toward
  simp only
  have e : ∀ a b c d : ℝ, ((1 - τ) * a + τ * b - ((1 - τ) * c + τ * d)) ^ 2 =
      (1 - τ) * (a - c) ^ 2 + τ * (b - d) ^ 2 - τ * (1 - τ) * ((a - c) - (b - d)) ^ 2 := by
    intro a b c d
    ring
  rw [e, e, e]
  have k : ∀ x : ℝ, 0 ≤ τ * (1 - τ) * x ^ 2 := fun x => mul_nonneg (mul_nonneg h0 (by linarith)) (sq_nonneg x)
  have k1 := k ((p.x - r.x) - (q.x - s.x))
  have k2 := k ((p.y - r.y) - (q.y - s.y))
  have k3 := k ((p.z - r.z) - (q.z - s.z))
  nlinarith [mul_le_mul_of_nonneg_left h2 h0]

/-- On the way from weights of a point of the triangle to weights that are not all positive, there is a point of an edge. -/
theorem exit_spec {a b c a' b' c' : ℝ} (ha : 0 ≤ a) (hb : 0 ≤ b) (hc : 0 ≤ c) (h : a' ≤ 0 ∨ b' ≤ 0 ∨ c' ≤ 0) :
    ∃ τ : ℝ, 0 ≤ τ ∧ τ ≤ 1 ∧ 0 ≤ (1 - τ) * a + τ * a' ∧ 0 ≤ (1 - τ) * b + τ * b' ∧ 0 ≤ (1 - τ) * c + τ * c' ∧
      ((1 - τ) * a + τ * a' = 0 ∨ (1 - τ) * b + τ * b' = 0 ∨ (1 - τ) * c + τ * c' = 0) := by
  have hcont : ContinuousOn (fun τ : ℝ => min ((1 - τ) * a + τ * a') (min ((1 - τ) * b + τ * b') ((1 - τ) * c + τ * c'))) (Set.Icc 0 1) := by
    apply Continuous.continuousOn
    fun_prop
  have himg := intermediate_value_Icc' (zero_le_one (α := ℝ)) hcont
  have hmem : (0 : ℝ) ∈ Set.Icc ((fun τ : ℝ => min ((1 - τ) * a + τ * a') (min ((1 - τ) * b + τ * b') ((1 - τ) * c + τ * c'))) 1)
      ((fun τ : ℝ => min ((1 - τ) * a + τ * a') (min ((1 - τ) * b + τ * b') ((1 - τ) * c + τ * c'))) 0) := by
    constructor
    · simp only [sub_self, zero_mul, one_mul, zero_add, min_le_iff]
      exact h
    · simp only [sub_zero, zero_mul, one_mul, add_zero, le_min_iff]
      exact ⟨ha, hb, hc⟩
  obtain ⟨τ, ⟨h0, h1⟩, h2⟩ := himg hmem
  have h2' : min ((1 - τ) * a + τ * a') (min ((1 - τ) * b + τ * b') ((1 - τ) * c + τ * c')) = 0 := h2
  have h3 := le_min_iff.1 h2'.ge
  have h4 := le_min_iff.1 h3.2
  refine ⟨τ, h0, h1, h3.1, h4.1, h4.2, ?_⟩
  rcases min_le_iff.1 h2'.le with h5 | h5
  · exact Or.inl (le_antisymm h5 h3.1)
  · rcases min_le_iff.1 h5 with h6 | h6
    · exact Or.inr (Or.inl (le_antisymm h6 h4.1))
    · exact Or.inr (Or.inr (le_antisymm h6 h4.2))

/-- A point of an edge. -/
def Triangle.OnEdge (T : Triangle) (q : Pt) : Prop :=
  (Line.segment T.p1 T.p2).Has q ∨ (Line.segment T.p2 T.p3).Has q ∨ (Line.segment T.p1 T.p3).Has q

theorem onEdge_mix {T : Triangle} {a b c : ℝ} (ha : 0 ≤ a) (hb : 0 ≤ b) (hc : 0 ≤ c) (hs : a + b + c = 1) (h : a = 0 ∨ b = 0 ∨ c = 0) :
    T.OnEdge (T.mix a b c) := by
  rcases h with h | h | h
  · refine Or.inr (Or.inl ⟨c, fun _ => hc, fun _ => by linarith, ?_⟩)
    have : b = 1 - c := by linarith
    subst this
    unfold Triangle.mix Line.segment
    ext <;> simp only [h] <;> ring
  · refine Or.inr (Or.inr ⟨c, fun _ => hc, fun _ => by linarith, ?_⟩)
    have : a = 1 - c := by linarith
    subst this
    unfold Triangle.mix Line.segment
    ext <;> simp only [h] <;> ring
  · refine Or.inl ⟨b, fun _ => hb, fun _ => by linarith, ?_⟩
    have : a = 1 - b := by linarith
    subst this
    unfold Triangle.mix Line.segment
    ext <;> simp only [h] <;> ring

theorem has_onEdge {T : Triangle} {q : Pt} (h : T.OnEdge q) : T.Has q := by
  rcases h with h | h | h
  · obtain ⟨t, h1, h2, rfl⟩ := h
    refine ⟨1 - t, t, 0, by linarith [h2 rfl], h1 rfl, le_rfl, by ring, ?_⟩
    unfold Line.segment
    ext <;> simp only <;> ring
  · obtain ⟨t, h1, h2, rfl⟩ := h
    refine ⟨0, 1 - t, t, le_rfl, by linarith [h2 rfl], h1 rfl, by ring, ?_⟩
    unfold Line.segment
    ext <;> simp only <;> ring
  · obtain ⟨t, h1, h2, rfl⟩ := h
    refine ⟨1 - t, 0, t, by linarith [h2 rfl], le_rfl, h1 rfl, by ring, ?_⟩
    unfold Line.segment
    ext <;> simp only <;> ring

theorem mix_toward (T : Triangle) (a b c a' b' c' τ : ℝ) :
    (T.mix a b c).toward (T.mix a' b' c') τ = T.mix ((1 - τ) * a + τ * a') ((1 - τ) * b + τ * b') ((1 - τ) * c + τ * c') := by
  unfold Triangle.mix Pt.toward
  ext <;> simp only <;> ring

/-- If weights that are not all positive give a point no further from the line, an edge has a point no further from the line. -/
theorem edge_no_further {T : Triangle} {m : Line} (hm : m.end1 = false ∧ m.end2 = false) {a b c a' b' c' : ℝ} (ha : 0 ≤ a) (hb : 0 ≤ b)
    (hc : 0 ≤ c) (hs : a + b + c = 1) (hs' : a' + b' + c' = 1) (h : a' ≤ 0 ∨ b' ≤ 0 ∨ c' ≤ 0) {r r' : ℝ}
    (hd : euclid (T.mix a' b' c') (m.at r') ≤ euclid (T.mix a b c) (m.at r)) :
    ∃ q s, T.OnEdge q ∧ m.Has s ∧ euclid q s ≤ euclid (T.mix a b c) (m.at r) := by
  obtain ⟨τ, h0, h1, h2, h3, h4, h5⟩ := exit_spec ha hb hc h
  refine ⟨(T.mix a b c).toward (T.mix a' b' c') τ, (m.at r).toward (m.at r') τ, ?_, ?_, euclid_toward h0 h1 hd⟩
  · rw [mix_toward]
    refine onEdge_mix h2 h3 h4 ?_ h5
    linear_combination (1 - τ) * hs + τ * hs'
  · refine Line.has_iff.2 ⟨(1 - τ) * r + τ * r', ⟨fun he => ?_, fun he => ?_⟩, ?_⟩
    · rw [hm.1] at he; cases he
    · rw [hm.2] at he; cases he
    · unfold Line.at Pt.toward
      ext <;> simp only <;> ring

/-- A direction in weights leads out of the triangle. -/
theorem direction_out {a b c β γ : ℝ} (ha : 0 ≤ a) (hb : 0 ≤ b) (hc : 0 ≤ c) (h : β ≠ 0 ∨ γ ≠ 0) :
    ∃ K : ℝ, a - K * (β + γ) ≤ 0 ∨ b + K * β ≤ 0 ∨ c + K * γ ≤ 0 := by
  by_cases h1 : β = 0
  · have h2 : γ ≠ 0 := h.resolve_left (fun hn => hn h1)
    refine ⟨-(c / γ), Or.inr (Or.inr ?_)⟩
    rw [neg_mul, div_mul_cancel₀ _ h2]
    simp
  · refine ⟨-(b / β), Or.inr (Or.inl ?_)⟩
    rw [neg_mul, div_mul_cancel₀ _ h1]
    simp

/-- The vector `w` in the plane of `u` and `v` is a combination of them. -/
theorem combine {u v w : Pt} (h : (u.cross v).dot w = 0) :
    let D := u.dot v * u.dot v - u.dot u * v.dot v
    D * w.x = (u.dot v * w.dot v - v.dot v * w.dot u) * u.x + (u.dot v * w.dot u - u.dot u * w.dot v) * v.x ∧
    D * w.y = (u.dot v * w.dot v - v.dot v * w.dot u) * u.y + (u.dot v * w.dot u - u.dot u * w.dot v) * v.y ∧
    D * w.z = (u.dot v * w.dot v - v.dot v * w.dot u) * u.z + (u.dot v * w.dot u - u.dot u * w.dot v) * v.z := by
  unfold Pt.cross Pt.dot at *
  simp only at *
  refine ⟨?_, ?_, ?_⟩
  · linear_combination (-(u.y * v.z - u.z * v.y)) * h
  · linear_combination (-(u.z * v.x - u.x * v.z)) * h
  · linear_combination (-(u.x * v.y - u.y * v.x)) * h

theorem det_eq (u v : Pt) : u.dot v * u.dot v - u.dot u * v.dot v = -((u.cross v).x ^ 2 + (u.cross v).y ^ 2 + (u.cross v).z ^ 2) := by
  unfold Pt.cross Pt.dot
  ring

theorem det_ne {u v : Pt} (h : u.cross v ≠ ⟨0, 0, 0⟩) : u.dot v * u.dot v - u.dot u * v.dot v ≠ 0 := by
  rw [det_eq]
  intro hc
  obtain ⟨h1, h2, h3⟩ := three_sq (a := (u.cross v).x) (b := (u.cross v).y) (c := (u.cross v).z) (by linarith)
  exact h (Pt.ext h1 h2 h3)

/-- The answer of the test for being inside, in the weights of the point. -/
theorem holds_spec {T : Triangle} (h : (T.p2 - T.p1).cross (T.p3 - T.p1) ≠ ⟨0, 0, 0⟩) (a b c : ℝ) (hs : a + b + c = 1) (edge : Bool) :
    T.holds (T.mix a b c) edge = .ok (decide (if edge then 0 ≤ a ∧ 0 ≤ b ∧ 0 ≤ c else 0 < a ∧ 0 < b ∧ 0 < c)) := by
  have hD := det_ne h
  set u := T.p2 - T.p1 with hu
  set v := T.p3 - T.p1 with hv
  have ha : a = 1 - b - c := by linarith
  have hw : T.mix a b c - T.p1 = ⟨b * u.x + c * v.x, b * u.y + c * v.y, b * u.z + c * v.z⟩ := by
    rw [ha, hu, hv]
    unfold Triangle.mix
    ext <;> simp only [Pt.sub_x, Pt.sub_y, Pt.sub_z] <;> ring
  have e1 : u.dot v * (T.mix a b c - T.p1).dot v - v.dot v * (T.mix a b c - T.p1).dot u = b * (u.dot v * u.dot v - u.dot u * v.dot v) := by
    rw [hw]
    unfold Pt.dot
    ring
  have e2 : u.dot v * (T.mix a b c - T.p1).dot u - u.dot u * (T.mix a b c - T.p1).dot v = c * (u.dot v * u.dot v - u.dot u * v.dot v) := by
    rw [hw]
    unfold Pt.dot
    ring
  unfold Triangle.holds
  simp only
  rw [← hu, ← hv, e1, e2, fdiv_ok hD, fdiv_ok hD, mul_div_cancel_right₀ _ hD, mul_div_cancel_right₀ _ hD]
  simp only [Res.monad_bind_eq, Res.bind_ok]
  cases edge
  · simp only [Bool.false_eq_true, if_false]
    by_cases k1 : b ≤ 0.0 ∨ b ≥ 1.0
    · rw [if_pos k1]
      congr 1
      symm
      rw [decide_eq_false_iff_not]
      rintro ⟨g1, g2, g3⟩
      norm_num at k1
      rcases k1 with k1 | k1 <;> linarith
    · rw [if_neg k1]
      by_cases k2 : c ≤ 0.0 ∨ b + c ≥ 1.0
      · rw [if_pos k2]
        congr 1
        symm
        rw [decide_eq_false_iff_not]
        rintro ⟨g1, g2, g3⟩
        norm_num at k2
        rcases k2 with k2 | k2 <;> linarith
      · rw [if_neg k2]
        congr 1
        symm
        rw [decide_eq_true_iff]
        norm_num at k1 k2
        refine ⟨by linarith [k2.2], k1.1, k2.1⟩
  · simp only [if_true]
    by_cases k1 : b < 0.0 ∨ b > 1.0
    · rw [if_pos k1]
      congr 1
      symm
      rw [decide_eq_false_iff_not]
      rintro ⟨g1, g2, g3⟩
      norm_num at k1
      rcases k1 with k1 | k1 <;> linarith
    · rw [if_neg k1]
      by_cases k2 : c < 0.0 ∨ b + c > 1.0
      · rw [if_pos k2]
        congr 1
        symm
        rw [decide_eq_false_iff_not]
        rintro ⟨g1, g2, g3⟩
        norm_num at k2
        rcases k2 with k2 | k2 <;> linarith
      · rw [if_neg k2]
        congr 1
        symm
        rw [decide_eq_true_iff]
        norm_num at k1 k2
        refine ⟨by linarith [k2.2], k1.1, k2.1⟩

/-- The weights of a point of the plane of the triangle. -/
theorem exists_weights {T : Triangle} (h : (T.p2 - T.p1).cross (T.p3 - T.p1) ≠ ⟨0, 0, 0⟩) {p : Pt}
    (hp : ((T.p2 - T.p1).cross (T.p3 - T.p1)).dot (p - T.p1) = 0) : ∃ a b c : ℝ, a + b + c = 1 ∧ p = T.mix a b c := by
  have hD := det_ne h
  set u := T.p2 - T.p1 with hu
  set v := T.p3 - T.p1 with hv
  obtain ⟨h1, h2, h3⟩ := combine hp
  set D := u.dot v * u.dot v - u.dot u * v.dot v with hDd
  set w := p - T.p1 with hw
  set b := (u.dot v * w.dot v - v.dot v * w.dot u) with hb
  set c := (u.dot v * w.dot u - u.dot u * w.dot v) with hc
  refine ⟨1 - b / D - c / D, b / D, c / D, by ring, ?_⟩
  have g1 : w.x = b / D * u.x + c / D * v.x := by
    field_simp
    linarith
  have g2 : w.y = b / D * u.y + c / D * v.y := by
    field_simp
    linarith
  have g3 : w.z = b / D * u.z + c / D * v.z := by
    field_simp
    linarith
  rw [hw, hu, hv] at g1 g2 g3
  simp only [Pt.sub_x, Pt.sub_y, Pt.sub_z] at g1 g2 g3
  unfold Triangle.mix
  ext <;> simp only <;> linarith

theorem mix_plane (T : Triangle) {a b c : ℝ} (hs : a + b + c = 1) :
    ((T.p2 - T.p1).cross (T.p3 - T.p1)).dot (T.mix a b c - T.p1) = 0 := by
  have ha : a = 1 - b - c := by linarith
  subst ha
  unfold Pt.cross Pt.dot Triangle.mix
  simp only [Pt.sub_x, Pt.sub_y, Pt.sub_z]
  ring

/-- The weights of a point are unique. -/
theorem weights_unique {T : Triangle} (h : (T.p2 - T.p1).cross (T.p3 - T.p1) ≠ ⟨0, 0, 0⟩) {a b c a' b' c' : ℝ} (hs : a + b + c = 1)
    (hs' : a' + b' + c' = 1) (he : T.mix a b c = T.mix a' b' c') : a = a' ∧ b = b' ∧ c = c' := by
  have hD := det_ne h
  have ha : a = 1 - b - c := by linarith
  have ha' : a' = 1 - b' - c' := by linarith
  subst ha ha'
  have h1 := congrArg Pt.x he
  have h2 := congrArg Pt.y he
  have h3 := congrArg Pt.z he
  unfold Triangle.mix at h1 h2 h3
  simp only at h1 h2 h3
  set u := T.p2 - T.p1 with hu
  set v := T.p3 - T.p1 with hv
  have g1 : (b - b') * u.x + (c - c') * v.x = 0 := by rw [hu, hv]; simp only [Pt.sub_x]; linarith
  have g2 : (b - b') * u.y + (c - c') * v.y = 0 := by rw [hu, hv]; simp only [Pt.sub_y]; linarith
  have g3 : (b - b') * u.z + (c - c') * v.z = 0 := by rw [hu, hv]; simp only [Pt.sub_z]; linarith
  have k1 : (b - b') * (u.dot v * u.dot v - u.dot u * v.dot v) = 0 := by
    unfold Pt.dot
    linear_combination ((u.x * v.x + u.y * v.y + u.z * v.z) * v.x - (v.x * v.x + v.y * v.y + v.z * v.z) * u.x) * g1 +
      ((u.x * v.x + u.y * v.y + u.z * v.z) * v.y - (v.x * v.x + v.y * v.y + v.z * v.z) * u.y) * g2 +
      ((u.x * v.x + u.y * v.y + u.z * v.z) * v.z - (v.x * v.x + v.y * v.y + v.z * v.z) * u.z) * g3
  have k2 : (c - c') * (u.dot v * u.dot v - u.dot u * v.dot v) = 0 := by
    unfold Pt.dot
    linear_combination ((u.x * v.x + u.y * v.y + u.z * v.z) * u.x - (u.x * u.x + u.y * u.y + u.z * u.z) * v.x) * g1 +
      ((u.x * v.x + u.y * v.y + u.z * v.z) * u.y - (u.x * u.x + u.y * u.y + u.z * u.z) * v.y) * g2 +
      ((u.x * v.x + u.y * v.y + u.z * v.z) * u.z - (u.x * u.x + u.y * u.y + u.z * u.z) * v.z) * g3
  have hb := (mul_eq_zero.1 k1).resolve_right hD
  have hc := (mul_eq_zero.1 k2).resolve_right hD
  refine ⟨by linarith, by linarith, by linarith⟩

end Verif.Geo
