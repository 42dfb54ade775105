import Verif.Spec.Geometry
import Verif.Lemmas.Outcome

/-!
# Lemmas on points and lines
-/

namespace Verif.Geo

@[simp] theorem Pt.add_x (p q : Pt) : (p + q).x = p.x + q.x := rfl
@[simp] theorem Pt.add_y (p q : Pt) : (p + q).y = p.y + q.y := rfl
@[simp] theorem Pt.add_z (p q : Pt) : (p + q).z = p.z + q.z := rfl
@[simp] theorem Pt.sub_x (p q : Pt) : (p - q).x = p.x - q.x := rfl
@[simp] theorem Pt.sub_y (p q : Pt) : (p - q).y = p.y - q.y := rfl
@[simp] theorem Pt.sub_z (p q : Pt) : (p - q).z = p.z - q.z := rfl
@[simp] theorem Pt.mul_x (t : ℝ) (p : Pt) : (t * p).x = p.x * t := rfl
@[simp] theorem Pt.mul_y (t : ℝ) (p : Pt) : (t * p).y = p.y * t := rfl
@[simp] theorem Pt.mul_z (t : ℝ) (p : Pt) : (t * p).z = p.z * t := rfl

theorem Pt.norm_sub (p q : Pt) : (p - q).norm = euclid p q := by
  unfold Pt.norm euclid
  congr 1
  simp only [Pt.sub_x, Pt.sub_y, Pt.sub_z]
  ring

theorem euclid_comm (p q : Pt) : euclid p q = euclid q p := by
  unfold euclid
  congr 1
  ring

theorem Pt.getDistance_eq (p q : Pt) : p.getDistance q = euclid p q := by
  unfold Pt.getDistance
  rw [Pt.norm_sub, euclid_comm]

theorem euclid_nonneg (p q : Pt) : 0 ≤ euclid p q := Real.sqrt_nonneg _

theorem euclid_sq (p q : Pt) : euclid p q ^ 2 = (p.x - q.x) ^ 2 + (p.y - q.y) ^ 2 + (p.z - q.z) ^ 2 :=
  Real.sq_sqrt (by positivity)

theorem euclid_le {p q r s : Pt} (h : (p.x - q.x) ^ 2 + (p.y - q.y) ^ 2 + (p.z - q.z) ^ 2 ≤
    (r.x - s.x) ^ 2 + (r.y - s.y) ^ 2 + (r.z - s.z) ^ 2) : euclid p q ≤ euclid r s := Real.sqrt_le_sqrt h

theorem sq_le_of_euclid {p q r s : Pt} (h : euclid p q ≤ euclid r s) : (p.x - q.x) ^ 2 + (p.y - q.y) ^ 2 + (p.z - q.z) ^ 2 ≤
    (r.x - s.x) ^ 2 + (r.y - s.y) ^ 2 + (r.z - s.z) ^ 2 := by
  rw [← euclid_sq, ← euclid_sq]
  exact pow_le_pow_left₀ (euclid_nonneg _ _) h 2

theorem three_sq {a b c : ℝ} (h : a ^ 2 + b ^ 2 + c ^ 2 = 0) : a = 0 ∧ b = 0 ∧ c = 0 := by
  refine ⟨?_, ?_, ?_⟩ <;> nlinarith [sq_nonneg a, sq_nonneg b, sq_nonneg c]

theorem euclid_eq_zero {p q : Pt} : euclid p q = 0 ↔ p = q := by
  constructor
  · intro h
    have h2 := euclid_sq p q
    rw [h] at h2
    obtain ⟨h3, h4, h5⟩ := three_sq (a := p.x - q.x) (b := p.y - q.y) (c := p.z - q.z) (by linarith)
    exact Pt.ext (by linarith) (by linarith) (by linarith)
  · rintro rfl
    unfold euclid
    simp

theorem fdiv_ok {x y : ℝ} (h : y ≠ 0) : fdiv x y = .ok (x / y) := if_neg h

theorem norm_sq (p : Pt) : p.norm ^ 2 = p.dot p := by
  unfold Pt.norm Pt.dot
  exact Real.sq_sqrt (by nlinarith [mul_self_nonneg p.x, mul_self_nonneg p.y, mul_self_nonneg p.z])

theorem norm_nonneg (p : Pt) : 0 ≤ p.norm := Real.sqrt_nonneg _

theorem norm_eq_zero {p : Pt} : p.norm = 0 ↔ p = ⟨0, 0, 0⟩ := by
  constructor
  · intro h
    have h2 := norm_sq p
    rw [h] at h2
    unfold Pt.dot at h2
    obtain ⟨h3, h4, h5⟩ := three_sq (a := p.x) (b := p.y) (c := p.z) (by nlinarith)
    exact Pt.ext h3 h4 h5
  · rintro rfl
    unfold Pt.norm
    simp

/-- The point with parameter `t` of a line. -/
noncomputable def Line.at (l : Line) (t : ℝ) : Pt :=
  ⟨l.p1.x + t * (l.p2.x - l.p1.x), l.p1.y + t * (l.p2.y - l.p1.y), l.p1.z + t * (l.p2.z - l.p1.z)⟩

/-- The parameters of the points of a line. -/
def Line.Par (l : Line) (t : ℝ) : Prop := (l.end1 = true → 0 ≤ t) ∧ (l.end2 = true → t ≤ 1)

theorem Line.has_iff {l : Line} {q : Pt} : l.Has q ↔ ∃ t, l.Par t ∧ q = l.at t := by
  constructor
  · rintro ⟨t, h1, h2, h3⟩
    exact ⟨t, ⟨h1, h2⟩, h3⟩
  · rintro ⟨t, ⟨h1, h2⟩, h3⟩
    exact ⟨t, h1, h2, h3⟩

theorem Line.at_eq (l : Line) (t : ℝ) : l.p1 + t * (l.p2 - l.p1) = l.at t := by
  unfold Line.at
  ext <;> simp <;> ring

theorem Line.par_zero (l : Line) : l.Par 0 := ⟨fun _ => le_rfl, fun _ => zero_le_one⟩

theorem Line.par_one (l : Line) : l.Par 1 := ⟨fun _ => zero_le_one, fun _ => le_rfl⟩

theorem Line.at_zero (l : Line) : l.at 0 = l.p1 := by
  unfold Line.at
  ext <;> simp

theorem Line.at_one (l : Line) : l.at 1 = l.p2 := by
  unfold Line.at
  ext <;> simp

/-- The length of a line, squared. -/
noncomputable def Line.sq (l : Line) : ℝ := (l.p2.x - l.p1.x) ^ 2 + (l.p2.y - l.p1.y) ^ 2 + (l.p2.z - l.p1.z) ^ 2

theorem Line.sq_nonneg (l : Line) : 0 ≤ l.sq := by unfold Line.sq; positivity

theorem Line.dist_mul (l : Line) : l.p1.getDistance l.p2 * l.p1.getDistance l.p2 = l.sq := by
  rw [Pt.getDistance_eq, ← pow_two, euclid_sq]
  unfold Line.sq
  ring

theorem Line.dist_zero (l : Line) : l.p1.getDistance l.p2 = 0.0 ↔ l.sq = 0 := by
  rw [← l.dist_mul]
  norm_num

/-- The parameter of the projection. -/
noncomputable def Line.proj (l : Line) (p : Pt) : ℝ := (l.p2 - l.p1).dot (p - l.p1) / l.sq

theorem Line.dist_at (l : Line) (h : l.sq ≠ 0) (p : Pt) (t : ℝ) :
    (p.x - (l.at t).x) ^ 2 + (p.y - (l.at t).y) ^ 2 + (p.z - (l.at t).z) ^ 2 =
      (p.x - l.p1.x) ^ 2 + (p.y - l.p1.y) ^ 2 + (p.z - l.p1.z) ^ 2 - l.sq * l.proj p ^ 2 + l.sq * (t - l.proj p) ^ 2 := by
  have h2 : l.sq * l.proj p = (l.p2 - l.p1).dot (p - l.p1) := by
    unfold Line.proj
    field_simp
  have h3 : l.sq * (t - l.proj p) ^ 2 = l.sq * t ^ 2 - 2 * t * (l.sq * l.proj p) + l.sq * l.proj p ^ 2 := by ring
  rw [h3, h2]
  unfold Line.at Pt.dot
  simp only [Pt.sub_x, Pt.sub_y, Pt.sub_z]
  unfold Line.sq
  ring

/-- What `FindProjection` returns, as a parameter. -/
theorem Line.findProjection_eq (l : Line) (h : l.sq ≠ 0) (p : Pt) :
    ∃ t, l.findProjection p = .ok (l.at t) ∧ l.Par t ∧ ∀ s, l.Par s → (t - l.proj p) * (s - t) ≥ 0 := by
  have hpos : 0 < l.sq := lt_of_le_of_ne l.sq_nonneg (Ne.symm h)
  unfold Line.findProjection
  simp only
  rw [if_neg (by rw [l.dist_zero]; exact h), l.dist_mul, fdiv_ok h]
  simp only [Res.monad_bind_eq, Res.bind_ok]
  rw [show (l.p2 - l.p1).dot (p - l.p1) / l.sq = l.proj p from rfl]
  by_cases h1 : l.proj p < 0.0 ∧ l.end1 = true
  · refine ⟨0, by rw [if_pos h1, l.at_zero], l.par_zero, fun s hs => ?_⟩
    have h2 := h1.1
    norm_num at h2
    have := hs.1 h1.2
    nlinarith
  · rw [if_neg h1]
    by_cases h2 : l.proj p > 1.0 ∧ l.end2 = true
    · refine ⟨1, by rw [if_pos h2, l.at_one], l.par_one, fun s hs => ?_⟩
      have h3 := h2.1
      norm_num at h3
      have := hs.2 h2.2
      nlinarith
    · refine ⟨l.proj p, by rw [if_neg h2, l.at_eq], ⟨fun he => ?_, fun he => ?_⟩, fun s hs => by simp⟩
      · by_contra hc
        exact h1 ⟨by norm_num; linarith, he⟩
      · by_contra hc
        exact h2 ⟨by norm_num; linarith, he⟩

end Verif.Geo
