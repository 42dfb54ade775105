import Verif.Props.Bilinear

/-!
# `IsAbove` of bilinear surfaces
-/

namespace Verif.Geo

open Classical

/-- The surface beyond its edges, as a height along the twist. -/
noncomputable def extended (u v : ℝ) : ℝ := u * v - (u - max 0 (min 1 u)) * (v - max 0 (min 1 v))

theorem clamp_of_mem {u : ℝ} (h : 0 ≤ u ∧ u ≤ 1) : u - max 0 (min 1 u) = 0 := by
  rw [min_eq_right h.2, max_eq_right h.1, sub_self]

theorem clamp_of_neg {u : ℝ} (h : u < 0) : u - max 0 (min 1 u) = u := by
  rw [min_eq_right (by linarith), max_eq_left h.le, sub_zero]

theorem clamp_of_gt {u : ℝ} (h : 1 < u) : u - max 0 (min 1 u) = u - 1 := by
  rw [min_eq_left h.le, max_eq_right (by norm_num)]

theorem isAbove_coords {S : Bilinear} (hn : 0.001 ≤ S.a2.norm) (hd : det3 S.a0 S.a1 S.a2 ≠ 0) {p : Pt} {u v w : ℝ}
    (hp : p = S.p00 + u * S.a0 + v * S.a1 + w * S.a2) : S.isAbove p = true ↔ 0 < (w - extended u v) * det3 S.a0 S.a1 S.a2 := by
  unfold Bilinear.isAbove Bilinear.minVal
  have det : S.a2.dot (S.a0.cross S.a1) = det3 S.a0 S.a1 S.a2 := by unfold Pt.dot Pt.cross det3; ring
  simp only
  rw [if_neg (not_lt.2 hn), det, if_neg hd]
  have z : (0.0 : ℝ) = 0 := by norm_num
  have o : (1.0 : ℝ) = 1 := by norm_num
  have k : ∀ x : ℝ, x * det3 S.a0 S.a1 S.a2 * (1.0 / det3 S.a0 S.a1 S.a2) = x := by
    intro x
    rw [o, one_div, mul_inv_cancel_right₀ hd]
  have hu : (p - S.p00).dot ⟨(S.a1.y * S.a2.z - S.a1.z * S.a2.y) * (1.0 / det3 S.a0 S.a1 S.a2),
      (S.a1.z * S.a2.x - S.a1.x * S.a2.z) * (1.0 / det3 S.a0 S.a1 S.a2), (S.a1.x * S.a2.y - S.a1.y * S.a2.x) * (1.0 / det3 S.a0 S.a1 S.a2)⟩ = u := by
    rw [← k u, hp]
    generalize 1.0 / det3 S.a0 S.a1 S.a2 = c
    simp only [Pt.dot, Pt.add_x, Pt.add_y, Pt.add_z, Pt.sub_x, Pt.sub_y, Pt.sub_z, Pt.mul_x, Pt.mul_y, Pt.mul_z]
    unfold det3
    ring
  have hv : (p - S.p00).dot ⟨(S.a0.z * S.a2.y - S.a0.y * S.a2.z) * (1.0 / det3 S.a0 S.a1 S.a2),
      (S.a0.x * S.a2.z - S.a0.z * S.a2.x) * (1.0 / det3 S.a0 S.a1 S.a2), (S.a0.y * S.a2.x - S.a0.x * S.a2.y) * (1.0 / det3 S.a0 S.a1 S.a2)⟩ = v := by
    rw [← k v, hp]
    generalize 1.0 / det3 S.a0 S.a1 S.a2 = c
    simp only [Pt.dot, Pt.add_x, Pt.add_y, Pt.add_z, Pt.sub_x, Pt.sub_y, Pt.sub_z, Pt.mul_x, Pt.mul_y, Pt.mul_z]
    unfold det3
    ring
  have hw : (p - S.p00).dot ⟨(S.a0.y * S.a1.z - S.a0.z * S.a1.y) * (1.0 / det3 S.a0 S.a1 S.a2),
      (S.a0.z * S.a1.x - S.a0.x * S.a1.z) * (1.0 / det3 S.a0 S.a1 S.a2), (S.a0.x * S.a1.y - S.a0.y * S.a1.x) * (1.0 / det3 S.a0 S.a1 S.a2)⟩ = w := by
    rw [← k w, hp]
    generalize 1.0 / det3 S.a0 S.a1 S.a2 = c
    simp only [Pt.dot, Pt.add_x, Pt.add_y, Pt.add_z, Pt.sub_x, Pt.sub_y, Pt.sub_z, Pt.mul_x, Pt.mul_y, Pt.mul_z]
    unfold det3
    ring
  rw [hu, hv, hw]
  generalize det3 S.a0 S.a1 S.a2 = D
  unfold extended
  rw [z, o]
  simp only [ge_iff_le, gt_iff_lt]
  split_ifs with h1 h2 h3 h4 <;> rw [decide_eq_true_iff]
  · rcases h1 with h | h
    · rw [clamp_of_mem h]; simp
    · rw [clamp_of_mem h]; simp
  · rw [clamp_of_neg h2.1, clamp_of_neg h2.2]; simp
  · rw [clamp_of_neg h3.1, clamp_of_gt h3.2, show w - (u * v - u * (v - 1)) = w - u by ring]
  · rw [clamp_of_gt h4.1, clamp_of_neg h4.2, show w - (u * v - (u - 1) * v) = w - v by ring]
  · push Not at h1
    obtain ⟨g1, g2⟩ := h1
    have gu : 1 < u := by
      rcases lt_or_ge u 0 with hc | hc
      · rcases lt_or_ge v 0 with hd | hd
        · exact absurd ⟨hc, hd⟩ h2
        · exact absurd ⟨hc, g2 hd⟩ h3
      · exact g1 hc
    have gv : 1 < v := by
      rcases lt_or_ge v 0 with hd | hd
      · exact absurd ⟨gu, hd⟩ h4
      · exact g2 hd
    rw [clamp_of_gt gu, clamp_of_gt gv, show w - (u * v - (u - 1) * (v - 1)) = w - u - v + 1 by ring]

theorem clamp_step {u : ℝ} (h : 0 ≤ u ∧ u ≤ 1) (x : ℝ) : |u + x - max 0 (min 1 (u + x))| ≤ |x| := by
  rcases lt_or_ge (u + x) 0 with h1 | h1
  · rw [clamp_of_neg h1, abs_of_neg h1]
    have := neg_abs_le x
    linarith
  · rcases lt_or_ge 1 (u + x) with h2 | h2
    · rw [clamp_of_gt h2, abs_of_pos (by linarith)]
      have := le_abs_self x
      linarith
    · rw [clamp_of_mem ⟨h1, h2⟩, abs_zero]
      exact abs_nonneg x

/-- A vector in the coordinates given by three linearly independent ones. -/
theorem coords_exist {a b c : Pt} (hd : det3 a b c ≠ 0) (d : Pt) : ∃ α β γ : ℝ, d = α * a + β * b + γ * c := by
  refine ⟨det3 d b c / det3 a b c, det3 a d c / det3 a b c, det3 a b d / det3 a b c, ?_⟩
  apply Pt.ext
  · simp only [Pt.add_x, Pt.mul_x]
    field_simp
    unfold det3
    ring
  · simp only [Pt.add_y, Pt.mul_y]
    field_simp
    unfold det3
    ring
  · simp only [Pt.add_z, Pt.mul_z]
    field_simp
    unfold det3
    ring

/-- `IsAbove` tells the two sides of the surface from each other: from each point of the surface, in each direction on the side of the
normal, it is true for some way, and in the opposite direction it is false; on the surface it is false. This is for surfaces with
a twist that is not in the plane of the first three corners. Missing: planar surfaces, see below, and points far from the surface. -/
theorem isAbove_near_partial {p00 p10 p11 p01 : Pt} (hn : 0.001 ≤ (p11 - p01 - p10 + p00).norm)
    (hd : det3 (p10 - p00) (p01 - p00) (p11 - p01 - p10 + p00) ≠ 0) {u v : ℝ} (hu : 0 ≤ u ∧ u ≤ 1) (hv : 0 ≤ v ∧ v ≤ 1) :
    (Bilinear.ofCorners p00 p10 p11 p01).isAbove (patch p00 p10 p11 p01 u v) = false ∧
    ∀ d : Pt, 0 < det3 (patchU p00 p10 p11 p01 v) (patchV p00 p10 p11 p01 u) d → ∃ ε > (0 : ℝ), ∀ h : ℝ, 0 < h → h < ε →
      (Bilinear.ofCorners p00 p10 p11 p01).isAbove (patch p00 p10 p11 p01 u v + h * d) = true ∧
      (Bilinear.ofCorners p00 p10 p11 p01).isAbove (patch p00 p10 p11 p01 u v - h * d) = false := by
  have key : ∀ (p : Pt) (u v w : ℝ), p = p00 + u * (p10 - p00) + v * (p01 - p00) + w * (p11 - p01 - p10 + p00) →
      ((Bilinear.ofCorners p00 p10 p11 p01).isAbove p = true ↔
        0 < (w - extended u v) * det3 (p10 - p00) (p01 - p00) (p11 - p01 - p10 + p00)) :=
    fun p u v w hp => isAbove_coords (S := Bilinear.ofCorners p00 p10 p11 p01) hn hd hp
  have hcu := clamp_of_mem hu
  have hcv := clamp_of_mem hv
  constructor
  · rw [Bool.eq_false_iff, Ne, key _ u v (u * v) (by apply Pt.ext <;> simp [patch] <;> ring)]
    unfold extended
    rw [hcu]
    simp
  · intro d hpos
    obtain ⟨α, β, γ, rfl⟩ := coords_exist hd d
    set D := det3 (p10 - p00) (p01 - p00) (p11 - p01 - p10 + p00) with hD
    have hslope : det3 (patchU p00 p10 p11 p01 v) (patchV p00 p10 p11 p01 u)
        (α * (p10 - p00) + β * (p01 - p00) + γ * (p11 - p01 - p10 + p00)) = (γ - u * β - v * α) * D := by
      rw [hD]
      simp only [det3, patchU, patchV, Pt.add_x, Pt.add_y, Pt.add_z, Pt.sub_x, Pt.sub_y, Pt.sub_z, Pt.mul_x, Pt.mul_y, Pt.mul_z]
      ring
    rw [hslope] at hpos
    set s := (γ - u * β - v * α) * D with hs
    set M := 2 * |α| * |β| * |D| + 1 with hM
    have hMpos : 0 < M := by positivity
    refine ⟨s / M, div_pos hpos hMpos, fun h h0 h1 => ?_⟩
    have h2 : h * M < s := (lt_div_iff₀ hMpos).1 h1
    -- the change of the height
    have change : ∀ k : ℝ, ((u * v + k * γ) - extended (u + k * α) (v + k * β)) * D =
        k * s + (-(k ^ 2 * α * β) + (u + k * α - max 0 (min 1 (u + k * α))) * (v + k * β - max 0 (min 1 (v + k * β)))) * D := by
      intro k
      unfold extended
      rw [hs]
      ring
    have small : ∀ k : ℝ, |(-(k ^ 2 * α * β) + (u + k * α - max 0 (min 1 (u + k * α))) * (v + k * β - max 0 (min 1 (v + k * β)))) * D| ≤
        k ^ 2 * (2 * |α| * |β| * |D|) := by
      intro k
      rw [abs_mul]
      have a1 := clamp_step hu (k * α)
      have a2 := clamp_step hv (k * β)
      have a3 : |-(k ^ 2 * α * β) + (u + k * α - max 0 (min 1 (u + k * α))) * (v + k * β - max 0 (min 1 (v + k * β)))| ≤
          k ^ 2 * |α| * |β| + |k * α| * |k * β| := by
        refine (abs_add_le _ _).trans (add_le_add ?_ ?_)
        · rw [abs_neg, abs_mul, abs_mul, abs_of_nonneg (sq_nonneg k)]
        · rw [abs_mul]
          exact mul_le_mul a1 a2 (abs_nonneg _) (abs_nonneg _)
      rw [abs_mul k α, abs_mul k β] at a3
      have a4 : |k| * |k| = k ^ 2 := by rw [← sq, sq_abs]
      calc _ ≤ (k ^ 2 * |α| * |β| + |k| * |α| * (|k| * |β|)) * |D| := mul_le_mul_of_nonneg_right a3 (abs_nonneg _)
        _ = k ^ 2 * (2 * |α| * |β| * |D|) := by rw [show |k| * |α| * (|k| * |β|) = |k| * |k| * |α| * |β| by ring, a4]; ring
    have bound : h ^ 2 * (2 * |α| * |β| * |D|) < h * s := by
      have : 2 * |α| * |β| * |D| < M := by rw [hM]; linarith
      nlinarith
    constructor
    · rw [key _ (u + h * α) (v + h * β) (u * v + h * γ) (by apply Pt.ext <;> simp [patch] <;> ring), change]
      have := neg_abs_le ((-(h ^ 2 * α * β) + (u + h * α - max 0 (min 1 (u + h * α))) * (v + h * β - max 0 (min 1 (v + h * β)))) * D)
      have := small h
      linarith
    · rw [Bool.eq_false_iff, Ne, key _ (u + (-h) * α) (v + (-h) * β) (u * v + (-h) * γ) (by apply Pt.ext <;> simp [patch] <;> ring), change]
      have h3 := le_abs_self ((-((-h) ^ 2 * α * β) + (u + (-h) * α - max 0 (min 1 (u + (-h) * α))) * (v + (-h) * β - max 0 (min 1 (v + (-h) * β)))) * D)
      have h4 := small (-h)
      rw [show (-h) ^ 2 = h ^ 2 by ring] at h3 h4
      rw [show (-h) ^ 2 = h ^ 2 by ring]
      intro hc
      linarith

/-- A plane quadrangle that is not a parallelogram: no point is above it. -/
theorem isAbove_violation_quadrangle (p : Pt) : (Bilinear.ofCorners ⟨0, 0, 0⟩ ⟨1, 0, 0⟩ ⟨2, 2, 0⟩ ⟨0, 1, 0⟩).isAbove p = false := by
  have hn : ¬ (((⟨2, 2, 0⟩ : Pt) - ⟨0, 1, 0⟩ - ⟨1, 0, 0⟩ + ⟨0, 0, 0⟩).norm < Bilinear.minVal) := by
    rw [not_lt]
    unfold Pt.norm Bilinear.minVal
    apply Real.le_sqrt_of_sq_le
    norm_num
  unfold Bilinear.isAbove Bilinear.ofCorners
  simp only
  rw [if_neg hn, if_pos (by norm_num [Pt.dot, Pt.cross])]

/-- A square with sides of one hundredth: the point nine units above its first corner is not above it. -/
theorem isAbove_violation_small : (Bilinear.ofCorners ⟨0, 0, 0⟩ ⟨0.01, 0, 0⟩ ⟨0.01, 0.01, 0⟩ ⟨0, 0.01, 0⟩).isAbove ⟨0, 0, 9⟩ = false ∧
    (Bilinear.ofCorners ⟨0, 0, 0⟩ ⟨0.01, 0, 0⟩ ⟨0.01, 0.01, 0⟩ ⟨0, 0.01, 0⟩).isAbove ⟨0, 0, 11⟩ = true := by
  have hn : ((⟨0.01, 0.01, 0⟩ : Pt) - ⟨0, 0.01, 0⟩ - ⟨0.01, 0, 0⟩ + ⟨0, 0, 0⟩).norm < Bilinear.minVal := by
    unfold Pt.norm Bilinear.minVal
    norm_num
  constructor
  · unfold Bilinear.isAbove Bilinear.ofCorners
    simp only
    rw [if_pos hn]
    norm_num [Pt.dot, Pt.cross, Bilinear.minVal]
  · unfold Bilinear.isAbove Bilinear.ofCorners
    simp only
    rw [if_pos hn]
    norm_num [Pt.dot, Pt.cross, Bilinear.minVal]

/-- Parallelograms: a point is above if its distance to the plane, times the area, is larger than one thousandth. -/
theorem isAbove_plane_partial (p00 p10 p01 p : Pt) : (Bilinear.ofCorners p00 p10 (p10 + p01 - p00) p01).isAbove p = true ↔
    0.001 < det3 (p10 - p00) (p01 - p00) (p - p00) := by
  have hn : (p10 + p01 - p00 - p01 - p10 + p00).norm < Bilinear.minVal := by
    rw [norm_eq_zero.2 (by apply Pt.ext <;> simp <;> ring)]
    norm_num [Bilinear.minVal]
  unfold Bilinear.isAbove Bilinear.ofCorners
  simp only
  rw [if_pos hn]
  unfold Bilinear.minVal
  rw [show (p - p00).dot ((p10 - p00).cross (p01 - p00)) = det3 (p10 - p00) (p01 - p00) (p - p00) by unfold Pt.dot Pt.cross det3; ring]
  simp

/-- A twisted surface, its middle and the direction upwards. -/
theorem concrete_above : 0.001 ≤ ((⟨4, 3, 12⟩ : Pt) - ⟨0, 3, 0⟩ - ⟨4, 0, 0⟩ + ⟨0, 0, 0⟩).norm ∧
    det3 ((⟨4, 0, 0⟩ : Pt) - ⟨0, 0, 0⟩) ((⟨0, 3, 0⟩ : Pt) - ⟨0, 0, 0⟩) ((⟨4, 3, 12⟩ : Pt) - ⟨0, 3, 0⟩ - ⟨4, 0, 0⟩ + ⟨0, 0, 0⟩) ≠ 0 ∧
    0 < det3 (patchU ⟨0, 0, 0⟩ ⟨4, 0, 0⟩ ⟨4, 3, 12⟩ ⟨0, 3, 0⟩ (1 / 2)) (patchV ⟨0, 0, 0⟩ ⟨4, 0, 0⟩ ⟨4, 3, 12⟩ ⟨0, 3, 0⟩ (1 / 2)) ⟨0, 0, 1⟩ := by
  refine ⟨?_, by norm_num [det3], by norm_num [det3, patchU, patchV]⟩
  unfold Pt.norm
  apply Real.le_sqrt_of_sq_le
  norm_num

end Verif.Geo
