import Verif.Spec.Bilinear
import Verif.Lemmas.Geometry
import Mathlib.Tactic.LinearCombination
import Mathlib.Tactic.FieldSimp

/-!
# Bilinear surfaces
-/

namespace Verif.Geo

open Classical

/-- `GetPoint` gives the point with the given parameters; the corners for parameters 0 and 1. -/
theorem bilinear_getPoint (p00 p10 p11 p01 : Pt) (u v : ℝ) : (Bilinear.ofCorners p00 p10 p11 p01).getPoint u v = patch p00 p10 p11 p01 u v ∧
    (Bilinear.ofCorners p00 p10 p11 p01).getPoint 0 0 = p00 ∧ (Bilinear.ofCorners p00 p10 p11 p01).getPoint 1 0 = p10 ∧
    (Bilinear.ofCorners p00 p10 p11 p01).getPoint 1 1 = p11 ∧ (Bilinear.ofCorners p00 p10 p11 p01).getPoint 0 1 = p01 := by
  refine ⟨?_, ?_, ?_, ?_, ?_⟩ <;> unfold Bilinear.getPoint Bilinear.ofCorners <;> apply Pt.ext <;> simp [patch] <;> ring

/-- The two ways to define a surface agree. -/
theorem bilinear_setPtVector (p00 p10 p11 p01 : Pt) :
    Bilinear.setPtVector p00 (p10 - p00) (p01 - p00) (p11 - p01 - p10 + p00) = Bilinear.ofCorners p00 p10 p11 p01 := by
  unfold Bilinear.setPtVector Bilinear.ofCorners
  ext <;> simp <;> ring

theorem snap_clear {a p : ℝ} (h : a = 0 ∨ 0.001 * |p| ≤ |a|) : Bilinear.snap a p = a := by
  unfold Bilinear.snap Bilinear.minVal
  split_ifs with h1 h2
  · rfl
  · rcases h with h | h
    · exact h.symm
    · rw [abs_div, div_lt_iff₀ (abs_pos.2 h1)] at h2
      linarith
  · rfl

/-- The solutions of a quadratic equation that is not trivial. -/
theorem quadratic_found {A B C v : ℝ} (hAB : A ≠ 0 ∨ B ≠ 0) (h : A * v ^ 2 + B * v + C = 0) : v ∈ Bilinear.quadraticSol A B C := by
  unfold Bilinear.quadraticSol
  by_cases hA : A = 0
  · have hB : B ≠ 0 := hAB.resolve_left (not_not.2 hA)
    simp only
    rw [if_neg (by norm_num [hA]), if_pos (by norm_num [hA]; exact hB)]
    rw [hA] at h
    rw [List.mem_singleton, eq_div_iff hB]
    linarith
  · have hd : B * B - 4 * A * C = (2 * A * v + B) ^ 2 := by linear_combination (-4 * A) * h
    simp only
    rw [if_pos ⟨by norm_num; exact hA, by rw [hd]; norm_num; positivity⟩, hd, Real.sqrt_sq_eq_abs]
    have h2 : 2 * A ≠ 0 := by simpa using hA
    rcases abs_cases (2 * A * v + B) with ⟨e, -⟩ | ⟨e, -⟩
    · rw [e]
      apply List.mem_cons.2
      left
      rw [eq_div_iff h2]
      ring
    · rw [e]
      apply List.mem_cons_of_mem
      rw [List.mem_singleton, eq_div_iff h2]
      ring

theorem quadratic_sound {A B C v : ℝ} (h : v ∈ Bilinear.quadraticSol A B C) : A * v ^ 2 + B * v + C = 0 := by
  unfold Bilinear.quadraticSol at h
  simp only at h
  split_ifs at h with h1 h2 h3
  · have hA : A ≠ 0 := by have := h1.1; norm_num at this; exact this
    have hs := Real.sq_sqrt (show (0 : ℝ) ≤ B * B - 4 * A * C by have := h1.2; norm_num at this; linarith)
    simp only [List.mem_cons, List.not_mem_nil, or_false] at h
    set e := √(B * B - 4 * A * C)
    have h2 : 2 * A ≠ 0 := by simpa using hA
    have k : ∀ w : ℝ, w * (2 * A) = -B + e ∨ w * (2 * A) = -B - e → A * w ^ 2 + B * w + C = 0 := by
      intro w hw
      have : 4 * A * (A * w ^ 2 + B * w + C) = 0 := by
        rcases hw with hw | hw
        · linear_combination (w * (2 * A) + B + e) * hw + hs
        · linear_combination (w * (2 * A) + B - e) * hw + hs
      exact (mul_eq_zero.1 this).resolve_left (by simpa using hA)
    rcases h with h | h
    · exact k v (Or.inl ((eq_div_iff h2).1 h))
    · exact k v (Or.inr ((eq_div_iff h2).1 h))
  · have hA : A = 0 := by have := h2.1; norm_num at this; exact this
    have hB : B ≠ 0 := by have := h2.2; norm_num at this; exact this
    rw [List.mem_singleton] at h
    rw [h, hA]
    field_simp
    ring
  · have hA : A ≠ 0 := by have := h3.2.1; norm_num at this; exact this
    have hB : B = 0 := by have := h3.1; norm_num at this; exact this
    have hs := Real.sq_sqrt (show (0 : ℝ) ≤ -C / A by have := h3.2.2; norm_num at this; linarith)
    rw [List.mem_singleton] at h
    rw [h, hB, hs]
    field_simp
    ring
  · simp at h

theorem solveU_sound {A1 B1 C1 D1 A2 B2 C2 D2 v u : ℝ} (hu : Bilinear.solveU A1 B1 C1 D1 A2 B2 C2 D2 v = some u)
    (hq : (v * A2 + B2) * (v * C1 + D1) = (v * A1 + B1) * (v * C2 + D2)) :
    u * (v * A1 + B1) + (v * C1 + D1) = 0 ∧ u * (v * A2 + B2) + (v * C2 + D2) = 0 := by
  unfold Bilinear.solveU at hu
  simp only at hu
  split_ifs at hu with h1 h2
  · have e := Option.some.inj hu
    have h3 : u * (v * (A2 - A1) + B2 - B1) = v * (C1 - C2) + D1 - D2 := by rw [← e]; field_simp
    have k1 : (u * (v * A1 + B1) + (v * C1 + D1)) * (v * (A2 - A1) + B2 - B1) = 0 := by
      linear_combination (v * A1 + B1) * h3 + hq
    have k2 : (u * (v * A2 + B2) + (v * C2 + D2)) * (v * (A2 - A1) + B2 - B1) = 0 := by
      linear_combination (v * A2 + B2) * h3 + hq
    exact ⟨(mul_eq_zero.1 k1).resolve_right h2, (mul_eq_zero.1 k2).resolve_right h2⟩
  · have e := Option.some.inj hu
    have h2 : v * A2 + B2 ≠ 0 := by
      intro hc
      rw [hc, abs_zero] at h1
      exact h1 (abs_nonneg _)
    have h3 : u * (v * A2 + B2) = -v * C2 - D2 := by rw [← e]; field_simp
    have k1 : (u * (v * A1 + B1) + (v * C1 + D1)) * (v * A2 + B2) = 0 := by
      linear_combination (v * A1 + B1) * h3 + hq
    exact ⟨(mul_eq_zero.1 k1).resolve_right h2, by linear_combination h3⟩

theorem solveU_found {A1 B1 C1 D1 A2 B2 C2 D2 v u : ℝ} (h1 : u * (v * A1 + B1) + (v * C1 + D1) = 0)
    (h2 : u * (v * A2 + B2) + (v * C2 + D2) = 0) (hne : v * A1 + B1 ≠ 0 ∨ v * A2 + B2 ≠ 0) :
    Bilinear.solveU A1 B1 C1 D1 A2 B2 C2 D2 v = some u := by
  unfold Bilinear.solveU
  simp only
  split_ifs with h3 h4
  · exfalso
    have : v * A2 + B2 = 0 := by
      rw [h4, abs_zero] at h3
      exact abs_eq_zero.1 (le_antisymm h3 (abs_nonneg _))
    rcases hne with h | h
    · apply h; linarith
    · exact h this
  · congr 1
    rw [div_eq_iff h4]
    linear_combination h1 - h2
  · have h2' : v * A2 + B2 ≠ 0 := by
      intro hc
      rw [hc, abs_zero] at h3
      exact h3 (abs_nonneg _)
    congr 1
    rw [div_eq_iff h2']
    linear_combination -h2

theorem accept_eq {a b c d : Pt} {v : ℝ} {o : Option ℝ} {p : Pt} : Bilinear.accept a b c d v o = some p ↔
    ∃ u, o = some u ∧ (v ≥ -0.001 ∧ v ≤ 1.001 ∧ u ≥ -0.05 ∧ u ≤ 1.05) ∧ p = (u * v) * a + u * b + v * c + d := by
  unfold Bilinear.accept
  cases o with
  | none => simp
  | some u =>
    simp only
    split_ifs with h
    · constructor
      · intro e; exact ⟨u, rfl, h, (Option.some.inj e).symm⟩
      · rintro ⟨w, e, -, hp⟩; rw [← Option.some.inj e] at hp; rw [hp]
    · constructor
      · intro e; cases e
      · rintro ⟨w, e, hw, -⟩; rw [← Option.some.inj e] at hw; exact absurd hw h

/-- The accepted points for the solutions. -/
theorem mem_pick {x : Pt} (f : ℝ → Option Pt) (g : Pt → ℝ) (L : List ℝ) (hL : L.length ≤ 2) :
    x ∈ Bilinear.pick f g L ↔ ∃ v ∈ L, f v = some x := by
  unfold Bilinear.pick
  match L, hL with
  | [], _ => simp
  | [v1], _ => simp [eq_comm]
  | [v1, v2], _ =>
    simp only [List.mem_cons, List.not_mem_nil, or_false, exists_eq_or_imp, exists_eq_left]
    cases f v1 <;> cases f v2 <;> simp only
    · simp
    · simp [eq_comm]
    · simp [eq_comm]
    · split_ifs <;> simp [eq_comm, or_comm]

theorem pick_sorted (f : ℝ → Option Pt) (g : Pt → ℝ) (L : List ℝ) : (Bilinear.pick f g L).length ≤ 2 ∧
    ∀ p q, Bilinear.pick f g L = [p, q] → g p ≤ g q := by
  unfold Bilinear.pick
  match L with
  | [] => simp
  | [v1] => cases h1 : f v1 <;> simp [h1]
  | [v1, v2] =>
    cases h1 : f v1 <;> cases h2 : f v2 <;> simp only [h1, h2]
    · simp
    · simp
    · simp
    · split_ifs with h
      · simp
        exact h
      · simp
        exact (not_le.1 h).le
  | _ :: _ :: _ :: _ => simp

theorem quadraticSol_length (A B C : ℝ) : (Bilinear.quadraticSol A B C).length ≤ 2 := by
  unfold Bilinear.quadraticSol
  simp only
  split_ifs <;> simp

/-- What `FindIntersections` gives for surfaces with a clear twist: the points found from the solutions of the quadratic equation. -/
theorem mem_findIntersections {p00 p10 p11 p01 : Pt} (h : ClearTwist p00 p10 p11 p01) (l : Line) {p : Pt} (hz : l.p1.z ≠ l.p2.z) :
    p ∈ (Bilinear.ofCorners p00 p10 p11 p01).findIntersections l → ∃ u v t, -0.05 ≤ u ∧ u ≤ 1.05 ∧ -0.001 ≤ v ∧ v ≤ 1.001 ∧
      p = patch p00 p10 p11 p01 u v ∧ p = along l.p1 l.p2 t := by
  obtain ⟨hx, hy, hw⟩ := h
  intro hp
  unfold Bilinear.findIntersections Bilinear.ofCorners at hp
  simp only [Pt.add_x, Pt.add_y, Pt.add_z, Pt.sub_x, Pt.sub_y, Pt.sub_z, snap_clear hx, snap_clear hy, snap_clear hw] at hp
  rw [mem_pick _ _ _ (quadraticSol_length _ _ _)] at hp
  obtain ⟨v, hv, hp⟩ := hp
  obtain ⟨u, hu, ⟨h1, h2, h3, h4⟩, rfl⟩ := accept_eq.1 hp
  have hq := quadratic_sound hv
  obtain ⟨e1, e2⟩ := solveU_sound hu (by linear_combination hq)
  have hz' : l.p2.z - l.p1.z ≠ 0 := sub_ne_zero.2 hz.symm
  refine ⟨u, v, ((patch p00 p10 p11 p01 u v).z - l.p1.z) / (l.p2.z - l.p1.z), h3, h4, h1, h2, ?_, ?_⟩
  · apply Pt.ext <;> simp [patch] <;> ring
  · apply Pt.ext
    · simp only [along, patch, Pt.add_x, Pt.mul_x, Pt.sub_x]
      field_simp
      linear_combination e1
    · simp only [along, patch, Pt.add_y, Pt.mul_y, Pt.sub_y]
      field_simp
      linear_combination e2
    · simp only [along, patch, Pt.add_z, Pt.mul_z, Pt.sub_z]
      field_simp
      ring

theorem computeT_along {r r' : Pt} (hz : r.z ≠ r'.z) (t : ℝ) : Bilinear.computeT r (r' - r) (along r r' t) = t := by
  have hz' : r'.z - r.z ≠ 0 := sub_ne_zero.2 hz.symm
  unfold Bilinear.computeT along
  simp only [Pt.sub_x, Pt.sub_y, Pt.sub_z]
  split_ifs with h1 h2
  · have : r'.x - r.x ≠ 0 := by
      intro hc
      rw [hc, abs_zero] at h1
      exact hz' (abs_eq_zero.1 (le_antisymm h1.2 (abs_nonneg _)))
    rw [add_sub_cancel_left, mul_div_cancel_right₀ _ this]
  · have : r'.y - r.y ≠ 0 := by
      intro hc
      rw [hc, abs_zero] at h2
      exact hz' (abs_eq_zero.1 (le_antisymm h2 (abs_nonneg _)))
    rw [add_sub_cancel_left, mul_div_cancel_right₀ _ this]
  · rw [add_sub_cancel_left, mul_div_cancel_right₀ _ hz']

/-- `FindIntersections` gives two points at most. For a line that is not horizontal and a surface with a clear twist they are points
of the line through the two points and of the surface, extended by one twentieth and one thousandth, in the order of the line.
Missing: that they are points of the surface and of the line itself, and other surfaces and lines; see below. -/
theorem findIntersections_sound_partial {p00 p10 p11 p01 : Pt} (h : ClearTwist p00 p10 p11 p01) (l : Line) (hz : l.p1.z ≠ l.p2.z) :
    ((Bilinear.ofCorners p00 p10 p11 p01).findIntersections l).length ≤ 2 ∧
    (∀ p ∈ (Bilinear.ofCorners p00 p10 p11 p01).findIntersections l, ∃ u v t, -0.05 ≤ u ∧ u ≤ 1.05 ∧ -0.001 ≤ v ∧ v ≤ 1.001 ∧
      p = patch p00 p10 p11 p01 u v ∧ p = along l.p1 l.p2 t) ∧
    ∀ s t, (Bilinear.ofCorners p00 p10 p11 p01).findIntersections l = [along l.p1 l.p2 s, along l.p1 l.p2 t] → s ≤ t := by
  refine ⟨(pick_sorted _ _ _).1, fun p hp => mem_findIntersections h l hz hp, fun s t e => ?_⟩
  have := (pick_sorted _ _ _).2 _ _ e
  rwa [computeT_along hz, computeT_along hz] at this

/-- Each point at which a line that is not horizontal passes through the surface is found. The line passes through it if it is not
tangential: its direction and the partial derivatives of the surface are linearly independent. -/
theorem findIntersections_found_partial {p00 p10 p11 p01 : Pt} (h : ClearTwist p00 p10 p11 p01) (l : Line) (hz : l.p1.z ≠ l.p2.z) {u v t : ℝ}
    (hu : 0 ≤ u ∧ u ≤ 1) (hv : 0 ≤ v ∧ v ≤ 1) (hp : patch p00 p10 p11 p01 u v = along l.p1 l.p2 t)
    (hd : det3 (patchU p00 p10 p11 p01 v) (patchV p00 p10 p11 p01 u) (l.p2 - l.p1) ≠ 0) :
    patch p00 p10 p11 p01 u v ∈ (Bilinear.ofCorners p00 p10 p11 p01).findIntersections l := by
  obtain ⟨hx, hy, hw⟩ := h
  have px := congrArg Pt.x hp
  have py := congrArg Pt.y hp
  have pz := congrArg Pt.z hp
  simp only [patch, along] at px py pz
  have hz' : l.p2.z - l.p1.z ≠ 0 := sub_ne_zero.2 hz.symm
  unfold Bilinear.findIntersections Bilinear.ofCorners
  simp only [Pt.add_x, Pt.add_y, Pt.add_z, Pt.sub_x, Pt.sub_y, Pt.sub_z, snap_clear hx, snap_clear hy, snap_clear hw]
  rw [mem_pick _ _ _ (quadraticSol_length _ _ _)]
  simp only [det3, patchU, patchV, Pt.sub_x, Pt.sub_y, Pt.sub_z] at hd
  generalize hqx : l.p2.x - l.p1.x = qx at *
  generalize hqy : l.p2.y - l.p1.y = qy at *
  generalize hqz : l.p2.z - l.p1.z = qz at *
  generalize hA1 : (p00.x - p10.x - p01.x + p11.x) * qz - (p00.z - p10.z - p01.z + p11.z) * qx = A1
  generalize hA2 : (p00.y - p10.y - p01.y + p11.y) * qz - (p00.z - p10.z - p01.z + p11.z) * qy = A2
  generalize hB1 : (p10.x - p00.x) * qz - (p10.z - p00.z) * qx = B1
  generalize hB2 : (p10.y - p00.y) * qz - (p10.z - p00.z) * qy = B2
  generalize hC1 : (p01.x - p00.x) * qz - (p01.z - p00.z) * qx = C1
  generalize hC2 : (p01.y - p00.y) * qz - (p01.z - p00.z) * qy = C2
  generalize hD1 : (p00.x - l.p1.x) * qz - (p00.z - l.p1.z) * qx = D1
  generalize hD2 : (p00.y - l.p1.y) * qz - (p00.z - l.p1.z) * qy = D2
  have e1 : u * (v * A1 + B1) + (v * C1 + D1) = 0 := by
    rw [← hA1, ← hB1, ← hC1, ← hD1]
    linear_combination qz * px - qx * pz
  have e2 : u * (v * A2 + B2) + (v * C2 + D2) = 0 := by
    rw [← hA2, ← hB2, ← hC2, ← hD2]
    linear_combination qz * py - qy * pz
  have jac : (v * A2 + B2) * (C1 + u * A1) - (v * A1 + B1) * (C2 + u * A2) ≠ 0 := by
    intro hc
    apply hd
    have : qz * ((((1 - v) * (p10.x - p00.x) + v * (p11.x - p01.x)) *
        (((1 - u) * (p01.y - p00.y) + u * (p11.y - p10.y)) * qz - ((1 - u) * (p01.z - p00.z) + u * (p11.z - p10.z)) * qy)) +
        ((1 - v) * (p10.y - p00.y) + v * (p11.y - p01.y)) *
        (((1 - u) * (p01.z - p00.z) + u * (p11.z - p10.z)) * qx - ((1 - u) * (p01.x - p00.x) + u * (p11.x - p10.x)) * qz) +
        ((1 - v) * (p10.z - p00.z) + v * (p11.z - p01.z)) *
        (((1 - u) * (p01.x - p00.x) + u * (p11.x - p10.x)) * qy - ((1 - u) * (p01.y - p00.y) + u * (p11.y - p10.y)) * qx)) = 0 := by
      rw [← hA1, ← hA2, ← hB1, ← hB2, ← hC1, ← hC2] at hc
      linear_combination -hc
    exact (mul_eq_zero.1 this).resolve_left hz'
  refine ⟨v, quadratic_found ?_ ?_, accept_eq.2 ⟨u, solveU_found e1 e2 ?_, ⟨?_, ?_, ?_, ?_⟩, ?_⟩⟩
  · by_contra hc
    push Not at hc
    obtain ⟨c1, c2⟩ := hc
    apply jac
    linear_combination 2 * v * c1 + c2 - A2 * e1 + A1 * e2
  · linear_combination (v * A2 + B2) * e1 - (v * A1 + B1) * e2
  · by_contra hc
    push Not at hc
    obtain ⟨c1, c2⟩ := hc
    apply jac
    rw [c1, c2]
    ring
  · norm_num; linarith
  · norm_num; linarith
  · norm_num; linarith
  · norm_num; linarith
  · apply Pt.ext <;> simp [patch] <;> ring

/-- A horizontal line has no intersection, according to `FindIntersections`, with any surface. -/
theorem findIntersections_violation_horizontal (S : Bilinear) (l : Line) (hz : l.p1.z = l.p2.z) : S.findIntersections l = [] := by
  have hz' : l.p2.z - l.p1.z = 0 := sub_eq_zero.2 hz.symm
  unfold Bilinear.findIntersections
  simp only [Pt.add_x, Pt.add_y, Pt.add_z, Pt.sub_x, Pt.sub_y, Pt.sub_z, hz']
  have : ∀ A B C : ℝ, A = 0 → B = 0 → C = 0 → Bilinear.quadraticSol A B C = [] := by
    rintro A B C rfl rfl rfl
    norm_num [Bilinear.quadraticSol]
  rw [this]
  · rfl
  all_goals ring

/-- The x axis meets the square with corners (0, -1, -1), (0, 1, -1), (0, 1, 1) and (0, -1, 1) in its centre. -/
theorem concrete_horizontal : patch ⟨0, -1, -1⟩ ⟨0, 1, -1⟩ ⟨0, 1, 1⟩ ⟨0, -1, 1⟩ (1 / 2) (1 / 2) = along ⟨-1, 0, 0⟩ ⟨1, 0, 0⟩ (1 / 2) ∧
    (Line.segment ⟨-1, 0, 0⟩ ⟨1, 0, 0⟩).p1.z = (Line.segment ⟨-1, 0, 0⟩ ⟨1, 0, 0⟩).p2.z := by
  constructor
  · unfold patch along
    norm_num
  · rfl

/-- The vertical segment from (1/2, 1/2, 1) to (1/2, 1/2, 2) and the unit square: the square is not reached, but a point is reported. -/
theorem findIntersections_violation_end :
    (∀ p ∈ (Bilinear.ofCorners ⟨0, 0, 0⟩ ⟨1, 0, 0⟩ ⟨1, 1, 0⟩ ⟨0, 1, 0⟩).findIntersections (Line.segment ⟨1 / 2, 1 / 2, 1⟩ ⟨1 / 2, 1 / 2, 2⟩),
      ¬ (Line.segment ⟨1 / 2, 1 / 2, 1⟩ ⟨1 / 2, 1 / 2, 2⟩).Has p) ∧
    (⟨1 / 2, 1 / 2, 0⟩ : Pt) ∈ (Bilinear.ofCorners ⟨0, 0, 0⟩ ⟨1, 0, 0⟩ ⟨1, 1, 0⟩ ⟨0, 1, 0⟩).findIntersections
      (Line.segment ⟨1 / 2, 1 / 2, 1⟩ ⟨1 / 2, 1 / 2, 2⟩) := by
  have ct : ClearTwist ⟨0, 0, 0⟩ ⟨1, 0, 0⟩ ⟨1, 1, 0⟩ ⟨0, 1, 0⟩ := by norm_num [ClearTwist]
  constructor
  · rintro p hp ⟨t, h1, h2, h3⟩
    obtain ⟨-, hs, -⟩ := findIntersections_sound_partial ct (Line.segment ⟨1 / 2, 1 / 2, 1⟩ ⟨1 / 2, 1 / 2, 2⟩) (by norm_num [Line.segment])
    obtain ⟨u, v, s, -, -, -, -, h4, -⟩ := hs p hp
    have h5 := congrArg Pt.z (h3.symm.trans h4)
    have h6 := h1 rfl
    norm_num [patch, Line.segment] at h5
    linarith
  · have := findIntersections_found_partial ct (Line.segment ⟨1 / 2, 1 / 2, 1⟩ ⟨1 / 2, 1 / 2, 2⟩) (by norm_num [Line.segment])
      (u := 1 / 2) (v := 1 / 2) (t := -1) (by norm_num) (by norm_num) (by unfold patch along; norm_num [Line.segment])
      (by norm_num [det3, patchU, patchV, Line.segment])
    convert this using 1
    unfold patch
    norm_num

/-- The vertical line through (26/25, 1/2) does not meet the unit square, but a point is reported. -/
theorem findIntersections_violation_outside :
    (Bilinear.ofCorners ⟨0, 0, 0⟩ ⟨1, 0, 0⟩ ⟨1, 1, 0⟩ ⟨0, 1, 0⟩).findIntersections (Line.infiniteLine ⟨26 / 25, 1 / 2, 0⟩ ⟨0, 0, 1⟩) =
      [⟨26 / 25, 1 / 2, 0⟩] ∧
    ∀ u v, 0 ≤ u → u ≤ 1 → patch ⟨0, 0, 0⟩ ⟨1, 0, 0⟩ ⟨1, 1, 0⟩ ⟨0, 1, 0⟩ u v ≠ ⟨26 / 25, 1 / 2, 0⟩ := by
  constructor
  · norm_num [Bilinear.findIntersections, Bilinear.ofCorners, Line.infiniteLine, Bilinear.snap, Bilinear.quadraticSol, Bilinear.pick,
      Bilinear.solveU, Bilinear.accept]
    apply Pt.ext <;> norm_num
  · intro u v h0 h1 he
    have := congrArg Pt.x he
    norm_num [patch] at this
    nlinarith

/-- A surface of size one at (1000, 1000, 1000): the reported point is not on it. -/
theorem findIntersections_violation_twist :
    (Bilinear.ofCorners ⟨1000, 1000, 1000⟩ ⟨1001, 1000, 1000⟩ ⟨1001, 1001, 1000.9⟩ ⟨1000, 1001, 1000⟩).findIntersections
      (Line.infiniteLine ⟨1000.5, 1000.5, 0⟩ ⟨0, 0, 1⟩) = [⟨1000.5, 1000.5, 1000⟩] ∧
    ∀ u v, patch ⟨1000, 1000, 1000⟩ ⟨1001, 1000, 1000⟩ ⟨1001, 1001, 1000.9⟩ ⟨1000, 1001, 1000⟩ u v ≠ ⟨1000.5, 1000.5, 1000⟩ := by
  constructor
  · norm_num [Bilinear.findIntersections, Bilinear.ofCorners, Line.infiniteLine, Bilinear.snap, Bilinear.quadraticSol, Bilinear.pick,
      Bilinear.solveU, Bilinear.accept, Bilinear.minVal]
    apply Pt.ext <;> norm_num
  · intro u v he
    have h1 := congrArg Pt.x he
    have h2 := congrArg Pt.y he
    have h3 := congrArg Pt.z he
    norm_num [patch] at h1 h2 h3
    have hu : u = 1 / 2 := by linarith
    have hv : v = 1 / 2 := by rw [hu] at h2; linarith
    rw [hu, hv] at h3
    norm_num at h3

/-- A twisted surface and a line that passes through it at the parameters 1/4 and 1/3. -/
theorem concrete_bilinear : ClearTwist ⟨0, 0, 0⟩ ⟨4, 0, 0⟩ ⟨4, 3, 12⟩ ⟨0, 3, 0⟩ ∧
    patch ⟨0, 0, 0⟩ ⟨4, 0, 0⟩ ⟨4, 3, 12⟩ ⟨0, 3, 0⟩ (1 / 4) (1 / 3) = along ⟨1, 1, 5⟩ ⟨1, 1, 3⟩ 2 ∧
    det3 (patchU ⟨0, 0, 0⟩ ⟨4, 0, 0⟩ ⟨4, 3, 12⟩ ⟨0, 3, 0⟩ (1 / 3)) (patchV ⟨0, 0, 0⟩ ⟨4, 0, 0⟩ ⟨4, 3, 12⟩ ⟨0, 3, 0⟩ (1 / 4))
      ((⟨1, 1, 3⟩ : Pt) - ⟨1, 1, 5⟩) ≠ 0 := by
  refine ⟨by norm_num [ClearTwist], by unfold patch along; norm_num, by norm_num [det3, patchU, patchV]⟩

end Verif.Geo
