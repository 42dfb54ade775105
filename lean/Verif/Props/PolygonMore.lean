import Verif.Props.Polygon
import Verif.Lemmas.Loop
import Mathlib.Algebra.BigOperators.Intervals

/-!
# Extent, orientation, convexity and lengths of polygons
-/

namespace Verif.Geo

open Classical

theorem edges_cons (p : Pt) (ps : List Pt) : edges (p :: ps) = edgesFrom ((p :: ps).getLast (List.cons_ne_nil _ _)) (p :: ps) := dif_neg (List.cons_ne_nil _ _)

theorem ccw_cons (p : Pt) (ps : List Pt) : Polygon.isCounterclockwise (p :: ps) = .ok (decide (0 ≤ Polygon.doubleArea (p :: ps) 0)) :=
  if_neg (List.cons_ne_nil _ _)

/-! ## Extent -/

theorem extent_foldl (ps : List Pt) (x0 x1 y0 y1 : ℝ) (hx : x0 ≤ x1) (hy : y0 ≤ y1) :
    ∃ a b c d, ps.foldl Polygon.extentStep (x0, x1, y0, y1) = (a, b, c, d) ∧ a ≤ b ∧ c ≤ d ∧ a ≤ x0 ∧ x1 ≤ b ∧ c ≤ y0 ∧ y1 ≤ d ∧
      (∀ p ∈ ps, a ≤ p.x ∧ p.x ≤ b ∧ c ≤ p.y ∧ p.y ≤ d) ∧ (a = x0 ∨ ∃ p ∈ ps, p.x = a) ∧ (b = x1 ∨ ∃ p ∈ ps, p.x = b) ∧
      (c = y0 ∨ ∃ p ∈ ps, p.y = c) ∧ (d = y1 ∨ ∃ p ∈ ps, p.y = d) := by
  induction ps generalizing x0 x1 y0 y1 with
  | nil => exact ⟨x0, x1, y0, y1, rfl, hx, hy, le_rfl, le_rfl, le_rfl, le_rfl, by simp, Or.inl rfl, Or.inl rfl, Or.inl rfl, Or.inl rfl⟩
  | cons p ps ih =>
    obtain ⟨u0, u1, hu, hu0, hu1, hu2, hu3, hu4⟩ : ∃ u0 u1, (if p.x < x0 then (p.x, x1) else if p.x > x1 then (x0, p.x) else (x0, x1)) = (u0, u1) ∧
        u0 ≤ x0 ∧ x1 ≤ u1 ∧ u0 ≤ p.x ∧ p.x ≤ u1 ∧ (u0 = x0 ∨ u0 = p.x) ∧ (u1 = x1 ∨ u1 = p.x) := by
      split_ifs with h1 h2
      · exact ⟨_, _, rfl, h1.le, le_rfl, le_rfl, by linarith, Or.inr rfl, Or.inl rfl⟩
      · exact ⟨_, _, rfl, le_rfl, h2.le, not_lt.1 h1, le_rfl, Or.inl rfl, Or.inr rfl⟩
      · exact ⟨_, _, rfl, le_rfl, le_rfl, not_lt.1 h1, not_lt.1 h2, Or.inl rfl, Or.inl rfl⟩
    obtain ⟨v0, v1, hv, hv0, hv1, hv2, hv3, hv4⟩ : ∃ u0 u1, (if p.y < y0 then (p.y, y1) else if p.y > y1 then (y0, p.y) else (y0, y1)) = (u0, u1) ∧
        u0 ≤ y0 ∧ y1 ≤ u1 ∧ u0 ≤ p.y ∧ p.y ≤ u1 ∧ (u0 = y0 ∨ u0 = p.y) ∧ (u1 = y1 ∨ u1 = p.y) := by
      split_ifs with h1 h2
      · exact ⟨_, _, rfl, h1.le, le_rfl, le_rfl, by linarith, Or.inr rfl, Or.inl rfl⟩
      · exact ⟨_, _, rfl, le_rfl, h2.le, not_lt.1 h1, le_rfl, Or.inl rfl, Or.inr rfl⟩
      · exact ⟨_, _, rfl, le_rfl, le_rfl, not_lt.1 h1, not_lt.1 h2, Or.inl rfl, Or.inl rfl⟩
    have hstep : Polygon.extentStep (x0, x1, y0, y1) p = (u0, u1, v0, v1) := by
      unfold Polygon.extentStep
      simp only
      rw [hu, hv]
    obtain ⟨a, b, c, d, h, hab, hcd, k1, k2, k3, k4, k5, k6, k7, k8, k9⟩ := ih u0 u1 v0 v1 (by linarith) (by linarith)
    refine ⟨a, b, c, d, by rw [List.foldl_cons, hstep, h], hab, hcd, by linarith, by linarith, by linarith, by linarith, ?_, ?_, ?_, ?_, ?_⟩
    · intro q hq
      rcases List.mem_cons.1 hq with h | h
      · rw [h]; exact ⟨by linarith, by linarith, by linarith, by linarith⟩
      · exact k5 q h
    · rcases k6 with h | ⟨q, hq, h⟩
      · rcases hu4.1 with g | g
        · exact Or.inl (h.trans g)
        · exact Or.inr ⟨p, List.mem_cons_self, by rw [h, g]⟩
      · exact Or.inr ⟨q, List.mem_cons_of_mem _ hq, h⟩
    · rcases k7 with h | ⟨q, hq, h⟩
      · rcases hu4.2 with g | g
        · exact Or.inl (h.trans g)
        · exact Or.inr ⟨p, List.mem_cons_self, by rw [h, g]⟩
      · exact Or.inr ⟨q, List.mem_cons_of_mem _ hq, h⟩
    · rcases k8 with h | ⟨q, hq, h⟩
      · rcases hv4.1 with g | g
        · exact Or.inl (h.trans g)
        · exact Or.inr ⟨p, List.mem_cons_self, by rw [h, g]⟩
      · exact Or.inr ⟨q, List.mem_cons_of_mem _ hq, h⟩
    · rcases k9 with h | ⟨q, hq, h⟩
      · rcases hv4.2 with g | g
        · exact Or.inl (h.trans g)
        · exact Or.inr ⟨p, List.mem_cons_self, by rw [h, g]⟩
      · exact Or.inr ⟨q, List.mem_cons_of_mem _ hq, h⟩

/-- `XYExtent` gives the smallest and the largest coordinates of the corners. -/
theorem xyExtent_spec (ps : List Pt) (h : ps ≠ []) : ∃ a b c d, Polygon.xyExtent ps = .ok (a, b, c, d) ∧
    (∀ p ∈ ps, a ≤ p.x ∧ p.x ≤ b ∧ c ≤ p.y ∧ p.y ≤ d) ∧
    (∃ p ∈ ps, p.x = a) ∧ (∃ p ∈ ps, p.x = b) ∧ (∃ p ∈ ps, p.y = c) ∧ ∃ p ∈ ps, p.y = d := by
  match ps, h with
  | p :: ps, _ =>
    obtain ⟨a, b, c, d, h, -, -, k1, k2, k3, k4, k5, k6, k7, k8, k9⟩ := extent_foldl ps p.x p.x p.y p.y le_rfl le_rfl
    refine ⟨a, b, c, d, congrArg Res.ok h, ?_, ?_, ?_, ?_, ?_⟩
    · intro q hq
      rcases List.mem_cons.1 hq with h | h
      · rw [h]; exact ⟨k1, k2, k3, k4⟩
      · exact k5 q h
    · rcases k6 with h | ⟨q, hq, h⟩
      · exact ⟨p, List.mem_cons_self, h.symm⟩
      · exact ⟨q, List.mem_cons_of_mem _ hq, h⟩
    · rcases k7 with h | ⟨q, hq, h⟩
      · exact ⟨p, List.mem_cons_self, h.symm⟩
      · exact ⟨q, List.mem_cons_of_mem _ hq, h⟩
    · rcases k8 with h | ⟨q, hq, h⟩
      · exact ⟨p, List.mem_cons_self, h.symm⟩
      · exact ⟨q, List.mem_cons_of_mem _ hq, h⟩
    · rcases k9 with h | ⟨q, hq, h⟩
      · exact ⟨p, List.mem_cons_self, h.symm⟩
      · exact ⟨q, List.mem_cons_of_mem _ hq, h⟩

/-- No answer for a polygon without corners. -/
theorem polygon_empty : (∃ m, Polygon.xyExtent [] = .ub m) ∧ (∃ m, Polygon.isCounterclockwise [] = .ub m) ∧ (∃ m, Polygon.isConvex [] = .ub m) ∧
    ∃ m, Polygon.getCircumferenceXY [] = .ub m :=
  ⟨⟨_, rfl⟩, ⟨_, if_pos rfl⟩, ⟨"read out of range", by unfold Polygon.isConvex Polygon.isCounterclockwise; rw [if_pos rfl]; rfl⟩,
    ⟨_, if_pos (by simp)⟩⟩

/-! ## Orientation -/

theorem doubleArea_eq (p : Pt) (ps : List Pt) (s : ℝ) :
    Polygon.doubleArea (p :: ps) s = s + ((edgesFrom p ps).map fun e => e.1.x * e.2.y - e.1.y * e.2.x).sum := by
  induction ps generalizing p s with
  | nil => simp [Polygon.doubleArea, edgesFrom]
  | cons q ps ih =>
    rw [show edgesFrom p (q :: ps) = (p, q) :: edgesFrom q ps from rfl, List.map_cons, List.sum_cons]
    unfold Polygon.doubleArea
    rw [ih]
    ring

/-- `IsCounterclockwise` tells the sign of the area, if the last corner is the first one again, or if the line through the first and
the last corner goes through the origin. -/
theorem isCounterclockwise_partial (p : Pt) (ps : List Pt) (h : ((p :: ps).getLast (by simp)).x * p.y = ((p :: ps).getLast (by simp)).y * p.x) :
    Polygon.isCounterclockwise (p :: ps) = .ok (decide (0 ≤ twiceArea (p :: ps))) := by
  unfold Polygon.isCounterclockwise
  rw [if_neg (by simp), doubleArea_eq]
  unfold twiceArea edges
  rw [dif_neg (by simp)]
  rw [show edgesFrom ((p :: ps).getLast (by simp)) (p :: ps) = ((p :: ps).getLast (by simp), p) :: edgesFrom p ps from rfl, List.map_cons, List.sum_cons]
  simp only
  rw [h, sub_self]

/-- Otherwise it may be wrong: the edge from the last corner to the first is left out. The corners (-2, 0), (-1, 0), (-2, 1) are given
counterclockwise, and the answer is no. -/
theorem isCounterclockwise_violation :
    0 < twiceArea [⟨-2, 0, 0⟩, ⟨-1, 0, 0⟩, ⟨-2, 1, 0⟩] ∧ Polygon.isCounterclockwise [⟨-2, 0, 0⟩, ⟨-1, 0, 0⟩, ⟨-2, 1, 0⟩] = .ok false := by
  constructor
  · norm_num [twiceArea, edges_cons, edgesFrom]
  · norm_num [ccw_cons, Polygon.doubleArea]

/-! ## Convexity -/

theorem turn_eq (p q r : Pt) : Polygon.turn p q r = side p q (r.x, r.y) := by
  unfold Polygon.turn side
  simp only [Pt.sub_x, Pt.sub_y]
  ring

theorem turnsLoop_convex {ps : List Pt} (h : StrictlyConvex ps) (p : Pt) (l : List Pt) (hl : ∀ v ∈ l, v ∈ ps) (he : ∀ e ∈ edgesFrom p l, e ∈ edges ps) :
    Polygon.turnsLoop 1 (p :: l) = true := by
  induction l generalizing p with
  | nil => rfl
  | cons q l ih =>
    match l, ih, hl, he with
    | [], _, _, _ => rfl
    | r :: l, ih, hl, he =>
      unfold Polygon.turnsLoop
      have := convex_side h (he (p, q) List.mem_cons_self) (hl r (by simp))
      simp only at this
      rw [turn_eq, mul_one, if_neg (by norm_num; exact this)]
      exact ih q (fun v hv => hl v (List.mem_cons_of_mem _ hv)) (fun e hm => he e (List.mem_cons_of_mem _ hm))

theorem edgesFrom_last2 (p : Pt) (l : List Pt) (q r : Pt) : (q, r) ∈ edgesFrom p (l ++ [q, r]) := by
  induction l generalizing p with
  | nil => simp [edgesFrom]
  | cons s l ih => exact List.mem_cons_of_mem _ (ih s)

/-- `IsConvex` accepts the strictly convex polygons that `IsCounterclockwise` accepts. -/
theorem isConvex_partial {ps : List Pt} (h : StrictlyConvex ps) (hc : Polygon.isCounterclockwise ps = .ok true) : Polygon.isConvex ps = .ok true := by
  obtain ⟨hlen, -, -⟩ := id h
  unfold Polygon.isConvex
  rw [hc]
  simp only [Res.monad_bind_eq, Res.bind_ok]
  rw [if_pos trivial, if_neg (by omega)]
  match ps, h, hlen with
  | p :: q :: rest, h, hlen =>
    have hrest : rest ≠ [] := by rintro rfl; simp at hlen
    obtain ⟨l, a, b, hl⟩ : ∃ l a b, p :: q :: rest = l ++ [a, b] := by
      refine ⟨(p :: q :: rest).dropLast.dropLast, (p :: q :: rest).dropLast.getLast (by simp), (p :: q :: rest).getLast (by simp), ?_⟩
      rw [show ∀ x y : Pt, [x, y] = [x] ++ [y] from fun _ _ => rfl, ← List.append_assoc, List.dropLast_append_getLast, List.dropLast_append_getLast]
    have hE : edges (p :: q :: rest) = edgesFrom b (p :: q :: rest) := by
      unfold edges
      rw [dif_neg (by simp)]
      congr 1
      simp only [hl]
      simp
    have e1 : (b, p) ∈ edges (p :: q :: rest) := by rw [hE]; exact List.mem_cons_self
    have e2 : (a, b) ∈ edges (p :: q :: rest) := by rw [hE, hl]; exact edgesFrom_last2 b l a b
    have t1 := turnsLoop_convex h p (q :: rest) (fun v hv => List.mem_cons_of_mem _ hv) (fun e he => by
      rw [hE]; exact List.mem_cons_of_mem _ he)
    rw [if_neg (by rw [t1]; simp)]
    have r1 : rd (p :: q :: rest) ((p :: q :: rest).length - 2) = .ok a := by
      unfold rd
      rw [hl]
      simp
    have r2 : rd (p :: q :: rest) ((p :: q :: rest).length - 1) = .ok b := by
      unfold rd
      rw [hl]
      simp
    rw [r1, r2]
    have s1 := convex_side h e2 (show p ∈ p :: q :: rest by simp)
    have s2 := convex_side h e1 (show q ∈ p :: q :: rest by simp)
    simp only at s1 s2
    show (if Polygon.turn a b p * 1 < 0.0 then Res.ok false else if Polygon.turn b p q * 1 < 0.0 then Res.ok false else Res.ok true) = _
    rw [turn_eq, turn_eq, mul_one, mul_one, if_neg (by norm_num; exact s1), if_neg (by norm_num; exact s2)]

/-- `IsConvex` is wrong both ways. It rejects a triangle, and accepts a five-pointed star, which has corners on both sides of an edge. -/
theorem isConvex_violation :
    (StrictlyConvex [⟨-2, 0, 0⟩, ⟨-1, 0, 0⟩, ⟨-2, 1, 0⟩] ∧ Polygon.isConvex [⟨-2, 0, 0⟩, ⟨-1, 0, 0⟩, ⟨-2, 1, 0⟩] = .ok false) ∧
    (Polygon.isConvex [⟨0, 3, 0⟩, ⟨-2, -2, 0⟩, ⟨3, 1, 0⟩, ⟨-3, 1, 0⟩, ⟨2, -2, 0⟩] = .ok true ∧
      side ⟨0, 3, 0⟩ ⟨-2, -2, 0⟩ (-3, 1) < 0 ∧ 0 < side ⟨0, 3, 0⟩ ⟨-2, -2, 0⟩ (3, 1)) := by
  refine ⟨⟨⟨by simp, ?_, ?_⟩, ?_⟩, ?_, ?_, ?_⟩
  · norm_num
  · intro e he v hv h1 h2
    rw [edges_cons] at he
    simp only [edgesFrom, List.getLast_cons_cons, List.getLast_singleton, List.mem_cons, List.not_mem_nil, or_false] at he hv
    rcases he with h | h | h <;> rcases hv with g | g | g <;> subst h <;> subst g <;> first | (exfalso; exact h1 rfl) | (exfalso; exact h2 rfl) | norm_num [side]
  · norm_num [Polygon.isConvex, ccw_cons, Polygon.doubleArea, Polygon.turnsLoop, Polygon.turn]
  · norm_num [Polygon.isConvex, ccw_cons, Polygon.doubleArea, Polygon.turnsLoop, Polygon.turn, rd]
  · norm_num [side]
  · norm_num [side]

end Verif.Geo
