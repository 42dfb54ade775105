import Verif.Model.EclipseGeometry
import Verif.Lemmas.Outcome
import Verif.Lemmas.Geometry
import Mathlib.Tactic.Linarith
import Mathlib.Tactic.LinearCombination
import Mathlib.Tactic.Positivity
import Mathlib.Tactic.FieldSimp

/-!
# C148: local coordinates in a column, and the search for a layer
-/

namespace Verif

open Geo

/-- The point at local coordinates of a quadrilateral, by the shares of its corners. -/
def Spec.quadX (p00 p10 p01 p11 : Pt) (u v : ℝ) : ℝ :=
  (1 - u) * (1 - v) * p00.x + u * (1 - v) * p10.x + (1 - u) * v * p01.x + u * v * p11.x

/-- The same for `y`. -/
def Spec.quadY (p00 p10 p01 p11 : Pt) (u v : ℝ) : ℝ :=
  (1 - u) * (1 - v) * p00.y + u * (1 - v) * p10.y + (1 - u) * v * p01.y + u * v * p11.y

/-- Twice the signed area of a triangle. -/
def Spec.area2 (a b c : Pt) : ℝ := (b.x - a.x) * (c.y - a.y) - (b.y - a.y) * (c.x - a.x)

/-- The four corners of a quadrilateral, in the order of the turn `p00`, `p10`, `p11`, `p01`, are strictly convex: all turns are in
the same sense `s`. -/
structure Spec.Convex4 (s : ℝ) (p00 p10 p01 p11 : Pt) : Prop where
  h00 : 0 < s * Spec.area2 p00 p10 p01
  h10 : 0 < s * Spec.area2 p10 p11 p00
  h11 : 0 < s * Spec.area2 p11 p01 p10
  h01 : 0 < s * Spec.area2 p01 p00 p11

namespace EclipseGeometry

/-- The Jacobian of the point at local coordinates, by the areas at the corners. -/
theorem jac_pos {s : ℝ} {p00 p10 p01 p11 : Pt} (h : Spec.Convex4 s p00 p10 p01 p11) {u v : ℝ} (u0 : 0 ≤ u) (u1 : u ≤ 1) (v0 : 0 ≤ v)
    (v1 : v ≤ 1) :
    0 < s * (((p00.x + p11.x - p10.x - p01.x) * v + (p10.x - p00.x)) * ((p00.y + p11.y - p10.y - p01.y) * u + (p01.y - p00.y)) -
      ((p00.y + p11.y - p10.y - p01.y) * v + (p10.y - p00.y)) * ((p00.x + p11.x - p10.x - p01.x) * u + (p01.x - p00.x))) := by
  have e : s * (((p00.x + p11.x - p10.x - p01.x) * v + (p10.x - p00.x)) * ((p00.y + p11.y - p10.y - p01.y) * u + (p01.y - p00.y)) -
      ((p00.y + p11.y - p10.y - p01.y) * v + (p10.y - p00.y)) * ((p00.x + p11.x - p10.x - p01.x) * u + (p01.x - p00.x))) =
      (1 - u) * (1 - v) * (s * Spec.area2 p00 p10 p01) + u * (1 - v) * (s * Spec.area2 p10 p11 p00) +
        u * v * (s * Spec.area2 p11 p01 p10) + (1 - u) * v * (s * Spec.area2 p01 p00 p11) := by
    unfold Spec.area2
    ring
  rw [e]
  have a1 : 0 ≤ (1 - u) * (1 - v) * (s * Spec.area2 p00 p10 p01) :=
    mul_nonneg (mul_nonneg (by linarith) (by linarith)) h.h00.le
  have a2 : 0 ≤ u * (1 - v) * (s * Spec.area2 p10 p11 p00) := mul_nonneg (mul_nonneg u0 (by linarith)) h.h10.le
  have a3 : 0 ≤ u * v * (s * Spec.area2 p11 p01 p10) := mul_nonneg (mul_nonneg u0 v0) h.h11.le
  have a4 : 0 ≤ (1 - u) * v * (s * Spec.area2 p01 p00 p11) := mul_nonneg (mul_nonneg (by linarith) v0) h.h01.le
  rcases le_or_gt u (1 / 2) with hu | hu <;> rcases le_or_gt v (1 / 2) with hv | hv
  · have : 0 < (1 - u) * (1 - v) * (s * Spec.area2 p00 p10 p01) := mul_pos (mul_pos (by linarith) (by linarith)) h.h00
    linarith
  · have : 0 < (1 - u) * v * (s * Spec.area2 p01 p00 p11) := mul_pos (mul_pos (by linarith) (by linarith)) h.h01
    linarith
  · have : 0 < u * (1 - v) * (s * Spec.area2 p10 p11 p00) := mul_pos (mul_pos (by linarith) (by linarith)) h.h10
    linarith
  · have : 0 < u * v * (s * Spec.area2 p11 p01 p10) := mul_pos (mul_pos (by linarith) (by linarith)) h.h11
    linarith

/-- The root that is taken of a quadratic equation with one root in the unit interval. -/
theorem uvRoot_eq {A B C v0 : ℝ} (h0 : 0 ≤ v0) (h1 : v0 ≤ 1) (hr : A * v0 ^ 2 + B * v0 + C = 0)
    (hu : ∀ v, 0 ≤ v → v ≤ 1 → A * (v + v0) + B ≠ 0) : uvRoot A B C = .ok v0 := by
  unfold uvRoot
  have hd : B * B - 4 * A * C = (2 * A * v0 + B) ^ 2 := by linear_combination (-4 * A) * hr
  by_cases hA : A = 0
  · subst hA
    rw [if_neg (by simp)]
    have hB : B ≠ 0 := by simpa using hu 0 (le_refl _) (by norm_num)
    rw [if_pos hB, fdiv_ok hB]
    congr 1
    rw [div_eq_iff hB]
    linear_combination -hr
  · rw [if_pos hA]
    have hs : fsqrt (B * B - 4 * A * C) = .ok |2 * A * v0 + B| := by
      unfold fsqrt
      rw [hd, if_neg (not_lt.2 (sq_nonneg _)), Real.sqrt_sq_eq_abs]
    have h2A : 2 * A ≠ 0 := mul_ne_zero two_ne_zero hA
    -- The other root.
    set w := (-B - A * v0) / A with hw
    have hAw : A * w = -B - A * v0 := by rw [hw]; field_simp
    have out : w < 0 ∨ w > 1 := by
      by_contra hc
      push Not at hc
      exact hu w hc.1 hc.2 (by linear_combination hAw)
    rw [hs, Res.monad_bind_eq, Res.bind_ok]
    rcases abs_choice (2 * A * v0 + B) with ha | ha
    · have e : (-B + |2 * A * v0 + B|) / (2 * A) = v0 := by rw [ha]; field_simp; ring
      rw [fdiv_ok h2A, Res.monad_bind_eq, Res.bind_ok, e, if_neg (by push Not; exact ⟨h0, h1⟩)]
    · have e : (-B + |2 * A * v0 + B|) / (2 * A) = w := by
        rw [ha, div_eq_iff h2A]
        linear_combination -2 * hAw
      have e' : (-B - |2 * A * v0 + B|) / (2 * A) = v0 := by rw [ha]; field_simp; ring
      rw [fdiv_ok h2A, Res.monad_bind_eq, Res.bind_ok, e, if_pos out, fdiv_ok h2A, e']

end EclipseGeometry

open EclipseGeometry in
/-- **C148 (local coordinates).** In a strictly convex quadrilateral, turned in either sense, the local coordinates of the point at
`(u, v)` are `(u, v)`, provided that the line of constant `v` through the point is not parallel to the `y` axis, or both lines of
constant `v` at the ends are. -/
theorem eclipse_local_coordinates {s : ℝ} {p00 p10 p01 p11 : Pt} (h : Spec.Convex4 s p00 p10 p01 p11) {u v : ℝ} (u0 : 0 ≤ u) (u1 : u ≤ 1)
    (v0 : 0 ≤ v) (v1 : v ≤ 1)
    (hx : (1 - v) * (p10.x - p00.x) + v * (p11.x - p01.x) ≠ 0 ∨ (p10.x = p00.x ∧ p11.x = p01.x)) :
    uvOf p00 p10 p01 p11 (Spec.quadX p00 p10 p01 p11 u v) (Spec.quadY p00 p10 p01 p11 u v) = .ok (u, v) := by
  unfold uvOf
  have J := fun w (hw0 : 0 ≤ w) (hw1 : w ≤ 1) => jac_pos h u0 u1 hw0 hw1
  have J2 := fun w (hw0 : 0 ≤ w) (hw1 : w ≤ 1) => jac_pos h hw0 hw1 v0 v1
  simp only
  set ax := p00.x + p11.x - p10.x - p01.x with hax
  set ay := p00.y + p11.y - p10.y - p01.y with hay
  set bx := p10.x - p00.x with hbx
  set b := p10.y - p00.y with hb
  set cx := p01.x - p00.x with hcx
  set cy := p01.y - p00.y with hcy
  have eX : Spec.quadX p00 p10 p01 p11 u v = ax * u * v + bx * u + cx * v + p00.x := by
    unfold Spec.quadX; rw [hax, hbx, hcx]; ring
  have eY : Spec.quadY p00 p10 p01 p11 u v = ay * u * v + b * u + cy * v + p00.y := by
    unfold Spec.quadY; rw [hay, hb, hcy]; ring
  have jx : ∀ w, 0 ≤ w → w ≤ 1 → (ax * w + bx) * (ay * u + cy) - (ay * w + b) * (ax * u + cx) ≠ 0 := fun w hw0 hw1 hz => by
    have := J w hw0 hw1
    rw [hz, mul_zero] at this
    exact lt_irrefl _ this
  rw [eX, eY]
  by_cases hflat : ax = 0 ∧ bx = 0
  · rw [if_pos hflat]
    obtain ⟨hA, hB⟩ := hflat
    have hj := jx v v0 v1
    rw [hA, hB] at hj
    have hc : cx ≠ 0 := fun hz => hj (by rw [hz]; ring)
    have hd : ay * v + b ≠ 0 := fun hz => hj (by rw [hz]; ring)
    unfold uvFlat
    rw [if_pos hc, fdiv_ok hc, Res.monad_bind_eq, Res.bind_ok, hA, hB]
    have e1 : (0 * u * v + 0 * u + cx * v + p00.x - p00.x) / cx = v := by field_simp; ring
    rw [e1, if_pos (by
      by_contra hn
      push Not at hn
      exact hd (by rw [hn.1, hn.2]; ring)), if_pos hd, fdiv_ok hd, Res.monad_bind_eq, Res.bind_ok]
    have e2 : (ay * u * v + b * u + cy * v + p00.y - cy * v - p00.y) / (ay * v + b) = u := by
      rw [div_eq_iff hd]; ring
    rw [e2]
  · rw [if_neg hflat]
    have hr : uvRoot (ax * cy - ay * cx)
        (p00.y * ax + bx * cy + (ax * u * v + bx * u + cx * v + p00.x) * ay - p00.x * ay - b * cx - ax * (ay * u * v + b * u + cy * v + p00.y))
        (p00.y * bx + (ax * u * v + bx * u + cx * v + p00.x) * b - b * p00.x - (ay * u * v + b * u + cy * v + p00.y) * bx) = .ok v := by
      refine uvRoot_eq v0 v1 (by ring) (fun w hw0 hw1 hz => jx w hw0 hw1 ?_)
      linear_combination hz
    rw [hr, Res.monad_bind_eq, Res.bind_ok]
    have hn : ax * v + bx ≠ 0 := by
      rcases hx with hx | ⟨h1, h2⟩
      · intro hz
        apply hx
        rw [← hz, hax, hbx]; ring
      · exact absurd ⟨by rw [hax, h1, h2]; ring, by rw [hbx, h1]; ring⟩ hflat
    rw [if_pos hn, fdiv_ok hn, Res.monad_bind_eq, Res.bind_ok]
    have e : (ax * u * v + bx * u + cx * v + p00.x - cx * v - p00.x) / (ax * v + bx) = u := by
      rw [div_eq_iff hn]; ring
    rw [e]

open EclipseGeometry in
/-- A quadrilateral that meets the hypotheses and is no parallelogram, in both senses, and its middle. -/
theorem eclipse_local_example :
    Spec.Convex4 1 ⟨0, 0, 0⟩ ⟨2, 1, 0⟩ ⟨0, 3, 0⟩ ⟨3, 3, 0⟩ ∧ Spec.Convex4 (-1) ⟨0, 0, 0⟩ ⟨0, 3, 0⟩ ⟨2, 1, 0⟩ ⟨3, 3, 0⟩ ∧
    uvOf ⟨0, 0, 0⟩ ⟨2, 1, 0⟩ ⟨0, 3, 0⟩ ⟨3, 3, 0⟩ (5 / 4) (7 / 4) = .ok (1 / 2, 1 / 2) := by
  have h : Spec.Convex4 1 ⟨0, 0, 0⟩ ⟨2, 1, 0⟩ ⟨0, 3, 0⟩ ⟨3, 3, 0⟩ := by constructor <;> norm_num [Spec.area2]
  refine ⟨h, by constructor <;> norm_num [Spec.area2], ?_⟩
  have := eclipse_local_coordinates h (u := 1 / 2) (v := 1 / 2) (by norm_num) (by norm_num) (by norm_num) (by norm_num)
    (.inl (by norm_num))
  have eX : Spec.quadX ⟨0, 0, 0⟩ ⟨2, 1, 0⟩ ⟨0, 3, 0⟩ ⟨3, 3, 0⟩ (1 / 2) (1 / 2) = 5 / 4 := by norm_num [Spec.quadX]
  have eY : Spec.quadY ⟨0, 0, 0⟩ ⟨2, 1, 0⟩ ⟨0, 3, 0⟩ ⟨3, 3, 0⟩ (1 / 2) (1 / 2) = 7 / 4 := by norm_num [Spec.quadY]
  rwa [eX, eY] at this

open EclipseGeometry in
/-- **C148 (violation, a side along the `y` axis).** In this strictly convex quadrilateral the first side is parallel to the `y` axis
and the opposite one is not: every point of the side gets `u = 0`. -/
theorem eclipse_local_violation {u : ℝ} (u0 : 0 ≤ u) (u1 : u ≤ 1) :
    Spec.Convex4 (-1) ⟨0, 0, 0⟩ ⟨0, 1, 0⟩ ⟨1, 0, 0⟩ ⟨2, 1, 0⟩ ∧
    Spec.quadX ⟨0, 0, 0⟩ ⟨0, 1, 0⟩ ⟨1, 0, 0⟩ ⟨2, 1, 0⟩ u 0 = 0 ∧ Spec.quadY ⟨0, 0, 0⟩ ⟨0, 1, 0⟩ ⟨1, 0, 0⟩ ⟨2, 1, 0⟩ u 0 = u ∧
    uvOf ⟨0, 0, 0⟩ ⟨0, 1, 0⟩ ⟨1, 0, 0⟩ ⟨2, 1, 0⟩ 0 u = .ok (0, 0) := by
  refine ⟨by constructor <;> norm_num [Spec.area2], by norm_num [Spec.quadX], by norm_num [Spec.quadY], ?_⟩
  unfold uvOf
  simp only
  rw [if_neg (by norm_num)]
  have hb : (0 : ℝ) * (0 + 2 - 0 - 1) + (0 - 0) * (0 - 0) + 0 * (0 + 1 - 1 - 0) - 0 * (0 + 1 - 1 - 0) - (1 - 0) * (1 - 0) -
      (0 + 2 - 0 - 1) * u = -1 - u := by ring
  have hc : (0 : ℝ) * (0 - 0) + 0 * (1 - 0) - (1 - 0) * 0 - u * (0 - 0) = 0 := by ring
  have ha : ((0 : ℝ) + 2 - 0 - 1) * (0 - 0) - (0 + 1 - 1 - 0) * (1 - 0) = 0 := by ring
  have hr : uvRoot 0 (-1 - u) 0 = .ok 0 := uvRoot_eq (le_refl _) (by norm_num) (by ring) (fun v _ _ => by intro hz; linarith)
  rw [ha, hb, hc, hr, Res.monad_bind_eq, Res.bind_ok, if_neg (by norm_num)]

namespace EclipseGeometry

/-- The column is a stack of layers: every layer has a thickness, and none begins above the bottom of the one before. -/
structure _root_.Verif.Spec.Stack (T B : ℕ → ℝ) : Prop where
  thick : ∀ k, T k < B k
  order : ∀ k, B k ≤ T (k + 1)

theorem stack_lt {T B : ℕ → ℝ} (h : Spec.Stack T B) {k m : ℕ} (hk : k < m) : B k ≤ T m := by
  induction m with
  | zero => omega
  | succ m ih =>
    rcases Nat.lt_succ_iff_lt_or_eq.1 hk with h' | rfl
    · exact (ih h').trans ((h.thick m).le.trans (h.order m))
    · exact h.order k

theorem searchLayer_spec {T B : ℕ → ℝ} (h : Spec.Stack T B) {z : ℝ} : ∀ {top bot : ℕ}, top < bot → (top = 0 ∨ T top < z) → z < B bot →
    (∃ k, searchLayer T B z top bot = .ok (.inr k) ∧ T k ≤ z ∧ z < B k ∧ k ≤ bot) ∨
    (∃ t, searchLayer T B z top bot = .ok (.inl (t, t + 1)) ∧ (t = 0 ∨ T t < z) ∧ z < B (t + 1) ∧ t + 1 ≤ bot) := by
  intro top bot
  induction hn : bot - top using Nat.strong_induction_on generalizing top bot with
  | _ n ih =>
    intro hlt ht hb
    unfold searchLayer
    rw [if_neg (by omega)]
    by_cases hc : top < bot - 1
    · rw [dif_pos hc]
      simp only
      have m1 : top < (top + bot) / 2 := by omega
      have m2 : (top + bot) / 2 < bot := by omega
      by_cases hB : z < B ((top + bot) / 2)
      · rw [if_pos hB]
        rcases ih ((top + bot) / 2 - top) (by omega) rfl m1 ht hB with ⟨k, h1, h2, h3, h4⟩ | ⟨t, h1, h2, h3, h4⟩
        · exact .inl ⟨k, h1, h2, h3, by omega⟩
        · exact .inr ⟨t, h1, h2, h3, by omega⟩
      · rw [if_neg hB]
        have hT : z > T ((top + bot) / 2) := lt_of_lt_of_le (h.thick _) (not_lt.1 hB)
        rw [if_pos hT]
        exact ih (bot - (top + bot) / 2) (by omega) rfl m2 (.inr hT) hb
    · rw [dif_neg hc]
      have : bot = top + 1 := by omega
      subst this
      exact .inr ⟨top, rfl, ht, hb, le_refl _⟩

end EclipseGeometry

open EclipseGeometry in
/-- **C148 (layers).** In a column of at least two layers, each with a thickness and none overlapping, the search finds a layer if and
only if the depth is in it, its top included and its bottom excluded. -/
theorem eclipse_find_layer {T B : ℕ → ℝ} (h : Spec.Stack T B) {n : ℕ} (hn : 2 ≤ n) (z : ℝ) :
    ∃ r, findLayer T B n z = .ok r ∧ ∀ k, r = some k ↔ k < n ∧ T k ≤ z ∧ z < B k := by
  have uniq : ∀ k m, T k ≤ z → z < B k → T m ≤ z → z < B m → k = m := by
    intro k m k1 k2 m1 m2
    rcases lt_trichotomy k m with hl | he | hg
    · have := stack_lt h hl; linarith
    · exact he
    · have := stack_lt h hg; linarith
  have found : ∀ k, k < n → T k ≤ z → z < B k → ∀ m, some k = some m ↔ m < n ∧ T m ≤ z ∧ z < B m := by
    intro k k0 k1 k2 m
    constructor
    · intro e; injection e with e; subst e; exact ⟨k0, k1, k2⟩
    · rintro ⟨-, m1, m2⟩; rw [uniq k m k1 k2 m1 m2]
  have B_mono : ∀ {k m}, k ≤ m → B k ≤ B m := by
    intro k m hkm
    rcases Nat.eq_or_lt_of_le hkm with rfl | hl
    · exact le_refl _
    · exact (stack_lt h hl).trans (h.thick m).le
  have T_mono : ∀ {k m}, k ≤ m → T k ≤ T m := by
    intro k m hkm
    rcases Nat.eq_or_lt_of_le hkm with rfl | hl
    · exact le_refl _
    · exact (h.thick k).le.trans (stack_lt h hl)
  unfold findLayer
  rw [if_neg (by omega)]
  by_cases h0 : z < T 0 ∨ ¬ z < B (n - 1)
  · rw [if_pos h0]
    refine ⟨none, rfl, fun k => ⟨fun e => (by cases e), ?_⟩⟩
    rintro ⟨hk, k1, k2⟩
    rcases h0 with h0 | h0
    · have := T_mono (Nat.zero_le k); linarith
    · exact absurd (k2.trans_le (B_mono (by omega))) h0
  · rw [if_neg h0]
    push Not at h0
    rcases searchLayer_spec h (top := 0) (bot := n - 1) (by omega) (.inl rfl) h0.2 with ⟨k, e, k1, k2, k3⟩ | ⟨t, e, t1, t2, t3⟩
    · rw [e, Res.monad_bind_eq, Res.bind_ok]
      exact ⟨some k, rfl, found k (by omega) k1 k2⟩
    · rw [e, Res.monad_bind_eq, Res.bind_ok]
      simp only
      have tT : T t ≤ z := by
        rcases t1 with rfl | h1
        · exact h0.1
        · exact h1.le
      by_cases hB : z < B t
      · rw [if_pos (by rw [decide_eq_false (not_lt.2 tT), decide_eq_true hB]; simp)]
        exact ⟨some t, rfl, found t (by omega) tT hB⟩
      · rw [if_neg (by rw [decide_eq_false (not_lt.2 tT), decide_eq_false hB]; simp)]
        by_cases hT : T (t + 1) ≤ z
        · rw [if_pos (by rw [decide_eq_false (not_lt.2 hT), decide_eq_true t2]; simp)]
          exact ⟨some (t + 1), rfl, found (t + 1) (by omega) hT t2⟩
        · rw [if_neg (by rw [decide_eq_true (not_le.1 hT), decide_eq_true t2]; simp)]
          refine ⟨none, rfl, fun k => ⟨fun e => (by cases e), ?_⟩⟩
          rintro ⟨hk, k1, k2⟩
          rcases Nat.lt_or_ge t k with hl | hl
          · have := T_mono (show t + 1 ≤ k from hl); linarith
          · have := B_mono hl; linarith

/-- A stack with a gap: layers of thickness 1 at even depths. -/
theorem eclipse_stack_example : Spec.Stack (fun k => 2 * (k : ℝ)) (fun k => 2 * (k : ℝ) + 1) :=
  ⟨fun k => by simp, fun k => by push_cast; linarith⟩

open EclipseGeometry in
/-- **C148 (violation, one layer).** In a grid of one layer the search for a point above the bottom of the layer, or below the top,
and so for every point inside of it, does not end. -/
theorem eclipse_one_layer_violation {T B : ℕ → ℝ} {z : ℝ} (h1 : T 0 ≤ z) (h2 : z < B 0) : findLayer T B 1 z = .diverges := by
  unfold findLayer
  rw [if_neg (by decide), if_neg (by push Not; exact ⟨h1, h2⟩)]
  unfold searchLayer
  rw [if_pos rfl, if_pos (.inl h2)]
  rfl

open EclipseGeometry in
/-- **C148 (violation, a layer without a thickness).** The layers are from 0 to 1, from 1 to 1, and from 1 to 2. At depth 1, the top of
the last one, the layer without a thickness is found. -/
theorem eclipse_thin_layer_violation :
    findLayer (fun k => if k = 0 then 0 else 1) (fun k => if k = 2 then 2 else 1) 3 1 = .ok (some 1) := by
  unfold findLayer
  rw [if_neg (by decide), if_neg (by norm_num)]
  unfold searchLayer
  rw [if_neg (by decide), dif_pos (by decide)]
  simp only [show (0 + (3 - 1)) / 2 = 1 from rfl, one_ne_zero, if_false]
  norm_num

end Verif
