import Verif.Props.PolygonLength
import Mathlib.Analysis.LocallyConvex.Separation
import Mathlib.Analysis.Convex.Topology

/-!
# `TangentPointPoly`
-/

namespace Verif.Geo

open Classical

/-- The direction from `p` to `v`, as a slope in the coordinates given by `w` and its normal. -/
noncomputable def slope (w : ℝ × ℝ) (p v : Pt) : ℝ := (w.1 * (v.y - p.y) - w.2 * (v.x - p.x)) / (w.1 * (v.x - p.x) + w.2 * (v.y - p.y))

theorem left_pos {w : ℝ × ℝ} {p a b : Pt} (ha : 0 < w.1 * (a.x - p.x) + w.2 * (a.y - p.y)) (hb : 0 < w.1 * (b.x - p.x) + w.2 * (b.y - p.y)) :
    0 < p.leftFromLineXY a b ↔ slope w p a < slope w p b := by
  have hw : 0 < w.1 ^ 2 + w.2 ^ 2 := by
    by_contra hc
    have h1 : w.1 = 0 := by nlinarith [sq_nonneg w.1, sq_nonneg w.2]
    have h2 : w.2 = 0 := by nlinarith [sq_nonneg w.1, sq_nonneg w.2]
    rw [h1, h2] at ha
    linarith
  have e : (w.1 ^ 2 + w.2 ^ 2) * p.leftFromLineXY a b =
      (w.1 * (b.y - p.y) - w.2 * (b.x - p.x)) * (w.1 * (a.x - p.x) + w.2 * (a.y - p.y)) -
      (w.1 * (a.y - p.y) - w.2 * (a.x - p.x)) * (w.1 * (b.x - p.x) + w.2 * (b.y - p.y)) := by
    unfold Pt.leftFromLineXY
    ring
  unfold slope
  rw [div_lt_div_iff₀ ha hb, ← sub_pos (a := _ * _), ← e]
  constructor
  · exact fun h => mul_pos hw h
  · exact fun h => (mul_pos_iff_of_pos_left hw).1 h

theorem left_swap (p a b : Pt) : p.leftFromLineXY b a = -p.leftFromLineXY a b := by unfold Pt.leftFromLineXY; ring

theorem left_nonneg {w : ℝ × ℝ} {p a b : Pt} (ha : 0 < w.1 * (a.x - p.x) + w.2 * (a.y - p.y)) (hb : 0 < w.1 * (b.x - p.x) + w.2 * (b.y - p.y)) :
    0 ≤ p.leftFromLineXY a b ↔ slope w p a ≤ slope w p b := by
  have := left_pos hb ha
  rw [left_swap] at this
  rw [← not_lt, ← not_lt, ← this]
  constructor
  · intro h1 h2; exact h1 (by linarith)
  · intro h1 h2; exact h1 (by linarith)

/-- What holds before corner `i` is looked at: the slopes seen so far, and the corners found. -/
structure TanInv (ps : List Pt) (sl : ℕ → ℝ) (i : ℕ) (next : ℝ) (s : ℝ × ℕ × ℕ) : Prop where
  hr : s.2.1 < ps.length
  hl : s.2.2 < ps.length
  r0 : sl s.2.1 ≤ sl 0
  l0 : sl 0 ≤ sl s.2.2
  rmin : ∀ j < i, min (sl s.2.1) next ≤ sl j
  lmax : ∀ j < i, sl j ≤ max (sl s.2.2) next
  up : 0 < s.1 → (∀ j < i, sl s.2.1 ≤ sl j) ∧ sl s.2.1 ≤ next
  down : s.1 ≤ 0 → (∀ j < i, sl j ≤ sl s.2.2) ∧ next ≤ sl s.2.2

theorem tanStep_inv {ps : List Pt} {p : Pt} {w : ℝ × ℝ} (hw : ∀ v ∈ ps, 0 < w.1 * (v.x - p.x) + w.2 * (v.y - p.y)) {i : ℕ} (hi : i < ps.length)
    {vn : Pt} (hv : vn ∈ ps) {s : ℝ × ℕ × ℕ} (h : TanInv ps (fun j => slope w p (corner ps j)) i (slope w p (corner ps i)) s) :
    (Polygon.tanStep ps p i (corner ps i) vn s).Sat (TanInv ps (fun j => slope w p (corner ps j)) (i + 1) (slope w p vn)) := by
  have hmem : ∀ j < ps.length, corner ps j ∈ ps := by
    intro j hj
    unfold corner
    rw [List.getD_eq_getElem?_getD, List.getElem?_eq_getElem hj]
    exact List.getElem_mem hj
  set sl : ℕ → ℝ := fun j => slope w p (corner ps j) with hsl
  obtain ⟨hr, hl, r0, l0, rmin, lmax, up, down⟩ := h
  have hci := hw _ (hmem i hi)
  have en : 0 < p.leftFromLineXY (corner ps i) vn ↔ sl i < slope w p vn := left_pos hci (hw _ hv)
  have cr : 0 ≤ p.leftFromLineXY (corner ps i) (corner ps s.2.1) ↔ sl i ≤ sl s.2.1 := left_nonneg hci (hw _ (hmem _ hr))
  have cl : p.leftFromLineXY (corner ps i) (corner ps s.2.2) ≤ 0 ↔ sl s.2.2 ≤ sl i := by
    have := left_nonneg (hw _ (hmem _ hl)) hci
    rw [left_swap, neg_nonneg] at this
    exact this
  have lt1 : ∀ {P : ℕ → Prop}, (∀ j < i, P j) → P i → ∀ j < i + 1, P j := by
    intro P h1 h2 j hj
    rcases Nat.lt_succ_iff_lt_or_eq.1 hj with g | g
    · exact h1 j g
    · rw [g]; exact h2
  unfold Polygon.tanStep
  simp only
  rw [rd_corner hr, rd_corner hl]
  change ∀ j < i, min (sl s.2.1) (sl i) ≤ sl j at rmin
  change ∀ j < i, sl j ≤ max (sl s.2.2) (sl i) at lmax
  change 0 < s.1 → (∀ j < i, sl s.2.1 ≤ sl j) ∧ sl s.2.1 ≤ sl i at up
  change s.1 ≤ 0 → (∀ j < i, sl j ≤ sl s.2.2) ∧ sl i ≤ sl s.2.2 at down
  set nx := slope w p vn with hnx
  by_cases h1 : s.1 ≤ 0 ∧ p.leftFromLineXY (corner ps i) vn > 0
  · -- a corner that is further right than its neighbours
    rw [if_pos h1]
    have hlt := en.1 h1.2
    obtain ⟨d1, d2⟩ := down h1.1
    show Res.Sat (if p.leftFromLineXY (corner ps i) (corner ps s.2.1) ≥ 0 then Res.ok _ else Res.ok _) _
    by_cases h2 : p.leftFromLineXY (corner ps i) (corner ps s.2.1) ≥ 0
    · rw [if_pos h2]
      have h3 := cr.1 h2
      have hall : ∀ j < i, sl i ≤ sl j := fun j hj => by have := rmin j hj; rwa [min_eq_right h3] at this
      refine ⟨_, rfl, hi, hl, h3.trans r0, l0, ?_, ?_, ?_, ?_⟩
      · exact lt1 (fun j hj => (min_le_left _ _).trans (hall j hj)) (min_le_left _ _)
      · exact lt1 (fun j hj => (d1 j hj).trans (le_max_left _ _)) (d2.trans (le_max_left _ _))
      · exact fun _ => ⟨lt1 hall le_rfl, hlt.le⟩
      · intro hc; exact absurd h1.2 (not_lt.2 hc)
    · rw [if_neg h2]
      have h3 : sl s.2.1 < sl i := by
        by_contra hc
        exact h2 (cr.2 (not_lt.1 hc))
      have hall : ∀ j < i, sl s.2.1 ≤ sl j := fun j hj => by have := rmin j hj; rwa [min_eq_left h3.le] at this
      refine ⟨_, rfl, hr, hl, r0, l0, ?_, ?_, ?_, ?_⟩
      · exact lt1 (fun j hj => (min_le_left _ _).trans (hall j hj)) ((min_le_left _ _).trans h3.le)
      · exact lt1 (fun j hj => (d1 j hj).trans (le_max_left _ _)) (d2.trans (le_max_left _ _))
      · exact fun _ => ⟨lt1 hall h3.le, (h3.trans hlt).le⟩
      · intro hc; exact absurd h1.2 (not_lt.2 hc)
  · rw [if_neg h1]
    by_cases h2 : s.1 > 0 ∧ p.leftFromLineXY (corner ps i) vn ≤ 0
    · -- a corner that is further left
      rw [if_pos h2]
      have hle : nx ≤ sl i := by
        by_contra hc
        exact absurd (en.2 (not_le.1 hc)) (not_lt.2 h2.2)
      obtain ⟨d1, d2⟩ := up h2.1
      show Res.Sat (if p.leftFromLineXY (corner ps i) (corner ps s.2.2) ≤ 0 then Res.ok _ else Res.ok _) _
      by_cases h3 : p.leftFromLineXY (corner ps i) (corner ps s.2.2) ≤ 0
      · rw [if_pos h3]
        have h4 := cl.1 h3
        have hall : ∀ j < i, sl j ≤ sl i := fun j hj => by have := lmax j hj; rwa [max_eq_right h4] at this
        refine ⟨_, rfl, hr, hi, r0, l0.trans h4, ?_, ?_, ?_, ?_⟩
        · exact lt1 (fun j hj => (min_le_left _ _).trans (d1 j hj)) ((min_le_left _ _).trans d2)
        · exact lt1 (fun j hj => (hall j hj).trans (le_max_left _ _)) (le_max_left _ _)
        · intro hc; exact absurd hc (not_lt.2 h2.2)
        · exact fun _ => ⟨lt1 hall le_rfl, hle⟩
      · rw [if_neg h3]
        have h4 : sl i < sl s.2.2 := by
          by_contra hc
          exact h3 (cl.2 (not_lt.1 hc))
        have hall : ∀ j < i, sl j ≤ sl s.2.2 := fun j hj => by have := lmax j hj; rwa [max_eq_left h4.le] at this
        refine ⟨_, rfl, hr, hl, r0, l0, ?_, ?_, ?_, ?_⟩
        · exact lt1 (fun j hj => (min_le_left _ _).trans (d1 j hj)) ((min_le_left _ _).trans d2)
        · exact lt1 (fun j hj => (hall j hj).trans (le_max_left _ _)) (h4.le.trans (le_max_left _ _))
        · intro hc; exact absurd hc (not_lt.2 h2.2)
        · exact fun _ => ⟨lt1 hall h4.le, hle.trans h4.le⟩
    · -- neither
      rw [if_neg h2]
      refine ⟨_, rfl, hr, hl, r0, l0, ?_, ?_, ?_, ?_⟩
      · by_cases hs : s.1 ≤ 0
        · have hle : nx ≤ sl i := by
            by_contra hc
            exact h1 ⟨hs, en.2 (not_le.1 hc)⟩
          exact lt1 (fun j hj => (min_le_min_left _ hle).trans (rmin j hj)) ((min_le_right _ _).trans hle)
        · obtain ⟨d1, d2⟩ := up (not_le.1 hs)
          exact lt1 (fun j hj => (min_le_left _ _).trans (d1 j hj)) ((min_le_left _ _).trans d2)
      · by_cases hs : s.1 ≤ 0
        · obtain ⟨d1, d2⟩ := down hs
          exact lt1 (fun j hj => (d1 j hj).trans (le_max_left _ _)) (d2.trans (le_max_left _ _))
        · have hlt : sl i < nx := by
            apply en.1
            by_contra hc
            exact h2 ⟨not_le.1 hs, not_lt.1 hc⟩
          exact lt1 (fun j hj => (lmax j hj).trans (max_le_max_left _ hlt.le)) (hlt.le.trans (le_max_right _ _))
      · intro hc
        have hs : 0 < s.1 := by
          by_contra hs
          exact h1 ⟨not_lt.1 hs, hc⟩
        obtain ⟨d1, d2⟩ := up hs
        exact ⟨lt1 d1 d2, d2.trans (en.1 hc).le⟩
      · intro hc
        have hs : s.1 ≤ 0 := by
          by_contra hs
          exact h2 ⟨not_le.1 hs, hc⟩
        obtain ⟨d1, d2⟩ := down hs
        have hle : nx ≤ sl i := by
          by_contra hk
          exact absurd (en.2 (not_le.1 hk)) (not_lt.2 hc)
        exact ⟨lt1 d1 d2, hle.trans d2⟩

theorem tangent_direction {ps : List Pt} (h2 : 2 ≤ ps.length) {p : Pt} {w : ℝ × ℝ} (hw : ∀ v ∈ ps, 0 < w.1 * (v.x - p.x) + w.2 * (v.y - p.y)) :
    ∃ r l, Polygon.tangentPointPoly ps p = .ok (r, l) ∧ r < ps.length ∧ l < ps.length ∧
      ∀ j < ps.length, slope w p (corner ps r) ≤ slope w p (corner ps j) ∧ slope w p (corner ps j) ≤ slope w p (corner ps l) := by
  have hmem : ∀ j < ps.length, corner ps j ∈ ps := by
    intro j hj
    unfold corner
    rw [List.getD_eq_getElem?_getD, List.getElem?_eq_getElem hj]
    exact List.getElem_mem hj
  unfold Polygon.tangentPointPoly
  rw [rd_corner (by omega : 0 < ps.length), rd_corner (by omega : 1 < ps.length), rd_corner (by omega : ps.length - 1 < ps.length)]
  simp only [Res.monad_bind_eq, Res.bind_ok]
  have h0 := hw _ (hmem 0 (by omega))
  have h1 := hw _ (hmem 1 (by omega))
  have en : 0 < p.leftFromLineXY (corner ps 0) (corner ps 1) ↔ slope w p (corner ps 0) < slope w p (corner ps 1) := left_pos h0 h1
  have start : TanInv ps (fun j => slope w p (corner ps j)) 1 (slope w p (corner ps 1)) (p.leftFromLineXY (corner ps 0) (corner ps 1), 0, 0) := by
    have z : ∀ {P : ℕ → Prop}, P 0 → ∀ j < 1, P j := fun h j hj => by
      have : j = 0 := by omega
      rw [this]; exact h
    refine ⟨by simp only; omega, by simp only; omega, le_rfl, le_rfl, z (min_le_left _ _), z (le_max_left _ _), ?_, ?_⟩
    · exact fun h => ⟨z le_rfl, (en.1 h).le⟩
    · intro h
      refine ⟨z le_rfl, ?_⟩
      by_contra hc
      exact absurd (en.2 (not_le.1 hc)) (not_lt.2 h)
  have loop := forRange_sat (fun i => TanInv ps (fun j => slope w p (corner ps j)) i (slope w p (corner ps i))) (lo := 1) (hi := ps.length - 1)
    (by omega) (body := Polygon.tanRound ps p) start (by
      intro i s hi1 hi2 hinv
      unfold Polygon.tanRound
      rw [rd_corner (by omega : i < ps.length), rd_corner (by omega : i + 1 < ps.length)]
      exact tanStep_inv hw (by omega) (hmem _ (by omega)) hinv)
  obtain ⟨s, hs, hinv⟩ := loop
  rw [hs, Res.bind_ok]
  obtain ⟨t, ht, hfin⟩ := tanStep_inv hw (by omega) (hmem 0 (by omega)) hinv
  rw [ht]
  obtain ⟨hr, hl, r0, l0, rmin, lmax, up, down⟩ := hfin
  rw [show ps.length - 1 + 1 = ps.length by omega] at rmin lmax
  refine ⟨_, _, rfl, hr, hl, fun j hj => ⟨?_, ?_⟩⟩
  · have := rmin j hj
    rwa [min_eq_left r0] at this
  · have := lmax j hj
    rwa [max_eq_left l0] at this

/-- For a point outside the convex hull of the corners, `TangentPointPoly` gives a corner that has all corners on its left, seen from the
point, and one that has all corners on its right. The polygon need not be convex. -/
theorem tangentPointPoly_spec {ps : List Pt} (h2 : 2 ≤ ps.length) {p : Pt} (hp : (p.x, p.y) ∉ convexHull ℝ (cornersXY ps)) :
    ∃ r l, ∃ hr : r < ps.length, ∃ hl : l < ps.length, Polygon.tangentPointPoly ps p = .ok (r, l) ∧
      ∀ v ∈ ps, 0 ≤ side p ps[r] (v.x, v.y) ∧ side p ps[l] (v.x, v.y) ≤ 0 := by
  have fin : (cornersXY ps).Finite := by
    have : cornersXY ps = (fun p : Pt => (p.x, p.y)) '' {p | p ∈ ps} := by
      ext w
      constructor
      · rintro ⟨p, hp, rfl⟩; exact ⟨p, hp, rfl⟩
      · rintro ⟨p, hp, rfl⟩; exact ⟨p, hp, rfl⟩
    rw [this]
    exact (List.finite_toSet ps).image _
  obtain ⟨f, u, hf1, hf2⟩ := geometric_hahn_banach_point_closed (convex_convexHull ℝ (cornersXY ps)) (fin.isClosed_convexHull ℝ) hp
  have lin : ∀ x y : ℝ, f (x, y) = f (1, 0) * x + f (0, 1) * y := by
    intro x y
    have : (x, y) = x • ((1, 0) : ℝ × ℝ) + y • ((0, 1) : ℝ × ℝ) := by ext <;> simp
    rw [this, map_add, map_smul, map_smul]
    simp [mul_comm]
  have hw : ∀ v ∈ ps, 0 < (f (1, 0), f (0, 1)).1 * (v.x - p.x) + (f (1, 0), f (0, 1)).2 * (v.y - p.y) := by
    intro v hv
    have g1 := hf2 (v.x, v.y) (subset_convexHull ℝ _ ⟨v, hv, rfl⟩)
    rw [lin] at g1
    rw [lin] at hf1
    simp only
    linarith
  obtain ⟨r, l, h, hr, hl, hall⟩ := tangent_direction h2 hw
  have hget : ∀ j (hj : j < ps.length), corner ps j = ps[j] := by
    intro j hj
    unfold corner
    rw [List.getD_eq_getElem?_getD, List.getElem?_eq_getElem hj]
    rfl
  have sd : ∀ a v : Pt, side p a (v.x, v.y) = p.leftFromLineXY a v := by
    intro a v
    unfold side Pt.leftFromLineXY
    ring
  refine ⟨r, l, hr, hl, h, fun v hv => ?_⟩
  obtain ⟨j, hj, rfl⟩ := List.getElem_of_mem hv
  obtain ⟨g1, g2⟩ := hall j hj
  rw [hget r hr, hget j hj] at g1
  rw [hget l hl, hget j hj] at g2
  constructor
  · rw [sd]
    exact (left_nonneg (hw _ (List.getElem_mem hr)) (hw _ hv)).2 g1
  · rw [sd]
    have := (left_nonneg (hw _ hv) (hw _ (List.getElem_mem hl))).2 g2
    rw [left_swap, neg_nonneg] at this
    exact this

/-- The square with corners (0, 0), (4, 0), (4, 4), (0, 4) seen from (2, -3). -/
theorem concrete_tangent : ((2 : ℝ), (-3 : ℝ)) ∉ convexHull ℝ (cornersXY [⟨0, 0, 0⟩, ⟨4, 0, 0⟩, ⟨4, 4, 0⟩, ⟨0, 4, 0⟩]) ∧
    Polygon.tangentPointPoly [⟨0, 0, 0⟩, ⟨4, 0, 0⟩, ⟨4, 4, 0⟩, ⟨0, 4, 0⟩] ⟨2, -3, 0⟩ = .ok (1, 0) := by
  constructor
  · intro hc
    have := hull_side (a := ⟨0, 0, 0⟩) (b := ⟨4, 0, 0⟩) (by norm_num [side]) hc
    norm_num [side] at this
  · norm_num [Polygon.tangentPointPoly, Polygon.tanStep, Polygon.tanRound, forRange, forN, rd, Pt.leftFromLineXY]

end Verif.Geo
