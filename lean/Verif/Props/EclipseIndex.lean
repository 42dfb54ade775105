import Verif.Props.EclipseFind
import Verif.Props.EclipsePoints
import Verif.Props.Polygon

/-!
# C148: the cell of a point in a grid of boxes
-/

namespace Verif

open Geo

namespace EclipseGeometry

/-- The corners of a rectangle at a depth. -/
def rect (a b c d z : ℝ) : List Pt := [⟨a, c, z⟩, ⟨b, c, z⟩, ⟨b, d, z⟩, ⟨a, d, z⟩]

theorem rect_edges (a b c d z : ℝ) : edges (rect a b c d z) =
    [(⟨a, d, z⟩, ⟨a, c, z⟩), (⟨a, c, z⟩, ⟨b, c, z⟩), (⟨b, c, z⟩, ⟨b, d, z⟩), (⟨b, d, z⟩, ⟨a, d, z⟩)] := by
  unfold edges rect
  rw [dif_neg (by simp)]
  rfl

theorem rect_convex {a b c d : ℝ} (hab : a < b) (hcd : c < d) (z : ℝ) : StrictlyConvex (rect a b c d z) := by
  refine ⟨le_of_lt (show 3 < 4 by decide), ?_, ?_⟩
  · unfold rect
    simp [hab.ne, hab.ne', hcd.ne]
  · rw [rect_edges]
    intro e he v hv h1 h2
    have p : 0 < (b - a) * (d - c) := mul_pos (by linarith) (by linarith)
    simp only [List.mem_cons, List.not_mem_nil, or_false] at he
    simp only [rect, List.mem_cons, List.not_mem_nil, or_false] at hv
    rcases he with rfl | rfl | rfl | rfl <;> rcases hv with rfl | rfl | rfl | rfl <;>
      first
      | exact absurd rfl h1
      | exact absurd rfl h2
      | (show 0 < _ * _ - _ * _; simp only; nlinarith)

theorem rect_inside {a b c d x y : ℝ} (ha : a < x) (hb : x < b) (hc : c < y) (hd : y < d) (z : ℝ) :
    Polygon.isInsideXY (rect a b c d z) x y = .ok true := by
  refine (insideXY_convex (rect_convex (ha.trans hb) (hc.trans hd) z) (x, y)).1 ?_
  rw [rect_edges]
  intro e he
  simp only [List.mem_cons, List.not_mem_nil, or_false] at he
  have p1 : 0 < (x - a) * (d - c) := mul_pos (by linarith) (by linarith)
  have p2 : 0 < (b - x) * (d - c) := mul_pos (by linarith) (by linarith)
  have p3 : 0 < (b - a) * (y - c) := mul_pos (by linarith) (by linarith)
  have p4 : 0 < (b - a) * (d - y) := mul_pos (by linarith) (by linarith)
  rcases he with rfl | rfl | rfl | rfl <;> (show 0 < _ * _ - _ * _; simp only; nlinarith)

theorem rect_outside {a b c d x y : ℝ} (hab : a < b) (hcd : c < d) (h : x < a ∨ b < x ∨ y < c ∨ d < y) (z : ℝ) :
    Polygon.isInsideXY (rect a b c d z) x y = .ok false := by
  refine (insideXY_convex (rect_convex hab hcd z) (x, y)).2 ?_
  rw [rect_edges]
  rcases h with h | h | h | h
  · refine ⟨(⟨a, d, z⟩, ⟨a, c, z⟩), by simp, ?_⟩
    have : 0 < (a - x) * (d - c) := mul_pos (by linarith) (by linarith)
    show (a - a) * (y - d) - (x - a) * (c - d) < 0
    nlinarith
  · refine ⟨(⟨b, c, z⟩, ⟨b, d, z⟩), by simp, ?_⟩
    have : 0 < (x - b) * (d - c) := mul_pos (by linarith) (by linarith)
    show (b - b) * (y - c) - (x - b) * (d - c) < 0
    nlinarith
  · refine ⟨(⟨a, c, z⟩, ⟨b, c, z⟩), by simp, ?_⟩
    have : 0 < (b - a) * (c - y) := mul_pos (by linarith) (by linarith)
    show (b - a) * (y - c) - (x - a) * (c - c) < 0
    nlinarith
  · refine ⟨(⟨b, d, z⟩, ⟨a, d, z⟩), by simp, ?_⟩
    have : 0 < (b - a) * (y - d) := mul_pos (by linarith) (by linarith)
    show (a - b) * (y - d) - (x - b) * (d - d) < 0
    nlinarith

theorem intersection_boxes {g : EclipseGeometry} {x y d : ℕ → ℝ} (h : Spec.Boxes g x y d) (hd : d 0 ≠ d g.nk) {i j : ℕ}
    (ha : g.activePillars i j = true) (p : Pt) : g.intersection p i j = .ok (some ⟨x i, y j, p.z⟩) := by
  unfold intersection
  rw [if_pos ha]
  have n1 : (⟨0, 0, 1⟩ : Pt).norm = 1 := by
    show √((0 : ℝ) * 0 + 0 * 0 + 1 * 1) = 1
    norm_num
  have hn : (⟨0, 0, 1⟩ : Pt).getNormalized = ⟨0, 0, 1⟩ := by
    unfold Pt.getNormalized
    rw [n1, if_neg (by norm_num)]
    simp
  unfold Plane.findIntersectionPt Plane.ofNormal
  simp only [hn, (h.pillar i j).1, (h.pillar i j).2]
  have e1 : (⟨0, 0, 1⟩ : Pt).dot (p - ⟨x i, y j, d 0⟩) = p.z - d 0 := by
    show (0 : ℝ) * (p.x - x i) + 0 * (p.y - y j) + 1 * (p.z - d 0) = _
    ring
  have e2 : (⟨0, 0, 1⟩ : Pt).dot ((⟨x i, y j, d g.nk⟩ : Pt) - ⟨x i, y j, d 0⟩) = d g.nk - d 0 := by
    show (0 : ℝ) * (x i - x i) + 0 * (y j - y j) + 1 * (d g.nk - d 0) = _
    ring
  have hne : d g.nk - d 0 ≠ 0 := sub_ne_zero.2 (Ne.symm hd)
  rw [e1, e2, fdiv_ok hne]
  simp only [Res.monad_bind_eq, Res.bind_ok]
  congr 2
  ext
  · show x i + (x i - x i) * _ = x i; ring
  · show y j + (y j - y j) * _ = y j; ring
  · show d 0 + (d g.nk - d 0) * ((p.z - d 0) / (d g.nk - d 0)) = p.z
    field_simp
    ring

theorem columnHas_boxes {g : EclipseGeometry} {x y d : ℕ → ℝ} (h : Spec.Boxes g x y d) (hd : d 0 ≠ d g.nk)
    (ha : ∀ i j, i ≤ g.ni → j ≤ g.nj → g.activePillars i j = true) {i j : ℕ} (hi : i < g.ni) (hj : j < g.nj) (p : Pt) :
    g.columnHas p i j = Polygon.isInsideXY (rect (x i) (x (i + 1)) (y j) (y (j + 1)) p.z) p.x p.y := by
  unfold columnHas
  rw [intersection_boxes h hd (ha i j (by omega) (by omega)), intersection_boxes h hd (ha (i + 1) j (by omega) (by omega)),
    intersection_boxes h hd (ha (i + 1) (j + 1) (by omega) (by omega)), intersection_boxes h hd (ha i (j + 1) (by omega) (by omega))]
  rfl

theorem firstColumn_none (g : EclipseGeometry) (p : Pt) : ∀ l : List (ℕ × ℕ), (∀ c ∈ l, g.columnHas p c.1 c.2 = .ok false) →
    g.firstColumn p l = .ok none
  | [], _ => rfl
  | (i, j) :: l, h => by
    unfold firstColumn
    rw [h (i, j) List.mem_cons_self, Res.monad_bind_eq, Res.bind_ok, if_neg (by simp)]
    exact firstColumn_none g p l fun c hc => h c (List.mem_cons_of_mem _ hc)

theorem firstColumn_some (g : EclipseGeometry) (p : Pt) (c : ℕ × ℕ) (ht : g.columnHas p c.1 c.2 = .ok true) :
    ∀ l : List (ℕ × ℕ), c ∈ l → (∀ c' ∈ l, c' ≠ c → g.columnHas p c'.1 c'.2 = .ok false) → g.firstColumn p l = .ok (some c)
  | [], h, _ => absurd h (by simp)
  | (i, j) :: l, h, hf => by
    unfold firstColumn
    by_cases e : (i, j) = c
    · subst e
      rw [ht, Res.monad_bind_eq, Res.bind_ok, if_pos rfl]
    · rw [hf (i, j) List.mem_cons_self e, Res.monad_bind_eq, Res.bind_ok, if_neg (by simp)]
      refine firstColumn_some g p c ht l ?_ fun c' hc' => hf c' (List.mem_cons_of_mem _ hc')
      rcases List.mem_cons.1 h with h | h
      · exact absurd h.symm e
      · exact h

theorem mem_columns {g : EclipseGeometry} {c : ℕ × ℕ} : c ∈ g.columns ↔ c.1 < g.ni ∧ c.2 < g.nj := by
  unfold columns
  simp only [List.mem_flatMap, List.mem_range, List.mem_map]
  constructor
  · rintro ⟨j, hj, i, hi, rfl⟩; exact ⟨hi, hj⟩
  · rintro ⟨hi, hj⟩; exact ⟨c.2, hj, c.1, hi, rfl⟩

theorem surface_boxes {g : EclipseGeometry} {x y d : ℕ → ℝ} (h : Spec.Boxes g x y d) {i j k : ℕ} (hi : i < g.ni) (hj : j < g.nj)
    (hk : k < g.nk) {c : ℕ} (hc : c < 2) (u v : ℝ) : (g.findPointCellSurface i j k c u v).z = d (k + c) := by
  rw [eclipse_surface_depth_violation]
  unfold Spec.cellDepth Spec.bilinear
  have dp : ∀ a b, a < 2 → b < 2 → g.getZCorner i j k a b c = d (k + c) := fun a b ha hb => h.depth i j k a b c hi hj hk ha hb hc
  rw [dp 0 0 (by decide) (by decide), dp 1 0 (by decide) (by decide), dp 0 1 (by decide) (by decide), dp 1 1 (by decide) (by decide)]
  ring

/-- The search in a column reads only the layers of the grid. -/
theorem searchLayer_congr {T B T' B' : ℕ → ℝ} {n : ℕ} (hT : ∀ k, k < n → T k = T' k) (hB : ∀ k, k < n → B k = B' k) (z : ℝ) :
    ∀ {top bot : ℕ}, bot < n → searchLayer T B z top bot = searchLayer T' B' z top bot := by
  intro top bot
  induction hm : bot - top using Nat.strong_induction_on generalizing top bot with
  | _ m ih =>
    intro hb
    unfold searchLayer
    by_cases h0 : bot = 0
    · rw [if_pos h0, if_pos h0, hT 0 (by omega), hB 0 (by omega)]
    · rw [if_neg h0, if_neg h0]
      by_cases hc : top < bot - 1
      · rw [dif_pos hc, dif_pos hc]
        simp only
        rw [hT ((top + bot) / 2) (by omega), hB ((top + bot) / 2) (by omega), ih ((top + bot) / 2 - top) (by omega) rfl (by omega),
          ih (bot - (top + bot) / 2) (by omega) rfl hb]
      · rw [dif_neg hc, dif_neg hc]

theorem searchLayer_le {T B : ℕ → ℝ} {z : ℝ} : ∀ {top bot t b : ℕ}, searchLayer T B z top bot = .ok (.inl (t, b)) → top ≤ bot → t ≤ bot ∧ b ≤ bot := by
  intro top bot t b
  induction hm : bot - top using Nat.strong_induction_on generalizing top bot with
  | _ m ih =>
    intro h hle
    unfold searchLayer at h
    by_cases h0 : bot = 0
    · rw [if_pos h0] at h
      split at h <;> simp at h
    · rw [if_neg h0] at h
      by_cases hc : top < bot - 1
      · rw [dif_pos hc] at h
        simp only at h
        by_cases h1 : z < B ((top + bot) / 2)
        · rw [if_pos h1] at h
          have := ih ((top + bot) / 2 - top) (by omega) rfl h (by omega)
          omega
        · rw [if_neg h1] at h
          by_cases h2 : z > T ((top + bot) / 2)
          · rw [if_pos h2] at h
            exact ih (bot - (top + bot) / 2) (by omega) rfl h (by omega)
          · rw [if_neg h2] at h
            simp at h
      · rw [dif_neg hc] at h
        simp only [Res.ok.injEq, Sum.inl.injEq, Prod.mk.injEq] at h
        omega

theorem findLayer_congr {T B T' B' : ℕ → ℝ} {n : ℕ} (hT : ∀ k, k < n → T k = T' k) (hB : ∀ k, k < n → B k = B' k) (z : ℝ) :
    findLayer T B n z = findLayer T' B' n z := by
  unfold findLayer
  by_cases hn : n = 0
  · rw [if_pos hn, if_pos hn]
  · rw [if_neg hn, if_neg hn, hT 0 (by omega), hB (n - 1) (by omega), searchLayer_congr hT hB z (by omega)]
    split
    · rfl
    · cases e : searchLayer T' B' z 0 (n - 1) with
      | ok r =>
        rcases r with ⟨t, b⟩ | k
        · have := searchLayer_le e (Nat.zero_le _)
          simp only [Res.monad_bind_eq, Res.bind_ok]
          rw [hT t (by omega), hB t (by omega), hT b (by omega), hB b (by omega)]
        · rfl
      | _ => rfl

end EclipseGeometry

open EclipseGeometry in
/-- The column of a point and its local coordinates in a grid of boxes. -/
theorem EclipseGeometry.findIndex_boxes {g : EclipseGeometry} {x y d : ℕ → ℝ} (h : Spec.Boxes g x y d) (hx : StrictMono x) (hy : StrictMono y)
    (hd : StrictMono d) (hk : 0 < g.nk) (ha : ∀ i j, i ≤ g.ni → j ≤ g.nj → g.activePillars i j = true) {p : Pt} {b1 b2 : Bool}
    (hb1 : Polygon.isInsideXY g.polymin p.x p.y = .ok b1) (hb2 : Polygon.isInsideXY g.polymax p.x p.y = .ok b2)
    (hb : b1 = true ∨ b2 = true) {i j : ℕ} (hi : i < g.ni) (hj : j < g.nj) (x1 : x i < p.x) (x2 : p.x < x (i + 1)) (y1 : y j < p.y)
    (y2 : p.y < y (j + 1)) :
    g.findIndex p.x p.y p.z = (findLayer d (fun k => d (k + 1)) g.nk p.z).bind fun k => .ok (k.map fun k => (i, j, k)) := by
  have hd0 : d 0 ≠ d g.nk := (hd hk).ne
  have col : g.getCellIndex p.x p.y p.z = .ok (some (i, j)) := by
    unfold getCellIndex
    rw [hb1, Res.monad_bind_eq, Res.bind_ok, hb2, Res.monad_bind_eq, Res.bind_ok, if_neg (by
      rintro ⟨rfl, rfl⟩
      rcases hb with hb | hb <;> cases hb)]
    refine firstColumn_some g p (i, j) ?_ _ (mem_columns.2 ⟨hi, hj⟩) ?_
    · rw [columnHas_boxes h hd0 ha hi hj]
      exact rect_inside x1 x2 y1 y2 _
    · rintro ⟨i', j'⟩ hc' hne
      obtain ⟨hi', hj'⟩ := mem_columns.1 hc'
      rw [columnHas_boxes h hd0 ha hi' hj']
      refine rect_outside (hx (Nat.lt_succ_self _)) (hy (Nat.lt_succ_self _)) ?_ _
      rcases lt_trichotomy i' i with hl | rfl | hg
      · exact .inr (.inl ((hx.monotone (show i' + 1 ≤ i from hl)).trans_lt x1))
      · rcases lt_trichotomy j' j with hl | rfl | hg
        · exact .inr (.inr (.inr ((hy.monotone (show j' + 1 ≤ j from hl)).trans_lt y1)))
        · exact absurd rfl hne
        · exact .inr (.inr (.inl (y2.trans_le (hy.monotone (show j + 1 ≤ j' from hg)))))
      · exact .inl (x2.trans_le (hx.monotone (show i + 1 ≤ i' from hg)))
  have dx : 0 < x (i + 1) - x i := sub_pos.2 (hx (Nat.lt_succ_self _))
  have dy : 0 < y (j + 1) - y j := sub_pos.2 (hy (Nat.lt_succ_self _))
  have uv : g.findUVCoordinates p.x p.y p.z i j = .ok ((p.x - x i) / (x (i + 1) - x i), (p.y - y j) / (y (j + 1) - y j)) := by
    unfold findUVCoordinates
    simp only [boxes_pillar h]
    have c4 : Spec.Convex4 1 ⟨x i, y j, p.z⟩ ⟨x (i + 1), y j, p.z⟩ ⟨x i, y (j + 1), p.z⟩ ⟨x (i + 1), y (j + 1), p.z⟩ := by
      have := mul_pos dx dy
      constructor <;> simp only [Spec.area2] <;> nlinarith
    have := eclipse_local_coordinates c4 (u := (p.x - x i) / (x (i + 1) - x i)) (v := (p.y - y j) / (y (j + 1) - y j))
      (div_nonneg (by linarith) dx.le) ((div_le_one dx).2 (by linarith)) (div_nonneg (by linarith) dy.le)
      ((div_le_one dy).2 (by linarith)) (.inl (by simp only; intro hz; nlinarith))
    have eX : Spec.quadX ⟨x i, y j, p.z⟩ ⟨x (i + 1), y j, p.z⟩ ⟨x i, y (j + 1), p.z⟩ ⟨x (i + 1), y (j + 1), p.z⟩
        ((p.x - x i) / (x (i + 1) - x i)) ((p.y - y j) / (y (j + 1) - y j)) = p.x := by
      have e : (p.x - x i) / (x (i + 1) - x i) * (x (i + 1) - x i) = p.x - x i := div_mul_cancel₀ _ dx.ne'
      simp only [Spec.quadX]
      linear_combination e
    have eY : Spec.quadY ⟨x i, y j, p.z⟩ ⟨x (i + 1), y j, p.z⟩ ⟨x i, y (j + 1), p.z⟩ ⟨x (i + 1), y (j + 1), p.z⟩
        ((p.x - x i) / (x (i + 1) - x i)) ((p.y - y j) / (y (j + 1) - y j)) = p.y := by
      have e : (p.y - y j) / (y (j + 1) - y j) * (y (j + 1) - y j) = p.y - y j := div_mul_cancel₀ _ dy.ne'
      simp only [Spec.quadY]
      linear_combination e
    rwa [eX, eY] at this
  unfold findIndex
  rw [col, Res.monad_bind_eq, Res.bind_ok]
  simp only
  rw [uv, Res.monad_bind_eq, Res.bind_ok, findLayer_congr (T' := d) (B' := fun k => d (k + 1))
    (fun k hk => by have := surface_boxes h hi hj hk (c := 0) (by decide) ((p.x - x i) / (x (i + 1) - x i)) ((p.y - y j) / (y (j + 1) - y j)); rwa [Nat.add_zero] at this)
    (fun k hk => surface_boxes h hi hj hk (c := 1) (by decide) _ _)]
  rfl

open EclipseGeometry in
/-- **C148 (boxes).** In a grid of boxes with at least two layers the cell of a point above or below the inside of a column is the one
that holds the point; its top belongs to it and its bottom to the next. No cell is found above the first layer and below the last. -/
theorem eclipse_find_box {g : EclipseGeometry} {x y d : ℕ → ℝ} (h : Spec.Boxes g x y d) (hx : StrictMono x) (hy : StrictMono y)
    (hd : StrictMono d) (hk : 2 ≤ g.nk) (ha : ∀ i j, i ≤ g.ni → j ≤ g.nj → g.activePillars i j = true) {p : Pt} {b1 b2 : Bool}
    (hb1 : Polygon.isInsideXY g.polymin p.x p.y = .ok b1) (hb2 : Polygon.isInsideXY g.polymax p.x p.y = .ok b2)
    (hb : b1 = true ∨ b2 = true) {i j : ℕ} (hi : i < g.ni) (hj : j < g.nj) (x1 : x i < p.x) (x2 : p.x < x (i + 1)) (y1 : y j < p.y)
    (y2 : p.y < y (j + 1)) :
    ∃ r, g.findIndex p.x p.y p.z = .ok r ∧
      ∀ i' j' k, r = some (i', j', k) ↔ i' = i ∧ j' = j ∧ k < g.nk ∧ d k ≤ p.z ∧ p.z < d (k + 1) := by
  rw [findIndex_boxes h hx hy hd (by omega) ha hb1 hb2 hb hi hj x1 x2 y1 y2]
  obtain ⟨r, e, hr⟩ := eclipse_find_layer (T := d) (B := fun k => d (k + 1))
    ⟨fun k => hd (Nat.lt_succ_self k), fun k => le_refl _⟩ hk p.z
  rw [e, Res.bind_ok]
  refine ⟨_, rfl, fun i' j' k => ?_⟩
  rw [← hr k]
  cases r with
  | none => simp
  | some m =>
    simp only [Option.map_some, Option.some.injEq, Prod.mk.injEq]
    constructor
    · rintro ⟨rfl, rfl, rfl⟩; exact ⟨rfl, rfl, rfl⟩
    · rintro ⟨rfl, rfl, rfl⟩; exact ⟨rfl, rfl, rfl⟩

open EclipseGeometry in
/-- **C148 (violation, boxes of one layer).** With one layer of boxes the search for a point inside a cell does not end. -/
theorem eclipse_find_box_violation {g : EclipseGeometry} {x y d : ℕ → ℝ} (h : Spec.Boxes g x y d) (hx : StrictMono x) (hy : StrictMono y)
    (hd : StrictMono d) (hk : g.nk = 1) (ha : ∀ i j, i ≤ g.ni → j ≤ g.nj → g.activePillars i j = true) {p : Pt} {b1 b2 : Bool}
    (hb1 : Polygon.isInsideXY g.polymin p.x p.y = .ok b1) (hb2 : Polygon.isInsideXY g.polymax p.x p.y = .ok b2)
    (hb : b1 = true ∨ b2 = true) {i j : ℕ} (hi : i < g.ni) (hj : j < g.nj) (x1 : x i < p.x) (x2 : p.x < x (i + 1)) (y1 : y j < p.y)
    (y2 : p.y < y (j + 1)) (z1 : d 0 ≤ p.z) (z2 : p.z < d 1) : g.findIndex p.x p.y p.z = .diverges := by
  rw [findIndex_boxes h hx hy hd (by omega) ha hb1 hb2 hb hi hj x1 x2 y1 y2, hk, eclipse_one_layer_violation z1 z2]
  rfl

open EclipseGeometry in
/-- **C148 (violation, pillars).** For a pillar whose two points have the same depth the point at a depth is found by a division by
zero; the exception that is caught in this place is never thrown. -/
theorem eclipse_pillar_violation {g : EclipseGeometry} {i j : ℕ} (ha : g.activePillars i j = true)
    (hz : (g.pillars i j).p1.z = (g.pillars i j).p2.z) (p : Pt) : g.intersection p i j = .nonfinite "division by zero" := by
  unfold intersection
  rw [if_pos ha]
  have n1 : (⟨0, 0, 1⟩ : Pt).norm = 1 := by
    show √((0 : ℝ) * 0 + 0 * 0 + 1 * 1) = 1
    norm_num
  have hn : (⟨0, 0, 1⟩ : Pt).getNormalized = ⟨0, 0, 1⟩ := by
    unfold Pt.getNormalized
    rw [n1, if_neg (by norm_num)]
    simp
  unfold Plane.findIntersectionPt Plane.ofNormal
  simp only [hn]
  have e2 : (⟨0, 0, 1⟩ : Pt).dot ((g.pillars i j).p2 - (g.pillars i j).p1) = 0 := by
    show (0 : ℝ) * ((g.pillars i j).p2.x - (g.pillars i j).p1.x) + 0 * ((g.pillars i j).p2.y - (g.pillars i j).p1.y) +
      1 * ((g.pillars i j).p2.z - (g.pillars i j).p1.z) = 0
    rw [hz]; ring
  rw [e2]
  unfold fdiv
  rw [if_pos rfl]
  rfl

open EclipseGeometry in
/-- A grid of 2 by 2 by `n` boxes of size 1, with the rectangle around it, meets the hypotheses; the cell of a point in the grid of two
layers, and the search in the grid of one. -/
theorem eclipse_find_example (n : ℕ) : ∃ g : EclipseGeometry, Spec.Boxes g (fun i => i) (fun j => j) (fun k => k) ∧
    (g.ni, g.nj, g.nk) = (2, 2, n) ∧ (2 ≤ n → g.findIndex (3 / 2) (1 / 2) 1 = .ok (some (1, 0, 1))) ∧
    (n = 1 → g.findIndex (3 / 2) (1 / 2) (1 / 2) = .diverges) := by
  let g : EclipseGeometry := ⟨2, 2, n, rect 0 2 0 2 0, rect 0 2 0 2 0, fun i j => ⟨⟨i, j, 0⟩, ⟨i, j, n⟩, true, true⟩, fun _ _ => true,
    fun n => ((n / 16 + 1) / 2 : ℕ), fun _ _ _ => true⟩
  have h : Spec.Boxes g (fun i => i) (fun j => j) (fun k => k) := by
    refine ⟨fun i j => ⟨by simp [g], by simp [g]⟩, ?_⟩
    intro i j k a b c hi hj hk ha hb hc
    show (((2 * i + a + 2 * 2 * (2 * j + b) + 4 * 2 * 2 * (2 * k + c)) / 16 + 1) / 2 : ℕ) = ((k + c : ℕ) : ℝ)
    congr 1
    have : i < 2 ∧ j < 2 := ⟨hi, hj⟩
    omega
  have mono : StrictMono (fun k : ℕ => (k : ℝ)) := Nat.strictMono_cast
  have ins : Polygon.isInsideXY (rect 0 2 0 2 0) (3 / 2) (1 / 2) = .ok true :=
    rect_inside (by norm_num) (by norm_num) (by norm_num) (by norm_num) 0
  refine ⟨g, h, rfl, fun h2 => ?_, fun h1 => ?_⟩
  · obtain ⟨r, e, hr⟩ := eclipse_find_box h mono mono mono h2 (fun _ _ _ _ => rfl) (p := ⟨3 / 2, 1 / 2, 1⟩) ins ins (.inl rfl)
      (i := 1) (j := 0) (show 1 < 2 by decide) (show 0 < 2 by decide) (by norm_num) (by norm_num) (by norm_num) (by norm_num)
    have : r = some (1, 0, 1) := (hr 1 0 1).2 ⟨rfl, rfl, h2, by norm_num, by norm_num⟩
    rw [this] at e
    exact e
  · exact eclipse_find_box_violation h mono mono mono h1 (fun _ _ _ _ => rfl) (p := ⟨3 / 2, 1 / 2, 1 / 2⟩) ins ins (.inl rfl)
      (i := 1) (j := 0) (show 1 < 2 by decide) (show 0 < 2 by decide) (by norm_num) (by norm_num) (by norm_num) (by norm_num)
      (by norm_num) (by norm_num)

end Verif
