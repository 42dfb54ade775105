import Verif.Lemmas.Polygon
import Mathlib.Analysis.Normed.Module.Convex
import Mathlib.Topology.Order.IntermediateValue
import Mathlib.Topology.Connected.TotallyDisconnected

/-!
# `IsInsidePolygonXY`

The answer is constant as long as one does not touch an edge, it is false far away, and it changes when one crosses an edge. Together
this says what the answer is for each point that is not on an edge: go to infinity and count the edges crossed.
-/

namespace Verif.Geo

open Classical Filter Topology

/-- Points that can be connected without touching an edge have the same answer. -/
theorem insideXY_connected (ps : List Pt) (C : Set (ℝ × ℝ)) (hC : IsPreconnected C) (off : ∀ z ∈ C, ∀ e ∈ edges ps, ¬ OnEdge e z)
    {z w : ℝ × ℝ} (hz : z ∈ C) (hw : w ∈ C) : Polygon.isInsideXY ps z.1 z.2 = Polygon.isInsideXY ps w.1 w.2 := by
  rw [isInsideXY_eq, isInsideXY_eq]
  congr 1
  refine hC.constant (f := fun z => decide (cnt (edges ps) z = 1)) ?_ hz hw
  intro v hv
  apply ContinuousAt.continuousWithinAt
  have : (fun z => decide (cnt (edges ps) z = 1)) =ᶠ[𝓝 v] fun _ => decide (cnt (edges ps) v = 1) := by
    filter_upwards [cnt_local (off v hv)] with z hz
    rw [hz]
  exact continuousAt_const.congr this.symm

theorem side_mix (a b : Pt) (z w : ℝ × ℝ) (s : ℝ) : side a b (z + s • (w - z)) = (1 - s) * side a b z + s * side a b w := by
  unfold side
  simp only [Prod.fst_add, Prod.snd_add, Prod.smul_fst, Prod.smul_snd, Prod.fst_sub, Prod.snd_sub, smul_eq_mul]
  ring

/-- Beyond all corners nothing is hit. -/
theorem cnt_far {ps : List Pt} {z : ℝ × ℝ}
    (h : (∀ v ∈ ps, v.x < z.1) ∨ (∀ v ∈ ps, z.1 < v.x) ∨ (∀ v ∈ ps, v.y < z.2) ∨ ∀ v ∈ ps, z.2 < v.y) : cnt (edges ps) z = 0 := by
  have sd : ∀ a b : Pt, side a b z = (z.2 - a.y) * (b.x - z.1) + (b.y - z.2) * (a.x - z.1) := by
    intro a b; unfold side; ring
  have zero : (∀ e ∈ edges ps, ¬ Hit e z) → cnt (edges ps) z = 0 := by
    intro h
    unfold cnt
    rw [List.map_congr_left (g := fun _ => (0 : ZMod 2)) (fun e he => chi_neg (h e he))]
    simp
  rcases h with h | h | h | h
  · apply zero
    rintro ⟨a, b⟩ he
    have ha := h a (edges_mem he).1
    have hb := h b (edges_mem he).2
    rintro (⟨h1, h2, h3⟩ | ⟨h1, h2, h3⟩)
    · simp only at h1 h2 h3
      rw [sd] at h3
      nlinarith
    · simp only at h1 h2 h3
      rw [sd] at h3
      nlinarith
  · have := sum_ends_zero (fun v => chi (v.y < z.2)) ps
    rw [← this]
    unfold cnt
    congr 1
    apply List.map_congr_left
    rintro ⟨a, b⟩ he
    have ha := h a (edges_mem he).1
    have hb := h b (edges_mem he).2
    simp only
    by_cases h1 : a.y < z.2
    · by_cases h2 : b.y < z.2
      · rw [chi_pos h1, chi_pos h2, two_zero, chi_neg]
        rintro (⟨-, h3, -⟩ | ⟨-, h3, -⟩)
        · simp only at h3; linarith
        · simp only at h3; linarith
      · rw [chi_pos h1, chi_neg h2, add_zero, chi_pos]
        refine Or.inl ⟨h1, not_lt.1 h2, ?_⟩
        simp only
        rw [sd]
        have := mul_pos (sub_pos.2 h1) (sub_pos.2 hb)
        have := mul_nonneg (sub_nonneg.2 (not_lt.1 h2)) (sub_pos.2 ha).le
        linarith
    · by_cases h2 : b.y < z.2
      · rw [chi_neg h1, chi_pos h2, zero_add, chi_pos]
        refine Or.inr ⟨h2, not_lt.1 h1, ?_⟩
        simp only
        rw [sd]
        have := mul_pos (sub_pos.2 h2) (sub_pos.2 ha)
        have := mul_nonneg (sub_nonneg.2 (not_lt.1 h1)) (sub_pos.2 hb).le
        linarith
      · rw [chi_neg h1, chi_neg h2, add_zero, chi_neg]
        rintro (⟨h3, -, -⟩ | ⟨h3, -, -⟩)
        · exact h1 h3
        · exact h2 h3
  · apply zero
    rintro ⟨a, b⟩ he
    have ha := h a (edges_mem he).1
    have hb := h b (edges_mem he).2
    rintro (⟨h1, h2, h3⟩ | ⟨h1, h2, h3⟩)
    · simp only at h2; linarith
    · simp only at h2; linarith
  · apply zero
    rintro ⟨a, b⟩ he
    have ha := h a (edges_mem he).1
    have hb := h b (edges_mem he).2
    rintro (⟨h1, h2, h3⟩ | ⟨h1, h2, h3⟩)
    · simp only at h1; linarith
    · simp only at h1; linarith

theorem onEdge_hull {ps : List Pt} {e : Pt × Pt} (he : e ∈ edges ps) {z : ℝ × ℝ} (h : OnEdge e z) : z ∈ convexHull ℝ (cornersXY ps) := by
  obtain ⟨t, h0, h1, h2, h3⟩ := h
  have ha := subset_convexHull ℝ (cornersXY ps) ⟨e.1, (edges_mem he).1, rfl⟩
  have hb := subset_convexHull ℝ (cornersXY ps) ⟨e.2, (edges_mem he).2, rfl⟩
  have := convex_convexHull ℝ (cornersXY ps) ha hb (show 0 ≤ 1 - t by linarith) h0 (by ring)
  convert this using 1
  ext
  · rw [h2]; simp; ring
  · rw [h3]; simp; ring

theorem bounded_corners (ps : List Pt) : ∃ M : ℝ, ∀ v ∈ ps, |v.x| ≤ M ∧ |v.y| ≤ M := by
  induction ps with
  | nil => exact ⟨0, fun v hv => absurd hv (by simp)⟩
  | cons p ps ih =>
    obtain ⟨M, hM⟩ := ih
    refine ⟨max M (max |p.x| |p.y|), fun v hv => ?_⟩
    rcases List.mem_cons.1 hv with h | h
    · rw [h]
      exact ⟨le_max_of_le_right (le_max_left _ _), le_max_of_le_right (le_max_right _ _)⟩
    · exact ⟨le_max_of_le_left (hM v h).1, le_max_of_le_left (hM v h).2⟩

/-- The answer is false for all points outside the convex hull of the corners. -/
theorem insideXY_hull (ps : List Pt) (z : ℝ × ℝ) (h : z ∉ convexHull ℝ (cornersXY ps)) : Polygon.isInsideXY ps z.1 z.2 = .ok false := by
  by_cases hps : ps = []
  · subst hps
    rw [isInsideXY_eq]
    simp [edges, cnt]
  obtain ⟨c, hc⟩ := List.exists_mem_of_ne_nil ps hps
  set c' : ℝ × ℝ := (c.x, c.y) with hc'
  have hch : c' ∈ convexHull ℝ (cornersXY ps) := subset_convexHull ℝ _ ⟨c, hc, rfl⟩
  have hne : z ≠ c' := fun hh => h (hh ▸ hch)
  -- the ray from `z` away from `c`
  set r : ℝ → ℝ × ℝ := fun t => z + t • (z - c') with hr
  have rc : Continuous r := by rw [hr]; fun_prop
  have off : ∀ t, 0 ≤ t → r t ∉ convexHull ℝ (cornersXY ps) := by
    intro t ht hh
    apply h
    have := convex_convexHull ℝ (cornersXY ps) hh hch (show 0 ≤ 1 / (1 + t) by positivity) (show 0 ≤ t / (1 + t) by positivity) (by field_simp)
    convert this using 1
    have h1 : (1 + t) ≠ 0 := by positivity
    rw [hr]
    ext
    · simp; field_simp; ring
    · simp; field_simp; ring
  obtain ⟨M, hM⟩ := bounded_corners ps
  -- far out, the point is beyond all corners
  have far : ∃ t, 0 ≤ t ∧ cnt (edges ps) (r t) = 0 := by
    have grow : ∀ u d : ℝ, d ≠ 0 → ∃ t, 0 ≤ t ∧ M < |u + t * d| := by
      intro u d hd
      refine ⟨(|M| + |u| + 1) / |d|, by positivity, ?_⟩
      have h1 : |(|M| + |u| + 1) / |d| * d| = |M| + |u| + 1 := by
        rw [abs_mul, abs_div, abs_abs, abs_of_nonneg (show 0 ≤ |M| + |u| + 1 by positivity)]
        have := abs_pos.2 hd
        field_simp
      have h2 := abs_sub_abs_le_abs_sub ((|M| + |u| + 1) / |d| * d) (-u)
      rw [h1, abs_neg, sub_neg_eq_add, add_comm _ u] at h2
      linarith [le_abs_self M]
    by_cases hx : z.1 - c.x = 0
    · have hy : z.2 - c.y ≠ 0 := by
        intro hy
        apply hne
        ext
        · simp [hc']; linarith
        · simp [hc']; linarith
      obtain ⟨t, ht, hg⟩ := grow z.2 _ hy
      refine ⟨t, ht, cnt_far ?_⟩
      have e : (r t).2 = z.2 + t * (z.2 - c.y) := by simp [hr, hc']
      rcases lt_abs.1 hg with hg | hg
      · refine Or.inr (Or.inr (Or.inl fun v hv => ?_))
        rw [e]; linarith [le_abs_self v.y, (hM v hv).2]
      · refine Or.inr (Or.inr (Or.inr fun v hv => ?_))
        rw [e]; linarith [neg_abs_le v.y, (hM v hv).2]
    · obtain ⟨t, ht, hg⟩ := grow z.1 _ hx
      refine ⟨t, ht, cnt_far ?_⟩
      have e : (r t).1 = z.1 + t * (z.1 - c.x) := by simp [hr, hc']
      rcases lt_abs.1 hg with hg | hg
      · refine Or.inl fun v hv => ?_
        rw [e]; linarith [le_abs_self v.x, (hM v hv).1]
      · refine Or.inr (Or.inl fun v hv => ?_)
        rw [e]; linarith [neg_abs_le v.x, (hM v hv).1]
  obtain ⟨t, ht, h0⟩ := far
  have con := insideXY_connected ps (r '' Set.Ici 0) (isPreconnected_Ici.image r rc.continuousOn)
    (by
      rintro _ ⟨s, hs, rfl⟩ e he hon
      exact off s hs (onEdge_hull he hon))
    (z := r 0) (w := r t) ⟨0, Set.self_mem_Ici, rfl⟩ ⟨t, ht, rfl⟩
  have r0 : r 0 = z := by simp [hr]
  rw [r0] at con
  rw [con, isInsideXY_eq, h0]
  simp

/-- The answer is false for all points that can be connected to points arbitrarily far away without touching an edge. -/
theorem insideXY_unbounded (ps : List Pt) (C : Set (ℝ × ℝ)) (hC : IsPreconnected C) (off : ∀ z ∈ C, ∀ e ∈ edges ps, ¬ OnEdge e z)
    (hb : ¬ Bornology.IsBounded C) {z : ℝ × ℝ} (hz : z ∈ C) : Polygon.isInsideXY ps z.1 z.2 = .ok false := by
  have fin : (cornersXY ps).Finite := by
    have : cornersXY ps = (fun p : Pt => (p.x, p.y)) '' {p | p ∈ ps} := by
      ext w
      constructor
      · rintro ⟨p, hp, rfl⟩; exact ⟨p, hp, rfl⟩
      · rintro ⟨p, hp, rfl⟩; exact ⟨p, hp, rfl⟩
    rw [this]
    exact (List.finite_toSet ps).image _
  have : ∃ w ∈ C, w ∉ convexHull ℝ (cornersXY ps) := by
    by_contra hc
    push Not at hc
    exact hb ((isBounded_convexHull.2 fin.isBounded).subset hc)
  obtain ⟨w, hw, hn⟩ := this
  rw [insideXY_connected ps C hC off hz hw, insideXY_hull ps w hn]

/-- Close to a point inside an edge and on no other edge, the answer depends on the side of the edge: it is the same for points on the
same side, and different for points on different sides. -/
theorem insideXY_flip {ps : List Pt} {l1 l2 : List (Pt × Pt)} {a b : Pt} (he : edges ps = l1 ++ (a, b) :: l2) {t : ℝ} (h0 : 0 < t) (h1 : t < 1)
    {q : ℝ × ℝ} (hx : q.1 = a.x + t * (b.x - a.x)) (hy : q.2 = a.y + t * (b.y - a.y)) (hab : a.x ≠ b.x ∨ a.y ≠ b.y)
    (off : ∀ e ∈ l1 ++ l2, ¬ OnEdge e q) :
    ∃ ε > 0, ∀ z w : ℝ × ℝ, dist z q < ε → dist w q < ε →
      (0 < side a b z * side a b w → Polygon.isInsideXY ps z.1 z.2 = Polygon.isInsideXY ps w.1 w.2) ∧
      (side a b z * side a b w < 0 → ∃ c, Polygon.isInsideXY ps z.1 z.2 = .ok c ∧ Polygon.isInsideXY ps w.1 w.2 = .ok (!c)) := by
  obtain ⟨K, hK⟩ := cnt_flip he h0 h1 hx hy hab off
  obtain ⟨ε, hε, hb⟩ := Metric.eventually_nhds_iff.1 hK
  refine ⟨ε, hε, fun z w hz hw => ⟨fun hs => ?_, fun hs => ?_⟩⟩
  · have z0 : side a b z ≠ 0 := fun h => by rw [h, zero_mul] at hs; exact lt_irrefl _ hs
    have w0 : side a b w ≠ 0 := fun h => by rw [h, mul_zero] at hs; exact lt_irrefl _ hs
    rw [isInsideXY_eq, isInsideXY_eq, hb hz z0, hb hw w0]
    have : 0 < side a b z ↔ 0 < side a b w := ⟨fun h => (pos_iff_pos_of_mul_pos hs).1 h, fun h => (pos_iff_pos_of_mul_pos hs).2 h⟩
    rw [propext this]
  · have z0 : side a b z ≠ 0 := fun h => by rw [h, zero_mul] at hs; exact lt_irrefl _ hs
    have w0 : side a b w ≠ 0 := fun h => by rw [h, mul_zero] at hs; exact lt_irrefl _ hs
    rw [isInsideXY_eq, isInsideXY_eq, hb hz z0, hb hw w0]
    refine ⟨_, rfl, ?_⟩
    have val : ∀ x : ZMod 2, (decide (x + 0 = 1)) = !(decide (x + 1 = 1)) := by decide
    have val' : ∀ x : ZMod 2, (decide (x + 1 = 1)) = !(decide (x + 0 = 1)) := by decide
    congr 1
    rcases lt_or_gt_of_ne z0 with h | h
    · have hw' : 0 < side a b w := by
        by_contra hc
        have := mul_nonneg_of_nonpos_of_nonpos h.le (not_lt.1 hc)
        linarith
      rw [chi_neg (not_lt.2 h.le), chi_pos hw', val' K]
    · have hw' : ¬ 0 < side a b w := by
        intro hc
        have := mul_pos h hc
        linarith
      rw [chi_pos h, chi_neg hw', val K]

theorem edgesFrom_fst {p : Pt} {ps : List Pt} {e : Pt × Pt} (h : e ∈ edgesFrom p ps) : e.1 ∈ (p :: ps).dropLast := by
  induction ps generalizing p with
  | nil => simp [edgesFrom] at h
  | cons q ps ih =>
    rw [List.dropLast_cons_of_ne_nil (by simp)]
    rcases List.mem_cons.1 (show e ∈ (p, q) :: edgesFrom q ps from h) with h | h
    · rw [h]; exact List.mem_cons_self
    · exact List.mem_cons_of_mem _ (ih h)

theorem hull_side {ps : List Pt} {a b : Pt} (h : ∀ v ∈ ps, 0 ≤ side a b (v.x, v.y)) {z : ℝ × ℝ} (hz : z ∈ convexHull ℝ (cornersXY ps)) :
    0 ≤ side a b z := by
  have hconv : Convex ℝ {w : ℝ × ℝ | 0 ≤ side a b w} := by
    intro u hu v hv s t hs ht hst
    have e : side a b (s • u + t • v) = s * side a b u + t * side a b v := by
      have : s = 1 - t := by linarith
      subst this
      unfold side
      simp only [Prod.fst_add, Prod.snd_add, Prod.smul_fst, Prod.smul_snd, smul_eq_mul]
      ring
    show 0 ≤ side a b (s • u + t • v)
    rw [e]
    exact add_nonneg (mul_nonneg hs hu) (mul_nonneg ht hv)
  refine convexHull_min ?_ hconv hz
  rintro _ ⟨p, hp, rfl⟩
  exact h p hp

theorem side_self_left (a b : Pt) : side a b (a.x, a.y) = 0 := by unfold side; ring
theorem side_self_right (a b : Pt) : side a b (b.x, b.y) = 0 := by unfold side; ring

theorem convex_side {ps : List Pt} (h : StrictlyConvex ps) {e : Pt × Pt} (he : e ∈ edges ps) {v : Pt} (hv : v ∈ ps) : 0 ≤ side e.1 e.2 (v.x, v.y) := by
  by_cases h1 : v = e.1
  · rw [h1, side_self_left]
  · by_cases h2 : v = e.2
    · rw [h2, side_self_right]
    · exact (h.2.2 e he v hv h1 h2).le

/-- From a point on the left of all edges almost to a point of the hull, nothing changes. -/
theorem inside_segment {ps : List Pt} (h : StrictlyConvex ps) {z m : ℝ × ℝ} (hz : ∀ e ∈ edges ps, 0 < side e.1 e.2 z)
    (hm : m ∈ convexHull ℝ (cornersXY ps)) {s : ℝ} (s0 : 0 < s) (s2 : s ≤ 1 / 2) :
    Polygon.isInsideXY ps z.1 z.2 = Polygon.isInsideXY ps (z + (1 - s) • (m - z)).1 (z + (1 - s) • (m - z)).2 := by
  have rc : Continuous (fun u : ℝ => z + u • (m - z)) := by fun_prop
  have con := insideXY_connected ps ((fun u : ℝ => z + u • (m - z)) '' Set.Icc 0 (1 - s)) (isPreconnected_Icc.image _ rc.continuousOn)
    (by
      rintro _ ⟨u, ⟨hu0, hu1⟩, rfl⟩ e he hon
      have g := onEdge_side hon
      simp only at g
      rw [side_mix] at g
      have g1 := mul_pos (show 0 < 1 - u by linarith) (hz e he)
      have g2 := mul_nonneg hu0 (hull_side (fun v hv => convex_side h he hv) hm)
      linarith)
    (Set.mem_image_of_mem _ (show (0 : ℝ) ∈ Set.Icc 0 (1 - s) from ⟨le_rfl, by linarith⟩))
    (Set.mem_image_of_mem _ (show 1 - s ∈ Set.Icc 0 (1 - s) from ⟨by linarith, le_rfl⟩))
  simp only [zero_smul, add_zero] at con
  exact con

/-- For a strictly convex polygon, given counterclockwise: true for points on the left of all edges, false for points on the right of
one of them. -/
theorem insideXY_convex {ps : List Pt} (h : StrictlyConvex ps) (z : ℝ × ℝ) :
    ((∀ e ∈ edges ps, 0 < side e.1 e.2 z) → Polygon.isInsideXY ps z.1 z.2 = .ok true) ∧
    ((∃ e ∈ edges ps, side e.1 e.2 z < 0) → Polygon.isInsideXY ps z.1 z.2 = .ok false) := by
  have right : ∀ w : ℝ × ℝ, (∃ e ∈ edges ps, side e.1 e.2 w < 0) → Polygon.isInsideXY ps w.1 w.2 = .ok false := by
    rintro w ⟨e, he, hs⟩
    refine insideXY_hull ps w (fun hc => ?_)
    linarith [hull_side (fun v hv => convex_side h he hv) hc]
  refine ⟨fun hz => ?_, right z⟩
  obtain ⟨hlen, hnd, hcv⟩ := id h
  match ps, h, hlen, hnd, hcv, right, hz with
  | b :: rest, h, hlen, hnd, hcv, right, hz =>
    have hrest : rest ≠ [] := by
      intro hr
      rw [hr] at hlen
      simp at hlen
    set a := rest.getLast hrest with ha
    have hedges : edges (b :: rest) = [] ++ (a, b) :: edgesFrom b rest := by
      unfold edges
      rw [dif_neg (by simp), List.getLast_cons hrest]
      rfl
    have hmem : (a, b) ∈ edges (b :: rest) := by rw [hedges]; simp
    have hain : a ∈ b :: rest := List.mem_cons_of_mem _ (List.getLast_mem hrest)
    have hbin : b ∈ b :: rest := List.mem_cons_self
    -- a third corner
    have third : ∃ v ∈ b :: rest, v ≠ a ∧ v ≠ b := by
      by_contra hc
      push Not at hc
      have hsub : (b :: rest) ⊆ [a, b] := by
        intro v hv
        by_cases h1 : v = a
        · simp [h1]
        · simp [hc v hv h1]
      have := (List.subperm_of_subset hnd hsub).length_le
      simp only [List.length_cons, List.length_nil] at this hlen
      omega
    obtain ⟨v, hv, hva, hvb⟩ := third
    have hvs := hcv _ hmem v hv hva hvb
    simp only at hvs
    have hab : a.x ≠ b.x ∨ a.y ≠ b.y := by
      by_contra hc
      push Not at hc
      have : side a b (v.x, v.y) = 0 := by unfold side; rw [hc.1, hc.2]; ring
      linarith
    set m : ℝ × ℝ := (a.x + 1 / 2 * (b.x - a.x), a.y + 1 / 2 * (b.y - a.y)) with hm
    have off : ∀ e ∈ ([] : List (Pt × Pt)) ++ edgesFrom b rest, ¬ OnEdge e m := by
      rintro ⟨c, d⟩ he ⟨t, h0, h1, hx, hy⟩
      rw [List.nil_append] at he
      have he' : (c, d) ∈ edges (b :: rest) := by rw [hedges]; exact List.mem_append_right _ (List.mem_cons_of_mem _ he)
      obtain ⟨hc, hd⟩ := edges_mem he'
      simp only at hc hd hx hy
      have hca : c ≠ a := by
        intro hca
        have h2 := edgesFrom_fst he
        simp only at h2
        rw [hca] at h2
        have h3 := List.dropLast_append_getLast (l := b :: rest) (by simp)
        rw [List.getLast_cons hrest, ← ha] at h3
        rw [← h3] at hnd
        exact (List.nodup_append.1 hnd).2.2 a h2 a (by simp) rfl
      have hms : side a b m = 0 := by rw [hm]; unfold side; simp only; ring
      have hmix : side a b m = (1 - t) * side a b (c.x, c.y) + t * side a b (d.x, d.y) := by
        rw [show m = (c.x + t * (d.x - c.x), c.y + t * (d.y - c.y)) from Prod.ext hx hy]
        unfold side
        simp only
        ring
      have hcn := convex_side h hmem hc
      have hdn := convex_side h hmem hd
      simp only at hcn hdn
      have nma : ¬ (m.1 = a.x ∧ m.2 = a.y) := by
        rintro ⟨g1, g2⟩
        simp only [hm] at g1 g2
        rcases hab with g | g
        · exact g (by linarith)
        · exact g (by linarith)
      have nmb : ¬ (m.1 = b.x ∧ m.2 = b.y) := by
        rintro ⟨g1, g2⟩
        simp only [hm] at g1 g2
        rcases hab with g | g
        · exact g (by linarith)
        · exact g (by linarith)
      by_cases hcb : c = b
      · have hdb : d ≠ b := by
          intro hdb
          have := hcv _ he' v hv (by simp only; rw [hcb]; exact hvb) (by simp only; rw [hdb]; exact hvb)
          simp only at this
          rw [hcb, hdb] at this
          unfold side at this
          linarith
        have hda : d ≠ a := by
          intro hda
          have := hcv _ he' v hv (by simp only; rw [hcb]; exact hvb) (by simp only; rw [hda]; exact hva)
          simp only at this
          rw [hcb, hda, side_swap] at this
          linarith
        have hds := hcv _ hmem d hd hda hdb
        simp only at hds
        have : t = 0 := by
          rw [hcb, side_self_right, mul_zero, zero_add, hms] at hmix
          rcases mul_eq_zero.1 hmix.symm with g | g
          · exact g
          · linarith
        rw [this, hcb] at hx hy
        exact nmb ⟨by rw [hx]; simp, by rw [hy]; simp⟩
      · have hcs := hcv _ hmem c hc hca hcb
        simp only at hcs
        have ht : t = 1 := by
          have g1 := mul_nonneg (show 0 ≤ 1 - t by linarith) hcs.le
          have g2 := mul_nonneg h0 hdn
          rw [hms] at hmix
          have g3 : (1 - t) * side a b (c.x, c.y) = 0 := by linarith
          rcases mul_eq_zero.1 g3 with g | g
          · linarith
          · linarith
        have hds : side a b (d.x, d.y) = 0 := by
          rw [hms, ht] at hmix
          linarith
        rw [ht] at hx hy
        by_cases hda : d = a
        · exact nma ⟨by rw [hx, hda]; ring, by rw [hy, hda]; ring⟩
        · by_cases hdb : d = b
          · exact nmb ⟨by rw [hx, hdb]; ring, by rw [hy, hdb]; ring⟩
          · have := hcv _ hmem d hd hda hdb
            simp only at this
            linarith
    obtain ⟨ε, hε, hflip⟩ := insideXY_flip hedges (by norm_num : (0 : ℝ) < 1 / 2) (by norm_num) rfl rfl hab off
    have hmh : m ∈ convexHull ℝ (cornersXY (b :: rest)) := onEdge_hull hmem ⟨1 / 2, by norm_num, by norm_num, rfl, rfl⟩
    -- the way from `z` through the middle of the edge
    set r : ℝ → ℝ × ℝ := fun s => z + s • (m - z) with hr
    have rc : Continuous r := by rw [hr]; fun_prop
    have hms : side a b m = 0 := by rw [hm]; unfold side; simp only; ring
    have r1 : r 1 = m := by simp [hr]
    obtain ⟨δ, hδ, hnear⟩ := Metric.continuousAt_iff.1 (rc.continuousAt (x := 1)) ε hε
    rw [r1] at hnear
    set s := min (δ / 2) (1 / 2) with hs
    have s0 : 0 < s := lt_min (by linarith) (by norm_num)
    have s1 : s < δ := lt_of_le_of_lt (min_le_left _ _) (by linarith)
    have s2 : s ≤ 1 / 2 := min_le_right _ _
    have d1 := hnear (x := 1 - s) (by rw [Real.dist_eq, show 1 - s - 1 = -s by ring, abs_neg, abs_of_pos s0]; exact s1)
    have d2 := hnear (x := 1 + s) (by rw [Real.dist_eq, show 1 + s - 1 = s by ring, abs_of_pos s0]; exact s1)
    have hza := hz _ hmem
    simp only at hza
    have v1 : side a b (r (1 - s)) = s * side a b z := by rw [hr]; simp only; rw [side_mix, hms]; ring
    have v2 : side a b (r (1 + s)) = -s * side a b z := by rw [hr]; simp only; rw [side_mix, hms]; ring
    obtain ⟨c, hc1, hc2⟩ := (hflip _ _ d1 d2).2 (by rw [v1, v2]; nlinarith [mul_pos s0 hza])
    have hout := right (r (1 + s)) ⟨(a, b), hmem, by simp only; rw [v2]; nlinarith [mul_pos s0 hza]⟩
    rw [hout] at hc2
    have hct : c = true := by cases c <;> simp_all
    have con := inside_segment h hz hmh s0 s2
    rw [con]
    show Polygon.isInsideXY (b :: rest) (r (1 - s)).1 (r (1 - s)).2 = _
    rw [hc1, hct]

end Verif.Geo
