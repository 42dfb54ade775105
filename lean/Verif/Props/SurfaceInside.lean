import Verif.Props.Surface

/-! # Surfaces: inside, at the edge and outside -/

namespace Verif

theorem hat_lin {n : ℕ} {q : ℝ} (hn : 1 ≤ n) (h0 : 0 ≤ q) (h1 : q ≤ ((n - 1 : ℕ) : ℝ)) (α β : ℝ) :
    ∑ k ∈ Finset.range n, hat (q - k) * (α + β * k) = α + β * q := by
  rw [sum_hat n q (fun k => α + β * k)]
  have hf0 : 0 ≤ ⌊q⌋ := Int.floor_nonneg.mpr h0
  have hq : q = ⌊q⌋ + Int.fract q := (Int.floor_add_fract q).symm
  have hlt : ⌊q⌋ < n := by
    have : ⌊q⌋ ≤ ((n - 1 : ℕ) : ℤ) := by
      have := Int.floor_le_floor h1
      simpa using this
    omega
  rw [if_pos ⟨hf0, hlt⟩]
  have c1 : ((⌊q⌋.toNat : ℕ) : ℝ) = ⌊q⌋ := by
    rw [← Int.cast_natCast, Int.toNat_of_nonneg hf0]
  have c2 : (((⌊q⌋ + 1).toNat : ℕ) : ℝ) = ⌊q⌋ + 1 := by
    rw [← Int.cast_natCast, Int.toNat_of_nonneg (by omega)]; push_cast; ring
  by_cases h : ⌊q⌋ + 1 < n
  · rw [if_pos ⟨by omega, h⟩, c1, c2]
    generalize Int.fract q = f at *
    generalize (⌊q⌋ : ℝ) = m at *
    rw [hq]; ring
  · rw [if_neg (fun h' => h h'.2), c1]
    have hm : ⌊q⌋ = ((n - 1 : ℕ) : ℤ) := by omega
    have hm' : (⌊q⌋ : ℝ) = ((n - 1 : ℕ) : ℝ) := by rw [hm]; simp
    have hfr : Int.fract q = 0 := by
      have := Int.fract_nonneg q
      rw [← hm'] at h1
      linarith
    rw [hfr] at hq ⊢
    rw [hq]; simp

theorem rel_nodeX {s : RegSurf} (hdx : s.dx ≠ 0) (x : ℝ) (i : ℕ) :
    (x - nodeX s i) / s.dx = (x - s.x_min) / s.dx - i := RegSurf.rel_sub hdx i

theorem rel_nodeY {s : RegSurf} (hdy : s.dy ≠ 0) (y : ℝ) (j : ℕ) :
    (y - nodeY s j) / s.dy = (y - s.y_min) / s.dy - j := RegSurf.rel_sub hdy j

theorem rel_range {m d x : ℝ} {n : ℕ} (hd : 0 < d) (h0 : m ≤ x) (h1 : x ≤ m + n * d) :
    0 ≤ (x - m) / d ∧ (x - m) / d ≤ n :=
  ⟨div_nonneg (by linarith) hd.le, by rw [div_le_iff₀ hd]; linarith⟩

theorem reach_of {q : ℝ} {n : ℕ} (hn : n < 2 ^ 31 - 1) (h0 : -1 ≤ q) (h1 : q ≤ n) :
    -2 ^ 31 ≤ q ∧ q < 2 ^ 31 - 1 := by
  have : ((n + 1 : ℕ) : ℝ) < ((2 ^ 31 : ℕ) : ℝ) := by exact_mod_cast (by omega : n + 1 < 2 ^ 31)
  push_cast at this
  constructor <;> linarith [show (1 : ℝ) ≤ 2 ^ 31 by norm_num]

/-- C77. On a surface without missing nodes whose values come from a function `a + b x + c y + e x y`,
`GetZ` is that function at every point of the grid, its edges included. -/
theorem getZ_bilinear {s : RegSurf} {z : ℕ → ℕ → ℝ} (hs : HasNodes s z) (hdx : 0 < s.dx)
    (hdy : 0 < s.dy) (hni : 1 ≤ s.grid.ni) (hnj : 1 ≤ s.grid.nj) (a b c e : ℝ)
    (hz : ∀ i j, i < s.grid.ni → j < s.grid.nj → z i j ≠ s.missing ∧
      z i j = a + b * nodeX s i + c * nodeY s j + e * (nodeX s i * nodeY s j))
    {x y : ℝ} (hx0 : s.x_min ≤ x) (hx1 : x ≤ nodeX s (s.grid.ni - 1)) (hy0 : s.y_min ≤ y)
    (hy1 : y ≤ nodeY s (s.grid.nj - 1)) :
    s.getZ x y = .ok (a + b * x + c * y + e * (x * y)) := by
  obtain ⟨q0, q1⟩ := rel_range hdx hx0 hx1
  obtain ⟨r0, r1⟩ := rel_range hdy hy0 hy1
  have hr : InReach s x y :=
    ⟨reach_of (n := s.grid.ni - 1) (by have := hs.ni_lt; omega) (by linarith) q1,
     reach_of (n := s.grid.nj - 1) (by have := hs.nj_lt; omega) (by linarith) r1⟩
  rw [getZ_weighted hs hr]
  have hqx : x = s.x_min + (x - s.x_min) / s.dx * s.dx := by field_simp; ring
  have hqy : y = s.y_min + (y - s.y_min) / s.dy * s.dy := by field_simp; ring
  have key : ∀ A B C E : ℝ,
      ∑ i ∈ Finset.range s.grid.ni, ∑ j ∈ Finset.range s.grid.nj,
        nodeWeight s.dx s.dy x y (nodeX s i) (nodeY s j)
          * (A + B * nodeX s i + C * nodeY s j + E * (nodeX s i * nodeY s j))
        = A + B * x + C * y + E * (x * y) := by
    intro A B C E
    have h1 : ∀ i ∈ Finset.range s.grid.ni, ∑ j ∈ Finset.range s.grid.nj,
        nodeWeight s.dx s.dy x y (nodeX s i) (nodeY s j)
          * (A + B * nodeX s i + C * nodeY s j + E * (nodeX s i * nodeY s j))
        = hat ((x - s.x_min) / s.dx - i) * ((A + B * s.x_min + (C + E * s.x_min) * y)
            + (B + E * y) * s.dx * i) := by
      intro i _
      have h2 : ∀ j ∈ Finset.range s.grid.nj,
          nodeWeight s.dx s.dy x y (nodeX s i) (nodeY s j)
          * (A + B * nodeX s i + C * nodeY s j + E * (nodeX s i * nodeY s j))
          = hat ((x - s.x_min) / s.dx - i) * (hat ((y - s.y_min) / s.dy - j)
            * ((A + B * nodeX s i + (C + E * nodeX s i) * s.y_min)
              + (C + E * nodeX s i) * s.dy * j)) := by
        intro j _
        rw [nodeWeight, rel_nodeX hs.dx_ne, rel_nodeY hs.dy_ne]
        simp only [nodeY, RegSurf.getXY]
        ring
      rw [Finset.sum_congr rfl h2, ← Finset.mul_sum, hat_lin hnj r0 r1]
      have : (C + E * nodeX s i) * s.dy * ((y - s.y_min) / s.dy)
          = (C + E * nodeX s i) * (y - s.y_min) := by
        have := hs.dy_ne; field_simp
      rw [this]
      simp only [nodeX, RegSurf.getXY]
      ring
    rw [Finset.sum_congr rfl h1, hat_lin hni q0 q1]
    have : (B + E * y) * s.dx * ((x - s.x_min) / s.dx) = (B + E * y) * (x - s.x_min) := by
      have := hs.dx_ne; field_simp
    rw [this]; ring
  have hW : weightAt s z x y = 1 := by
    have := key 1 0 0 0
    simp only [zero_mul, add_zero, mul_one] at this
    rw [← this]
    unfold weightAt totalWeight
    refine Finset.sum_congr rfl fun i hi => Finset.sum_congr rfl fun j hj => ?_
    rw [Finset.mem_range] at hi hj
    rw [if_pos (hz i j hi hj).1]
  have hV : sumAt s z x y = a + b * x + c * y + e * (x * y) := by
    rw [← key a b c e]
    unfold sumAt weightedSum
    refine Finset.sum_congr rfl fun i hi => Finset.sum_congr rfl fun j hj => ?_
    rw [Finset.mem_range] at hi hj
    rw [if_pos (hz i j hi hj).1, (hz i j hi hj).2]
  rw [hW, hV, if_neg one_ne_zero, div_one]

/-- Outside the grid the weights are those of the nearest point of the grid, up to a factor. -/
theorem hat_clamp {n : ℕ} (hn : 1 ≤ n) {q : ℝ} (h0 : -1 < q) (h1 : q < n) :
    ∃ κ : ℝ, 0 < κ ∧ ∀ k : ℕ, k < n →
      hat (q - k) = κ * hat (max 0 (min q ((n - 1 : ℕ) : ℝ)) - k) := by
  have hc : ((n - 1 : ℕ) : ℝ) = n - 1 := by push_cast [Nat.cast_sub hn]; ring
  have hn' : (1 : ℝ) ≤ n := by exact_mod_cast hn
  by_cases hq : q < 0
  · refine ⟨1 + q, by linarith, fun k _ => ?_⟩
    rw [min_eq_left (by rw [hc]; linarith), max_eq_left hq.le]
    have hk : (0 : ℝ) ≤ k := Nat.cast_nonneg k
    rcases Nat.eq_zero_or_pos k with rfl | hk1
    · simp only [Nat.cast_zero, sub_zero, hat_zero, mul_one]
      unfold hat
      rw [abs_of_neg hq, max_eq_right (by linarith)]; ring
    · have : (1 : ℝ) ≤ k := by exact_mod_cast hk1
      rw [hat_eq_zero, hat_eq_zero, mul_zero]
      · rw [abs_of_nonpos (by linarith)]; linarith
      · rw [abs_of_nonpos (by linarith)]; linarith
  · push Not at hq
    by_cases hq1 : q ≤ ((n - 1 : ℕ) : ℝ)
    · exact ⟨1, one_pos, fun k _ => by rw [min_eq_left hq1, max_eq_right hq, one_mul]⟩
    · push Not at hq1
      refine ⟨n - q, by linarith, fun k hk => ?_⟩
      rw [min_eq_right hq1.le, max_eq_right (Nat.cast_nonneg _)]
      rw [hc] at hq1 ⊢
      by_cases hkn : k = n - 1
      · have : (k : ℝ) = n - 1 := by rw [hkn, hc]
        rw [this, sub_self, hat_zero, mul_one]
        unfold hat
        rw [abs_of_pos (by linarith), max_eq_right (by linarith)]; ring
      · have : (k : ℝ) ≤ n - 2 := by
          have : ((k + 2 : ℕ) : ℝ) ≤ n := by exact_mod_cast (by omega : k + 2 ≤ n)
          push_cast at this; linarith
        rw [hat_eq_zero, hat_eq_zero, mul_zero]
        · rw [abs_of_nonneg (by linarith)]; linarith
        · rw [abs_of_nonneg (by linarith)]; linarith

theorem clamp_rel {m d x : ℝ} (hd : 0 < d) (n : ℕ) :
    (max m (min x (m + n * d)) - m) / d = max 0 (min ((x - m) / d) n) := by
  rw [max_sub_sub_right m (min x (m + n * d)) m |>.symm, min_sub_sub_right x (m + n * d) m |>.symm,
    ← max_div_div_right hd.le, ← min_div_div_right hd.le, sub_self, zero_div,
    show (m + n * d - m) / d = n by field_simp; ring]

/-- C77. Up to one node distance outside the grid, `GetZ` is the value at the nearest point of the
grid. -/
theorem getZ_outside {s : RegSurf} {z : ℕ → ℕ → ℝ} (hs : HasNodes s z) (hdx : 0 < s.dx)
    (hdy : 0 < s.dy) (hni : 1 ≤ s.grid.ni) (hnj : 1 ≤ s.grid.nj)
    {x y : ℝ} (hx0 : s.x_min - s.dx < x) (hx1 : x < nodeX s (s.grid.ni - 1) + s.dx)
    (hy0 : s.y_min - s.dy < y) (hy1 : y < nodeY s (s.grid.nj - 1) + s.dy)
    (hbi : s.grid.ni < 2 ^ 31 - 1) (hbj : s.grid.nj < 2 ^ 31 - 1) :
    s.getZ x y = s.getZ (max s.x_min (min x (nodeX s (s.grid.ni - 1))))
      (max s.y_min (min y (nodeY s (s.grid.nj - 1)))) := by
  have cx := clamp_rel (m := s.x_min) (x := x) hdx (s.grid.ni - 1)
  have cy := clamp_rel (m := s.y_min) (x := y) hdy (s.grid.nj - 1)
  change (max s.x_min (min x (nodeX s (s.grid.ni - 1))) - s.x_min) / s.dx = _ at cx
  change (max s.y_min (min y (nodeY s (s.grid.nj - 1))) - s.y_min) / s.dy = _ at cy
  generalize hX : max s.x_min (min x (nodeX s (s.grid.ni - 1))) = x' at *
  generalize hY : max s.y_min (min y (nodeY s (s.grid.nj - 1))) = y' at *
  have eI : ((s.grid.ni - 1 : ℕ) : ℝ) = s.grid.ni - 1 := by push_cast [Nat.cast_sub hni]; ring
  have eJ : ((s.grid.nj - 1 : ℕ) : ℝ) = s.grid.nj - 1 := by push_cast [Nat.cast_sub hnj]; ring
  have q0 : -1 < (x - s.x_min) / s.dx := by rw [lt_div_iff₀ hdx]; linarith
  have q1 : (x - s.x_min) / s.dx < s.grid.ni := by
    rw [div_lt_iff₀ hdx]
    simp only [nodeX, RegSurf.getXY, eI] at hx1
    linarith
  have r0 : -1 < (y - s.y_min) / s.dy := by rw [lt_div_iff₀ hdy]; linarith
  have r1 : (y - s.y_min) / s.dy < s.grid.nj := by
    rw [div_lt_iff₀ hdy]
    simp only [nodeY, RegSurf.getXY, eJ] at hy1
    linarith
  obtain ⟨κ, hκ, h1⟩ := hat_clamp hni q0 q1
  obtain ⟨μ, hμ, h2⟩ := hat_clamp hnj r0 r1
  have hr : InReach s x y :=
    ⟨reach_of (n := s.grid.ni) hbi q0.le q1.le, reach_of (n := s.grid.nj) hbj r0.le r1.le⟩
  have hr' : InReach s x' y' := by
    unfold InReach
    rw [cx, cy]
    refine ⟨reach_of (n := s.grid.ni) hbi ?_ ?_, reach_of (n := s.grid.nj) hbj ?_ ?_⟩
    · exact le_trans (by norm_num) (le_max_left _ _)
    · exact max_le (Nat.cast_nonneg _) (le_trans (min_le_right _ _) (by rw [eI]; linarith))
    · exact le_trans (by norm_num) (le_max_left _ _)
    · exact max_le (Nat.cast_nonneg _) (le_trans (min_le_right _ _) (by rw [eJ]; linarith))
  have hw : ∀ i ∈ Finset.range s.grid.ni, ∀ j ∈ Finset.range s.grid.nj,
      nodeWeight s.dx s.dy x y (nodeX s i) (nodeY s j)
        = κ * μ * nodeWeight s.dx s.dy x' y' (nodeX s i) (nodeY s j) := by
    intro i hi j hj
    rw [Finset.mem_range] at hi hj
    rw [nodeWeight, nodeWeight, rel_nodeX hs.dx_ne, rel_nodeY hs.dy_ne, rel_nodeX hs.dx_ne,
      rel_nodeY hs.dy_ne, h1 i hi, h2 j hj, cx, cy]
    ring
  have hW : weightAt s z x y = κ * μ * weightAt s z x' y' := by
    unfold weightAt totalWeight
    rw [Finset.mul_sum]
    refine Finset.sum_congr rfl fun i hi => ?_
    rw [Finset.mul_sum]
    refine Finset.sum_congr rfl fun j hj => ?_
    split
    · exact hw i hi j hj
    · ring
  have hV : sumAt s z x y = κ * μ * sumAt s z x' y' := by
    unfold sumAt weightedSum
    rw [Finset.mul_sum]
    refine Finset.sum_congr rfl fun i hi => ?_
    rw [Finset.mul_sum]
    refine Finset.sum_congr rfl fun j hj => ?_
    split
    · rw [hw i hi j hj]; ring
    · ring
  have hκμ : κ * μ ≠ 0 := (mul_pos hκ hμ).ne'
  rw [getZ_weighted hs hr, getZ_weighted hs hr', hW, hV]
  by_cases h0 : weightAt s z x' y' = 0
  · rw [if_pos h0, if_pos (by rw [h0, mul_zero])]
  · rw [if_neg h0, if_neg (mul_ne_zero hκμ h0), mul_div_mul_left _ _ hκμ]

end Verif
