import Verif.Lemmas.Surface
import Mathlib.Topology.Algebra.Order.Field
import Mathlib.Topology.Algebra.Monoid
import Mathlib.Topology.Order.Lattice
import Mathlib.Topology.Algebra.Order.Group
import Mathlib.Topology.Instances.Real.Lemmas

/-! # Surfaces: values between the nodes -/

namespace Verif

/-- `s` is a surface whose node `(i, j)` holds `z i j`; the sizes are values of `int`, and the node
distances are not zero. -/
structure HasNodes (s : RegSurf) (z : ℕ → ℕ → ℝ) : Prop where
  read : ∀ i j, i < s.grid.ni → j < s.grid.nj → s.grid.get i j = .ok (z i j)
  ni_lt : s.grid.ni < 2 ^ 31
  nj_lt : s.grid.nj < 2 ^ 31
  dx_ne : s.dx ≠ 0
  dy_ne : s.dy ≠ 0

/-- `(x, y)` is less than about two milliard node distances away from the grid. -/
def InReach (s : RegSurf) (x y : ℝ) : Prop :=
  (-2 ^ 31 ≤ (x - s.x_min) / s.dx ∧ (x - s.x_min) / s.dx < 2 ^ 31 - 1)
    ∧ (-2 ^ 31 ≤ (y - s.y_min) / s.dy ∧ (y - s.y_min) / s.dy < 2 ^ 31 - 1)

/-- The first coordinate of the nodes `(i, ·)`. -/
noncomputable def nodeX (s : RegSurf) (i : ℕ) : ℝ := (s.getXY i 0).1

/-- The second coordinate of the nodes `(·, j)`. -/
noncomputable def nodeY (s : RegSurf) (j : ℕ) : ℝ := (s.getXY 0 j).2

/-- The total weight at `(x, y)` of the nodes of `s` that have a value. -/
noncomputable def weightAt (s : RegSurf) (z : ℕ → ℕ → ℝ) (x y : ℝ) : ℝ :=
  totalWeight s.grid.ni s.grid.nj (nodeX s) (nodeY s) s.dx s.dy (fun i j => z i j ≠ s.missing) x y

/-- The weighted sum at `(x, y)` of the values of the nodes of `s` that have one. -/
noncomputable def sumAt (s : RegSurf) (z : ℕ → ℕ → ℝ) (x y : ℝ) : ℝ :=
  weightedSum s.grid.ni s.grid.nj (nodeX s) (nodeY s) s.dx s.dy (fun i j => z i j ≠ s.missing) z
    x y

theorem inInt_of {q : ℝ} (h : -2 ^ 31 ≤ q ∧ q < 2 ^ 31 - 1) : RegSurf.InInt q := by
  obtain ⟨h0, h1⟩ := h
  norm_num at h0 h1
  refine ⟨Int.le_floor.mpr (by norm_num; exact h0), ?_⟩
  have : ⌊q⌋ < 2 ^ 31 - 1 := Int.floor_lt.mpr (by norm_num; exact h1)
  omega

theorem weightAt_eq_four {s : RegSurf} (z : ℕ → ℕ → ℝ) (hdx : s.dx ≠ 0) (hdy : s.dy ≠ 0) (x y : ℝ) :
    weightAt s z x y = RegSurf.four s z ⌊(x - s.x_min) / s.dx⌋ ⌊(y - s.y_min) / s.dy⌋
      (Int.fract ((x - s.x_min) / s.dx)) (Int.fract ((y - s.y_min) / s.dy)) (fun _ => 1) := by
  rw [RegSurf.four_eq_sum s z hdx hdy x y]
  unfold weightAt totalWeight
  refine Finset.sum_congr rfl fun i _ => Finset.sum_congr rfl fun j _ => ?_
  simp only [nodeX, nodeY, RegSurf.getXY, mul_one]
  congr

theorem sumAt_eq_four {s : RegSurf} (z : ℕ → ℕ → ℝ) (hdx : s.dx ≠ 0) (hdy : s.dy ≠ 0) (x y : ℝ) :
    sumAt s z x y = RegSurf.four s z ⌊(x - s.x_min) / s.dx⌋ ⌊(y - s.y_min) / s.dy⌋
      (Int.fract ((x - s.x_min) / s.dx)) (Int.fract ((y - s.y_min) / s.dy)) id := by
  rw [RegSurf.four_eq_sum s z hdx hdy x y]
  unfold sumAt weightedSum
  refine Finset.sum_congr rfl fun i _ => Finset.sum_congr rfl fun j _ => ?_
  simp only [nodeX, nodeY, RegSurf.getXY, id]
  congr

/-- C77. `GetZ` is the weighted average of the nodes that have a value, with the weights of bilinear
interpolation, at every point inside and outside the grid; it is the missing value where no such
node has weight. -/
theorem getZ_weighted {s : RegSurf} {z : ℕ → ℕ → ℝ} (hs : HasNodes s z) {x y : ℝ}
    (hr : InReach s x y) :
    s.getZ x y = .ok (if weightAt s z x y = 0 then s.missing
      else sumAt s z x y / weightAt s z x y) := by
  rw [RegSurf.getZ_four s hs.read hs.ni_lt hs.nj_lt hs.dx_ne hs.dy_ne (inInt_of hr.1)
    (inInt_of hr.2)]
  obtain ⟨κ, hκ, h⟩ := RegSurf.four_scale s z ((x - s.x_min) / s.dx) ((y - s.y_min) / s.dy)
  rw [h, h, ← weightAt_eq_four z hs.dx_ne hs.dy_ne, ← sumAt_eq_four z hs.dx_ne hs.dy_ne]
  by_cases h0 : weightAt s z x y = 0
  · rw [if_pos h0, if_pos (by rw [h0, mul_zero])]
  · rw [if_neg h0, if_neg (mul_ne_zero hκ h0), mul_div_mul_left _ _ hκ]

theorem hat_eq_zero {t : ℝ} (h : 1 ≤ |t|) : hat t = 0 := max_eq_left (by linarith)

theorem hat_pos {t : ℝ} (h : |t| < 1) : 0 < hat t := lt_max_of_lt_right (by linarith)

theorem hat_ne_zero {t : ℝ} : hat t ≠ 0 ↔ |t| < 1 :=
  ⟨fun h => by by_contra h'; exact h (hat_eq_zero (not_lt.mp h')), fun h => (hat_pos h).ne'⟩

theorem nodeWeight_nonneg (dx dy x y a b : ℝ) : 0 ≤ nodeWeight dx dy x y a b :=
  mul_nonneg (hat_nonneg _) (hat_nonneg _)

/-- C77. There is no weight exactly where every node closer than one node distance, in both
directions, is missing. -/
theorem weightAt_eq_zero {s : RegSurf} {z : ℕ → ℕ → ℝ} (hdx : s.dx ≠ 0) (hdy : s.dy ≠ 0)
    (x y : ℝ) :
    weightAt s z x y = 0 ↔ ∀ i j, i < s.grid.ni → j < s.grid.nj →
      |x - nodeX s i| < |s.dx| → |y - nodeY s j| < |s.dy| → z i j = s.missing := by
  have hlt : ∀ {a d : ℝ}, d ≠ 0 → (|a / d| < 1 ↔ |a| < |d|) := by
    intro a d hd
    rw [abs_div, div_lt_one (abs_pos.mpr hd)]
  unfold weightAt totalWeight
  rw [Finset.sum_eq_zero_iff_of_nonneg
    (fun i _ => Finset.sum_nonneg fun j _ => by split; exact nodeWeight_nonneg _ _ _ _ _ _; rfl)]
  constructor
  · intro h i j hi hj hx hy
    by_contra hm
    have h1 := h i (Finset.mem_range.mpr hi)
    rw [Finset.sum_eq_zero_iff_of_nonneg
      (fun j _ => by split; exact nodeWeight_nonneg _ _ _ _ _ _; rfl)] at h1
    have h2 := h1 j (Finset.mem_range.mpr hj)
    rw [if_pos hm] at h2
    exact (mul_pos (hat_pos ((hlt hdx).2 hx)) (hat_pos ((hlt hdy).2 hy))).ne' h2
  · intro h i hi
    refine Finset.sum_eq_zero fun j hj => ?_
    rw [Finset.mem_range] at hi hj
    split
    · rename_i hm
      by_contra h0
      have h1 : hat ((x - nodeX s i) / s.dx) ≠ 0 := left_ne_zero_of_mul h0
      have h2 : hat ((y - nodeY s j) / s.dy) ≠ 0 := right_ne_zero_of_mul h0
      exact hm (h i j hi hj ((hlt hdx).1 (hat_ne_zero.1 h1)) ((hlt hdy).1 (hat_ne_zero.1 h2)))
    · rfl

/-- C77. A point with no valid node closer than one node distance in both directions has no value. -/
theorem getZ_far {s : RegSurf} {z : ℕ → ℕ → ℝ} (hs : HasNodes s z) {x y : ℝ} (hr : InReach s x y)
    (h : ∀ i j, i < s.grid.ni → j < s.grid.nj →
      |x - nodeX s i| < |s.dx| → |y - nodeY s j| < |s.dy| → z i j = s.missing) :
    s.getZ x y = .ok s.missing := by
  rw [getZ_weighted hs hr, if_pos ((weightAt_eq_zero hs.dx_ne hs.dy_ne x y).2 h)]

theorem inReach_node {s : RegSurf} {z : ℕ → ℕ → ℝ} (hs : HasNodes s z) {i j : ℕ}
    (hi : i < s.grid.ni) (hj : j < s.grid.nj) : InReach s (nodeX s i) (nodeY s j) := by
  have hx : (nodeX s i - s.x_min) / s.dx = i := by
    have := hs.dx_ne
    simp only [nodeX, RegSurf.getXY]; field_simp; ring
  have hy : (nodeY s j - s.y_min) / s.dy = j := by
    have := hs.dy_ne
    simp only [nodeY, RegSurf.getXY]; field_simp; ring
  have hi' : (i : ℝ) < 2 ^ 31 - 1 := by
    have : i + 1 < 2 ^ 31 := by have := hs.ni_lt; omega
    have : ((i + 1 : ℕ) : ℝ) < ((2 ^ 31 : ℕ) : ℝ) := by exact_mod_cast this
    push_cast at this; linarith
  have hj' : (j : ℝ) < 2 ^ 31 - 1 := by
    have : j + 1 < 2 ^ 31 := by have := hs.nj_lt; omega
    have : ((j + 1 : ℕ) : ℝ) < ((2 ^ 31 : ℕ) : ℝ) := by exact_mod_cast this
    push_cast at this; linarith
  unfold InReach
  rw [hx, hy]
  exact ⟨⟨by have : (0 : ℝ) ≤ i := Nat.cast_nonneg i
             linarith [show (0 : ℝ) ≤ 2 ^ 31 by positivity], hi'⟩,
    by have : (0 : ℝ) ≤ j := Nat.cast_nonneg j
       linarith [show (0 : ℝ) ≤ 2 ^ 31 by positivity], hj'⟩

theorem hat_nat_sub (i k : ℕ) : hat ((i : ℝ) - k) = if k = i then 1 else 0 := by
  have := hat_sub (i : ℝ) (k : ℤ)
  simp only [Int.floor_natCast, Int.fract_natCast, sub_zero, Int.cast_natCast, ite_self, add_zero]
    at this
  rw [this]
  by_cases h : k = i
  · rw [if_pos (by exact_mod_cast h), if_pos h]
  · rw [if_neg (by exact_mod_cast h), if_neg h]

theorem nodeWeight_node {s : RegSurf} (hdx : s.dx ≠ 0) (hdy : s.dy ≠ 0) (i j k l : ℕ) :
    nodeWeight s.dx s.dy (nodeX s i) (nodeY s j) (nodeX s k) (nodeY s l)
      = if k = i ∧ l = j then 1 else 0 := by
  have hx : (nodeX s i - nodeX s k) / s.dx = (i : ℝ) - k := by
    simp only [nodeX, RegSurf.getXY]; field_simp; ring
  have hy : (nodeY s j - nodeY s l) / s.dy = (j : ℝ) - l := by
    simp only [nodeY, RegSurf.getXY]; field_simp; ring
  rw [nodeWeight, hx, hy, hat_nat_sub, hat_nat_sub]
  by_cases h1 : k = i <;> by_cases h2 : l = j <;> simp [h1, h2]

/-- C77. At a node, `GetZ` is the value of the node, and the missing value if the node has none. -/
theorem getZ_node {s : RegSurf} {z : ℕ → ℕ → ℝ} (hs : HasNodes s z) {i j : ℕ}
    (hi : i < s.grid.ni) (hj : j < s.grid.nj) :
    s.getZ (s.getXY i j).1 (s.getXY i j).2 = .ok (z i j) := by
  change s.getZ (nodeX s i) (nodeY s j) = _
  rw [getZ_weighted hs (inReach_node hs hi hj)]
  have w1 : nodeWeight s.dx s.dy (nodeX s i) (nodeY s j) (nodeX s i) (nodeY s j) = 1 := by
    rw [nodeWeight_node hs.dx_ne hs.dy_ne, if_pos ⟨rfl, rfl⟩]
  have w0 : ∀ k l, ¬ (k = i ∧ l = j) →
      nodeWeight s.dx s.dy (nodeX s i) (nodeY s j) (nodeX s k) (nodeY s l) = 0 := by
    intro k l h
    rw [nodeWeight_node hs.dx_ne hs.dy_ne, if_neg h]
  have hW : weightAt s z (nodeX s i) (nodeY s j) = if z i j ≠ s.missing then 1 else 0 := by
    unfold weightAt totalWeight
    rw [Finset.sum_eq_single_of_mem i (Finset.mem_range.mpr hi), Finset.sum_eq_single_of_mem j
      (Finset.mem_range.mpr hj), w1]
    · congr
    · intro l _ hl
      rw [w0 _ _ (fun h => hl h.2), ite_self]
    · intro k _ hk
      refine Finset.sum_eq_zero fun l _ => ?_
      rw [w0 _ _ (fun h => hk h.1), ite_self]
  have hV : sumAt s z (nodeX s i) (nodeY s j) = if z i j ≠ s.missing then z i j else 0 := by
    unfold sumAt weightedSum
    rw [Finset.sum_eq_single_of_mem i (Finset.mem_range.mpr hi), Finset.sum_eq_single_of_mem j
      (Finset.mem_range.mpr hj), w1, one_mul]
    · congr
    · intro l _ hl
      rw [w0 _ _ (fun h => hl h.2), zero_mul, ite_self]
    · intro k _ hk
      refine Finset.sum_eq_zero fun l _ => ?_
      rw [w0 _ _ (fun h => hk h.1), zero_mul, ite_self]
  rw [hW, hV]
  by_cases hm : z i j = s.missing
  · simp [hm]
  · simp [hm]

/-- C77. Where `GetZ` gives a value, it lies between the smallest and the largest value of the nodes
around. -/
theorem getZ_between {s : RegSurf} {z : ℕ → ℕ → ℝ} (hs : HasNodes s z) {x y : ℝ}
    (hr : InReach s x y) {lo hi v : ℝ}
    (hb : ∀ i j, i < s.grid.ni → j < s.grid.nj → |x - nodeX s i| < |s.dx| →
      |y - nodeY s j| < |s.dy| → z i j ≠ s.missing → lo ≤ z i j ∧ z i j ≤ hi)
    (hv : s.getZ x y = .ok v) (hm : v ≠ s.missing) : lo ≤ v ∧ v ≤ hi := by
  rw [getZ_weighted hs hr] at hv
  have hv' := Res.ok.inj hv
  by_cases h0 : weightAt s z x y = 0
  · rw [if_pos h0] at hv'; exact absurd hv'.symm hm
  rw [if_neg h0] at hv'
  have hlt : ∀ {a d : ℝ}, d ≠ 0 → (|a / d| < 1 ↔ |a| < |d|) := by
    intro a d hd
    rw [abs_div, div_lt_one (abs_pos.mpr hd)]
  have hW : 0 ≤ weightAt s z x y := by
    unfold weightAt totalWeight
    exact Finset.sum_nonneg fun i _ => Finset.sum_nonneg fun j _ => by
      split
      · exact nodeWeight_nonneg _ _ _ _ _ _
      · rfl
  have hW' : 0 < weightAt s z x y := lt_of_le_of_ne hW (Ne.symm h0)
  have hterm : ∀ i ∈ Finset.range s.grid.ni, ∀ j ∈ Finset.range s.grid.nj,
      z i j ≠ s.missing → lo * nodeWeight s.dx s.dy x y (nodeX s i) (nodeY s j)
        ≤ nodeWeight s.dx s.dy x y (nodeX s i) (nodeY s j) * z i j ∧
        nodeWeight s.dx s.dy x y (nodeX s i) (nodeY s j) * z i j
        ≤ hi * nodeWeight s.dx s.dy x y (nodeX s i) (nodeY s j) := by
    intro i hi' j hj' hne
    rw [Finset.mem_range] at hi' hj'
    have hn := nodeWeight_nonneg s.dx s.dy x y (nodeX s i) (nodeY s j)
    by_cases hw : nodeWeight s.dx s.dy x y (nodeX s i) (nodeY s j) = 0
    · rw [hw]; simp
    · obtain ⟨h1, h2⟩ := hb i j hi' hj'
        ((hlt hs.dx_ne).1 (hat_ne_zero.1 (left_ne_zero_of_mul hw)))
        ((hlt hs.dy_ne).1 (hat_ne_zero.1 (right_ne_zero_of_mul hw))) hne
      constructor <;> nlinarith
  subst hv'
  constructor
  · rw [le_div_iff₀ hW']
    unfold weightAt totalWeight sumAt weightedSum
    rw [Finset.mul_sum]
    refine Finset.sum_le_sum fun i hi' => ?_
    rw [Finset.mul_sum]
    refine Finset.sum_le_sum fun j hj' => ?_
    split
    · rename_i hne; exact (hterm i hi' j hj' hne).1
    · rw [mul_zero]
  · rw [div_le_iff₀ hW']
    unfold weightAt totalWeight sumAt weightedSum
    rw [Finset.mul_sum]
    refine Finset.sum_le_sum fun i hi' => ?_
    rw [Finset.mul_sum]
    refine Finset.sum_le_sum fun j hj' => ?_
    split
    · rename_i hne; exact (hterm i hi' j hj' hne).2
    · rw [mul_zero]

/-- C77. The value is a continuous function of the point, wherever a node with a value is closer than
one node distance in both directions. -/
theorem getZ_continuous {s : RegSurf} {z : ℕ → ℕ → ℝ} (hs : HasNodes s z) :
    ∃ f : ℝ × ℝ → ℝ,
      ContinuousOn f {p | ∃ i j, i < s.grid.ni ∧ j < s.grid.nj ∧ |p.1 - nodeX s i| < |s.dx| ∧
        |p.2 - nodeY s j| < |s.dy| ∧ z i j ≠ s.missing} ∧
      ∀ x y, InReach s x y → (∃ i j, i < s.grid.ni ∧ j < s.grid.nj ∧ |x - nodeX s i| < |s.dx| ∧
        |y - nodeY s j| < |s.dy| ∧ z i j ≠ s.missing) → s.getZ x y = .ok (f (x, y)) := by
  have hne : ∀ x y, (∃ i j, i < s.grid.ni ∧ j < s.grid.nj ∧ |x - nodeX s i| < |s.dx| ∧
        |y - nodeY s j| < |s.dy| ∧ z i j ≠ s.missing) → weightAt s z x y ≠ 0 := by
    rintro x y ⟨i, j, hi, hj, hx, hy, hm⟩ h0
    exact hm ((weightAt_eq_zero hs.dx_ne hs.dy_ne x y).1 h0 i j hi hj hx hy)
  have hhat : Continuous hat := by unfold hat; fun_prop
  have hnw : ∀ i j, Continuous fun p : ℝ × ℝ =>
      nodeWeight s.dx s.dy p.1 p.2 (nodeX s i) (nodeY s j) := by
    intro i j
    unfold nodeWeight
    exact (hhat.comp (by fun_prop)).mul (hhat.comp (by fun_prop))
  refine ⟨fun p => sumAt s z p.1 p.2 / weightAt s z p.1 p.2, ?_, ?_⟩
  · refine ContinuousOn.div ?_ ?_ (fun p hp => hne p.1 p.2 hp)
    · refine Continuous.continuousOn ?_
      unfold sumAt weightedSum
      refine continuous_finset_sum _ fun i _ => continuous_finset_sum _ fun j _ => ?_
      by_cases hm : z i j ≠ s.missing
      · simp only [if_pos hm]; exact (hnw i j).mul continuous_const
      · simp only [if_neg hm]; exact continuous_const
    · refine Continuous.continuousOn ?_
      unfold weightAt totalWeight
      refine continuous_finset_sum _ fun i _ => continuous_finset_sum _ fun j _ => ?_
      by_cases hm : z i j ≠ s.missing
      · simp only [if_pos hm]; exact hnw i j
      · simp only [if_neg hm]; exact continuous_const
  · intro x y hr h
    rw [getZ_weighted hs hr, if_neg (hne x y h)]

end Verif
