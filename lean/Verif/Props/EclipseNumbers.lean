import Verif.Model.EclipseGeometry
import Verif.Lemmas.Outcome
import Mathlib.Tactic.Ring

/-!
# C145: cells, corners and pillars of a corner-point grid
-/

namespace Verif

open Geo

namespace EclipseGeometry

theorem getIJK_getIndex (g : EclipseGeometry) {i j k : ℕ} (hi : i < g.ni) (hj : j < g.nj) :
    g.getIJK (g.getIndex i j k) = (i, j, k) := by
  have n0 : 0 < g.ni := by omega
  have m0 : 0 < g.nj := by omega
  have e : g.getIndex i j k = i + g.ni * (j + g.nj * k) := by unfold getIndex; ring
  have h1 : g.getIndex i j k % g.ni = i := by rw [e, Nat.add_mul_mod_self_left, Nat.mod_eq_of_lt hi]
  have h2 : (g.getIndex i j k - i) / g.ni % g.nj = j := by
    rw [e, Nat.add_sub_cancel_left, Nat.mul_div_cancel_left _ n0, Nat.add_mul_mod_self_left, Nat.mod_eq_of_lt hj]
  have h3 : (g.getIndex i j k - j * g.ni - i) / g.ni / g.nj = k := by
    rw [show g.getIndex i j k - j * g.ni - i = g.ni * (g.nj * k) by
      rw [show g.getIndex i j k = i + j * g.ni + g.ni * (g.nj * k) by unfold getIndex; ring]; omega,
      Nat.mul_div_cancel_left _ n0, Nat.mul_div_cancel_left _ m0]
  simp only [getIJK, h1, h2, h3]

end EclipseGeometry

/-- **C145 (cells).** The number of a cell is less than the number of cells, and gives the cell back; and the cell of a number is in
the grid, and gives the number back. -/
theorem eclipse_cells (g : EclipseGeometry) :
    (∀ i j k, i < g.ni → j < g.nj → k < g.nk → g.getIndex i j k < g.ni * g.nj * g.nk ∧ g.getIJK (g.getIndex i j k) = (i, j, k)) ∧
    ∀ n, n < g.ni * g.nj * g.nk → ∃ i j k, g.getIJK n = (i, j, k) ∧ i < g.ni ∧ j < g.nj ∧ k < g.nk ∧ g.getIndex i j k = n := by
  refine ⟨fun i j k hi hj hk => ⟨?_, g.getIJK_getIndex hi hj⟩, fun n hn => ?_⟩
  · have h1 : i + j * g.ni + 1 ≤ g.ni * g.nj := by nlinarith
    have h2 : g.ni * g.nj * (k + 1) ≤ g.ni * g.nj * g.nk := Nat.mul_le_mul_left _ hk
    unfold EclipseGeometry.getIndex
    have h3 : k * g.ni * g.nj = g.ni * g.nj * k := by ring
    have h4 : g.ni * g.nj * (k + 1) = g.ni * g.nj * k + g.ni * g.nj := by ring
    omega
  · have n0 : 0 < g.ni := Nat.pos_of_ne_zero fun h => by rw [h] at hn; simp at hn
    have m0 : 0 < g.nj := Nat.pos_of_ne_zero fun h => by rw [h] at hn; simp at hn
    have hi := Nat.mod_lt n n0
    have hj := Nat.mod_lt (n / g.ni) m0
    have hk : n / g.ni / g.nj < g.nk := by
      rw [Nat.div_div_eq_div_mul]
      exact Nat.div_lt_of_lt_mul hn
    have e : g.getIndex (n % g.ni) (n / g.ni % g.nj) (n / g.ni / g.nj) = n := by
      have a1 := Nat.mod_add_div n g.ni
      have a2 := Nat.mod_add_div (n / g.ni) g.nj
      calc g.getIndex (n % g.ni) (n / g.ni % g.nj) (n / g.ni / g.nj)
          = n % g.ni + g.ni * (n / g.ni % g.nj + g.nj * (n / g.ni / g.nj)) := by unfold EclipseGeometry.getIndex; ring
        _ = n := by rw [a2, a1]
    exact ⟨_, _, _, by rw [← g.getIJK_getIndex hi hj, e], hi, hj, hk, e⟩

/-- Cell `(i, j, k)` and its corner `(a, b, c)` are in the grid. -/
def Spec.IsCorner (g : EclipseGeometry) (t : ℕ × ℕ × ℕ × ℕ × ℕ × ℕ) : Prop :=
  t.1 < g.ni ∧ t.2.1 < g.nj ∧ t.2.2.1 < g.nk ∧ t.2.2.2.1 < 2 ∧ t.2.2.2.2.1 < 2 ∧ t.2.2.2.2.2 < 2

/-- **C145 (corners).** The depths of the corners are stored without a gap and without sharing: every place of the vector belongs to
one corner of one cell. -/
theorem eclipse_corners (g : EclipseGeometry) :
    (∀ t, Spec.IsCorner g t → g.findZCornerIndex t.1 t.2.1 t.2.2.1 t.2.2.2.1 t.2.2.2.2.1 t.2.2.2.2.2 < 8 * g.ni * g.nj * g.nk) ∧
    ∀ n, n < 8 * g.ni * g.nj * g.nk →
      ∃! t, Spec.IsCorner g t ∧ g.findZCornerIndex t.1 t.2.1 t.2.2.1 t.2.2.2.1 t.2.2.2.2.1 t.2.2.2.2.2 = n := by
  set h : EclipseGeometry := { g with ni := 2 * g.ni, nj := 2 * g.nj, nk := 2 * g.nk } with hh
  have e : ∀ i j k a b c, g.findZCornerIndex i j k a b c = h.getIndex (2 * i + a) (2 * j + b) (2 * k + c) := by
    intro i j k a b c
    simp only [EclipseGeometry.findZCornerIndex, EclipseGeometry.getIndex, hh]
    ring
  have N : h.ni * h.nj * h.nk = 8 * g.ni * g.nj * g.nk := by simp only [hh]; ring
  obtain ⟨c1, c2⟩ := eclipse_cells h
  constructor
  · rintro ⟨i, j, k, a, b, c⟩ ⟨hi, hj, hk, ha, hb, hc⟩
    simp only at hi hj hk ha hb hc ⊢
    rw [e, ← N]
    exact (c1 _ _ _ (by simp only [hh]; omega) (by simp only [hh]; omega) (by simp only [hh]; omega)).1
  · intro n hn
    rw [← N] at hn
    obtain ⟨i, j, k, e1, hi, hj, hk, e2⟩ := c2 n hn
    simp only [hh] at hi hj hk
    refine ⟨(i / 2, j / 2, k / 2, i % 2, j % 2, k % 2), ⟨⟨?_, ?_, ?_, ?_, ?_, ?_⟩, ?_⟩, ?_⟩
    iterate 6 (simp only; omega)
    · simp only
      rw [e, ← e2]
      congr 1 <;> omega
    · rintro ⟨i', j', k', a, b, c⟩ ⟨⟨hi', hj', hk', ha, hb, hc⟩, en⟩
      simp only at hi' hj' hk' ha hb hc en
      rw [e] at en
      have r := h.getIJK_getIndex (i := 2 * i' + a) (j := 2 * j' + b) (k := 2 * k' + c) (by simp only [hh]; omega)
        (by simp only [hh]; omega)
      rw [en, e1] at r
      simp only [Prod.mk.injEq] at r ⊢
      omega

/-- **C145 (setting a corner).** A depth that is set is the one that is got, and the depths of all other corners are kept. -/
theorem eclipse_set_corner (g : EclipseGeometry) {i j k a b c i' j' k' a' b' c' : ℕ} (z : ℝ) (h : Spec.IsCorner g (i, j, k, a, b, c))
    (h' : Spec.IsCorner g (i', j', k', a', b', c')) :
    (g.setZCorner i j k a b c z).getZCorner i' j' k' a' b' c' =
      if (i', j', k', a', b', c') = (i, j, k, a, b, c) then z else g.getZCorner i' j' k' a' b' c' := by
  obtain ⟨c1, c2⟩ := eclipse_corners g
  obtain ⟨t, -, u⟩ := c2 _ (c1 _ h)
  show Function.update g.zCorners (g.findZCornerIndex i j k a b c) z (g.findZCornerIndex i' j' k' a' b' c') = _
  split
  · rename_i e
    simp only [Prod.mk.injEq] at e
    obtain ⟨rfl, rfl, rfl, rfl, rfl, rfl⟩ := e
    rw [Function.update_self]
  · rename_i e
    rw [Function.update_of_ne]
    · rfl
    · intro e'
      exact e ((u _ ⟨h', e'⟩).trans (u _ ⟨h, rfl⟩).symm)

/-- The numbers of the pillars in the order of a file: six of each, pillar by pillar along the first axis. -/
def Spec.coordData (ni nj : ℕ) (P : ℕ → ℕ → Line) : List ℝ :=
  (List.range (nj + 1)).flatMap fun j => (List.range (ni + 1)).flatMap fun i =>
    [(P i j).p1.x, (P i j).p1.y, (P i j).p1.z, (P i j).p2.x, (P i j).p2.y, (P i j).p2.z]

namespace EclipseGeometry

theorem range_flatMap_getElem {β : Type} (f : ℕ → List β) {k : ℕ} (hf : ∀ x, (f x).length = k) {n m r : ℕ} (hm : m < n) (hr : r < k) :
    ((List.range n).flatMap f)[k * m + r]? = (f m)[r]? := by
  induction n with
  | zero => omega
  | succ n ih =>
    have hl : ((List.range n).flatMap f).length = k * n := by
      clear ih hm
      induction n with
      | zero => simp
      | succ n ih => rw [List.range_succ, List.flatMap_append, List.length_append, ih]; simp [hf]; ring
    rw [List.range_succ, List.flatMap_append]
    rcases Nat.lt_succ_iff_lt_or_eq.1 hm with h | rfl
    · have : k * (m + 1) ≤ k * n := Nat.mul_le_mul_left _ h
      rw [List.getElem?_append_left (by rw [hl]; rw [Nat.mul_succ] at this; omega), ih h]
    · rw [List.getElem?_append_right (by omega), hl, Nat.add_sub_cancel_left]
      simp

theorem coordData_getElem {ni nj : ℕ} (P : ℕ → ℕ → Line) {i j r : ℕ} (hi : i ≤ ni) (hj : j ≤ nj) (hr : r < 6) :
    (Spec.coordData ni nj P)[6 * i + 6 * j * (ni + 1) + r]? =
      [(P i j).p1.x, (P i j).p1.y, (P i j).p1.z, (P i j).p2.x, (P i j).p2.y, (P i j).p2.z][r]? := by
  unfold Spec.coordData
  rw [show 6 * i + 6 * j * (ni + 1) + r = (6 * (ni + 1)) * j + (6 * i + r) by ring,
    range_flatMap_getElem _ (k := 6 * (ni + 1)) _ (by omega) (by omega), range_flatMap_getElem _ (k := 6) _ (by omega) hr]
  · intro x; rfl
  · intro x
    rw [List.length_flatMap]
    simp
    ring

theorem coordLine_coordData {ni nj : ℕ} (P : ℕ → ℕ → Line) {i j : ℕ} (hi : i ≤ ni) (hj : j ≤ nj) :
    coordLine (Spec.coordData ni nj P) (6 * i + 6 * j * (ni + 1)) = .ok ⟨(P i j).p1, (P i j).p2, true, true⟩ := by
  have h := fun r hr => coordData_getElem (ni := ni) (nj := nj) P (r := r) hi hj hr
  have h0 := h 0 (by norm_num)
  have h1 := h 1 (by norm_num)
  have h2 := h 2 (by norm_num)
  have h3 := h 3 (by norm_num)
  have h4 := h 4 (by norm_num)
  have h5 := h 5 (by norm_num)
  rw [add_zero] at h0
  simp only [coordLine, rd, Res.monad_bind_eq, h0, h1, h2, h3, h4, h5]
  rfl

end EclipseGeometry

open EclipseGeometry in
/-- **C145 (pillars).** Setting the numbers of the pillars in the order of a file gives the grid these pillars, and changes nothing
else. -/
theorem eclipse_coord (g : EclipseGeometry) (P : ℕ → ℕ → Line) :
    ∃ g', g.setCoord (Spec.coordData g.ni g.nj P) = .ok g' ∧ g' = { g with pillars := g'.pillars } ∧
      ∀ i j, i ≤ g.ni → j ≤ g.nj → g'.pillars i j = ⟨(P i j).p1, (P i j).p2, true, true⟩ := by
  have outer := forRange_sat (lo := 0) (hi := g.nj + 1)
    (fun m (g' : EclipseGeometry) => g' = { g with pillars := g'.pillars } ∧
      ∀ i j, i ≤ g.ni → j < m → g'.pillars i j = ⟨(P i j).p1, (P i j).p2, true, true⟩)
    (by omega) (body := fun j g' => forRange 0 (g'.ni + 1) (setCoordAt (Spec.coordData g.ni g.nj P) j) g') (s := g) ⟨rfl, fun i j _ hj => absurd hj (by omega)⟩ (by
      intro j g₁ h0 hj ⟨e₁, h₁⟩
      have n1 : g₁.ni = g.ni := by rw [e₁]
      have inner := forRange_sat (lo := 0) (hi := g.ni + 1)
        (fun m (g' : EclipseGeometry) => g' = { g with pillars := g'.pillars } ∧
          (∀ i j', i ≤ g.ni → j' < j → g'.pillars i j' = ⟨(P i j').p1, (P i j').p2, true, true⟩) ∧
          ∀ i, i < m → g'.pillars i j = ⟨(P i j).p1, (P i j).p2, true, true⟩)
        (by omega) (body := setCoordAt (Spec.coordData g.ni g.nj P) j) (s := g₁) ⟨e₁, h₁, fun i hi => absurd hi (by omega)⟩ (by
          intro i g₂ h0 hi ⟨e₂, h₂, h₃⟩
          have n2 : g₂.ni = g.ni := by rw [e₂]
          refine ⟨{ g₂ with pillars := Function.update g₂.pillars i (Function.update (g₂.pillars i) j ⟨(P i j).p1, (P i j).p2, true, true⟩) },
            ?_, ?_, ?_, ?_⟩
          · unfold setCoordAt
            rw [n2, coordLine_coordData P (by omega) (by omega)]
            rfl
          · rw [e₂]
          · intro i' j' hi' hj'
            simp only
            by_cases hc : i' = i
            · subst hc
              rw [Function.update_self, Function.update_of_ne (by omega)]
              exact h₂ _ _ hi' hj'
            · rw [Function.update_of_ne hc]
              exact h₂ _ _ hi' hj'
          · intro i' hi'
            simp only
            by_cases hc : i' = i
            · subst hc
              rw [Function.update_self, Function.update_self]
            · rw [Function.update_of_ne hc]
              exact h₃ _ (by omega))
      obtain ⟨g', r, e', h', h''⟩ := inner
      refine ⟨g', by rw [n1]; exact r, e', fun i j' hi hj' => ?_⟩
      rcases Nat.lt_succ_iff_lt_or_eq.1 hj' with h | rfl
      · exact h' _ _ hi h
      · exact h'' _ (by omega))
  obtain ⟨g', r, e', h'⟩ := outer
  exact ⟨g', r, e', fun i j hi hj => h' i j hi (by omega)⟩

/-- **C145 (violation).** The number of the numbers is not checked: too few are read beyond the end. -/
theorem eclipse_coord_violation (g : EclipseGeometry) : g.setCoord [] = .ub "read out of range" := rfl

/-- **C145 (corners on pillars).** A corner of a cell has the depth of the corner and is on the pillar at this corner, which the
neighbours share: it is a point of the line through the two points of the pillar, unless these have the same depth. -/
theorem eclipse_corner_on_pillar (g : EclipseGeometry) (i j k a b c : ℕ) :
    (g.findCornerPoint i j k a b c).z = g.getZCorner i j k a b c ∧
    ((g.pillars (i + a) (j + b)).p1.z ≠ (g.pillars (i + a) (j + b)).p2.z →
      ∃ t : ℝ, g.findCornerPoint i j k a b c =
        (g.pillars (i + a) (j + b)).p1 + t * ((g.pillars (i + a) (j + b)).p2 - (g.pillars (i + a) (j + b)).p1)) := by
  unfold EclipseGeometry.findCornerPoint EclipseGeometry.findPointAtPillar
  simp only
  set p := (g.pillars (i + a) (j + b)).p1
  set q := (g.pillars (i + a) (j + b)).p2
  set z := g.getZCorner i j k a b c
  constructor
  · split <;> rfl
  · intro h
    have h' : (q - p).z ≠ 0.0 := by
      show q.z - p.z ≠ 0.0
      norm_num
      exact sub_ne_zero.2 (Ne.symm h)
    rw [if_neg h']
    refine ⟨(z - p.z) / (q - p).z, ?_⟩
    ext
    · show _ = p.x + (q - p).x * _; ring
    · show _ = p.y + (q - p).y * _; ring
    · show z = p.z + (q - p).z * ((z - p.z) / (q - p).z)
      norm_num at h'
      field_simp
      ring

/-- A grid of 2 by 3 by 4 cells: cell 17, the corner at place 100, and a pillar. -/
theorem eclipse_numbers_example : ∃ g : EclipseGeometry, (g.ni, g.nj, g.nk) = (2, 3, 4) ∧ g.getIJK 17 = (1, 2, 2) ∧
    g.getIndex 1 2 2 = 17 ∧ g.findZCornerIndex 0 0 2 0 1 0 = 100 ∧ Spec.IsCorner g (0, 0, 2, 0, 1, 0) :=
  ⟨⟨2, 3, 4, [], [], fun i j => ⟨⟨i, j, 0⟩, ⟨i, j, 1⟩, true, true⟩, fun _ _ => true, fun _ => 0, fun _ _ _ => true⟩,
    rfl, rfl, rfl, rfl, by decide, by decide, by decide, by decide, by decide, by decide⟩

end Verif
