import Verif.Lemmas.Grid

/-!
# C46: index and coordinates of grids
-/

namespace Verif

/-- **C46, two dimensions.** On a grid with `ni * nj` cells the index function is defined exactly
for the cells of the grid, is the Fortran-order index, hits every storage position exactly
once, and `GetIJ` inverts it. -/
theorem grid2D_index {α : Type} (ni nj : ℕ) (x : α) :
    let g := Grid2D.mk' ni nj x
    (∀ i j, i < ni → j < nj → ∃ n, g.getIndex i j = .ok n ∧ n = i + ni * j ∧ n < ni * nj ∧
      g.getIJ n = .ok (i, j)) ∧
    (∀ n, n < ni * nj → ∃ i j, g.getIJ n = .ok (i, j) ∧ i < ni ∧ j < nj ∧
      g.getIndex i j = .ok n) := by
  intro g
  have hlen : g.data.length = ni * nj := by simp [g, Grid2D.mk']
  have key : ∀ i j, i < ni → j < nj → g.getIndex i j = .ok (i + j * ni) ∧
      g.getIJ (i + j * ni) = .ok (i, j) := by
    intro i j hi hj
    refine ⟨by simp [g, Grid2D.mk', Grid2D.getIndex, hi, hj], ?_⟩
    unfold Grid2D.getIJ
    rw [if_pos (by rw [hlen]; exact idx2_lt hi hj)]
    have e1 : (i + j * ni) % ni = i := by
      rw [Nat.add_mul_mod_self_right, Nat.mod_eq_of_lt hi]
    simp only [g, Grid2D.mk', e1]
    rw [show i + j * ni - i = j * ni by omega, Nat.mul_div_cancel _ (by omega),
      Nat.mod_eq_of_lt hj]
  refine ⟨fun i j hi hj => ⟨i + j * ni, (key i j hi hj).1, by ring, idx2_lt hi hj,
    (key i j hi hj).2⟩, fun n hn => ?_⟩
  have hni : 0 < ni := Nat.pos_of_ne_zero (by rintro rfl; simp at hn)
  have hi : n % ni < ni := Nat.mod_lt _ hni
  have hj : n / ni < nj := Nat.div_lt_of_lt_mul hn
  have hn' : n % ni + n / ni * ni = n := by rw [mul_comm]; exact Nat.mod_add_div n ni
  obtain ⟨k1, k2⟩ := key _ _ hi hj
  rw [hn'] at k1 k2
  exact ⟨_, _, k2, hi, hj, k1⟩

example : (Grid2D.mk' 3 2 (0 : ℕ)).getIndex 2 1 = .ok 5 := rfl

/-- Outside the grid the index function fails its assertion. -/
theorem grid2D_index_outside {α : Type} (g : Grid2D α) (i j : ℕ) (h : ¬(i < g.ni ∧ j < g.nj)) :
    ∃ w, g.getIndex i j = .ub w := by
  simp [Grid2D.getIndex, h]

/-- `IsValidIndex` accepts exactly the cells of the grid. -/
theorem grid2D_isValidIndex {α : Type} (g : Grid2D α) (i j : ℤ) :
    g.isValidIndex i j = true ↔ ∃ a b : ℕ, (a : ℤ) = i ∧ (b : ℤ) = j ∧ a < g.ni ∧ b < g.nj := by
  simp only [Grid2D.isValidIndex, decide_eq_true_eq]
  constructor
  · rintro ⟨h1, h2, h3, h4⟩
    exact ⟨i.toNat, j.toNat, by omega, by omega, by omega, by omega⟩
  · rintro ⟨a, b, rfl, rfl, h1, h2⟩
    omega

/-- **C46, three dimensions.** -/
theorem grid3D_index {α : Type} (ni nj nk : ℕ) (x : α) :
    let g := Grid3D.mk' ni nj nk x
    (∀ i j k, i < ni → j < nj → k < nk → ∃ n, g.getIndex i j k = .ok n ∧
      n = i + ni * (j + nj * k) ∧ n < ni * nj * nk ∧ g.getIJK n = .ok (i, j, k)) ∧
    (∀ n, n < ni * nj * nk → ∃ i j k, g.getIJK n = .ok (i, j, k) ∧ i < ni ∧ j < nj ∧ k < nk ∧
      g.getIndex i j k = .ok n) := by
  intro g
  have hlen : g.data.length = ni * nj * nk := by simp [g, Grid3D.mk']
  have key : ∀ i j k, i < ni → j < nj → k < nk →
      g.getIndex i j k = .ok (i + j * ni + k * ni * nj) ∧
      g.getIJK (i + j * ni + k * ni * nj) = .ok (i, j, k) := by
    intro i j k hi hj hk
    refine ⟨by simp [g, Grid3D.mk', Grid3D.getIndex, hi, hj, hk], ?_⟩
    unfold Grid3D.getIJK
    rw [if_pos (by rw [hlen]; exact idx3_lt hi hj hk)]
    have e1 : (i + j * ni + k * ni * nj) % ni = i := by
      rw [idx3_eq, Nat.add_mul_mod_self_right, Nat.mod_eq_of_lt hi]
    have e2 : (i + j * ni + k * ni * nj - i) / ni % nj = j := by
      rw [idx3_eq, show i + (j + k * nj) * ni - i = (j + k * nj) * ni by omega,
        Nat.mul_div_cancel _ (by omega), Nat.add_mul_mod_self_right, Nat.mod_eq_of_lt hj]
    have e3 : (i + j * ni + k * ni * nj - j * ni - i) / ni / nj = k := by
      rw [show i + j * ni + k * ni * nj - j * ni - i = k * ni * nj by omega,
        show k * ni * nj = k * nj * ni by ring, Nat.mul_div_cancel _ (by omega),
        Nat.mul_div_cancel _ (by omega)]
    simp only [g, Grid3D.mk', e1, e2, e3]
  refine ⟨fun i j k hi hj hk => ⟨_, (key i j k hi hj hk).1, by ring, idx3_lt hi hj hk,
    (key i j k hi hj hk).2⟩, fun n hn => ?_⟩
  have hni : 0 < ni := Nat.pos_of_ne_zero (by rintro rfl; simp at hn)
  have hnj : 0 < nj := Nat.pos_of_ne_zero (by rintro rfl; simp at hn)
  have hi : n % ni < ni := Nat.mod_lt _ hni
  have hj : n / ni % nj < nj := Nat.mod_lt _ hnj
  have hk : n / ni / nj < nk := by
    refine Nat.div_lt_of_lt_mul (Nat.div_lt_of_lt_mul ?_)
    rwa [← mul_assoc]
  have h1 : n % ni + ni * (n / ni) = n := Nat.mod_add_div n ni
  have h2 : n / ni % nj + nj * (n / ni / nj) = n / ni := Nat.mod_add_div _ _
  have hn' : n % ni + n / ni % nj * ni + n / ni / nj * ni * nj = n := by
    rw [idx3_eq, mul_comm (n / ni / nj), h2, mul_comm, h1]
  obtain ⟨k1, k2⟩ := key _ _ _ hi hj hk
  rw [hn'] at k1 k2
  exact ⟨_, _, _, k2, hi, hj, hk, k1⟩

example : (Grid3D.mk' 3 2 4 (0 : ℕ)).getIJK 17 = .ok (2, 1, 2) := rfl

/-- A value written to a cell is read back from that cell, and no other cell changes. -/
theorem grid2D_get_set {α : Type} (g : Grid2D α) (hg : g.data.length = g.ni * g.nj) (i j : ℕ)
    (hi : i < g.ni) (hj : j < g.nj) (x : α) :
    ∃ g', g.set i j x = .ok g' ∧ g'.get i j = .ok x ∧
      ∀ a b, a < g.ni → b < g.nj → (a, b) ≠ (i, j) → g'.get a b = g.get a b := by
  obtain ⟨g', h, -, -, -, h4⟩ := g.set_sat hg hi hj x
  refine ⟨g', h, by rw [h4 i j hi hj]; simp, fun a b ha hb hne => ?_⟩
  rw [h4 a b ha hb, if_neg (fun h => hne (by rw [h.1, h.2]))]

theorem grid3D_get_set {α : Type} (g : Grid3D α) (hg : g.data.length = g.ni * g.nj * g.nk)
    (i j k : ℕ) (hi : i < g.ni) (hj : j < g.nj) (hk : k < g.nk) (x : α) :
    ∃ g', g.set i j k x = .ok g' ∧ g'.get i j k = .ok x ∧
      ∀ a b c, a < g.ni → b < g.nj → c < g.nk → (a, b, c) ≠ (i, j, k) →
        g'.get a b c = g.get a b c := by
  obtain ⟨g', h, -, -, -, -, h4⟩ := g.set_sat hg hi hj hk x
  refine ⟨g', h, by rw [h4 i j k hi hj hk]; simp, fun a b c ha hb hc hne => ?_⟩
  rw [h4 a b c ha hb hc, if_neg (fun h => hne (by rw [h.1, h.2.1, h.2.2]))]

example : ∃ g' , (Grid2D.mk' 2 2 (0:ℕ)).set 1 1 7 = .ok g' ∧ g'.get 1 1 = .ok 7 ∧
    g'.get 0 1 = .ok 0 := ⟨_, rfl, rfl, rfl⟩

end Verif
