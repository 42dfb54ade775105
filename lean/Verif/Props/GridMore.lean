import Verif.Model.GridMore
import Verif.Lemmas.Outcome
import Mathlib.Tactic.Ring
import Mathlib.Tactic.NormNum
import Mathlib.Order.Bounds.Basic
import Mathlib.Data.List.Induction
import Mathlib.Tactic.Linarith

/-!
# C129: four-dimensional grids, windows of grids, extremes of grids
-/

namespace Verif

theorem idx4_lt {ni nj nk nl i j k l : ℕ} (hi : i < ni) (hj : j < nj) (hk : k < nk) (hl : l < nl) :
    i + j * ni + k * ni * nj + l * ni * nj * nk < ni * nj * nk * nl := by
  have key : ∀ {a b n m : ℕ}, a < n → b < m → a + b * n < n * m := by
    intro a b n m ha hb
    calc a + b * n < n + b * n := by omega
      _ = n * (b + 1) := by ring
      _ ≤ n * m := Nat.mul_le_mul_left _ hb
  have h4 : i + (j + k * nj + l * (nj * nk)) * ni < nj * nk * nl * ni := by
    rw [mul_comm (nj * nk * nl)]
    exact key hi (key (key hj hk) hl)
  calc i + j * ni + k * ni * nj + l * ni * nj * nk
      = i + (j + k * nj + l * (nj * nk)) * ni := by ring
    _ < nj * nk * nl * ni := h4
    _ = ni * nj * nk * nl := by ring

/-- **C129, the numbers of the cells.** The cells of a new grid get the numbers below their number,
every number belongs to exactly one cell, and other indices are refused. -/
theorem grid4D_index {α : Type} (ni nj nk nl : ℕ) (x : α) :
    let g := Grid4D.mk' ni nj nk nl x
    (∀ i j k l, i < ni → j < nj → k < nk → l < nl →
      ∃ n, g.getIndex i j k l = .ok n ∧ n < ni * nj * nk * nl) ∧
    (∀ n, n < ni * nj * nk * nl → ∃! c : ℕ × ℕ × ℕ × ℕ,
      g.getIndex c.1 c.2.1 c.2.2.1 c.2.2.2 = .ok n) ∧
    (∀ i j k l, ¬ (i < ni ∧ j < nj ∧ k < nk ∧ l < nl) → ∃ w, g.getIndex i j k l = .ub w) := by
  intro g
  refine ⟨fun i j k l hi hj hk hl => ⟨_, if_pos ⟨hi, hj, hk, hl⟩, idx4_lt hi hj hk hl⟩,
    fun n hn => ?_, fun i j k l h => ⟨_, if_neg h⟩⟩
  have hni : 0 < ni := Nat.pos_of_ne_zero (by rintro rfl; simp at hn)
  have hnj : 0 < nj := Nat.pos_of_ne_zero (by rintro rfl; simp at hn)
  have hnk : 0 < nk := Nat.pos_of_ne_zero (by rintro rfl; simp at hn)
  refine ⟨(n % ni, n / ni % nj, n / ni / nj % nk, n / ni / nj / nk), ?_, ?_⟩
  · have hl : n / ni / nj / nk < nl := by
      rw [Nat.div_div_eq_div_mul, Nat.div_div_eq_div_mul]
      exact Nat.div_lt_of_lt_mul (by rw [← mul_assoc]; exact hn)
    have e : n % ni + n / ni % nj * ni + n / ni / nj % nk * ni * nj +
        n / ni / nj / nk * ni * nj * nk = n := by
      have h1 := Nat.mod_add_div n ni
      have h2 := Nat.mod_add_div (n / ni) nj
      have h3 := Nat.mod_add_div (n / ni / nj) nk
      calc n % ni + n / ni % nj * ni + n / ni / nj % nk * ni * nj + n / ni / nj / nk * ni * nj * nk
          = n % ni + ni * (n / ni % nj + nj * (n / ni / nj % nk + nk * (n / ni / nj / nk))) := by
            ring
        _ = n := by rw [h3, h2, h1]
    dsimp only [g, Grid4D.mk', Grid4D.getIndex]
    rw [if_pos ⟨Nat.mod_lt _ hni, Nat.mod_lt _ hnj, Nat.mod_lt _ hnk, hl⟩, e]
  · rintro ⟨i, j, k, l⟩ h
    dsimp only [g, Grid4D.mk', Grid4D.getIndex] at h
    split_ifs at h with hc
    obtain ⟨hi, hj, hk, hl⟩ := hc
    injection h with h
    have h' : n = i + (j + (k + l * nk) * nj) * ni := by rw [← h]; ring
    have e1 : n % ni = i := by rw [h', Nat.add_mul_mod_self_right, Nat.mod_eq_of_lt hi]
    have d1 : n / ni = j + (k + l * nk) * nj := by
      rw [h', Nat.add_mul_div_right _ _ hni, Nat.div_eq_of_lt hi, zero_add]
    have e2 : n / ni % nj = j := by rw [d1, Nat.add_mul_mod_self_right, Nat.mod_eq_of_lt hj]
    have d2 : n / ni / nj = k + l * nk := by
      rw [d1, Nat.add_mul_div_right _ _ hnj, Nat.div_eq_of_lt hj, zero_add]
    have e3 : n / ni / nj % nk = k := by rw [d2, Nat.add_mul_mod_self_right, Nat.mod_eq_of_lt hk]
    have d3 : n / ni / nj / nk = l := by
      rw [d2, Nat.add_mul_div_right _ _ hnk, Nat.div_eq_of_lt hk, zero_add]
    rw [e1, e2, e3, d3]

/-- **C129, values.** A value written to a cell is read back from it, and the values of the other
cells stay. -/
theorem grid4D_set_get {α : Type} (g : Grid4D α)
    (hg : g.data.length = g.ni * g.nj * g.nk * g.nl) {i j k l : ℕ} (hi : i < g.ni) (hj : j < g.nj)
    (hk : k < g.nk) (hl : l < g.nl) (x : α) :
    ∃ g', g.set i j k l x = .ok g' ∧ g'.data.length = g.data.length ∧
      (g'.ni, g'.nj, g'.nk, g'.nl) = (g.ni, g.nj, g.nk, g.nl) ∧ g'.get i j k l = .ok x ∧
      ∀ a b c d, (a, b, c, d) ≠ (i, j, k, l) → g'.get a b c d = g.get a b c d := by
  obtain ⟨ni, nj, nk, nl, data⟩ := g
  dsimp only at *
  have hlt : i + j * ni + k * ni * nj + l * ni * nj * nk < data.length := by
    rw [hg]; exact idx4_lt hi hj hk hl
  refine ⟨⟨ni, nj, nk, nl, data.set (i + j * ni + k * ni * nj + l * ni * nj * nk) x⟩, ?_,
    List.length_set, rfl, ?_, ?_⟩
  · simp only [Grid4D.set, Grid4D.getIndex]
    rw [if_pos ⟨hi, hj, hk, hl⟩, Res.bind_ok, wr_ok hlt, Res.bind_ok]
  · simp only [Grid4D.get, Grid4D.getIndex]
    rw [if_pos ⟨hi, hj, hk, hl⟩, Res.bind_ok, rd_ok (by rw [List.length_set]; exact hlt)]
    simp
  · intro a b c d hne
    simp only [Grid4D.get, Grid4D.getIndex]
    split_ifs with hc
    · rw [Res.bind_ok, Res.bind_ok]
      have hn : i + j * ni + k * ni * nj + l * ni * nj * nk ≠
          a + b * ni + c * ni * nj + d * ni * nj * nk := by
        intro he
        obtain ⟨-, hu, -⟩ := grid4D_index ni nj nk nl x
        obtain ⟨q, -, hq⟩ := hu _ (idx4_lt hi hj hk hl)
        have h1 := hq (i, j, k, l) (if_pos ⟨hi, hj, hk, hl⟩)
        have h2 := hq (a, b, c, d) (by
          dsimp only [Grid4D.mk', Grid4D.getIndex]
          rw [if_pos hc, he])
        exact hne (h2.trans h1.symm)
      unfold rd
      rw [List.getElem?_set_ne hn]
    · rfl

/-- **C129, from numbers to cells, as it is.** `GetIJKL` gives the first two indices of the cell,
but the third is counted on through the fourth direction and the fourth is always zero. -/
theorem grid4D_getIJKL {α : Type} (ni nj nk nl : ℕ) (x : α) {i j k l : ℕ} (hi : i < ni)
    (hj : j < nj) (hk : k < nk) (hl : l < nl) :
    ((Grid4D.mk' ni nj nk nl x).getIndex i j k l).bind (Grid4D.mk' ni nj nk nl x).getIJKL =
      .ok (i, j, k + l * nk, 0) := by
  have hlen : (Grid4D.mk' ni nj nk nl x).data.length = ni * nj * nk * nl := by simp [Grid4D.mk']
  have e : i + j * ni + k * ni * nj + l * ni * nj * nk = i + (j + (k + l * nk) * nj) * ni := by ring
  have hni : 0 < ni := by omega
  have hnj : 0 < nj := by omega
  have h0 := idx4_lt hi hj hk hl
  rw [e] at h0
  have hgi : (Grid4D.mk' ni nj nk nl x).getIndex i j k l =
      .ok (i + (j + (k + l * nk) * nj) * ni) := by
    rw [← e]
    exact if_pos ⟨hi, hj, hk, hl⟩
  rw [hgi, Res.bind_ok]
  unfold Grid4D.getIJKL
  rw [hlen]
  dsimp only [Grid4D.mk']
  rw [if_pos h0]
  have e1 : (i + (j + (k + l * nk) * nj) * ni) % ni = i := by
    rw [Nat.add_mul_mod_self_right, Nat.mod_eq_of_lt hi]
  have e2 : (i + (j + (k + l * nk) * nj) * ni - i) / ni % nj = j := by
    rw [Nat.add_sub_cancel_left, Nat.mul_div_cancel _ hni, Nat.add_mul_mod_self_right,
      Nat.mod_eq_of_lt hj]
  have e3 : (i + (j + (k + l * nk) * nj) * ni - j * ni - i) / ni / nj = k + l * nk := by
    rw [show i + (j + (k + l * nk) * nj) * ni - j * ni - i = (k + l * nk) * nj * ni by
      rw [add_mul]; omega, Nat.mul_div_cancel _ hni, Nat.mul_div_cancel _ hnj]
  have e4 : (i + (j + (k + l * nk) * nj) * ni - (k + l * nk) * ni * nj) / ni / nj / nk = 0 := by
    rw [show i + (j + (k + l * nk) * nj) * ni = i + j * ni + (k + l * nk) * ni * nj by ring,
      Nat.add_sub_cancel, Nat.add_mul_div_right _ _ hni, Nat.div_eq_of_lt hi, zero_add,
      Nat.div_eq_of_lt hj, Nat.zero_div]
  simp only [e1, e2, e3, e4]

/-- **C129, what holds of the inverse.** `GetIJKL` inverts `GetIndex` exactly for the cells whose
fourth index is zero. -/
theorem grid4D_getIJKL_partial {α : Type} (ni nj nk nl : ℕ) (x : α) {i j k l : ℕ} (hi : i < ni)
    (hj : j < nj) (hk : k < nk) (hl : l < nl) :
    ((Grid4D.mk' ni nj nk nl x).getIndex i j k l).bind (Grid4D.mk' ni nj nk nl x).getIJKL =
      .ok (i, j, k, l) ↔ l = 0 := by
  rw [grid4D_getIJKL ni nj nk nl x hi hj hk hl]
  constructor
  · intro h; injection h with h; simp only [Prod.mk.injEq] at h; omega
  · rintro rfl; simp

/-- **C129, the inverse is wrong.** In a grid of two by two by two by two cells, the cell
`(0, 0, 0, 1)` has the number 8, for which `GetIJKL` gives `(0, 0, 2, 0)`, which is no cell. -/
theorem grid4D_getIJKL_violation :
    (Grid4D.mk' 2 2 2 2 (0 : ℕ)).getIndex 0 0 0 1 = .ok 8 ∧
    (Grid4D.mk' 2 2 2 2 (0 : ℕ)).getIJKL 8 = .ok (0, 0, 2, 0) ∧
    ∃ w, (Grid4D.mk' 2 2 2 2 (0 : ℕ)).getIndex 0 0 2 0 = .ub w := by
  refine ⟨rfl, rfl, _, rfl⟩

/-- **C129, exchange of four-dimensional grids.** -/
theorem grid4D_swap {α : Type} (g h : Grid4D α) : g.swap h = (h, g) := rfl

/-- The windows that the constructor makes. -/
theorem window_mk {α : Type} {a b c d : ℕ} (hab : a ≤ b) (hcd : c ≤ d) (x : α) :
    Grid2DGeneral.mk' a b c d x = .ok ⟨b + 1 - a, d + 1 - c,
      List.replicate ((b + 1 - a) * (d + 1 - c)) x, a, b, c, d⟩ := by
  unfold Grid2DGeneral.mk'
  rw [if_pos ⟨by omega, by omega⟩]

/-- **C129, windows.** The window from `(a, c)` to `(b, d)` holds exactly the cells between these,
both included, has a number for each, and `GetIJ` gives the cell of a number back. -/
theorem window_index {α : Type} {a b c d : ℕ} (hab : a ≤ b) (hcd : c ≤ d) (x : α)
    (hd : d + 1 - c ≤ 2 ^ 31) :
    ∃ g, Grid2DGeneral.mk' a b c d x = .ok g ∧
      (∀ i j, g.isValidIndex i j = true ↔ a ≤ i ∧ i ≤ b ∧ c ≤ j ∧ j ≤ d) ∧
      (∀ i j, g.isValidIndex i j = true →
        g.get i j = .ok x ∧ (g.getIndex i j).bind g.getIJ = .ok (i, j)) ∧
      (∀ i j, g.isValidIndex i j = false → ∃ w, g.get i j = .ub w) ∧
      (∀ n, n < g.data.length → ∃ i j, g.isValidIndex i j = true ∧ g.getIJ n = .ok (i, j) ∧
        g.getIndex i j = .ok n) := by
  refine ⟨_, window_mk hab hcd x, fun i j => ?_, fun i j h => ?_, fun i j h => ?_, fun n hn => ?_⟩
  · simp [Grid2DGeneral.isValidIndex]
  · simp only [Grid2DGeneral.isValidIndex, decide_eq_true_eq] at h
    obtain ⟨h1, h2, h3, h4⟩ := h
    have hi : i - a < b + 1 - a := by omega
    have hj : j - c < d + 1 - c := by omega
    have hlt : i - a + (j - c) * (b + 1 - a) < (b + 1 - a) * (d + 1 - c) := by nlinarith
    have hni : 0 < b + 1 - a := by omega
    have e1 : (i - a + (j - c) * (b + 1 - a)) % (b + 1 - a) = i - a := by
      rw [Nat.add_mul_mod_self_right, Nat.mod_eq_of_lt hi]
    have e2 : (i - a + (j - c) * (b + 1 - a)) / (b + 1 - a) = j - c := by
      rw [Nat.add_mul_div_right _ _ hni, Nat.div_eq_of_lt hi, zero_add]
    constructor
    · simp only [Grid2DGeneral.get, Grid2DGeneral.getIndex]
      rw [if_pos ⟨h1, h2, h3, h4⟩, Res.bind_ok, rd_ok (by rw [List.length_replicate]; exact hlt)]
      simp
    · simp only [Grid2DGeneral.getIndex]
      rw [if_pos ⟨h1, h2, h3, h4⟩, Res.bind_ok]
      simp only [Grid2DGeneral.getIJ, List.length_replicate]
      rw [if_pos hlt, e1, e2, if_pos (by omega), Nat.sub_add_cancel h1, Nat.sub_add_cancel h3]
  · simp only [Grid2DGeneral.isValidIndex, decide_eq_false_iff_not] at h
    refine ⟨"assert in Grid2DGeneral::GetIndex", ?_⟩
    simp only [Grid2DGeneral.get, Grid2DGeneral.getIndex]
    rw [if_neg h]
    rfl
  · rw [List.length_replicate] at hn
    have hni : 0 < b + 1 - a := by omega
    have hi : n % (b + 1 - a) < b + 1 - a := Nat.mod_lt _ hni
    have hj : n / (b + 1 - a) < d + 1 - c := Nat.div_lt_of_lt_mul hn
    refine ⟨n % (b + 1 - a) + a, n / (b + 1 - a) + c, ?_, ?_, ?_⟩
    all_goals generalize hq : n / (b + 1 - a) = q at *
    all_goals generalize hm : n % (b + 1 - a) = m at *
    · simp only [Grid2DGeneral.isValidIndex, decide_eq_true_eq]
      omega
    · simp only [Grid2DGeneral.getIJ, List.length_replicate]
      rw [if_pos hn, hq, hm, if_pos (by omega)]
    · simp only [Grid2DGeneral.getIndex]
      rw [if_pos (by omega), Nat.add_sub_cancel, Nat.add_sub_cancel, mul_comm, ← hq, ← hm,
        Nat.mod_add_div]

/-- **C129, exchange of windows, what holds.** Windows with the same bounds are exchanged. -/
theorem window_swap_partial {α : Type} (g h : Grid2DGeneral α) (h1 : g.iMin = h.iMin)
    (h2 : g.iMax = h.iMax) (h3 : g.jMin = h.jMin) (h4 : g.jMax = h.jMax) : g.swap h = (h, g) := by
  obtain ⟨_, _, _, _, _, _, _⟩ := g
  obtain ⟨_, _, _, _, _, _, _⟩ := h
  dsimp only at *
  subst h1 h2 h3 h4
  rfl

/-- **C129, exchange of windows, what does not hold.** `Swap` leaves the bounds: a window of two
cells after an exchange with a window of one cell still says that its second cell is valid, and
reading it is outside the memory; the other one refuses its second cell. -/
theorem window_swap_violation :
    ∃ g h : Grid2DGeneral ℕ, Grid2DGeneral.mk' 0 1 0 0 7 = .ok g ∧
      Grid2DGeneral.mk' 0 0 0 0 8 = .ok h ∧ g.get 1 0 = .ok 7 ∧
      (g.swap h).1.isValidIndex 1 0 = true ∧ (g.swap h).1.get 1 0 = .ub "read out of range" ∧
      (g.swap h).2.isValidIndex 1 0 = false ∧ ∃ w, (g.swap h).2.get 1 0 = .ub w :=
  ⟨_, _, rfl, rfl, rfl, rfl, rfl, rfl, _, rfl⟩

theorem findMinLoop_spec (missing : ℝ) (data : List ℝ) (s : ℝ) :
    ((∀ x ∈ s :: data, x = missing) ∧ findMinLoop missing s data = missing) ∨
    IsLeast {x | x ∈ s :: data ∧ x ≠ missing} (findMinLoop missing s data) := by
  induction data generalizing s with
  | nil =>
    by_cases hs : s = missing
    · left; simp [findMinLoop, hs]
    · right
      refine ⟨⟨by simp [findMinLoop], hs⟩, ?_⟩
      rintro y ⟨hy, -⟩
      simp only [List.mem_singleton] at hy
      simp [findMinLoop, hy]
  | cons x t ih =>
    have e : findMinLoop missing s (x :: t) =
        findMinLoop missing (if (s = missing ∨ x < s) ∧ x ≠ missing then x else s) t := by
      simp only [findMinLoop, List.foldl_cons]
    rw [e]
    split_ifs with hc
    · obtain ⟨hc1, hc2⟩ := hc
      rcases ih x with ⟨h1, -⟩ | ⟨⟨h1, h2⟩, h3⟩
      · exact absurd (h1 x (by simp)) hc2
      · right
        refine ⟨⟨by simp only [List.mem_cons] at h1 ⊢; tauto, h2⟩, ?_⟩
        rintro y ⟨hy, hym⟩
        rcases List.mem_cons.1 hy with rfl | hy
        · rcases hc1 with h | h
          · exact absurd h hym
          · exact (h3 ⟨by simp, hc2⟩).trans h.le
        · exact h3 ⟨hy, hym⟩
    · rcases ih s with ⟨h1, h2⟩ | ⟨⟨h1, h2⟩, h3⟩
      · left
        refine ⟨fun y hy => ?_, h2⟩
        have hs := h1 s (by simp)
        simp only [List.mem_cons] at hy h1
        rcases hy with rfl | rfl | hy
        · exact hs
        · by_contra hx; exact hc ⟨Or.inl hs, hx⟩
        · exact h1 y (Or.inr hy)
      · right
        refine ⟨⟨by simp only [List.mem_cons] at h1 ⊢; tauto, h2⟩, ?_⟩
        rintro y ⟨hy, hym⟩
        simp only [List.mem_cons] at hy
        rcases hy with rfl | rfl | hy
        · exact h3 ⟨by simp, hym⟩
        · have hs : s ≠ missing ∧ s ≤ y := by
            constructor
            · intro h; exact hc ⟨Or.inl h, hym⟩
            · by_contra h; exact hc ⟨Or.inr (not_le.1 h), hym⟩
          exact (h3 ⟨by simp, hs.1⟩).trans hs.2
        · exact h3 ⟨by simp [hy], hym⟩

theorem findMaxLoop_neg (missing : ℝ) (data : List ℝ) (s : ℝ) :
    findMaxLoop missing s data = -findMinLoop (-missing) (-s) (data.map (-·)) := by
  induction data generalizing s with
  | nil => simp [findMaxLoop, findMinLoop]
  | cons x t ih =>
    have e : findMaxLoop missing s (x :: t) =
        findMaxLoop missing (if (s = missing ∨ x > s) ∧ x ≠ missing then x else s) t := by
      simp only [findMaxLoop, List.foldl_cons]
    have e' : findMinLoop (-missing) (-s) ((x :: t).map (-·)) =
        findMinLoop (-missing)
          (if (-s = -missing ∨ -x < -s) ∧ -x ≠ -missing then -x else -s) (t.map (-·)) := by
      simp only [findMinLoop, List.map_cons, List.foldl_cons]
    rw [e, e', ih]
    simp only [neg_inj, neg_lt_neg_iff, ne_eq]
    congr 2
    split_ifs <;> rfl

theorem findMaxLoop_spec (missing : ℝ) (data : List ℝ) (s : ℝ) :
    ((∀ x ∈ s :: data, x = missing) ∧ findMaxLoop missing s data = missing) ∨
    IsGreatest {x | x ∈ s :: data ∧ x ≠ missing} (findMaxLoop missing s data) := by
  rw [findMaxLoop_neg]
  rcases findMinLoop_spec (-missing) (data.map (-·)) (-s) with ⟨h1, h2⟩ | ⟨⟨h1, h2⟩, h3⟩
  · left
    refine ⟨fun x hx => ?_, by rw [h2, neg_neg]⟩
    have := h1 (-x) (by
      simp only [List.mem_cons, List.mem_map] at hx ⊢
      rcases hx with rfl | hx
      · exact Or.inl rfl
      · exact Or.inr ⟨x, hx, rfl⟩)
    linarith
  · right
    refine ⟨⟨?_, fun h => h2 (by linarith)⟩, ?_⟩
    · simp only [List.mem_cons, List.mem_map] at h1 ⊢
      rcases h1 with h | ⟨y, hy, h⟩
      · left; rw [h, neg_neg]
      · right; rw [← h, neg_neg]; exact hy
    · rintro y ⟨hy, hym⟩
      have := h3 (show -y ∈ _ from ⟨by
        simp only [List.mem_cons, List.mem_map] at hy ⊢
        rcases hy with rfl | hy
        · exact Or.inl rfl
        · exact Or.inr ⟨y, hy, rfl⟩, fun h => hym (neg_injective h)⟩)
      linarith

/-- **C129, extremes of windows.** For a window with at least one cell, `FindMin` and `FindMax` give
the least and the greatest value that is not missing, and the missing value if there is none. -/
theorem window_extremes (g : Grid2DGeneral ℝ) (missing : ℝ) (hg : g.data ≠ []) :
    ∃ lo hi, g.findMin missing = .ok lo ∧ g.findMax missing = .ok hi ∧
      ((∀ x ∈ g.data, x = missing) → lo = missing ∧ hi = missing) ∧
      ((∃ x ∈ g.data, x ≠ missing) → IsLeast {x | x ∈ g.data ∧ x ≠ missing} lo ∧
        IsGreatest {x | x ∈ g.data ∧ x ≠ missing} hi) := by
  obtain ⟨ni, nj, data, a, b, c, d⟩ := g
  obtain ⟨s, t, rfl⟩ := List.exists_cons_of_ne_nil hg
  refine ⟨findMinLoop missing s (s :: t), findMaxLoop missing s (s :: t), rfl, rfl, fun h => ?_,
    fun ⟨x, hx, hxm⟩ => ?_⟩
  · dsimp only at h
    constructor
    · rcases findMinLoop_spec missing (s :: t) s with ⟨-, h2⟩ | ⟨⟨h1, h2⟩, -⟩
      · exact h2
      · refine absurd (h _ ?_) h2
        simp only [List.mem_cons] at h1 ⊢; tauto
    · rcases findMaxLoop_spec missing (s :: t) s with ⟨-, h2⟩ | ⟨⟨h1, h2⟩, -⟩
      · exact h2
      · refine absurd (h _ ?_) h2
        simp only [List.mem_cons] at h1 ⊢; tauto
  · dsimp only at hx ⊢
    have hset : {x | x ∈ s :: s :: t ∧ x ≠ missing} = {x | x ∈ s :: t ∧ x ≠ missing} := by
      ext y; simp
    constructor
    · rcases findMinLoop_spec missing (s :: t) s with ⟨h1, -⟩ | h
      · exact absurd (h1 x (List.mem_cons_of_mem _ hx)) hxm
      · rwa [hset] at h
    · rcases findMaxLoop_spec missing (s :: t) s with ⟨h1, -⟩ | h
      · exact absurd (h1 x (List.mem_cons_of_mem _ hx)) hxm
      · rwa [hset] at h

/-- **C129, extremes of grids.** With `big` the greatest number of the type: if a value is not
missing and all are between `-big` and `big`, `FindMin` and `FindMax` give the least and the
greatest value that is not missing. -/
theorem grid2D_extremes (g : Grid2D ℝ) (big missing : ℝ) (hb : ∀ x ∈ g.data, |x| ≤ big)
    (he : ∃ x ∈ g.data, x ≠ missing) :
    IsLeast {x | x ∈ g.data ∧ x ≠ missing} (g.findMin big missing) ∧
      IsGreatest {x | x ∈ g.data ∧ x ≠ missing} (g.findMax big missing) := by
  obtain ⟨x, hx, hxm⟩ := he
  constructor
  · unfold Grid2D.findMin
    rcases findMinLoop_spec missing g.data big with ⟨h1, -⟩ | ⟨⟨h1, h2⟩, h3⟩
    · exact absurd (h1 x (List.mem_cons_of_mem _ hx)) hxm
    · refine ⟨⟨?_, h2⟩, fun y hy => h3 ⟨List.mem_cons_of_mem _ hy.1, hy.2⟩⟩
      rcases List.mem_cons.1 h1 with h | h
      · have h4 := h3 ⟨List.mem_cons_of_mem _ hx, hxm⟩
        have h5 := (abs_le.1 (hb x hx)).2
        rw [h] at h4 ⊢
        rwa [show big = x by linarith]
      · exact h
  · unfold Grid2D.findMax
    rcases findMaxLoop_spec missing g.data (-big) with ⟨h1, -⟩ | ⟨⟨h1, h2⟩, h3⟩
    · exact absurd (h1 x (List.mem_cons_of_mem _ hx)) hxm
    · refine ⟨⟨?_, h2⟩, fun y hy => h3 ⟨List.mem_cons_of_mem _ hy.1, hy.2⟩⟩
      rcases List.mem_cons.1 h1 with h | h
      · have h4 := h3 ⟨List.mem_cons_of_mem _ hx, hxm⟩
        have h5 := (abs_le.1 (hb x hx)).1
        rw [h] at h4 ⊢
        rwa [show -big = x by linarith]
      · exact h

/-- **C129, extremes of grids without values.** If all values are missing, `FindMin` does not give
the missing value but the greatest number, unlike the same function of windows. -/
theorem grid2D_extremes_violation :
    ∃ g : Grid2D ℝ, g.data = [-999] ∧ g.findMin 1000000 (-999) = 1000000 ∧
      g.findMax 1000000 (-999) = -1000000 := by
  refine ⟨⟨1, 1, [-999]⟩, rfl, ?_, ?_⟩
  · simp [Grid2D.findMin, findMinLoop]
  · simp [Grid2D.findMax, findMaxLoop]

theorem avgLoop_spec (missing : ℝ) (data : List ℝ) :
    (avgLoop missing data).1 = (data.filter (fun x => decide (x ≠ missing))).sum ∧
    (avgLoop missing data).2.1 = (data.filter (fun x => decide (x ≠ missing))).length ∧
    ((data.filter (fun x => decide (x ≠ missing))) ≠ [] →
      ∃ lo hi, (avgLoop missing data).2.2.1 = some lo ∧ (avgLoop missing data).2.2.2 = some hi ∧
        IsLeast {x | x ∈ data ∧ x ≠ missing} lo ∧ IsGreatest {x | x ∈ data ∧ x ≠ missing} hi) ∧
    ((data.filter (fun x => decide (x ≠ missing))) = [] →
      (avgLoop missing data).2.2.1 = none ∧ (avgLoop missing data).2.2.2 = none) := by
  have z : (0.0 : ℝ) = 0 := by norm_num
  induction data using List.reverseRecOn with
  | nil => simp [avgLoop, z]
  | append_singleton l v ih =>
    obtain ⟨h1, h2, h3, h4⟩ := ih
    by_cases hv : v = missing
    · have e : avgLoop missing (l ++ [v]) = avgLoop missing l := by
        unfold avgLoop
        rw [List.foldl_append, List.foldl_cons, List.foldl_nil, if_neg (not_not.2 hv)]
      have ef : (l ++ [v]).filter (fun x => decide (x ≠ missing)) =
          l.filter (fun x => decide (x ≠ missing)) := by simp [hv]
      have es : {x | x ∈ l ++ [v] ∧ x ≠ missing} = {x | x ∈ l ∧ x ≠ missing} := by
        ext y
        simp only [List.mem_append, List.mem_singleton, Set.mem_setOf_eq]
        constructor
        · rintro ⟨h | h, h'⟩
          · exact ⟨h, h'⟩
          · exact absurd (h.trans hv) h'
        · rintro ⟨h, h'⟩; exact ⟨Or.inl h, h'⟩
      rw [e, ef, es]
      exact ⟨h1, h2, h3, h4⟩
    · have e : avgLoop missing (l ++ [v]) = ((avgLoop missing l).1 + v, (avgLoop missing l).2.1 + 1,
          lessOf v (avgLoop missing l).2.2.1, moreOf v (avgLoop missing l).2.2.2) := by
        unfold avgLoop
        rw [List.foldl_append, List.foldl_cons, List.foldl_nil, if_pos hv]
      have ef : (l ++ [v]).filter (fun x => decide (x ≠ missing)) =
          l.filter (fun x => decide (x ≠ missing)) ++ [v] := by simp [hv]
      rw [e, ef]
      refine ⟨by simp [h1], by simp [h2], fun _ => ?_, fun h => by simp at h⟩
      by_cases hn : l.filter (fun x => decide (x ≠ missing)) = []
      · obtain ⟨h5, h6⟩ := h4 hn
        have hl : ∀ y ∈ l, y = missing := by
          intro y hy
          by_contra hc
          have : y ∈ l.filter (fun x => decide (x ≠ missing)) := by
            simp [hy, hc]
          rw [hn] at this
          exact absurd this List.not_mem_nil
        have key : ∀ y, y ∈ l ++ [v] ∧ y ≠ missing → y = v := by
          rintro y ⟨hy, hym⟩
          rcases List.mem_append.1 hy with h | h
          · exact absurd (hl y h) hym
          · exact List.mem_singleton.1 h
        refine ⟨v, v, by rw [h5]; rfl, by rw [h6]; rfl, ⟨⟨by simp, hv⟩, ?_⟩, ⟨⟨by simp, hv⟩, ?_⟩⟩
        · intro y hy; rw [key y hy]
        · intro y hy; rw [key y hy]
      · obtain ⟨lo, hi, h5, h6, ⟨h7, h8⟩, ⟨h9, h10⟩⟩ := h3 hn
        refine ⟨if v < lo then v else lo, if v > hi then v else hi, ?_, ?_, ?_, ?_⟩
        · rw [h5]; dsimp only [lessOf]; split_ifs <;> rfl
        · rw [h6]; dsimp only [moreOf]; split_ifs <;> rfl
        · constructor
          · split_ifs
            · exact ⟨by simp, hv⟩
            · exact ⟨List.mem_append_left _ h7.1, h7.2⟩
          · rintro y ⟨hy, hym⟩
            rcases List.mem_append.1 hy with h | h
            · have := h8 ⟨h, hym⟩
              split_ifs <;> linarith
            · rw [List.mem_singleton.1 h]; split_ifs <;> linarith
        · constructor
          · split_ifs
            · exact ⟨by simp, hv⟩
            · exact ⟨List.mem_append_left _ h9.1, h9.2⟩
          · rintro y ⟨hy, hym⟩
            rcases List.mem_append.1 hy with h | h
            · have := h10 ⟨h, hym⟩
              split_ifs <;> linarith
            · rw [List.mem_singleton.1 h]; split_ifs <;> linarith

/-- **C129, average and extremes.** `GetAvgMinMaxWithMissing` gives the average, the least and the
greatest of the values that are not missing. -/
theorem grid3D_avg (g : Grid3D ℝ) (missing : ℝ) (he : ∃ x ∈ g.data, x ≠ missing) :
    ∃ lo hi, g.avgMinMaxMissing missing =
        .ok ((g.data.filter (fun x => decide (x ≠ missing))).sum /
          (g.data.filter (fun x => decide (x ≠ missing))).length, some lo, some hi) ∧
      IsLeast {x | x ∈ g.data ∧ x ≠ missing} lo ∧
      IsGreatest {x | x ∈ g.data ∧ x ≠ missing} hi := by
  obtain ⟨x, hx, hxm⟩ := he
  obtain ⟨h1, h2, h3, -⟩ := avgLoop_spec missing g.data
  have hn : g.data.filter (fun x => decide (x ≠ missing)) ≠ [] := by
    intro h
    have : x ∈ g.data.filter (fun x => decide (x ≠ missing)) := by simp [hx, hxm]
    rw [h] at this
    exact absurd this List.not_mem_nil
  obtain ⟨lo, hi, h4, h5, h6, h7⟩ := h3 hn
  refine ⟨lo, hi, ?_, h6, h7⟩
  unfold Grid3D.avgMinMaxMissing
  dsimp only
  rw [h1, h2, h4, h5, if_neg (by rw [List.length_eq_zero_iff]; exact hn)]

/-- A case of the hypotheses of the theorems above. -/
example : ∃ g : Grid3D ℝ, g.avgMinMaxMissing (-999) = .ok (2, some 1, some 3) := by
  refine ⟨⟨3, 1, 1, [1, -999, 3]⟩, ?_⟩
  obtain ⟨lo, hi, h, h1, h2⟩ := grid3D_avg ⟨3, 1, 1, [1, -999, 3]⟩ (-999) ⟨1, by simp, by norm_num⟩
  rw [h]
  have e1 : lo = 1 := h1.unique ⟨⟨by simp, by norm_num⟩, by
    rintro y ⟨hy, hym⟩
    simp only [List.mem_cons, List.not_mem_nil, or_false] at hy
    rcases hy with rfl | rfl | rfl
    · exact le_rfl
    · exact absurd rfl hym
    · norm_num⟩
  have e2 : hi = 3 := h2.unique ⟨⟨by simp, by norm_num⟩, by
    rintro y ⟨hy, hym⟩
    simp only [List.mem_cons, List.not_mem_nil, or_false] at hy
    rcases hy with rfl | rfl | rfl
    · norm_num
    · exact absurd rfl hym
    · exact le_rfl⟩
  rw [e1, e2]
  norm_num [List.filter]

example : ∃ g, Grid2DGeneral.mk' 3 5 2 2 (0 : ℝ) = .ok g ∧ g.data ≠ [] ∧ 2 + 1 - 2 ≤ 2 ^ 31 :=
  ⟨_, rfl, by simp, by norm_num⟩

end Verif
