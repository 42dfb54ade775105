import Verif.Lemmas.SurfaceOps
import Verif.Props.SurfaceIndex
import Mathlib.Order.Interval.Finset.Nat
import Mathlib.Data.Int.Interval
import Mathlib.Tactic.FinCases

/-! # Surfaces: arithmetic, statistics and missing values -/

namespace Verif

/-- `s'` has the geometry and the missing value of `s`, and holds `z'` at its nodes. -/
def SameBut (s s' : RegSurf) (z' : ℕ → ℕ → ℝ) : Prop :=
  s'.grid.ni = s.grid.ni ∧ s'.grid.nj = s.grid.nj ∧ s'.x_min = s.x_min ∧ s'.y_min = s.y_min ∧
    s'.lx = s.lx ∧ s'.ly = s.ly ∧ s'.dx = s.dx ∧ s'.dy = s.dy ∧ s'.missing = s.missing ∧
    s'.grid.data.length = s.grid.data.length ∧
    ∀ i j, i < s.grid.ni → j < s.grid.nj → s'.grid.get i j = .ok (z' i j)

/-- The surface's storage has one place for each node, which holds `z`. -/
def HasValues (s : RegSurf) (z : ℕ → ℕ → ℝ) : Prop :=
  s.grid.data.length = s.grid.ni * s.grid.nj ∧
    ∀ i j, i < s.grid.ni → j < s.grid.nj → s.grid.get i j = .ok (z i j)

theorem holds_getElem {s : RegSurf} {z : ℕ → ℕ → ℝ} (h : HasValues s z) {i j : ℕ} (hi : i < s.grid.ni)
    (hj : j < s.grid.nj) : s.grid.data[i + j * s.grid.ni]? = some (z i j) := by
  have := h.2 i j hi hj
  unfold Grid2D.get Grid2D.getIndex at this
  rw [if_pos ⟨hi, hj⟩, Res.bind_ok] at this
  exact rd_eq_ok.1 this

theorem get_of_getElem {g : Grid2D ℝ} {i j : ℕ} {v : ℝ} (hi : i < g.ni) (hj : j < g.nj)
    (h : g.data[i + j * g.ni]? = some v) : g.get i j = .ok v := by
  unfold Grid2D.get Grid2D.getIndex
  rw [if_pos ⟨hi, hj⟩, Res.bind_ok]
  exact rd_eq_ok.2 h

theorem mapValid_spec {s : RegSurf} {z : ℕ → ℕ → ℝ} (h : HasValues s z) (f : ℝ → ℝ) :
    ∃ s', s.mapValid f = .ok s' ∧
      SameBut s s' (fun i j => if z i j = s.missing then s.missing else f (z i j)) := by
  refine ⟨_, RegSurf.mapValid_eq s f, rfl, rfl, rfl, rfl, rfl, rfl, rfl, rfl, rfl, by simp, ?_⟩
  intro i j hi hj
  refine get_of_getElem hi hj ?_
  dsimp only
  rw [List.getElem?_map, holds_getElem h hi hj]; rfl

/-- C80. `Add` adds the constant to every node that has a value and leaves the others missing. -/
theorem add_spec {s : RegSurf} {z : ℕ → ℕ → ℝ} (h : HasValues s z) (c : ℝ) :
    ∃ s', s.add c = .ok s' ∧
      SameBut s s' (fun i j => if z i j = s.missing then s.missing else z i j + c) :=
  mapValid_spec h _

/-- C80. `Subtract` likewise. -/
theorem subtract_spec {s : RegSurf} {z : ℕ → ℕ → ℝ} (h : HasValues s z) (c : ℝ) :
    ∃ s', s.subtract c = .ok s' ∧
      SameBut s s' (fun i j => if z i j = s.missing then s.missing else z i j - c) :=
  mapValid_spec h _

/-- C80. `Multiply` likewise. -/
theorem multiply_spec {s : RegSurf} {z : ℕ → ℕ → ℝ} (h : HasValues s z) (c : ℝ) :
    ∃ s', s.multiply c = .ok s' ∧
      SameBut s s' (fun i j => if z i j = s.missing then s.missing else z i j * c) :=
  mapValid_spec h _

/-- C80. `Assign` gives every node the value, those without one too. -/
theorem assign_spec {s : RegSurf} {z : ℕ → ℕ → ℝ} (h : HasValues s z) (c : ℝ) :
    ∃ s', s.assign c = .ok s' ∧ SameBut s s' (fun _ _ => c) := by
  refine ⟨_, RegSurf.assign_eq s c, rfl, rfl, rfl, rfl, rfl, rfl, rfl, rfl, rfl, by simp, ?_⟩
  intro i j hi hj
  refine get_of_getElem hi hj ?_
  dsimp only
  have := holds_getElem h hi hj
  rw [List.getElem?_replicate, if_pos]
  by_contra hc
  rw [List.getElem?_eq_none (by omega)] at this
  cases this

theorem exists_node {s : RegSurf} (hg : s.grid.data.length = s.grid.ni * s.grid.nj) {k : ℕ}
    (hk : k < s.grid.data.length) :
    ∃ i j, s.grid.getIJ k = .ok (i, j) ∧ i < s.grid.ni ∧ j < s.grid.nj ∧
      i + j * s.grid.ni = k ∧ s.getXYIndex k = .ok (s.getXY i j) := by
  obtain ⟨i, j, h1, h2, h3, h4, h5⟩ := getXYIndex_getIJ s hg hk
  refine ⟨i, j, h1, h2, h3, ?_, h4⟩
  unfold Grid2D.getIndex at h5
  rw [if_pos ⟨h2, h3⟩] at h5
  exact Res.ok.inj h5

theorem node_lt {s : RegSurf} (hg : s.grid.data.length = s.grid.ni * s.grid.nj) {i j : ℕ}
    (hi : i < s.grid.ni) (hj : j < s.grid.nj) : i + j * s.grid.ni < s.grid.data.length := by
  rw [hg]
  calc i + j * s.grid.ni < s.grid.ni + j * s.grid.ni := by omega
    _ = (j + 1) * s.grid.ni := by ring
    _ ≤ s.grid.nj * s.grid.ni := Nat.mul_le_mul_right _ hj
    _ = s.grid.ni * s.grid.nj := by ring

theorem best_nodes {s : RegSurf} {z : ℕ → ℕ → ℝ} (h : HasValues s z) {lt : ℝ → ℝ → Prop}
    {st : ℝ × ℕ} (hst : RegSurf.Best s.missing s.grid.data lt s.grid.data.length st) :
    ∃ i j, s.grid.getIJ st.2 = .ok (i, j) ∧ i < s.grid.ni ∧ j < s.grid.nj ∧ st.1 = z i j ∧
      (st.1 = s.missing → ∀ k l, k < s.grid.ni → l < s.grid.nj → z k l = s.missing) ∧
      (st.1 ≠ s.missing → ∀ k l, k < s.grid.ni → l < s.grid.nj → z k l ≠ s.missing →
        ¬ lt (z k l) st.1) := by
  obtain ⟨h1, h2, h3, h4⟩ := hst
  have hlt : st.2 < s.grid.data.length := by
    by_contra hc
    rw [List.getElem?_eq_none (by omega)] at h1
    cases h1
  obtain ⟨i, j, e1, hi, hj, e2, -⟩ := exists_node h.1 hlt
  refine ⟨i, j, e1, hi, hj, ?_, fun hm k l hk hl => ?_, fun hm k l hk hl hv => ?_⟩
  · have := holds_getElem h hi hj
    rw [e2, h1] at this
    exact Option.some.inj this
  · exact (h3 hm).2 _ (node_lt h.1 hk hl) _ (holds_getElem h hk hl)
  · exact (h4 hm _ (node_lt h.1 hk hl) _ (holds_getElem h hk hl) hv).1

/-- C80. On a surface with nodes, `MinNode` gives a node and its value. If any node has a value, the
value is the smallest of all; if none has, it is the missing value. `Min` gives the same value. -/
theorem min_spec {s : RegSurf} {z : ℕ → ℕ → ℝ} (h : HasValues s z) (hi : 1 ≤ s.grid.ni)
    (hj : 1 ≤ s.grid.nj) :
    ∃ i j, s.minNode = .ok (z i j, i, j) ∧ s.min = .ok (z i j) ∧ i < s.grid.ni ∧ j < s.grid.nj ∧
      (z i j = s.missing → ∀ k l, k < s.grid.ni → l < s.grid.nj → z k l = s.missing) ∧
      ∀ k l, k < s.grid.ni → l < s.grid.nj → z k l ≠ s.missing → z i j ≤ z k l := by
  have h0 := holds_getElem h (i := 0) (j := 0) hi hj
  rw [zero_mul, zero_add] at h0
  have hloop := RegSurf.best_loop s.missing s.grid.data (· < ·) (fun a => lt_irrefl a)
    (fun a b c => lt_trans) (fun a b h1 h2 => le_antisymm (not_lt.1 h2) (not_lt.1 h1)) h0
    (fun i (st : ℝ × ℕ) => do
      let z ← rd s.grid.data i
      if (s.IsMissing st.1 ∨ z < st.1) ∧ ¬ s.IsMissing z then .ok (z, i) else .ok st)
    (fun i st v hv => by
      simp only [Res.monad_bind_eq, rd_eq_ok.2 hv, Res.bind_ok]
      rfl)
  obtain ⟨st, hr, hst⟩ := hloop
  have hm : s.minLoop = .ok st := by
    unfold RegSurf.minLoop
    simp only [Res.monad_bind_eq]
    rw [rd_eq_ok.2 h0, Res.bind_ok]
    exact hr
  obtain ⟨i, j, e1, hi', hj', e2, a, b⟩ := best_nodes h hst
  refine ⟨i, j, ?_, ?_, hi', hj', by rw [← e2]; exact a, fun k l hk hl hv => ?_⟩
  · unfold RegSurf.minNode
    simp only [Res.monad_bind_eq, hm, Res.bind_ok, e1, e2]
  · unfold RegSurf.min
    simp only [Res.monad_bind_eq, hm, Res.bind_ok, e2]
  · rw [← e2]
    by_cases hmm : st.1 = s.missing
    · exact absurd (a hmm k l hk hl) hv
    · exact not_lt.1 (b hmm k l hk hl hv)

/-- C80. The same for `MaxNode` and `Max` and the largest value. -/
theorem max_spec {s : RegSurf} {z : ℕ → ℕ → ℝ} (h : HasValues s z) (hi : 1 ≤ s.grid.ni)
    (hj : 1 ≤ s.grid.nj) :
    ∃ i j, s.maxNode = .ok (z i j, i, j) ∧ s.max = .ok (z i j) ∧ i < s.grid.ni ∧ j < s.grid.nj ∧
      (z i j = s.missing → ∀ k l, k < s.grid.ni → l < s.grid.nj → z k l = s.missing) ∧
      ∀ k l, k < s.grid.ni → l < s.grid.nj → z k l ≠ s.missing → z k l ≤ z i j := by
  have h0 := holds_getElem h (i := 0) (j := 0) hi hj
  rw [zero_mul, zero_add] at h0
  have hloop := RegSurf.best_loop s.missing s.grid.data (· > ·) (fun a => lt_irrefl a)
    (fun a b c h1 h2 => lt_trans h2 h1)
    (fun a b h1 h2 => le_antisymm (not_lt.1 h1) (not_lt.1 h2)) h0
    (fun i (st : ℝ × ℕ) => do
      let z ← rd s.grid.data i
      if (s.IsMissing st.1 ∨ z > st.1) ∧ ¬ s.IsMissing z then .ok (z, i) else .ok st)
    (fun i st v hv => by
      simp only [Res.monad_bind_eq, rd_eq_ok.2 hv, Res.bind_ok]
      rfl)
  obtain ⟨st, hr, hst⟩ := hloop
  have hm : s.maxLoop = .ok st := by
    unfold RegSurf.maxLoop
    simp only [Res.monad_bind_eq]
    rw [rd_eq_ok.2 h0, Res.bind_ok]
    exact hr
  obtain ⟨i, j, e1, hi', hj', e2, a, b⟩ := best_nodes h hst
  refine ⟨i, j, ?_, ?_, hi', hj', by rw [← e2]; exact a, fun k l hk hl hv => ?_⟩
  · unfold RegSurf.maxNode
    simp only [Res.monad_bind_eq, hm, Res.bind_ok, e1, e2]
  · unfold RegSurf.max
    simp only [Res.monad_bind_eq, hm, Res.bind_ok, e2]
  · rw [← e2]
    by_cases hmm : st.1 = s.missing
    · exact absurd (a hmm k l hk hl) hv
    · exact not_lt.1 (b hmm k l hk hl hv)

/-- C80. A surface without nodes, as the default constructor gives it, has no smallest value, and asking
for it is undefined behaviour. -/
theorem min_empty_violation (x_min y_min lx ly v : ℝ) (ny : ℕ) :
    (∃ w, (RegSurf.mkConst x_min y_min lx ly 0 ny v).min = .ub w) ∧
      ∃ w, (RegSurf.mkConst x_min y_min lx ly 0 ny v).max = .ub w := by
  constructor <;>
  · refine ⟨"read out of range", ?_⟩
    simp [RegSurf.min, RegSurf.max, RegSurf.minLoop, RegSurf.maxLoop, RegSurf.mkConst, Grid2D.mk', rd]

theorem avg_loop (s : RegSurf) (hlen : s.grid.data.length < 2 ^ 31) :
    forRange 0 s.grid.data.length (fun i (st : ℝ × ℤ) => do
      let z ← rd s.grid.data i
      if ¬ s.IsMissing z then do
        let n ← succInt32 st.2
        .ok (st.1 + z, n)
      else .ok st) ((0.0, 0) : ℝ × ℤ)
    = .ok ((s.grid.data.filter (· ≠ s.missing)).sum,
        ((s.grid.data.filter (· ≠ s.missing)).length : ℤ)) := by
  obtain ⟨st, hr, hst⟩ := forRange_sat
    (fun k (st : ℝ × ℤ) => st = (((s.grid.data.take k).filter (· ≠ s.missing)).sum,
        (((s.grid.data.take k).filter (· ≠ s.missing)).length : ℤ)))
    (Nat.zero_le s.grid.data.length) (s := ((0.0, 0) : ℝ × ℤ))
    (body := fun i (st : ℝ × ℤ) => do
      let z ← rd s.grid.data i
      if ¬ s.IsMissing z then do
        let n ← succInt32 st.2
        .ok (st.1 + z, n)
      else .ok st) (by norm_num) (by
      rintro i st - hi rfl
      have hz : s.grid.data[i]? = some s.grid.data[i] := List.getElem?_eq_getElem hi
      have hle : ((s.grid.data.take i).filter (· ≠ s.missing)).length ≤ i :=
        le_trans (List.length_filter_le _ _) (by rw [List.length_take]; omega)
      simp only [Res.monad_bind_eq, rd_eq_ok.2 hz, Res.bind_ok]
      rw [List.take_succ, hz]
      simp only [Option.toList_some, List.filter_append]
      by_cases hm : s.grid.data[i] = s.missing
      · have hm' : s.IsMissing s.grid.data[i] := hm
        rw [if_neg (not_not.mpr hm'), Res.sat_ok]
        simp [hm]
      · have hm' : ¬ s.IsMissing s.grid.data[i] := hm
        rw [if_pos hm', RegSurf.succInt32_ok (by omega), Res.bind_ok, Res.sat_ok]
        simp [hm])
  rw [hr, hst, List.take_length]

/-- C80. `Avg` is the arithmetic mean of the values of the nodes that have one, and gives the number
of such nodes; if there are none, it is the missing value. -/
theorem avg_spec (s : RegSurf) (hlen : s.grid.data.length < 2 ^ 31) :
    s.avg = .ok (if (s.grid.data.filter (· ≠ s.missing)).length = 0 then s.missing
      else (s.grid.data.filter (· ≠ s.missing)).sum
        / (s.grid.data.filter (· ≠ s.missing)).length,
      ((s.grid.data.filter (· ≠ s.missing)).length : ℤ)) := by
  unfold RegSurf.avg
  have := avg_loop s hlen
  simp only [Res.monad_bind_eq] at this ⊢
  rw [this, Res.bind_ok]
  dsimp only
  by_cases h : (s.grid.data.filter (· ≠ s.missing)).length = 0
  · rw [if_neg (by omega), if_pos h]
  · rw [if_pos (by omega), if_neg h, RegSurf.divD_ok (by exact_mod_cast h), Res.bind_ok]
    rfl

/-- C80. Adding a constant can turn a value into the missing value; subtracting it again does not bring the
value back. -/
theorem add_violation :
    let s := RegSurf.ofGrid 0 0 1 1 ⟨1, 1, [-1000]⟩
    ∃ s' s'', s.add 1 = .ok s' ∧ s'.subtract 1 = .ok s'' ∧ s.grid.get 0 0 = .ok (-1000) ∧
      s''.grid.get 0 0 = .ok (-999) ∧ s''.missing = -999 := by
  refine ⟨_, _, RegSurf.mapValid_eq _ _, RegSurf.mapValid_eq _ _, rfl, ?_, ?_⟩
  · norm_num [RegSurf.ofGrid, Grid2D.get, Grid2D.getIndex, rd]
  · norm_num [RegSurf.ofGrid]

end Verif
