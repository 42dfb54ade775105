import Verif.Props.SurfaceOps
import Mathlib.Algebra.BigOperators.Intervals
import Mathlib.Algebra.BigOperators.Pi
import Mathlib.Algebra.BigOperators.Ring.Finset

/-! # Surfaces: filling a node from its neighbours -/

namespace Verif

open Classical in
/-- The neighbours of node `(i, j)` in a grid of `ni` by `nj` nodes that have a value: the up to eight
nodes next to it, sideways and diagonally. -/
noncomputable def validNeighbours (ni nj : ℕ) (missing : ℝ) (z : ℕ → ℕ → ℝ) (i j : ℕ) :
    Finset (ℕ × ℕ) :=
  (Finset.range ni ×ˢ Finset.range nj).filter fun p => p ≠ (i, j) ∧
    p.1 ≤ i + 1 ∧ i ≤ p.1 + 1 ∧ p.2 ≤ j + 1 ∧ j ≤ p.2 + 1 ∧ z p.1 p.2 ≠ missing

namespace Nbr

variable (s : RegSurf) (z : ℕ → ℕ → ℝ) (i j : ℕ)

open Classical in
/-- What a node adds to the sum and to the count. -/
noncomputable def P (k l : ℕ) : ℝ × ℕ :=
  if (k, l) ≠ (i, j) ∧ k < s.grid.ni ∧ l < s.grid.nj ∧ z k l ≠ s.missing then (z k l, 1) else 0

variable {s z i j}

theorem addNode_eq (h : HasValues s z) {k l : ℕ} (hk : k < s.grid.ni) (hl : l < s.grid.nj)
    (hne : (k, l) ≠ (i, j)) (st : ℝ × ℕ) :
    s.addNode k l st = .ok (st + P s z i j k l) := by
  unfold RegSurf.addNode P
  simp only [Res.monad_bind_eq, h.2 k l hk hl, Res.bind_ok]
  by_cases hm : z k l = s.missing
  · have hm' : s.IsMissing (z k l) := hm
    rw [if_neg (not_not.mpr hm'), if_neg (fun hc => hc.2.2.2 hm), add_zero]
  · have hm' : ¬ s.IsMissing (z k l) := hm
    rw [if_pos hm', if_pos ⟨hne, hk, hl, hm⟩]
    rfl

theorem P_out {k l : ℕ} (h : ¬ (k < s.grid.ni ∧ l < s.grid.nj)) : P s z i j k l = 0 := by
  unfold P
  rw [if_neg]
  rintro ⟨-, h1, h2, -⟩
  exact h ⟨h1, h2⟩

theorem P_self : P s z i j i j = 0 := by
  unfold P
  rw [if_neg]
  rintro ⟨h, -⟩
  exact h rfl

theorem sum_Icc3 {M : Type} [AddCommMonoid M] (f : ℕ → M) (j : ℕ) :
    ∑ l ∈ Finset.Icc (j - 1) (j + 1), f l
      = (if j > 0 then f (j - 1) else 0) + f j + f (j + 1) := by
  rcases j with _ | j
  · rw [if_neg (by omega), zero_add]
    rw [show Finset.Icc (0 - 1) (0 + 1) = ({0, 1} : Finset ℕ) from by decide]
    simp
  · rw [if_pos (by omega)]
    rw [show Finset.Icc (j + 1 - 1) (j + 1 + 1) = ({j, j + 1, j + 2} : Finset ℕ) from by
      ext a; simp only [Finset.mem_Icc, Finset.mem_insert, Finset.mem_singleton]; omega]
    rw [Finset.sum_insert (by simp), Finset.sum_insert (by simp), Finset.sum_singleton]
    simp [add_assoc]

theorem addColumn_eq (h : HasValues s z) {k : ℕ} (hk : k < s.grid.ni) (hne : k ≠ i)
    (hj : j < s.grid.nj) (st : ℝ × ℕ) :
    s.addColumn k j st = .ok (st + ∑ l ∈ Finset.Icc (j - 1) (j + 1), P s z i j k l) := by
  have hnp : ∀ l, (k, l) ≠ (i, j) := fun l hc => hne (congrArg Prod.fst hc)
  have hp : RegSurf.predSize s.grid.nj = s.grid.nj - 1 := by
    unfold RegSurf.predSize; rw [if_neg (by omega)]
  rw [sum_Icc3]
  unfold RegSurf.addColumn
  simp only [Res.monad_bind_eq]
  have e1 : RegSurf.stepIf (j > 0) (s.addNode k (j - 1)) st
      = .ok (st + if j > 0 then P s z i j k (j - 1) else 0) := by
    unfold RegSurf.stepIf
    by_cases h0 : j > 0
    · rw [if_pos h0, if_pos h0, addNode_eq h hk (by omega) (hnp _)]
    · rw [if_neg h0, if_neg h0, add_zero]
  rw [e1, Res.bind_ok, hp]
  generalize (if j > 0 then P s z i j k (j - 1) else 0) = a
  have e2 : RegSurf.stepIf (j < s.grid.nj - 1) (s.addNode k (j + 1)) (st + a)
      = .ok (st + a + P s z i j k (j + 1)) := by
    unfold RegSurf.stepIf
    by_cases h0 : j < s.grid.nj - 1
    · rw [if_pos h0, addNode_eq h hk (by omega) (hnp _)]
    · rw [if_neg h0, P_out (by omega), add_zero]
  rw [e2, Res.bind_ok, addNode_eq h hk hj (hnp _)]
  exact congrArg Res.ok (by abel)

theorem loop_eq (h : HasValues s z) (hi : i < s.grid.ni) (hj : j < s.grid.nj)
    {β : Type} (cont : ℝ × ℕ → Res β) :
    ((RegSurf.stepIf (i > 0) (s.addColumn (i - 1) j) (0.0, 0)).bind fun st =>
      (RegSurf.stepIf (i < RegSurf.predSize s.grid.ni) (s.addColumn (i + 1) j) st).bind fun st =>
      (RegSurf.stepIf (j > 0) (s.addNode i (j - 1)) st).bind fun st =>
      (RegSurf.stepIf (j < RegSurf.predSize s.grid.nj) (s.addNode i (j + 1)) st).bind cont)
    = cont (∑ k ∈ Finset.Icc (i - 1) (i + 1), ∑ l ∈ Finset.Icc (j - 1) (j + 1), P s z i j k l) := by
  have hpi : RegSurf.predSize s.grid.ni = s.grid.ni - 1 := by
    unfold RegSurf.predSize; rw [if_neg (by omega)]
  have hpj : RegSurf.predSize s.grid.nj = s.grid.nj - 1 := by
    unfold RegSurf.predSize; rw [if_neg (by omega)]
  have z0 : ((0.0, 0) : ℝ × ℕ) = 0 := by ext <;> norm_num
  have hout : ∀ k, ¬ k < s.grid.ni → ∑ l ∈ Finset.Icc (j - 1) (j + 1), P s z i j k l = 0 :=
    fun k hk => Finset.sum_eq_zero fun l _ => P_out (by omega)
  rw [sum_Icc3 (fun k => ∑ l ∈ Finset.Icc (j - 1) (j + 1), P s z i j k l) i]
  have e1 : RegSurf.stepIf (i > 0) (s.addColumn (i - 1) j) (0.0, 0)
      = .ok (if i > 0 then ∑ l ∈ Finset.Icc (j - 1) (j + 1), P s z i j (i - 1) l else 0) := by
    unfold RegSurf.stepIf
    by_cases h0 : i > 0
    · rw [if_pos h0, if_pos h0, addColumn_eq (i := i) h (by omega) (by omega) hj, z0, zero_add]
    · rw [if_neg h0, if_neg h0, z0]
  rw [e1, Res.bind_ok]
  generalize (if i > 0 then ∑ l ∈ Finset.Icc (j - 1) (j + 1), P s z i j (i - 1) l else 0) = a
  have e2 : RegSurf.stepIf (i < RegSurf.predSize s.grid.ni) (s.addColumn (i + 1) j) a
      = .ok (a + ∑ l ∈ Finset.Icc (j - 1) (j + 1), P s z i j (i + 1) l) := by
    unfold RegSurf.stepIf
    rw [hpi]
    by_cases h0 : i < s.grid.ni - 1
    · rw [if_pos h0, addColumn_eq (i := i) h (by omega) (by omega) hj]
    · rw [if_neg h0, hout _ (by omega), add_zero]
  rw [e2, Res.bind_ok, sum_Icc3 (P s z i j i) j, P_self]
  generalize (∑ l ∈ Finset.Icc (j - 1) (j + 1), P s z i j (i + 1) l) = b
  have e3 : RegSurf.stepIf (j > 0) (s.addNode i (j - 1)) (a + b)
      = .ok (a + b + if j > 0 then P s z i j i (j - 1) else 0) := by
    unfold RegSurf.stepIf
    by_cases h0 : j > 0
    · rw [if_pos h0, if_pos h0, addNode_eq (i := i) (j := j) h hi (by omega) (by simp; omega)]
    · rw [if_neg h0, if_neg h0, add_zero]
  rw [e3, Res.bind_ok]
  generalize (if j > 0 then P s z i j i (j - 1) else 0) = c
  have e4 : RegSurf.stepIf (j < RegSurf.predSize s.grid.nj) (s.addNode i (j + 1)) (a + b + c)
        = .ok (a + b + c + P s z i j i (j + 1)) := by
    unfold RegSurf.stepIf
    rw [hpj]
    by_cases h0 : j < s.grid.nj - 1
    · rw [if_pos h0, addNode_eq (i := i) (j := j) h hi (by omega) (by simp)]
    · rw [if_neg h0, P_out (by omega), add_zero]
  rw [e4, Res.bind_ok]
  exact congrArg cont (by abel)

theorem sum_P : (∑ k ∈ Finset.Icc (i - 1) (i + 1), ∑ l ∈ Finset.Icc (j - 1) (j + 1), P s z i j k l)
    = (∑ p ∈ validNeighbours s.grid.ni s.grid.nj s.missing z i j, z p.1 p.2,
       (validNeighbours s.grid.ni s.grid.nj s.missing z i j).card) := by
  classical
  have hN : validNeighbours s.grid.ni s.grid.nj s.missing z i j
      = (Finset.Icc (i - 1) (i + 1) ×ˢ Finset.Icc (j - 1) (j + 1)).filter fun p =>
        (p.1, p.2) ≠ (i, j) ∧ p.1 < s.grid.ni ∧ p.2 < s.grid.nj ∧ z p.1 p.2 ≠ s.missing := by
    ext ⟨k, l⟩
    simp only [validNeighbours, Finset.mem_filter, Finset.mem_product, Finset.mem_range,
      Finset.mem_Icc]
    constructor
    · rintro ⟨⟨a, b⟩, c, d, e, f, g, h⟩
      exact ⟨⟨by omega, by omega⟩, c, a, b, h⟩
    · rintro ⟨⟨a, b⟩, c, d, e, f⟩
      exact ⟨⟨d, e⟩, c, by omega, by omega, by omega, by omega, f⟩
  rw [← Finset.sum_product', hN]
  unfold P
  rw [← Finset.sum_filter]
  rw [Finset.card_eq_sum_ones]
  refine Prod.ext ?_ ?_
  · rw [Prod.fst_sum]
  · rw [Prod.snd_sum]

end Nbr

theorem set_spec {s : RegSurf} {z : ℕ → ℕ → ℝ} (h : HasValues s z) {i j : ℕ} (hi : i < s.grid.ni)
    (hj : j < s.grid.nj) (v : ℝ) :
    ∃ g, s.grid.set i j v = .ok g ∧
      SameBut s { s with grid := g } (fun k l => if k = i ∧ l = j then v else z k l) := by
  have hlt := node_lt h.1 hi hj
  refine ⟨{ s.grid with data := s.grid.data.set (i + j * s.grid.ni) v }, ?_, rfl, rfl, rfl, rfl,
    rfl, rfl, rfl, rfl, rfl, by simp, ?_⟩
  · unfold Grid2D.set Grid2D.getIndex
    simp only [Res.monad_bind_eq]
    rw [if_pos ⟨hi, hj⟩, Res.bind_ok, wr_ok hlt, Res.bind_ok]
  · intro k l hk hl
    refine get_of_getElem hk hl ?_
    dsimp only
    by_cases hkl : k = i ∧ l = j
    · rw [if_pos hkl, hkl.1, hkl.2, List.getElem?_set_self hlt]
    · rw [if_neg hkl, List.getElem?_set_ne, holds_getElem h hk hl]
      intro hc
      apply hkl
      have h1 := congrArg (· % s.grid.ni) hc
      simp only [Nat.add_mul_mod_self_right, Nat.mod_eq_of_lt hi, Nat.mod_eq_of_lt hk] at h1
      have h2 : j * s.grid.ni = l * s.grid.ni := by omega
      exact ⟨h1.symm, (Nat.eq_of_mul_eq_mul_right (by omega) h2).symm⟩

/-- C80. `CreateNeighbourAvg` gives the node the mean of its up to eight neighbours that have a value, and
no value if there are none; it tells which, and leaves the other nodes as they are. -/
theorem createNeighbourAvg_spec {s : RegSurf} {z : ℕ → ℕ → ℝ} (h : HasValues s z) {i j : ℕ}
    (hi : i < s.grid.ni) (hj : j < s.grid.nj) (N : Finset (ℕ × ℕ))
    (hN : N = validNeighbours s.grid.ni s.grid.nj s.missing z i j) :
    ∃ s', s.createNeighbourAvg i j = .ok (s', decide (0 < N.card)) ∧
      SameBut s s' (fun k l => if k = i ∧ l = j then
        (if 0 < N.card then (∑ p ∈ N, z p.1 p.2) / N.card else s.missing) else z k l) := by
  unfold RegSurf.createNeighbourAvg
  simp only [Res.monad_bind_eq]
  rw [Nbr.loop_eq h hi hj, Nbr.sum_P, ← hN]
  dsimp only
  by_cases h0 : 0 < N.card
  · obtain ⟨g, hg, hs⟩ := set_spec h hi hj ((∑ p ∈ N, z p.1 p.2) / N.card)
    refine ⟨{ s with grid := g }, ?_, by simpa [h0] using hs⟩
    rw [if_pos h0, RegSurf.divD_ok (by exact_mod_cast h0.ne'), Res.bind_ok, hg, Res.bind_ok]
    simp [h0]
  · obtain ⟨g, hg, hs⟩ := set_spec h hi hj s.missing
    refine ⟨{ s with grid := g }, ?_, by simpa [h0] using hs⟩
    rw [if_neg h0, hg, Res.bind_ok]
    simp [h0]

/-- The hypotheses are met: a surface of 3 by 2 nodes, one of them missing. -/
theorem hasValues_ofGrid {x_min y_min lx ly m : ℝ} {g : Grid2D ℝ} (hg : g.data.length = g.ni * g.nj) :
    HasValues ((RegSurf.ofGrid x_min y_min lx ly g).setMissingValue m)
      (fun i j => g.data.getD (i + j * g.ni) 0) :=
  ⟨hg, fun _ _ hi hj => grid_read hg hi hj⟩

example : HasValues ((RegSurf.ofGrid 10 20 4 1 ⟨3, 2, [1, 2, 3, 4, -999, 6]⟩).setMissingValue (-999))
    (fun i j => [1, 2, 3, 4, -999, 6].getD (i + j * 3) 0) := hasValues_ofGrid rfl

example : (validNeighbours 3 2 (-999) (fun i j => [1, 2, 3, 4, -999, 6].getD (i + j * 3) 0) 1 0)
    = {(0, 0), (2, 0), (0, 1), (2, 1)} := by
  classical
  ext ⟨a, b⟩
  simp only [validNeighbours, Finset.mem_filter, Finset.mem_product, Finset.mem_range,
    Finset.mem_insert, Finset.mem_singleton, Prod.mk.injEq]
  constructor
  · rintro ⟨⟨ha, hb⟩, hne, -, -, -, -, hm⟩
    interval_cases a <;> interval_cases b <;> simp_all [List.getD]
  · rintro (⟨rfl, rfl⟩ | ⟨rfl, rfl⟩ | ⟨rfl, rfl⟩ | ⟨rfl, rfl⟩) <;> norm_num [List.getD]

end Verif
