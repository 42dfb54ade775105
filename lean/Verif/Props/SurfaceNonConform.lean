import Verif.Props.SurfaceNeighbours

/-! # Surfaces: arithmetic with another surface -/

namespace Verif

/-- The storage loop: each element with a value is combined with the value of the other surface at
its node. -/
theorem nonConformLoop_eq {nodeXY : ℕ → Res (ℝ × ℝ)} {missing : ℝ} {op : ℝ → ℝ → Res ℝ}
    {s2 : SurfaceIf} {d : List ℝ} (f : ℝ → ℝ → ℝ) (w : ℕ → ℝ)
    (hw : ∀ k (h : k < d.length), d[k] ≠ missing →
      (nodeXY k).bind (fun p => s2.getZ p.1 p.2) = .ok (w k) ∧
      (¬ s2.isMissing (w k) → op d[k] (w k) = .ok (f d[k] (w k)))) :
    nonConformLoop nodeXY missing op s2 d
      = .ok (d.mapIdx fun k v => open Classical in
          if v = missing ∨ s2.isMissing (w k) then missing else f v (w k)) := by
  classical
  unfold nonConformLoop
  refine forRange_mapIdx d _ _ fun i e hi hl he => ?_
  simp only [Res.monad_bind_eq, rd_eq_ok.2 he, Res.bind_ok]
  by_cases hm : d[i] = missing
  · rw [if_neg (not_not.mpr hm), if_pos (Or.inl hm)]
    rw [← hm, set_self he]
  · obtain ⟨h1, h2⟩ := hw i hi hm
    rw [if_pos hm]
    obtain ⟨p, hp, hz⟩ := Res.bind_eq_ok.1 h1
    rw [hp, Res.bind_ok, hz, Res.bind_ok]
    by_cases hb : s2.isMissing (w i)
    · rw [if_neg (not_not.mpr hb), if_pos (Or.inr hb), wr_ok (by omega)]
    · rw [if_pos hb, if_neg (by rintro (h | h); exacts [hm h, hb h]), h2 hb, Res.bind_ok,
        wr_ok (by omega)]

open Classical in
/-- The values of a surface after combining it with another: `z` are its own, `w` the values of the
other surface at its nodes. A node has a value only if both have one. -/
noncomputable def combined (missing : ℝ) (isMissing : ℝ → Prop) (f : ℝ → ℝ → ℝ) (z w : ℕ → ℕ → ℝ)
    (i j : ℕ) : ℝ :=
  if z i j = missing ∨ isMissing (w i j) then missing else f (z i j) (w i j)

theorem combined_of {missing : ℝ} {P : ℝ → Prop} {f : ℝ → ℝ → ℝ} {z w : ℕ → ℕ → ℝ} {i j : ℕ} {q : ℝ}
    (hq : w i j = q) [Decidable (z i j = missing ∨ P q)] :
    combined missing P f z w i j = if z i j = missing ∨ P q then missing else f (z i j) q := by
  subst hq
  unfold combined
  congr

theorem nonConform_spec {s : RegSurf} {z w : ℕ → ℕ → ℝ} (h : HasValues s z) {s2 : SurfaceIf}
    {op : ℝ → ℝ → Res ℝ} (f : ℝ → ℝ → ℝ)
    (hw : ∀ i j, i < s.grid.ni → j < s.grid.nj → z i j ≠ s.missing →
      s2.getZ (s.getXY i j).1 (s.getXY i j).2 = .ok (w i j) ∧
      (¬ s2.isMissing (w i j) → op (z i j) (w i j) = .ok (f (z i j) (w i j)))) :
    ∃ s', s.nonConform op s2 = .ok s' ∧
      SameBut s s' (combined s.missing s2.isMissing f z w) := by
  classical
  have key := nonConformLoop_eq (nodeXY := s.getXYIndex) (missing := s.missing) (op := op)
    (s2 := s2) (d := s.grid.data) f (fun k => w (k % s.grid.ni) (k / s.grid.ni)) (by
      intro k hk hm
      obtain ⟨i, j, -, hi, hj, hij, hxy⟩ := exists_node h.1 hk
      have hz : s.grid.data[k] = z i j := by
        have := holds_getElem h hi hj
        rw [hij, List.getElem?_eq_getElem hk] at this
        exact Option.some.inj this
      have e1 : k % s.grid.ni = i := by
        rw [← hij, Nat.add_mul_mod_self_right, Nat.mod_eq_of_lt hi]
      have e2 : k / s.grid.ni = j := by
        rw [← hij, Nat.add_mul_div_right _ _ (by omega), Nat.div_eq_of_lt hi, zero_add]
      rw [hxy, Res.bind_ok, hz, e1, e2]
      exact hw i j hi hj (hz ▸ hm))
  unfold RegSurf.nonConform
  simp only [Res.monad_bind_eq]
  rw [key, Res.bind_ok]
  refine ⟨_, rfl, rfl, rfl, rfl, rfl, rfl, rfl, rfl, rfl, rfl, by simp, ?_⟩
  intro i j hi hj
  refine get_of_getElem hi hj ?_
  dsimp only
  rw [List.getElem?_mapIdx, holds_getElem h hi hj, Nat.add_mul_mod_self_right, Nat.mod_eq_of_lt hi,
    Nat.add_mul_div_right _ _ (by omega), Nat.div_eq_of_lt hi, zero_add]
  rfl

/-- C81. `AddNonConform` with any surface that can be evaluated at the nodes: the values are added where
both surfaces have one, all other nodes are missing. -/
theorem addNonConform_spec {s : RegSurf} {z w : ℕ → ℕ → ℝ} (h : HasValues s z) {s2 : SurfaceIf}
    (hw : ∀ i j, i < s.grid.ni → j < s.grid.nj → z i j ≠ s.missing →
      s2.getZ (s.getXY i j).1 (s.getXY i j).2 = .ok (w i j)) :
    ∃ s', s.addNonConform s2 = .ok s' ∧
      SameBut s s' (combined s.missing s2.isMissing (· + ·) z w) :=
  nonConform_spec h _ fun i j hi hj hm => ⟨hw i j hi hj hm, fun _ => rfl⟩

/-- C81. `SubtractNonConform` likewise. -/
theorem subtractNonConform_spec {s : RegSurf} {z w : ℕ → ℕ → ℝ} (h : HasValues s z) {s2 : SurfaceIf}
    (hw : ∀ i j, i < s.grid.ni → j < s.grid.nj → z i j ≠ s.missing →
      s2.getZ (s.getXY i j).1 (s.getXY i j).2 = .ok (w i j)) :
    ∃ s', s.subtractNonConform s2 = .ok s' ∧
      SameBut s s' (combined s.missing s2.isMissing (· - ·) z w) :=
  nonConform_spec h _ fun i j hi hj hm => ⟨hw i j hi hj hm, fun _ => rfl⟩

/-- C81. `MultiplyNonConform` likewise. -/
theorem multiplyNonConform_spec {s : RegSurf} {z w : ℕ → ℕ → ℝ} (h : HasValues s z) {s2 : SurfaceIf}
    (hw : ∀ i j, i < s.grid.ni → j < s.grid.nj → z i j ≠ s.missing →
      s2.getZ (s.getXY i j).1 (s.getXY i j).2 = .ok (w i j)) :
    ∃ s', s.multiplyNonConform s2 = .ok s' ∧
      SameBut s s' (combined s.missing s2.isMissing (· * ·) z w) :=
  nonConform_spec h _ fun i j hi hj hm => ⟨hw i j hi hj hm, fun _ => rfl⟩

/-- C81. `DivideNonConform` likewise, if the other surface is not 0 at a node where it is used. -/
theorem divideNonConform_spec {s : RegSurf} {z w : ℕ → ℕ → ℝ} (h : HasValues s z) {s2 : SurfaceIf}
    (hw : ∀ i j, i < s.grid.ni → j < s.grid.nj → z i j ≠ s.missing →
      s2.getZ (s.getXY i j).1 (s.getXY i j).2 = .ok (w i j) ∧ (¬ s2.isMissing (w i j) → w i j ≠ 0)) :
    ∃ s', s.divideNonConform s2 = .ok s' ∧
      SameBut s s' (combined s.missing s2.isMissing (· / ·) z w) :=
  nonConform_spec h _ fun i j hi hj hm =>
    ⟨(hw i j hi hj hm).1, fun hb => RegSurf.divD_ok ((hw i j hi hj hm).2 hb)⟩

/-- C81. The other surface may be a regular surface with other nodes and another missing value: its values
are interpolated. Here for addition. -/
theorem addNonConform_regular {s t : RegSurf} {z u : ℕ → ℕ → ℝ} (h : HasValues s z) (ht : HasNodes t u)
    (hr : ∀ i j, i < s.grid.ni → j < s.grid.nj → z i j ≠ s.missing →
      InReach t (s.getXY i j).1 (s.getXY i j).2) :
    ∃ s', s.addNonConform t.toSurface = .ok s' ∧
      SameBut s s' (fun i j =>
        let x := (s.getXY i j).1
        let y := (s.getXY i j).2
        if z i j = s.missing ∨ weightAt t u x y = 0 ∨ sumAt t u x y / weightAt t u x y = t.missing
        then s.missing else z i j + sumAt t u x y / weightAt t u x y) := by
  obtain ⟨s', h1, h2⟩ := addNonConform_spec h (s2 := t.toSurface)
    (w := fun i j => if weightAt t u (s.getXY i j).1 (s.getXY i j).2 = 0 then t.missing
      else sumAt t u (s.getXY i j).1 (s.getXY i j).2 / weightAt t u (s.getXY i j).1 (s.getXY i j).2)
    (fun i j hi hj hm => getZ_weighted ht (hr i j hi hj hm))
  refine ⟨s', h1, ?_⟩
  convert h2 using 3 with i j
  dsimp only
  by_cases h0 : weightAt t u (s.getXY i j).1 (s.getXY i j).2 = 0
  · rw [if_pos (Or.inr (Or.inl h0))]
    classical
    rw [combined_of (if_pos h0)]
    exact (if_pos (Or.inr rfl)).symm
  · classical
    rw [combined_of (if_neg h0)]
    by_cases h1 : z i j = s.missing ∨ t.toSurface.isMissing
        (sumAt t u (s.getXY i j).1 (s.getXY i j).2 / weightAt t u (s.getXY i j).1 (s.getXY i j).2)
    · rw [if_pos h1]
      exact if_pos (h1.elim Or.inl fun h => Or.inr (Or.inr h))
    · rw [if_neg h1, if_neg]
      rintro (h | h | h)
      exacts [h1 (Or.inl h), h0 h, h1 (Or.inr h)]

/-- C81. If the two surfaces have the same nodes, the node values are combined one by one, for each of
the operations. -/
theorem nonConform_same {s t : RegSurf} {z u : ℕ → ℕ → ℝ} (h : HasValues s z) (ht : HasNodes t u)
    (hni : t.grid.ni = s.grid.ni) (hnj : t.grid.nj = s.grid.nj)
    (hxy : ∀ i j, t.getXY i j = s.getXY i j) :
    (∃ s', s.addNonConform t.toSurface = .ok s' ∧
      SameBut s s' (combined s.missing (· = t.missing) (· + ·) z u)) ∧
    (∃ s', s.subtractNonConform t.toSurface = .ok s' ∧
      SameBut s s' (combined s.missing (· = t.missing) (· - ·) z u)) ∧
    (∃ s', s.multiplyNonConform t.toSurface = .ok s' ∧
      SameBut s s' (combined s.missing (· = t.missing) (· * ·) z u)) ∧
    ((∀ i j, i < s.grid.ni → j < s.grid.nj → z i j ≠ s.missing → u i j ≠ t.missing → u i j ≠ 0) →
     ∃ s', s.divideNonConform t.toSurface = .ok s' ∧
      SameBut s s' (combined s.missing (· = t.missing) (· / ·) z u)) := by
  have hz : ∀ i j, i < s.grid.ni → j < s.grid.nj →
      t.toSurface.getZ (s.getXY i j).1 (s.getXY i j).2 = .ok (u i j) := by
    intro i j hi hj
    rw [← hxy]
    exact getZ_node ht (by rw [hni]; exact hi) (by rw [hnj]; exact hj)
  exact ⟨addNonConform_spec h fun i j hi hj _ => hz i j hi hj,
    subtractNonConform_spec h fun i j hi hj _ => hz i j hi hj,
    multiplyNonConform_spec h fun i j hi hj _ => hz i j hi hj,
    fun h0 => divideNonConform_spec h fun i j hi hj hm => ⟨hz i j hi hj, fun hb => h0 i j hi hj hm hb⟩⟩

/-- C81. With a constant surface, all nodes that have a value keep one, whatever the constant. -/
theorem addNonConform_constant {s : RegSurf} {z : ℕ → ℕ → ℝ} (h : HasValues s z) (c : ℝ) :
    ∃ s', s.addNonConform (constantSurface c) = .ok s' ∧
      SameBut s s' (fun i j => if z i j = s.missing then s.missing else z i j + c) := by
  obtain ⟨s', h1, h2⟩ := addNonConform_spec h (s2 := constantSurface c) (w := fun _ _ => c)
    (fun i j _ _ _ => rfl)
  refine ⟨s', h1, ?_⟩
  convert h2 using 3 with i j
  unfold combined constantSurface
  simp only [or_false]

/-- C81. Dividing by a surface that is zero at a node gives no finite value there. -/
theorem divideNonConform_violation :
    ∃ w, (RegSurf.ofGrid 0 0 1 1 ⟨1, 1, [5]⟩).divideNonConform (constantSurface 0)
      = .nonfinite w := by
  refine ⟨"division by zero", ?_⟩
  have h5 : (5 : ℝ) ≠ -999.0 := by norm_num
  simp [RegSurf.divideNonConform, RegSurf.nonConform, nonConformLoop, RegSurf.ofGrid, forRange,
    forN, rd, constantSurface, divD, RegSurf.getXYIndex, Res.bind, Res.monad_bind_eq, h5]

/-- The hypotheses of `addNonConform_regular` are met: surfaces of 3 by 2 and 2 by 2 nodes that overlap in
part. -/
example : ∃ z u, HasValues (RegSurf.ofGrid 10 20 4 1 ⟨3, 2, [1, 2, 3, 4, -999, 6]⟩ |>.setMissingValue (-999)) z ∧
    HasNodes ((RegSurf.ofGrid 11 20 2 2 ⟨2, 2, [1, 2, 3, 0]⟩).setMissingValue 0) u ∧
    ∀ i j, i < 3 → j < 2 →
      InReach ((RegSurf.ofGrid 11 20 2 2 ⟨2, 2, [1, 2, 3, 0]⟩).setMissingValue 0)
        ((RegSurf.ofGrid 10 20 4 1 ⟨3, 2, [1, 2, 3, 4, -999, 6]⟩ |>.setMissingValue (-999)).getXY i j).1
        ((RegSurf.ofGrid 10 20 4 1 ⟨3, 2, [1, 2, 3, 4, -999, 6]⟩ |>.setMissingValue (-999)).getXY i j).2 := by
  refine ⟨_, _, hasValues_ofGrid rfl, hasNodes_ofGrid rfl (by norm_num) (by norm_num)
    (fun _ => by norm_num) (fun _ => by norm_num), ?_⟩
  intro i j hi hj
  interval_cases i <;> interval_cases j <;>
    norm_num [InReach, RegSurf.setMissingValue, RegSurf.ofGrid, spacing, RegSurf.getXY]

end Verif
