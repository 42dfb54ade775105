import Verif.Props.SurfaceRot

/-! # Resampling a rotated surface -/

namespace Verif

theorem resampleSize_eq {l d : ℝ} (hd : 0 < d) (hl : 0 ≤ l) (hb : l / d < 2 ^ 31 - 1) :
    RotSurf.resampleSize l d = .ok (⌊l / d⌋₊ + 1) := by
  have h0 : 0 ≤ l / d := div_nonneg hl hd.le
  have hf0 : 0 ≤ ⌊l / d⌋ := Int.floor_nonneg.mpr h0
  have hf1 : ⌊l / d⌋ < 2 ^ 31 - 1 := Int.floor_lt.mpr (by push_cast; norm_num at hb ⊢; exact hb)
  unfold RotSurf.resampleSize
  simp only [Res.monad_bind_eq, RegSurf.divD_ok hd.ne', Res.bind_ok]
  rw [truncZ_nonneg h0, RegSurf.toInt32_ok (by omega) (by omega), Res.bind_ok,
    RegSurf.succInt32_ok (by omega), Res.bind_ok]
  refine congrArg Res.ok ?_
  rw [← Int.floor_toNat]
  omega

/-- Filling a grid column by column. -/
theorem fill_grid {s0 : RegSurf} {z0 : ℕ → ℕ → ℝ} (h0 : HasValues s0 z0) (F : ℕ → ℕ → Res ℝ)
    (v : ℕ → ℕ → ℝ) (hF : ∀ i j, i < s0.grid.ni → j < s0.grid.nj → F i j = .ok (v i j)) :
    ∃ t, forRange 0 s0.grid.ni (fun i surf => forRange 0 s0.grid.nj (fun j (surf : RegSurf) => do
      let value ← F i j
      let g ← surf.grid.set i j value
      .ok { surf with grid := g }) surf) s0 = .ok t ∧ SameBut s0 t v := by
  have step : ∀ (t : RegSurf) (u : ℕ → ℕ → ℝ) (i j : ℕ), SameBut s0 t u → i < s0.grid.ni →
      j < s0.grid.nj → ∃ t', (do
        let value ← F i j
        let g ← t.grid.set i j value
        .ok { t with grid := g } : Res RegSurf) = .ok t' ∧
        SameBut s0 t' (fun k l => if k = i ∧ l = j then v i j else u k l) := by
    intro t u i j ht hi hj
    obtain ⟨a1, a2, a3, a4, a5, a6, a7, a8, a9, a10, a11⟩ := ht
    have hh : HasValues t u := ⟨by rw [a10, h0.1, a1, a2], fun k l hk hl => a11 k l (a1 ▸ hk) (a2 ▸ hl)⟩
    obtain ⟨g, hg, b1, b2, b3, b4, b5, b6, b7, b8, b9, b10, b11⟩ :=
      set_spec hh (i := i) (j := j) (a1 ▸ hi) (a2 ▸ hj) (v i j)
    refine ⟨{ t with grid := g }, ?_, b1.trans a1, b2.trans a2, b3.trans a3, b4.trans a4, b5.trans a5,
      b6.trans a6, b7.trans a7, b8.trans a8, b9.trans a9, b10.trans a10, ?_⟩
    · simp only [Res.monad_bind_eq, hF i j hi hj, Res.bind_ok, hg]
    · intro k l hk hl
      exact b11 k l (a1 ▸ hk) (a2 ▸ hl)
  have outer := forRange_sat
    (fun k (t : RegSurf) => ∃ u, SameBut s0 t u ∧ ∀ i j, i < k → j < s0.grid.nj → u i j = v i j)
    (Nat.zero_le s0.grid.ni) (s := s0)
    (body := fun i surf => forRange 0 s0.grid.nj (fun j (surf : RegSurf) => do
      let value ← F i j
      let g ← surf.grid.set i j value
      .ok { surf with grid := g }) surf)
    ⟨z0, ⟨rfl, rfl, rfl, rfl, rfl, rfl, rfl, rfl, rfl, rfl, h0.2⟩, fun i j hi => by omega⟩
    (by
      rintro i t - hi ⟨u, hu, huv⟩
      have inner := forRange_sat
        (fun l (t : RegSurf) => ∃ u, SameBut s0 t u ∧ ∀ i' j, (i' < i ∧ j < s0.grid.nj) ∨
          (i' = i ∧ j < l) → u i' j = v i' j)
        (Nat.zero_le s0.grid.nj) (s := t)
        (body := fun j (surf : RegSurf) => do
          let value ← F i j
          let g ← surf.grid.set i j value
          .ok { surf with grid := g })
        ⟨u, hu, fun i' j hh => by
          rcases hh with ⟨h1, h2⟩ | ⟨h1, h2⟩
          · exact huv i' j h1 h2
          · omega⟩
        (by
          rintro j t - hj ⟨u, hu, huv⟩
          obtain ⟨t', ht', hs'⟩ := step t u i j hu hi hj
          rw [ht', Res.sat_ok]
          refine ⟨_, hs', fun i' j' hh => ?_⟩
          by_cases hc : i' = i ∧ j' = j
          · rw [if_pos hc, hc.1, hc.2]
          · rw [if_neg hc]
            refine huv i' j' ?_
            rcases hh with hh | ⟨h1, h2⟩
            · exact Or.inl hh
            · exact Or.inr ⟨h1, by omega⟩)
      obtain ⟨t', ht', u', hu', huv'⟩ := inner
      rw [ht', Res.sat_ok]
      refine ⟨u', hu', fun i' j hi' hj => huv' i' j ?_⟩
      by_cases hc : i' = i
      · exact Or.inr ⟨hc, hj⟩
      · exact Or.inl ⟨by omega, hj⟩)
  obtain ⟨t, ht, u, ⟨a1, a2, a3, a4, a5, a6, a7, a8, a9, a10, a11⟩, huv⟩ := outer
  exact ⟨t, ht, a1, a2, a3, a4, a5, a6, a7, a8, a9, a10,
    fun i j hi hj => by rw [a11 i j hi hj, huv i j hi hj]⟩

/-- What `ResampleSurface` does: its node `(i, j)` has the value at `x_min + i dx`, `y_min + j dy`, where
`dx` and `dy` are the node distances of the rotated surface. -/
theorem resample_eq {s : RotSurf} (hdx : 0 < s.surf.dx) (hdy : 0 < s.surf.dy)
    (hx : s.x_min ≤ s.x_max) (hy : s.y_min ≤ s.y_max)
    (hbx : (s.x_max - s.x_min) / s.surf.dx < 2 ^ 31 - 1)
    (hby : (s.y_max - s.y_min) / s.surf.dy < 2 ^ 31 - 1) {nx ny : ℕ}
    (hnx : nx = ⌊(s.x_max - s.x_min) / s.surf.dx⌋₊ + 1)
    (hny : ny = ⌊(s.y_max - s.y_min) / s.surf.dy⌋₊ + 1) (v : ℕ → ℕ → ℝ)
    (hv : ∀ i j, i < nx → j < ny →
      s.getZ (s.x_min + i * s.surf.dx) (s.y_min + j * s.surf.dy) = .ok (v i j)) :
    ∃ r, s.resampleSurface = .ok r ∧ r.grid.ni = nx ∧ r.grid.nj = ny ∧ r.x_min = s.x_min ∧
      r.y_min = s.y_min ∧ r.lx = s.x_max - s.x_min ∧ r.ly = s.y_max - s.y_min ∧
      r.dx = spacing nx (s.x_max - s.x_min) ∧ r.dy = spacing ny (s.y_max - s.y_min) ∧
      r.missing = s.surf.missing ∧ HasValues r v := by
  set s0 := (RegSurf.mkConst s.x_min s.y_min (s.x_max - s.x_min) (s.y_max - s.y_min) nx ny
    0.0).setMissingValue s.surf.missing with hs0
  have hH : HasValues s0 (fun _ _ => 0.0) := by
    refine ⟨by simp [hs0, RegSurf.mkConst, RegSurf.setMissingValue, Grid2D.mk'], fun i j hi hj => ?_⟩
    have hl : s0.grid.data.length = s0.grid.ni * s0.grid.nj := by
      simp [hs0, RegSurf.mkConst, RegSurf.setMissingValue, Grid2D.mk']
    refine get_of_getElem hi hj ?_
    have := node_lt hl hi hj
    simp only [hs0, RegSurf.mkConst, RegSurf.setMissingValue, Grid2D.mk', List.length_replicate] at this ⊢
    rw [List.getElem?_replicate, if_pos this]
  obtain ⟨t, ht, a1, a2, a3, a4, a5, a6, a7, a8, a9, a10, a11⟩ := fill_grid hH
    (fun i j => s.getZ (s.x_min + i * s.surf.dx) (s.y_min + j * s.surf.dy)) v hv
  refine ⟨t, ?_, a1, a2, a3, a4, a5, a6, a7, a8, a9, ?_, fun i j hi hj => a11 i j (a1 ▸ hi) (a2 ▸ hj)⟩
  · unfold RotSurf.resampleSurface
    simp only [Res.monad_bind_eq]
    rw [resampleSize_eq hdx (by linarith) hbx, Res.bind_ok, resampleSize_eq hdy (by linarith) hby,
      Res.bind_ok, ← hnx, ← hny]
    exact ht
  · rw [a10, hH.1, a1, a2]

/-- C83. If the bounding box is a whole number of node distances wide and high, the resampled surface has at
each of its nodes the value of the rotated surface there. In general it has not, see
`resample_violation`. -/
theorem resample_partial {s : RotSurf} {z : ℕ → ℕ → ℝ} (hs : HasNodes s.surf z) (hdx : 0 < s.surf.dx)
    (hdy : 0 < s.surf.dy) {nx ny : ℕ} (hx : s.x_max - s.x_min = nx * s.surf.dx)
    (hy : s.y_max - s.y_min = ny * s.surf.dy) (hnx : nx < 2 ^ 31 - 1) (hny : ny < 2 ^ 31 - 1)
    (hr : ∀ i j, i ≤ nx → j ≤ ny →
      let p := s.globalToLocal (s.x_min + i * s.surf.dx) (s.y_min + j * s.surf.dy)
      InReach s.surf (p.1 + s.x_ref) (p.2 + s.y_ref)) :
    ∃ r, s.resampleSurface = .ok r ∧ r.missing = s.surf.missing ∧
      r.grid.ni = nx + 1 ∧ r.grid.nj = ny + 1 ∧
      ∀ i j, i ≤ nx → j ≤ ny →
        r.grid.get i j = s.getZ (r.getXY i j).1 (r.getXY i j).2 := by
  have qx : (s.x_max - s.x_min) / s.surf.dx = nx := by rw [hx]; field_simp
  have qy : (s.y_max - s.y_min) / s.surf.dy = ny := by rw [hy]; field_simp
  have cx : (nx : ℝ) < 2 ^ 31 - 1 := by
    have : ((nx + 1 : ℕ) : ℝ) < ((2 ^ 31 : ℕ) : ℝ) := by exact_mod_cast (by omega : nx + 1 < 2 ^ 31)
    push_cast at this; linarith
  have cy : (ny : ℝ) < 2 ^ 31 - 1 := by
    have : ((ny + 1 : ℕ) : ℝ) < ((2 ^ 31 : ℕ) : ℝ) := by exact_mod_cast (by omega : ny + 1 < 2 ^ 31)
    push_cast at this; linarith
  have hgx : s.x_min ≤ s.x_max := by
    have : 0 ≤ (nx : ℝ) * s.surf.dx := by positivity
    linarith
  have hgy : s.y_min ≤ s.y_max := by
    have : 0 ≤ (ny : ℝ) * s.surf.dy := by positivity
    linarith
  have hval : ∀ i j : ℕ, ∃ v, i ≤ nx → j ≤ ny →
      s.getZ (s.x_min + i * s.surf.dx) (s.y_min + j * s.surf.dy) = .ok v := by
    intro i j
    by_cases h : i ≤ nx ∧ j ≤ ny
    · exact ⟨_, fun _ _ => getZ_weighted hs (hr i j h.1 h.2)⟩
    · exact ⟨0, fun h1 h2 => absurd ⟨h1, h2⟩ h⟩
  choose v hv using hval
  obtain ⟨r, e, a1, a2, a3, a4, a5, a6, a7, a8, a9, a10⟩ := resample_eq (s := s) (nx := nx + 1)
    (ny := ny + 1) hdx hdy hgx hgy (by rw [qx]; exact cx) (by rw [qy]; exact cy)
    (by rw [qx, Nat.floor_natCast]) (by rw [qy, Nat.floor_natCast]) v
    (fun i j hi hj => hv i j (by omega) (by omega))
  have sp : ∀ (n k : ℕ) (d l : ℝ), l = n * d → k ≤ n → k * spacing (n + 1) l = k * d := by
    intro n k d l hl hk
    unfold spacing
    by_cases h1 : 1 < n + 1
    · have : ((n + 1 - 1 : ℕ) : ℝ) ≠ 0 := by
        have : n ≠ 0 := by omega
        simpa using this
      rw [if_pos h1, hl]
      simp only [Nat.add_sub_cancel] at this ⊢
      field_simp
    · have : k = 0 := by omega
      rw [this]; simp
  refine ⟨r, e, a9, a1, a2, fun i j hi hj => ?_⟩
  rw [a10.2 i j (by omega) (by omega)]
  unfold RegSurf.getXY
  dsimp only
  rw [a3, a4, a7, a8, sp nx i _ _ hx hi, sp ny j _ _ hy hj, hv i j hi hj]

/-- The hypotheses of `resample_partial` are met: a quarter turn of a surface with 3 by 3 nodes, one of them
missing, and node distances 2 and 1. -/
example : ∃ (s : RotSurf) (z : ℕ → ℕ → ℝ), HasNodes s.surf z ∧ s.surf.dx = 2 ∧ s.surf.dy = 1 ∧
    s.x_max - s.x_min = (1 : ℕ) * s.surf.dx ∧ s.y_max - s.y_min = (4 : ℕ) * s.surf.dy ∧
    ∀ i j : ℕ, i ≤ 1 → j ≤ 4 →
      let p := s.globalToLocal (s.x_min + i * s.surf.dx) (s.y_min + j * s.surf.dy)
      InReach s.surf (p.1 + s.x_ref) (p.2 + s.y_ref) := by
  refine ⟨RotSurf.ofGrid 0 0 4 2 ⟨3, 3, [1, 2, 3, 4, -999, 6, 7, 8, 9]⟩ (Real.pi / 2), _,
    hasNodes_ofGrid (m := -999.0) rfl (by norm_num) (by norm_num) (fun _ => by norm_num)
      (fun _ => by norm_num), ?_⟩
  norm_num [RotSurf.ofGrid, RotSurf.start, RotSurf.calculateMinMaxXY, RotSurf.localToGlobal,
    RegSurf.ofGrid, spacing, InReach, RotSurf.globalToLocal]
  intro i j hi hj
  interval_cases i <;> interval_cases j <;> norm_num

/-- C83. A surface of 3 by 2 nodes, node distances 1.5 and 2, on which the value is the first local
coordinate. After a quarter turn it is the second coordinate. The resampled surface says 2 at its node with
second coordinate 3. -/
theorem resample_violation :
    ∃ (s : RotSurf) (r : RegSurf) (z : ℕ → ℕ → ℝ), Boxed s ∧ HasNodes s.surf z ∧
      (∀ i j, i < 3 → j < 2 → z i j ≠ s.surf.missing) ∧ s.resampleSurface = .ok r ∧
      r.grid.ni = 2 ∧ r.grid.nj = 2 ∧ r.getXY 1 1 = (0, 3) ∧ s.isInsideSurface 0 3 = true ∧
      s.getZ 0 3 = .ok 3 ∧ r.grid.get 1 1 = .ok 2 := by
  set s := RotSurf.ofGrid 0 0 3 2 ⟨3, 2, [0, 1.5, 3, 0, 1.5, 3]⟩ (Real.pi / 2) with hs
  have hb : Boxed s := boxed_ofGrid (by norm_num) (by norm_num)
  have hn := hasNodes_ofGrid (x_min := 0) (y_min := 0) (lx := 3) (ly := 2) (m := -999.0)
    (g := ⟨3, 2, [0, 1.5, 3, 0, 1.5, 3]⟩) rfl (by norm_num) (by norm_num)
    (fun _ => by norm_num) (fun _ => by norm_num)
  have hsurf : s.surf = (RegSurf.ofGrid 0 0 3 2 ⟨3, 2, [0, 1.5, 3, 0, 1.5, 3]⟩).setMissingValue
    (-999.0) := rfl
  rw [← hsurf] at hn
  have hdx : s.surf.dx = 1.5 := by
    norm_num [hs, RotSurf.ofGrid, RotSurf.start, RotSurf.calculateMinMaxXY, RegSurf.ofGrid, spacing]
  have hdy : s.surf.dy = 2 := by
    norm_num [hs, RotSurf.ofGrid, RotSurf.start, RotSurf.calculateMinMaxXY, RegSurf.ofGrid, spacing]
  have x0 : s.x_min = -2 := by
    norm_num [hs, RotSurf.ofGrid, RotSurf.start, RotSurf.calculateMinMaxXY, RotSurf.localToGlobal,
      RegSurf.ofGrid]
  have x1 : s.x_max = 0 := by
    norm_num [hs, RotSurf.ofGrid, RotSurf.start, RotSurf.calculateMinMaxXY, RotSurf.localToGlobal,
      RegSurf.ofGrid]
  have y0 : s.y_min = 0 := by
    norm_num [hs, RotSurf.ofGrid, RotSurf.start, RotSurf.calculateMinMaxXY, RotSurf.localToGlobal,
      RegSurf.ofGrid]
  have y1 : s.y_max = 3 := by
    norm_num [hs, RotSurf.ofGrid, RotSurf.start, RotSurf.calculateMinMaxXY, RotSurf.localToGlobal,
      RegSurf.ofGrid]
  have hmiss : ∀ i j, i < 3 → j < 2 →
      ([0, 1.5, 3, 0, 1.5, 3] : List ℝ).getD (i + j * 3) 0 ≠ -999.0 := by
    intro i j hi hj
    interval_cases i <;> interval_cases j <;> norm_num [List.getD]
  have hz : ∀ x y : ℝ, -2 ≤ x → x ≤ 0 → 0 ≤ y → y ≤ 3 → s.getZ x y = .ok y := by
    intro x y hx0 hx1 hy0 hy1
    have := getZ_bilinear hn (by rw [hdx]; norm_num) (by rw [hdy]; norm_num)
      (by change 1 ≤ 3; norm_num) (by change 1 ≤ 2; norm_num) 0 1 0 0 (x := y) (y := -x)
      (by
        intro i j hi hj
        refine ⟨hmiss i j hi hj, ?_⟩
        change i < 3 at hi
        change j < 2 at hj
        simp only [nodeX, nodeY, RegSurf.getXY, hdx, hdy]
        change _ = 0 + 1 * ((0 : ℝ) + _) + _ + _
        interval_cases i <;> interval_cases j <;> norm_num [List.getD])
      (by change (0 : ℝ) ≤ y; exact hy0)
      (by
        simp only [nodeX, RegSurf.getXY, hdx]
        change y ≤ 0 + ((3 - 1 : ℕ) : ℝ) * 1.5
        norm_num; exact hy1)
      (by change (0 : ℝ) ≤ -x; linarith)
      (by
        simp only [nodeY, RegSurf.getXY, hdy]
        change -x ≤ 0 + ((2 - 1 : ℕ) : ℝ) * 2
        norm_num; linarith)
    unfold RotSurf.getZ RotSurf.globalToLocal
    have ha : s.angle = Real.pi / 2 := rfl
    have r1 : s.x_ref = 0 := rfl
    have r2 : s.y_ref = 0 := rfl
    rw [ha, r1, r2]
    simp only [Real.cos_pi_div_two, Real.sin_pi_div_two]
    norm_num at this ⊢
    exact this
  have f1 : ⌊(s.x_max - s.x_min) / s.surf.dx⌋₊ = 1 := by
    rw [x0, x1, hdx, Nat.floor_eq_iff (by norm_num)]; norm_num
  have f2 : ⌊(s.y_max - s.y_min) / s.surf.dy⌋₊ = 1 := by
    rw [y0, y1, hdy, Nat.floor_eq_iff (by norm_num)]; norm_num
  obtain ⟨r, e, a1, a2, a3, a4, a5, a6, a7, a8, a9, a10⟩ := resample_eq (s := s) (nx := 2) (ny := 2)
    (by rw [hdx]; norm_num) (by rw [hdy]; norm_num) (by rw [x0, x1]; norm_num)
    (by rw [y0, y1]; norm_num) (by rw [x0, x1, hdx]; norm_num) (by rw [y0, y1, hdy]; norm_num)
    (by rw [f1]) (by rw [f2]) (fun _ j => j * 2) (by
      intro i j hi hj
      rw [x0, y0, hdx, hdy, hz]
      · simp
      · have : (0 : ℝ) ≤ i := Nat.cast_nonneg i
        linarith
      · have : (i : ℝ) ≤ 1 := by exact_mod_cast (by omega : i ≤ 1)
        linarith
      · positivity
      · have : (j : ℝ) ≤ 1 := by exact_mod_cast (by omega : j ≤ 1)
        linarith)
  refine ⟨s, r, _, hb, hn, hmiss, e, a1, a2, ?_, ?_, hz 0 3 (by norm_num) le_rfl (by norm_num) le_rfl, ?_⟩
  · unfold RegSurf.getXY
    rw [a3, a4, a7, a8, x0, x1, y0, y1]
    norm_num [spacing]
  · norm_num [hs, RotSurf.isInsideSurface, RotSurf.globalToLocal, RotSurf.ofGrid,
      RotSurf.start, RotSurf.calculateMinMaxXY, RegSurf.isInsideSurface, RegSurf.ofGrid, RegSurf.xMax,
      RegSurf.yMax]
  · rw [a10.2 1 1 (by omega) (by omega)]
    norm_num

end Verif
