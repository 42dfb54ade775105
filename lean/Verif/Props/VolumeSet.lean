import Verif.Props.VolumeHeight

/-!
# Changes of volumes
-/

namespace Verif

open Classical

/-- Every surface of the volume covers it, as `CheckSurface` sees it. -/
def Volume.Covered (V : Volume) : Prop :=
  V.checkSurface V.top = true ∧ V.checkSurface V.bot = true ∧ (∀ s, V.eroTop = some s → V.checkSurface s = true) ∧
  ∀ s, V.eroBot = some s → V.checkSurface s = true

theorem checkSurfaces_ok (V : Volume) : (V.checkSurfaces = .ok () ↔ V.Covered) ∧ (¬ V.Covered → ∃ m, V.checkSurfaces = .throws m) := by
  unfold Volume.checkSurfaces Volume.Covered
  constructor
  · split_ifs with h1 h2 h3 h4 <;> simp_all
  · intro h
    by_cases h1 : V.checkSurface V.top = true
    · by_cases h2 : V.checkSurface V.bot = true
      · by_cases h3 : ∀ s, V.eroTop = some s → V.checkSurface s = true
        · have h4 : ¬ ∀ s, V.eroBot = some s → V.checkSurface s = true := fun h4 => h ⟨h1, h2, h3, h4⟩
          rw [if_neg (not_not.2 h1), if_neg (not_not.2 h2), if_neg (not_not.2 h3), if_pos h4]
          exact ⟨_, rfl⟩
        · rw [if_neg (not_not.2 h1), if_neg (not_not.2 h2), if_pos h3]
          exact ⟨_, rfl⟩
      · rw [if_neg (not_not.2 h1), if_pos h2]
        exact ⟨_, rfl⟩
    · rw [if_pos h1]
      exact ⟨_, rfl⟩

/-- How a change ends: if it returns, every surface that was checked covers the volume and the height is that of the new volume; if not,
the change has been made all the same. -/
theorem finish_spec (V : Volume) (check : Prop) :
    ((V.finish check).2 = .ok () ↔ (check → V.Covered) ∧ ∃ lz, V.recalculateLZ = .ok lz) ∧
    ((V.finish check).2 = .ok () → ∃ lz, V.recalculateLZ = .ok lz ∧ (V.finish check).1 = { V with lz := lz }) ∧
    ((V.finish check).2 ≠ .ok () → (V.finish check).1 = V) ∧
    (check → ¬ V.Covered → ∃ m, (V.finish check).2 = .throws m) := by
  obtain ⟨h1, h2⟩ := checkSurfaces_ok V
  unfold Volume.finish
  by_cases hc : check
  · rw [if_pos hc]
    by_cases hcov : V.Covered
    · rw [h1.2 hcov]
      cases hr : V.recalculateLZ <;> simp [hc, hcov]
    · obtain ⟨m, hm⟩ := h2 hcov
      rw [hm]
      simp [hc, hcov]
  · rw [if_neg hc]
    cases hr : V.recalculateLZ <;> simp [hc]

/-- `SetDimensions`, `SetAngle` and `SetSurfaces` with surfaces of others: they return if and only if all surfaces cover the new volume,
and then the members are the new ones and the height belongs to them. -/
theorem volume_setters_partial (V : Volume) :
    (∀ x y l m, (V.setDimensions x y l m).2 = .ok () → ∃ lz, (V.setDimensions x y l m).1 = { V with x_min := x, y_min := y, lx := l, ly := m, lz := lz } ∧
      (V.setDimensions x y l m).1.Covered ∧ (V.setDimensions x y l m).1.recalculateLZ = .ok lz) ∧
    (∀ a, (V.setAngle a).2 = .ok () → ∃ lz, (V.setAngle a).1 = { V with angle := a, lz := lz } ∧
      (V.setAngle a).1.Covered ∧ (V.setAngle a).1.recalculateLZ = .ok lz) ∧
    (∀ s t, 0 < V.lx ∨ 0 < V.ly → (V.setSurfaces (.other s) (.other t) false).2 = .ok () →
      ∃ lz, (V.setSurfaces (.other s) (.other t) false).1 = { V with top := s, bot := t, lz := lz } ∧
      (V.setSurfaces (.other s) (.other t) false).1.Covered ∧ (V.setSurfaces (.other s) (.other t) false).1.recalculateLZ = .ok lz) ∧
    (∀ s t u v, 0 < V.lx ∨ 0 < V.ly → (V.setSurfaces4 s t u v).2 = .ok () →
      ∃ lz, (V.setSurfaces4 s t u v).1 = { V with top := s, bot := t, eroTop := some u, eroBot := some v, lz := lz } ∧
      (V.setSurfaces4 s t u v).1.Covered ∧ (V.setSurfaces4 s t u v).1.recalculateLZ = .ok lz) := by
  have z : (0.0 : ℝ) = 0 := by norm_num
  have key : ∀ (W : Volume) (check : Prop), check → (W.finish check).2 = .ok () →
      ∃ lz, (W.finish check).1 = { W with lz := lz } ∧ (W.finish check).1.Covered ∧ (W.finish check).1.recalculateLZ = .ok lz := by
    intro W check hc hok
    obtain ⟨g1, g2, -, -⟩ := finish_spec W check
    obtain ⟨lz, e1, e2⟩ := g2 hok
    refine ⟨lz, e2, ?_, ?_⟩
    · rw [e2]; exact (g1.1 hok).1 hc
    · rw [e2]; exact e1
  refine ⟨fun x y l m h => ?_, fun a h => ?_, fun s t ha h => ?_, fun s t u v ha h => ?_⟩
  · exact key _ _ trivial h
  · exact key _ _ trivial h
  · exact key _ _ ⟨by rw [z]; exact ha, rfl⟩ h
  · exact key _ _ (by rw [z]; exact ha) h

/-- They do return when the surfaces cover the new volume and have heights everywhere. -/
theorem volume_setters_return (V : Volume) {zt zb : ℝ → ℝ → ℝ} :
    (∀ x y l m, V.top.HasHeights zt → V.bot.HasHeights zb → ({ V with x_min := x, y_min := y, lx := l, ly := m } : Volume).Covered →
      (V.setDimensions x y l m).2 = .ok ()) ∧
    (∀ a, V.top.HasHeights zt → V.bot.HasHeights zb → ({ V with angle := a } : Volume).Covered → (V.setAngle a).2 = .ok ()) ∧
    (∀ s t skip, s.HasHeights zt → t.HasHeights zb → ({ V with top := s, bot := t } : Volume).Covered →
      (V.setSurfaces (.other s) (.other t) skip).2 = .ok ()) := by
  have key : ∀ W : Volume, W.top.HasHeights zt → W.bot.HasHeights zb → ∃ lz, W.recalculateLZ = .ok lz := by
    intro W ht hb
    by_cases harea : 0 < W.lx ∨ 0 < W.ly
    · obtain ⟨lz, h, -⟩ := recalculateLZ_partial W harea ht hb
      exact ⟨lz, h⟩
    · have z : (0.0 : ℝ) = 0 := by norm_num
      refine ⟨0.0, ?_⟩
      unfold Volume.recalculateLZ
      rw [if_neg (by rw [z]; exact harea)]
  refine ⟨fun x y l m ht hb hc => ?_, fun a ht hb hc => ?_, fun s t skip ht hb hc => ?_⟩
  · exact (finish_spec _ _).1.2 ⟨fun _ => hc, key _ ht hb⟩
  · exact (finish_spec _ _).1.2 ⟨fun _ => hc, key _ ht hb⟩
  · exact (finish_spec _ _).1.2 ⟨fun _ => hc, key _ ht hb⟩

/-- A call of `SetDimensions` that throws has changed the volume: it lies where the top is not defined, with the height of the old one. -/
theorem setDimensions_violation : ∃ V : Volume, V.Covered ∧ V.top = .regular (.mkConst 0 0 1 1 2 2 3) ∧
    (∃ m, (V.setDimensions 5 5 1 1).2 = .throws m) ∧ (V.setDimensions 5 5 1 1).1.x_min = 5 ∧ (V.setDimensions 5 5 1 1).1.lz = V.lz ∧
    ¬ (V.setDimensions 5 5 1 1).1.Covered := by
  have hn : ¬ ({ (⟨0, 0, 1, 1, 7, .regular (.mkConst 0 0 1 1 2 2 3), .constant 10, none, none, 0, 1e-6⟩ : Volume) with
      x_min := 5, y_min := 5, lx := 1, ly := 1 } : Volume).Covered := by
    rintro ⟨h, -⟩
    norm_num [Volume.checkSurface, VSurf.regular, RegSurf.enclosesRectangle, RegSurf.mkConst, Volume.localToGlobal, RegSurf.xMax] at h
  refine ⟨⟨0, 0, 1, 1, 7, .regular (.mkConst 0 0 1 1 2 2 3), .constant 10, none, none, 0, 1e-6⟩, ?_, rfl, ?_, ?_⟩
  · refine ⟨?_, rfl, fun s h => (Option.some_ne_none _ h.symm).elim, fun s h => (Option.some_ne_none _ h.symm).elim⟩
    norm_num [Volume.checkSurface, VSurf.regular, RegSurf.enclosesRectangle, RegSurf.mkConst, Volume.localToGlobal, RegSurf.xMax, RegSurf.yMax]
  · exact (finish_spec _ _).2.2.2 trivial hn
  · have e := (finish_spec ({ (⟨0, 0, 1, 1, 7, .regular (.mkConst 0 0 1 1 2 2 3), .constant 10, none, none, 0, 1e-6⟩ : Volume) with
      x_min := 5, y_min := 5, lx := 1, ly := 1 } : Volume) True).2.2.1 (by
        obtain ⟨m, hm⟩ := (finish_spec _ True).2.2.2 trivial hn
        rw [hm]
        exact fun h => by cases h)
    unfold Volume.setDimensions
    rw [e]
    exact ⟨rfl, rfl, hn⟩

/-- Giving a volume its own surfaces: `SetSurfaces(v.GetTopSurface(), …)` uses a surface that has been deleted, as does any call whose
second argument belongs to the volume. Only the bottom as the new top is well defined. -/
theorem setSurfaces_own_violation (V : Volume) (a b : Volume.SurfArg) (skip : Bool) :
    (a = .ownTop ∨ b = .ownTop ∨ b = .ownBot) → ∃ w, (V.setSurfaces a b skip).2 = .ub w := by
  intro h
  unfold Volume.setSurfaces Volume.cloneSurfaces
  cases a <;> cases b <;> simp_all [Volume.SurfArg.clone, Res.monad_bind_eq, Res.bind]

/-- Copies: the copy has the area, the surfaces and the height of the original, and the same points are in it. -/
theorem volume_copy_partial (V : Volume) : (∀ x y, V.copy.isInsideXY x y = V.isInsideXY x y) ∧ (∀ x y z, V.copy.isInside x y z = V.isInside x y z) ∧
    V.copy.recalculateLZ = V.recalculateLZ ∧ V.copy.lz = V.lz ∧ V.copy.findCenter = V.findCenter ∧ (V.copy.Covered ↔ V.Covered) ∧
    (∀ W : Volume, W.assign V = V) ∧ (V.tol = 1e-6 → V.copy = V) := by
  refine ⟨fun x y => rfl, fun x y z => rfl, rfl, rfl, rfl, Iff.rfl, fun W => rfl, fun h => ?_⟩
  unfold Volume.copy
  rw [← h]

/-- The copy constructor forgets the tolerance, which assignment keeps: a point may be inside with tolerance in the original, not in its copy. -/
theorem volume_copy_violation : ∃ V W : Volume, ∃ x y, V.isInsideTolerance x y = true ∧ V.copy.isInsideTolerance x y = false ∧
    (W.assign V).isInsideTolerance x y = true := by
  refine ⟨⟨0, 0, 1, 1, 1, .constant 0, .constant 1, none, none, 0, 1⟩, .ofBox 0 0 0 1 1 1 0, -0.5, 0.5, ?_, ?_, ?_⟩
  · norm_num [Volume.isInsideTolerance]
  · norm_num [Volume.isInsideTolerance, Volume.copy]
  · norm_num [Volume.isInsideTolerance, Volume.assign]

/-- `FindCenter` of a volume that is not turned gives the centre of the area. -/
theorem findCenter_partial (V : Volume) (h0 : V.angle = 0) {zt zb : ℝ → ℝ → ℝ} (ht : V.top.HasHeights zt) (hb : V.bot.HasHeights zb) :
    ∃ c : ℝ × ℝ, c = areaPoint V.x_min V.y_min V.angle (V.lx / 2) (V.ly / 2) ∧ V.findCenter = .ok (c.1, c.2, (zt c.1 c.2 + zb c.1 c.2) / 2) := by
  refine ⟨_, rfl, ?_⟩
  have e1 : (areaPoint V.x_min V.y_min V.angle (V.lx / 2) (V.ly / 2)).1 = V.x_min + 0.5 * V.lx := by
    norm_num [areaPoint, h0]; ring
  have e2 : (areaPoint V.x_min V.y_min V.angle (V.lx / 2) (V.ly / 2)).2 = V.y_min + 0.5 * V.ly := by
    norm_num [areaPoint, h0]; ring
  rw [e1, e2]
  unfold Volume.findCenter
  simp only
  rw [ht, hb]
  simp only [Res.monad_bind_eq, Res.bind_ok]
  congr 3
  norm_num
  ring

/-- `FindCenter` of a volume that is turned: the "centre" is outside. -/
theorem findCenter_violation : ∃ V : Volume, V = .ofBox 0 0 0 2 2 2 Real.pi ∧ V.findCenter = .ok (1, 1, 1) ∧ V.isInsideXY 1 1 = false := by
  refine ⟨_, rfl, ?_, ?_⟩
  · norm_num [Volume.findCenter, Volume.ofBox, VSurf.constant, Res.monad_bind_eq, Res.bind_ok]
  · norm_num [Volume.isInsideXY, Volume.ofBox]

/-- A box: its height is its thickness at every point, the extremes of its surfaces are its limits. -/
theorem volume_ofBox (x y z l m n a : ℝ) (hl : 0 < l) (hn : 0 ≤ n) {nx ny : ℕ} (hnx : 0 < nx) (hny : 0 < ny) :
    (Volume.ofBox x y z l m n a).Covered ∧ (Volume.ofBox x y z l m n a).recalculateLZ = .ok (Volume.ofBox x y z l m n a).lz ∧
    (Volume.ofBox x y z l m n a).getZMin nx ny = .ok z ∧ (Volume.ofBox x y z l m n a).getTopZMax nx ny = .ok z ∧
    (Volume.ofBox x y z l m n a).getBotZMin nx ny = .ok (z + n) ∧ (Volume.ofBox x y z l m n a).getZMax nx ny = .ok (z + n) := by
  have ht : (Volume.ofBox x y z l m n a).top.HasHeights (fun _ _ => z) := fun _ _ => rfl
  have hb : (Volume.ofBox x y z l m n a).bot.HasHeights (fun _ _ => z + n) := fun _ _ => rfl
  refine ⟨⟨rfl, rfl, fun s h => (Option.some_ne_none _ h.symm).elim, fun s h => (Option.some_ne_none _ h.symm).elim⟩, ?_, ?_, ?_, ?_, ?_⟩
  · obtain ⟨lz, h1, h2, h3, h4⟩ := recalculateLZ_partial _ (Or.inl hl) ht hb
    rw [h1]
    have g := h3 0 0 ⟨by norm_num, by norm_num⟩ (fun h => h) (fun h => h)
    show Res.ok lz = Res.ok n
    congr 1
    rcases h4 with h | ⟨i, j, -, -, -, h⟩
    · simp only at g; linarith
    · simp only at h; linarith
  · obtain ⟨r, h1, ⟨i, j, -, h2⟩, -⟩ := extreme_spec (Volume.ofBox x y z l m n a) (Or.inl hl) hnx hny _ ht true
    exact h1.trans (congrArg _ h2)
  · obtain ⟨r, h1, ⟨i, j, -, h2⟩, -⟩ := extreme_spec (Volume.ofBox x y z l m n a) (Or.inl hl) hnx hny _ ht false
    exact h1.trans (congrArg _ h2)
  · obtain ⟨r, h1, ⟨i, j, -, h2⟩, -⟩ := extreme_spec (Volume.ofBox x y z l m n a) (Or.inl hl) hnx hny _ hb true
    exact h1.trans (congrArg _ h2)
  · obtain ⟨r, h1, ⟨i, j, -, h2⟩, -⟩ := extreme_spec (Volume.ofBox x y z l m n a) (Or.inl hl) hnx hny _ hb false
    exact h1.trans (congrArg _ h2)

/-- The four extremes of a volume that is not empty: each is a height at the centre of one of the cells, and the least or the greatest of
those that are defined. -/
theorem volume_extremes_partial (V : Volume) (harea : 0 < V.lx ∨ 0 < V.ly) {nx ny : ℕ} (hnx : 0 < nx) (hny : 0 < ny) {zt zb : ℝ → ℝ → ℝ}
    (ht : V.top.HasHeights zt) (hb : V.bot.HasHeights zb) :
    (∃ r, V.getZMin nx ny = .ok r ∧ Best V.top (fun p => zt p.1 p.2) (· ≤ ·) (cellCentre V nx ny) (fun i j => i < nx ∧ j < ny) (fun i j => i < nx ∧ j < ny) r) ∧
    (∃ r, V.getTopZMax nx ny = .ok r ∧ Best V.top (fun p => zt p.1 p.2) (· ≥ ·) (cellCentre V nx ny) (fun i j => i < nx ∧ j < ny) (fun i j => i < nx ∧ j < ny) r) ∧
    (∃ r, V.getBotZMin nx ny = .ok r ∧ Best V.bot (fun p => zb p.1 p.2) (· ≤ ·) (cellCentre V nx ny) (fun i j => i < nx ∧ j < ny) (fun i j => i < nx ∧ j < ny) r) ∧
    (∃ r, V.getZMax nx ny = .ok r ∧ Best V.bot (fun p => zb p.1 p.2) (· ≥ ·) (cellCentre V nx ny) (fun i j => i < nx ∧ j < ny) (fun i j => i < nx ∧ j < ny) r) :=
  ⟨extreme_spec V harea hnx hny _ ht true, extreme_spec V harea hnx hny _ ht false, extreme_spec V harea hnx hny _ hb true,
    extreme_spec V harea hnx hny _ hb false⟩

/-- The heights at the sides are not looked at, however many cells there are: a top that rises from 0 has a least height above 0. -/
theorem volume_extremes_violation {nx ny : ℕ} (hnx : 0 < nx) (hny : 0 < ny) : ∃ V : Volume, V.isInsideXY 0 0 = true ∧ V.top.getZ 0 0 = .ok 0 ∧
    ∃ r, V.getZMin nx ny = .ok r ∧ 0 < r := by
  refine ⟨⟨0, 0, 1, 1, 1, .plain (fun x _ => x) 0 1, .constant 2, none, none, 0, 1e-6⟩, by norm_num [Volume.isInsideXY], rfl, ?_⟩
  obtain ⟨r, h1, ⟨i, j, -, h2⟩, -⟩ := (volume_extremes_partial ⟨0, 0, 1, 1, 1, .plain (fun x _ => x) 0 1, .constant 2, none, none, 0, 1e-6⟩
    (by norm_num) hnx hny (zt := fun x _ => x) (zb := fun _ _ => 2) (fun x y => rfl) (fun x y => rfl)).1
  refine ⟨r, h1, ?_⟩
  rw [h2]
  simp only [cellCentre, areaPoint, Real.cos_zero, Real.sin_zero]
  have : (0 : ℝ) < nx := by positivity
  have : (0 : ℝ) < (i + 1 / 2) * (1 / nx) := by positivity
  linarith

end Verif
