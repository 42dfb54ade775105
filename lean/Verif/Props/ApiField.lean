import Verif.Props.Api
import Verif.Props.ApiSeed
import Verif.Spec.Draws

/-! What the simulation functions of the Python module return (C02, C16, C17, C34, C43, C45). -/

namespace Verif

open Spec Variogram
open Spec.Mt (Admissible seedState)
open Dsfmt (Build)

theorem newRandomGenerator_eq (b : Build) (e : Env) (s : Random) :
    newRandomGenerator b e.raw s
      = (s.drawUint32 b).bind fun r => .ok (seededObject r.1, r.2) := by
  unfold newRandomGenerator RandomGenerator.initializeSeed RandomGenerator.initializeMT
    RandomGenerator.create
  simp only [Res.monad_bind_eq]
  refine congrArg _ (funext fun r => ?_)
  simp only [Dsfmt.initGenRand_eq _ e.hraw, Res.bind_ok]
  rfl

theorem rgOrNew_none (b : Build) (e : Env) (s : Random) {α : Type}
    (n : ℕ) (f : List ℝ → RandomGenerator → Random → Res α) (g : List ℝ → Random → Res α)
    (h : ∀ l rg s, f l rg s = g l s) :
    ((rgOrNew (newRandomGenerator b e.raw) none s).bind fun r =>
      (draws (RandomGenerator.norm01 b) n r.1).bind fun w => f w.1 w.2 r.2)
      = (flatNormals b n s).bind fun w => g w.1 w.2 := by
  unfold rgOrNew flatNormals
  simp only [newRandomGenerator_eq, Res.bind_assoc, Res.bind_ok, h]

/-- The shape of the padded grids and the settings, for one to three directions. -/
theorem advancedSimulate_seeded {S : Setup} {e : Env} {v : Variogram} {nx : ℕ} {dx : ℝ} {ny : ℕ}
    {dy : ℝ} {nz : ℕ} {dz : ℝ} {padx pady padz : ℤ} {sx sy sz : ℝ} {s : Random}
    (h : s.isInitialized = true) :
    advancedSimulate S e v nx dx ny dy nz dz padx pady padz sx sy sz s
      = seededSimulate S e v nx dx ny dy nz dz padx pady padz sx sy sz s := by
  rw [advancedSimulate_eq, ensureSeeded_seeded h, Res.bind_ok]

section
variable {t : VType} {pw rx ry rz az dp sd : ℝ} {v : Variogram}
  (hv : Variogram.create t pw rx ry rz az dp sd = .ok v)
include hv

/-- **C01, C02, C34, C43, one dimension.** With a seed in force the call takes its normal numbers and
returns the first `nx` values of the periodic field they make; it fails as the drawing of the numbers
does, and in no other way. -/
theorem advancedSimulate_1D {p : Platform} {nx ny : ℕ} {dx dy sx : ℝ} {padx : ℤ}
    (hd : ny ≤ 1 ∨ dy < 0) (hx : DirOk p v nx v.rangeX dx padx sx) :
    ∃ tx r, IsTotal v nx v.rangeX dx padx false tx ∧ nx ≤ tx ∧ IsExtents rx ry rz az dp r ∧
      ∀ {F : Fftw} (_ : F.Laws) (b : Build) (e : Env) (nz : ℕ) (dz : ℝ) (pady padz : ℤ) (sy sz : ℝ)
        (s : Random), s.isInitialized = true →
        advancedSimulate ⟨F, p, b⟩ e v nx dx ny dy nz dz padx pady padz sx sy sz s
          = (flatNormals b tx s).bind fun w =>
              .ok ((List.range nx).map
                (field1 tx (gridCov1 v r tx dx sx) (fun a => w.1.getD a 0)), w.2) := by
  obtain ⟨tx, r, h1, h2, h3, H⟩ := simulate1D_eq hv hx
  refine ⟨tx, r, h1, h2, h3, ?_⟩
  intro F hF b e nz dz pady padz sy sz s hs
  have z : (0.0 : ℝ) = 0 := by norm_num
  rw [advancedSimulate_seeded hs]
  unfold seededSimulate apiSimulate1D
  rw [z, if_pos hd, H hF]
  simp only [Res.monad_bind_eq, Res.bind_assoc, Res.bind_ok]
  exact rgOrNew_none b e s tx _ (fun w s => .ok ((List.range nx).map
    (field1 tx (gridCov1 v r tx dx sx) (fun a => w.getD a 0)), s)) fun l rg s => rfl

/-- **C01, C02, C34, C43, two dimensions.** The value of cell `(i, j)` is at position `i + nx * j`. -/
theorem advancedSimulate_2D {p : Platform} {nx ny nz : ℕ} {dx dy dz sx sy : ℝ} {padx pady : ℤ}
    (hny : 1 < ny) (hdy : 0 ≤ dy) (hd : nz ≤ 1 ∨ dz < 0)
    (hx : DirOk p v nx (max v.rangeX v.rangeY) dx padx sx)
    (hy : DirOk p v ny (padRangeY v) dy pady sy) :
    ∃ tx ty r, IsTotal v nx (max v.rangeX v.rangeY) dx padx true tx ∧
      IsTotal v ny (padRangeY v) dy pady false ty ∧ nx ≤ tx ∧ ny ≤ ty ∧
      IsExtents rx ry rz az dp r ∧
      ∀ {F : Fftw} (_ : F.Laws) (b : Build) (e : Env) (padz : ℤ) (sz : ℝ)
        (s : Random), s.isInitialized = true →
        advancedSimulate ⟨F, p, b⟩ e v nx dx ny dy nz dz padx pady padz sx sy sz s
          = (flatNormals b (tx * ty) s).bind fun w =>
              .ok ((List.range (nx * ny)).map fun m =>
                field2 tx ty (gridCov2 v r tx dx ty dy sx sy) (fun a b => w.1.getD (a * ty + b) 0)
                  (m % nx) (m / nx), w.2) := by
  obtain ⟨tx, ty, r, h1, h2, h3, h4, h5, H⟩ := simulate2D_eq hv hny hx hy
  refine ⟨tx, ty, r, h1, h2, h3, h4, h5, ?_⟩
  intro F hF b e padz sz s hs
  have z : (0.0 : ℝ) = 0 := by norm_num
  rw [advancedSimulate_seeded hs]
  unfold seededSimulate apiSimulate2D
  rw [z, if_neg (by push Not; exact ⟨hny, hdy⟩), if_pos hd, H hF]
  simp only [Res.monad_bind_eq, Res.bind_assoc, Res.bind_ok]
  exact rgOrNew_none b e s (tx * ty) _ (fun w s => .ok ((List.range (nx * ny)).map fun m =>
                field2 tx ty (gridCov2 v r tx dx ty dy sx sy) (fun a b => w.getD (a * ty + b) 0)
                  (m % nx) (m / nx), s)) fun l rg s => rfl

/-- **C01, C02, C34, C43, three dimensions.** The value of cell `(i, j, k)` is at position
`i + nx * (j + ny * k)`; the normal numbers are those of the global stream. -/
theorem advancedSimulate_3D {p : Platform} {nx ny nz : ℕ} {dx dy dz sx sy sz : ℝ}
    {padx pady padz : ℤ} (hny : 1 < ny) (hdy : 0 ≤ dy) (hnz : 1 < nz) (hdz : 0 ≤ dz)
    (hx : DirOk p v nx (max v.rangeX v.rangeY) dx padx sx)
    (hy : DirOk p v ny (padRangeY v) dy pady sy) (hz : DirOk p v nz v.rangeZ dz padz sz) :
    ∃ tx ty tz r, IsTotal v nx (max v.rangeX v.rangeY) dx padx true tx ∧
      IsTotal v ny (padRangeY v) dy pady false ty ∧ IsTotal v nz v.rangeZ dz padz false tz ∧
      nx ≤ tx ∧ ny ≤ ty ∧ nz ≤ tz ∧ IsExtents rx ry rz az dp r ∧
      ∀ {F : Fftw} (_ : F.Laws) (b : Build) (e : Env) (s : Random), s.isInitialized = true →
        advancedSimulate ⟨F, p, b⟩ e v nx dx ny dy nz dz padx pady padz sx sy sz s
          = (solidNormals b (tx * ty * tz) s).bind fun w =>
              .ok ((List.range (nx * ny * nz)).map fun m =>
                field3 tx ty tz (gridCov3 v r tx dx ty dy tz dz sx sy sz)
                  (fun a b c => w.1.getD ((a * ty + b) * tz + c) 0)
                  (m % nx) (m / nx % ny) (m / nx / ny), w.2) := by
  obtain ⟨tx, ty, tz, r, h1, h2, h3, h4, h5, h6, h7, H⟩ := simulate3D_eq hv hny hnz hx hy hz
  refine ⟨tx, ty, tz, r, h1, h2, h3, h4, h5, h6, h7, ?_⟩
  intro F hF b e s hs
  have z : (0.0 : ℝ) = 0 := by norm_num
  rw [advancedSimulate_seeded hs]
  unfold seededSimulate apiSimulate3D solidNormals
  rw [z, if_neg (by push Not; exact ⟨hny, hdy⟩), if_neg (by push Not; exact ⟨hnz, hdz⟩), H hF]
  simp only [Res.monad_bind_eq, Res.bind_assoc, Res.bind_ok]
  rfl

/-- **C02, one dimension.** -/
theorem simulate_corner_1D {p : Platform} {nx ny : ℕ} {dx dy sx : ℝ} {padx : ℤ}
    (hd : ny ≤ 1 ∨ dy < 0) (hx : DirOk p v nx v.rangeX dx padx sx) :
    ∃ tx r, IsTotal v nx v.rangeX dx padx false tx ∧ nx ≤ tx ∧ IsExtents rx ry rz az dp r ∧
      ∀ {F : Fftw} (_ : F.Laws) (b : Build) (e : Env) (nz : ℕ)
      (dz : ℝ) (pady padz : ℤ) (sy sz : ℝ) (s s' : Random) (out : List ℝ), s.isInitialized = true →
      advancedSimulate ⟨F, p, b⟩ e v nx dx ny dy nz dz padx pady padz sx sy sz s = .ok (out, s') →
      ∃ w, flatNormals b tx s = .ok (w, s') ∧
        ∀ i < nx, out[i]? = some (field1 tx (gridCov1 v r tx dx sx) (fun a => w.getD a 0) i) := by
  obtain ⟨tx, r, h1, h2, h3, H⟩ := advancedSimulate_1D hv hd hx
  refine ⟨tx, r, h1, h2, h3, ?_⟩
  intro F hF b e nz dz pady padz sy sz s s' out hs h
  rw [H hF b e nz dz pady padz sy sz s hs] at h
  obtain ⟨w, hw, h⟩ := Res.bind_eq_ok.1 h
  simp only [Res.ok.injEq, Prod.mk.injEq] at h
  refine ⟨w.1, by rw [hw, ← h.2], fun i hi => ?_⟩
  rw [← h.1]
  simp [hi]

/-- **C02, two dimensions.** -/
theorem simulate_corner_2D {p : Platform} {nx ny nz : ℕ} {dx dy dz sx sy : ℝ} {padx pady : ℤ}
    (hny : 1 < ny) (hdy : 0 ≤ dy) (hd : nz ≤ 1 ∨ dz < 0)
    (hx : DirOk p v nx (max v.rangeX v.rangeY) dx padx sx)
    (hy : DirOk p v ny (padRangeY v) dy pady sy) :
    ∃ tx ty r, IsTotal v nx (max v.rangeX v.rangeY) dx padx true tx ∧
      IsTotal v ny (padRangeY v) dy pady false ty ∧ nx ≤ tx ∧ ny ≤ ty ∧
      IsExtents rx ry rz az dp r ∧ ∀ {F : Fftw} (_ : F.Laws) (b : Build)
      (e : Env) (padz : ℤ) (sz : ℝ) (s s' : Random) (out : List ℝ), s.isInitialized = true →
      advancedSimulate ⟨F, p, b⟩ e v nx dx ny dy nz dz padx pady padz sx sy sz s = .ok (out, s') →
      ∃ w, flatNormals b (tx * ty) s = .ok (w, s') ∧ ∀ i j, i < nx → j < ny →
        out[i + nx * j]? = some (field2 tx ty (gridCov2 v r tx dx ty dy sx sy) (fun a b => w.getD (a * ty + b) 0) i j) := by
  obtain ⟨tx, ty, r, h1, h2, h3, h4, h5, H⟩ := advancedSimulate_2D hv hny hdy hd hx hy
  refine ⟨tx, ty, r, h1, h2, h3, h4, h5, ?_⟩
  intro F hF b e padz sz s s' out hs h
  rw [H hF b e padz sz s hs] at h
  obtain ⟨w, hw, h⟩ := Res.bind_eq_ok.1 h
  simp only [Res.ok.injEq, Prod.mk.injEq] at h
  refine ⟨w.1, by rw [hw, ← h.2], fun i j hi hj => ?_⟩
  have hm : i + nx * j < nx * ny := by nlinarith
  have e1 : (i + nx * j) % nx = i := by rw [Nat.add_mul_mod_self_left, Nat.mod_eq_of_lt hi]
  have e2 : (i + nx * j) / nx = j := by
    rw [Nat.add_mul_div_left _ _ (by omega), Nat.div_eq_of_lt hi, Nat.zero_add]
  rw [← h.1, List.getElem?_map, List.getElem?_range hm, Option.map_some, e1, e2]

/-- **C02, three dimensions.** -/
theorem simulate_corner_3D {p : Platform} {nx ny nz : ℕ} {dx dy dz sx sy sz : ℝ}
    {padx pady padz : ℤ} (hny : 1 < ny) (hdy : 0 ≤ dy) (hnz : 1 < nz) (hdz : 0 ≤ dz)
    (hx : DirOk p v nx (max v.rangeX v.rangeY) dx padx sx)
    (hy : DirOk p v ny (padRangeY v) dy pady sy) (hz : DirOk p v nz v.rangeZ dz padz sz) :
    ∃ tx ty tz r, IsTotal v nx (max v.rangeX v.rangeY) dx padx true tx ∧
      IsTotal v ny (padRangeY v) dy pady false ty ∧ IsTotal v nz v.rangeZ dz padz false tz ∧
      nx ≤ tx ∧ ny ≤ ty ∧ nz ≤ tz ∧ IsExtents rx ry rz az dp r ∧
      ∀ {F : Fftw} (_ : F.Laws) (b : Build) (e : Env) (s s' : Random) (out : List ℝ),
      s.isInitialized = true →
      advancedSimulate ⟨F, p, b⟩ e v nx dx ny dy nz dz padx pady padz sx sy sz s = .ok (out, s') →
      ∃ w, solidNormals b (tx * ty * tz) s = .ok (w, s') ∧ ∀ i j k, i < nx → j < ny → k < nz →
        out[i + nx * (j + ny * k)]?
          = some (field3 tx ty tz (gridCov3 v r tx dx ty dy tz dz sx sy sz)
            (fun a b c => w.getD ((a * ty + b) * tz + c) 0) i j k) := by
  obtain ⟨tx, ty, tz, r, h1, h2, h3, h4, h5, h6, h7, H⟩ :=
    advancedSimulate_3D hv hny hdy hnz hdz hx hy hz
  refine ⟨tx, ty, tz, r, h1, h2, h3, h4, h5, h6, h7, ?_⟩
  intro F hF b e s s' out hs h
  rw [H hF b e s hs] at h
  obtain ⟨w, hw, h⟩ := Res.bind_eq_ok.1 h
  simp only [Res.ok.injEq, Prod.mk.injEq] at h
  refine ⟨w.1, by rw [hw, ← h.2], fun i j k hi hj hk => ?_⟩
  have hm1 : j + ny * k < ny * nz := by nlinarith
  have hm : i + nx * (j + ny * k) < nx * ny * nz := by rw [Nat.mul_assoc]; nlinarith
  have e1 : (i + nx * (j + ny * k)) % nx = i := by
    rw [Nat.add_mul_mod_self_left, Nat.mod_eq_of_lt hi]
  have e2 : (i + nx * (j + ny * k)) / nx = j + ny * k := by
    rw [Nat.add_mul_div_left _ _ (by omega), Nat.div_eq_of_lt hi, Nat.zero_add]
  have e3 : (j + ny * k) % ny = j := by rw [Nat.add_mul_mod_self_left, Nat.mod_eq_of_lt hj]
  have e4 : (j + ny * k) / ny = k := by
    rw [Nat.add_mul_div_left _ _ (by omega), Nat.div_eq_of_lt hj, Nat.zero_add]
  rw [← h.1, List.getElem?_map, List.getElem?_range hm, Option.map_some, e1, e2, e3, e4]

end

end Verif
