import Verif.Props.ApiSafe

/-! Explicit padding (C16) and what `simulation_size` reports (C17). -/

namespace Verif

open Spec Variogram
open Dsfmt (Build)

/-! ## C16 -/

theorem isTotal_explicit {v : Variogram} {n : ℕ} {range step : ℝ} {pad : ℤ} {even : Bool} {t : ℕ}
    (h : 0 ≤ pad) : IsTotal v n range step pad even t ↔ FftSize (n + pad.toNat) even t := by
  unfold IsTotal IsPadding
  simp only [if_neg (not_lt.2 h)]
  constructor
  · rintro ⟨q, hq, hf⟩
    rwa [show pad.toNat = q by omega]
  · intro hf
    exact ⟨pad.toNat, by omega, hf⟩

theorem fftSize_unique {n : ℕ} {even : Bool} {r r' : ℕ} (h : FftSize n even r)
    (h' : FftSize n even r') : r = r' := by
  unfold FftSize at h h'
  split_ifs at h h'
  · rw [h, h']
  · exact h.unique h'

/-- **C16, one dimension.** With an explicit padding the number of normal numbers, which is the size of
the periodic grid, is the least product of 2, 3, 5, 7 that is not below `nx + padx`. -/
theorem explicit_padding_1D {t : VType} {pw rx ry rz az dp sd : ℝ} {v : Variogram}
    (hv : Variogram.create t pw rx ry rz az dp sd = .ok v) {p : Platform} {nx ny : ℕ}
    {dx dy sx : ℝ} {padx : ℤ} (hd : ny ≤ 1 ∨ dy < 0) (hx : DirOk p v nx v.rangeX dx padx sx)
    (hpad : 0 ≤ padx) :
    ∃ tx, IsLeast {m | nx + padx.toNat ≤ m ∧ Smooth7 m} tx ∧
      ∃ c : ℕ → ℝ, ∀ {F : Fftw} (_ : F.Laws) (b : Build) (e : Env) (nz : ℕ)
      (dz : ℝ) (pady padz : ℤ) (sy sz : ℝ) (s s' : Random) (out : List ℝ), s.isInitialized = true →
      advancedSimulate ⟨F, p, b⟩ e v nx dx ny dy nz dz padx pady padz sx sy sz s = .ok (out, s') →
      ∃ w, flatNormals b tx s = .ok (w, s') ∧
        ∀ i < nx, out[i]? = some (field1 tx c (fun a => w.getD a 0) i) := by
  obtain ⟨tx, r, h1, h2, h3, H⟩ := simulate_corner_1D hv hd hx
  rw [isTotal_explicit hpad] at h1
  refine ⟨tx, ?_, gridCov1 v r tx dx sx, @H⟩
  unfold FftSize Admissible at h1
  simpa using h1

/-- **C16, two dimensions.** Even in x. -/
theorem explicit_padding_2D {t : VType} {pw rx ry rz az dp sd : ℝ} {v : Variogram}
    (hv : Variogram.create t pw rx ry rz az dp sd = .ok v) {p : Platform} {nx ny nz : ℕ}
    {dx dy dz sx sy : ℝ} {padx pady : ℤ} (hny : 1 < ny) (hdy : 0 ≤ dy) (hd : nz ≤ 1 ∨ dz < 0)
    (hx : DirOk p v nx (max v.rangeX v.rangeY) dx padx sx)
    (hy : DirOk p v ny (padRangeY v) dy pady sy) (hpx : 0 ≤ padx) (hpy : 0 ≤ pady)
    (h2 : 2 ≤ nx + padx) :
    ∃ tx ty, IsLeast {m | nx + padx.toNat ≤ m ∧ Smooth7 m ∧ 2 ∣ m} tx ∧
      IsLeast {m | ny + pady.toNat ≤ m ∧ Smooth7 m} ty ∧
      ∃ c : ℕ → ℕ → ℝ, ∀ {F : Fftw} (_ : F.Laws) (b : Build) (e : Env) (padz : ℤ) (sz : ℝ)
      (s s' : Random) (out : List ℝ), s.isInitialized = true →
      advancedSimulate ⟨F, p, b⟩ e v nx dx ny dy nz dz padx pady padz sx sy sz s = .ok (out, s') →
      ∃ w, flatNormals b (tx * ty) s = .ok (w, s') ∧ ∀ i j, i < nx → j < ny →
        out[i + nx * j]? = some (field2 tx ty c (fun a b => w.getD (a * ty + b) 0) i j) := by
  obtain ⟨tx, ty, r, h1, h2, -, -, -, H⟩ := simulate_corner_2D hv hny hdy hd hx hy
  rw [isTotal_explicit (by assumption)] at h1 h2
  refine ⟨tx, ty, ?_, ?_, gridCov2 v r tx dx ty dy sx sy, @H⟩
  · unfold FftSize Admissible at h1
    rw [if_neg (by omega)] at h1
    simpa using h1
  · unfold FftSize Admissible at h2
    simpa using h2

/-- **C16, three dimensions.** -/
theorem explicit_padding_3D {t : VType} {pw rx ry rz az dp sd : ℝ} {v : Variogram}
    (hv : Variogram.create t pw rx ry rz az dp sd = .ok v) {p : Platform} {nx ny nz : ℕ}
    {dx dy dz sx sy sz : ℝ} {padx pady padz : ℤ} (hny : 1 < ny) (hdy : 0 ≤ dy) (hnz : 1 < nz)
    (hdz : 0 ≤ dz) (hx : DirOk p v nx (max v.rangeX v.rangeY) dx padx sx)
    (hy : DirOk p v ny (padRangeY v) dy pady sy) (hz : DirOk p v nz v.rangeZ dz padz sz)
    (hpx : 0 ≤ padx) (hpy : 0 ≤ pady) (hpz : 0 ≤ padz) (h2 : 2 ≤ nx + padx) :
    ∃ tx ty tz, IsLeast {m | nx + padx.toNat ≤ m ∧ Smooth7 m ∧ 2 ∣ m} tx ∧
      IsLeast {m | ny + pady.toNat ≤ m ∧ Smooth7 m} ty ∧
      IsLeast {m | nz + padz.toNat ≤ m ∧ Smooth7 m} tz ∧
      ∃ c : ℕ → ℕ → ℕ → ℝ, ∀ {F : Fftw} (_ : F.Laws) (b : Build) (e : Env) (s s' : Random)
      (out : List ℝ), s.isInitialized = true →
      advancedSimulate ⟨F, p, b⟩ e v nx dx ny dy nz dz padx pady padz sx sy sz s = .ok (out, s') →
      ∃ w, solidNormals b (tx * ty * tz) s = .ok (w, s') ∧ ∀ i j k, i < nx → j < ny → k < nz →
        out[i + nx * (j + ny * k)]?
          = some (field3 tx ty tz c (fun a b c => w.getD ((a * ty + b) * tz + c) 0) i j k) := by
  obtain ⟨tx, ty, tz, r, h1, h2, h3, -, -, -, -, H⟩ := simulate_corner_3D hv hny hdy hnz hdz hx hy hz
  rw [isTotal_explicit (by assumption)] at h1 h2 h3
  refine ⟨tx, ty, tz, ?_, ?_, ?_, gridCov3 v r tx dx ty dy tz dz sx sy sz, @H⟩
  · unfold FftSize Admissible at h1
    rw [if_neg (by omega)] at h1
    simpa using h1
  · unfold FftSize Admissible at h2
    simpa using h2
  · unfold FftSize Admissible at h3
    simpa using h3

/-! ## C17 -/

theorem isTotal_default_le {v : Variogram} {n : ℕ} {range step : ℝ} {even : Bool} {t a : ℕ}
    (ht : IsTotal v n range step (-1) even t) (hk : PadOk v n range step)
    (ha : ∃ q, IsPad v n range step q ∧ a = n + q) :
    n < a ∧ a ≤ t := by
  obtain ⟨q, hq, hf⟩ := ht
  unfold IsPadding at hq
  rw [if_pos (by norm_num)] at hq
  obtain ⟨q', hq', rfl⟩ := ha
  obtain rfl := hq.unique hq'
  have hpos : 0 < q := by
    have h1 := (padding_covers hk hq).1
    have h2 := hk.range_pos
    rcases Nat.eq_zero_or_pos q with h | h
    · rw [h] at h1
      norm_num at h1
      linarith
    · exact h
  refine ⟨by omega, ?_⟩
  unfold FftSize at hf
  split_ifs at hf with hc
  · omega
  · exact hf.1.1

/-- **C17, one dimension.** `simulation_size` reports one number, greater than `nx` and at most the size
`tx` of the periodic grid that `simulate` uses (it draws `tx` normal numbers). -/
theorem simulationSize_le_1D {t : VType} {pw rx ry rz az dp sd : ℝ} {v : Variogram}
    (hv : Variogram.create t pw rx ry rz az dp sd = .ok v) {p : Platform} {nx ny nz : ℕ}
    {dx dy dz : ℝ} (hd : ny ≤ 1) (hx : DirOk p v nx v.rangeX dx (-1) 1) :
    ∃ a tx, simulationSize v nx dx ny dy nz dz = .ok [a] ∧ nx < a ∧ a ≤ tx ∧
      ∃ c : ℕ → ℝ, ∀ {F : Fftw} (_ : F.Laws) (b : Build) (e : Env) (s s' : Random) (out : List ℝ),
        s.isInitialized = true → simulate ⟨F, p, b⟩ e v nx dx ny dy nz dz s = .ok (out, s') →
        ∃ w, flatNormals b tx s = .ok (w, s') ∧
          ∀ i < nx, out[i]? = some (field1 tx c (fun a => w.getD a 0) i) := by
  obtain ⟨tx, r, h1, h2, h3, H⟩ := simulate_corner_1D hv (dy := dy) (Or.inl hd) hx
  have e1 : padRangeX v ny = v.rangeX := by unfold padRangeX; rw [if_pos hd]
  obtain ⟨out, ho, hlen, h0, -, -⟩ := simulationSize_spec v nx dx ny dy nz dz (e1 ▸ hx.padOk)
    (fun h => by omega) (fun h => by omega)
  rw [if_pos hd] at hlen
  obtain ⟨a, rfl⟩ := List.length_eq_one_iff.1 hlen
  have ha := h0 a rfl
  rw [e1] at ha
  obtain ⟨g1, g2⟩ := isTotal_default_le h1 hx.padOk ha
  refine ⟨a, tx, ho, g1, g2, gridCov1 v r tx dx 1, ?_⟩
  intro F hF b e s s' out hs h
  rw [simulate_eq_advanced] at h
  exact H hF b e nz dz (-1) (-1) 1 1 s s' out hs h

/-- **C17, two dimensions.** -/
theorem simulationSize_le_2D {t : VType} {pw rx ry rz az dp sd : ℝ} {v : Variogram}
    (hv : Variogram.create t pw rx ry rz az dp sd = .ok v) {p : Platform} {nx ny nz : ℕ}
    {dx dy dz : ℝ} (hny : 1 < ny) (hd : nz ≤ 1)
    (hx : DirOk p v nx (max v.rangeX v.rangeY) dx (-1) 1)
    (hy : DirOk p v ny (padRangeY v) dy (-1) 1) :
    ∃ a a' tx ty, simulationSize v nx dx ny dy nz dz = .ok [a, a'] ∧ nx < a ∧ a ≤ tx ∧ ny < a' ∧
      a' ≤ ty ∧ ∃ c : ℕ → ℕ → ℝ, ∀ {F : Fftw} (_ : F.Laws) (b : Build) (e : Env) (s s' : Random)
        (out : List ℝ), s.isInitialized = true →
        simulate ⟨F, p, b⟩ e v nx dx ny dy nz dz s = .ok (out, s') →
        ∃ w, flatNormals b (tx * ty) s = .ok (w, s') ∧ ∀ i j, i < nx → j < ny →
          out[i + nx * j]? = some (field2 tx ty c (fun a b => w.getD (a * ty + b) 0) i j) := by
  have hdy : 0 ≤ dy := hy.padOk.1.le
  obtain ⟨tx, ty, r, h1, h2, -, -, -, H⟩ :=
    simulate_corner_2D hv (dz := dz) hny hdy (Or.inl hd) hx hy
  have e1 : padRangeX v ny = max v.rangeX v.rangeY := by unfold padRangeX; rw [if_neg (by omega)]
  obtain ⟨out, ho, hlen, h0, h0', -⟩ := simulationSize_spec v nx dx ny dy nz dz (e1 ▸ hx.padOk)
    (fun _ => hy.padOk) (fun _ h => by omega)
  rw [if_neg (by omega), if_pos hd] at hlen
  obtain ⟨a, a', rfl⟩ := List.length_eq_two.1 hlen
  have ha := h0 a rfl
  rw [e1] at ha
  obtain ⟨g1, g2⟩ := isTotal_default_le h1 hx.padOk ha
  obtain ⟨g3, g4⟩ := isTotal_default_le h2 hy.padOk (h0' a' rfl)
  refine ⟨a, a', tx, ty, ho, g1, g2, g3, g4, gridCov2 v r tx dx ty dy 1 1, ?_⟩
  intro F hF b e s s' out hs h
  rw [simulate_eq_advanced] at h
  exact H hF b e (-1) 1 s s' out hs h

/-- **C17, three dimensions.** -/
theorem simulationSize_le_3D {t : VType} {pw rx ry rz az dp sd : ℝ} {v : Variogram}
    (hv : Variogram.create t pw rx ry rz az dp sd = .ok v) {p : Platform} {nx ny nz : ℕ}
    {dx dy dz : ℝ} (hny : 1 < ny) (hnz : 1 < nz)
    (hx : DirOk p v nx (max v.rangeX v.rangeY) dx (-1) 1)
    (hy : DirOk p v ny (padRangeY v) dy (-1) 1) (hz : DirOk p v nz v.rangeZ dz (-1) 1) :
    ∃ a a' a'' tx ty tz, simulationSize v nx dx ny dy nz dz = .ok [a, a', a''] ∧ nx < a ∧ a ≤ tx ∧
      ny < a' ∧ a' ≤ ty ∧ nz < a'' ∧ a'' ≤ tz ∧ ∃ c : ℕ → ℕ → ℕ → ℝ,
      ∀ {F : Fftw} (_ : F.Laws) (b : Build) (e : Env) (s s' : Random) (out : List ℝ),
        s.isInitialized = true → simulate ⟨F, p, b⟩ e v nx dx ny dy nz dz s = .ok (out, s') →
        ∃ w, solidNormals b (tx * ty * tz) s = .ok (w, s') ∧ ∀ i j k, i < nx → j < ny → k < nz →
          out[i + nx * (j + ny * k)]?
            = some (field3 tx ty tz c (fun a b c => w.getD ((a * ty + b) * tz + c) 0) i j k) := by
  have hdy : 0 ≤ dy := hy.padOk.1.le
  have hdz : 0 ≤ dz := hz.padOk.1.le
  obtain ⟨tx, ty, tz, r, h1, h2, h3, -, -, -, -, H⟩ :=
    simulate_corner_3D hv hny hdy hnz hdz hx hy hz
  have e1 : padRangeX v ny = max v.rangeX v.rangeY := by unfold padRangeX; rw [if_neg (by omega)]
  obtain ⟨out, ho, hlen, h0, h0', h0''⟩ := simulationSize_spec v nx dx ny dy nz dz (e1 ▸ hx.padOk)
    (fun _ => hy.padOk) (fun _ _ => hz.padOk)
  rw [if_neg (by omega), if_neg (by omega)] at hlen
  obtain ⟨a, a', a'', rfl⟩ := List.length_eq_three.1 hlen
  have ha := h0 a rfl
  rw [e1] at ha
  obtain ⟨g1, g2⟩ := isTotal_default_le h1 hx.padOk ha
  obtain ⟨g3, g4⟩ := isTotal_default_le h2 hy.padOk (h0' a' rfl)
  obtain ⟨g5, g6⟩ := isTotal_default_le h3 hz.padOk (h0'' a'' rfl)
  refine ⟨a, a', a'', tx, ty, tz, ho, g1, g2, g3, g4, g5, g6,
    gridCov3 v r tx dx ty dy tz dz 1 1 1, ?_⟩
  intro F hF b e s s' out hs h
  rw [simulate_eq_advanced] at h
  exact H hF b e s s' out hs h

/-- The hypotheses are met by the example of the documentation (default padding). -/
example : ∃ v, Variogram.create .spherical 2 250 125 125 0 0 1.5 = .ok v ∧
    DirOk exactPlatform v 100 v.rangeX 10 (-1) 1 ∧ DirOk exactPlatform v 100 (max v.rangeX v.rangeY) 10 (-1) 1 ∧
    DirOk exactPlatform v 100 (padRangeY v) 10 (-1) 1 := by
  obtain ⟨v, h1, h2, h3, h4, -⟩ := doc_dirOk
  exact ⟨v, h1, h2, h3, h4⟩

/-- And with an explicit padding. -/
theorem dirOk_explicit {v : Variogram} {n : ℕ} {range step s : ℝ} {pad : ℤ} (hn : 1 ≤ n)
    (h1 : PadOk v n range step) (h2 : 0 ≤ pad) (h4 : n + pad ≤ 2 ^ 14) (hs : 1e-12 < s) :
    DirOk exactPlatform v n range step pad s where
  size := hn
  padOk := h1
  pad_lt := by omega
  fits := by
    intro q h
    unfold IsPadding at h
    rw [if_neg (by omega)] at h
    exact ⟨sizeOk_exact (by omega) (by omega), by omega⟩
  scaling := hs

example : ∃ v, Variogram.create .spherical 2 250 125 125 0 0 1.5 = .ok v ∧
    DirOk exactPlatform v 100 v.rangeX 10 3 1 ∧ DirOk exactPlatform v 100 (max v.rangeX v.rangeY) 10 7 1 ∧
    DirOk exactPlatform v 100 (padRangeY v) 10 0 1 := by
  obtain ⟨v, h1, h2, h3, h4, -⟩ := doc_dirOk
  exact ⟨v, h1, dirOk_explicit (by norm_num) h2.padOk (by norm_num) (by norm_num) (by norm_num),
    dirOk_explicit (by norm_num) h3.padOk (by norm_num) (by norm_num) (by norm_num),
    dirOk_explicit (by norm_num) h4.padOk (by norm_num) (by norm_num) (by norm_num)⟩

end Verif
