import Verif.Lemmas.Api
import Verif.Lemmas.Shape
import Verif.Props.FieldEq
import Verif.Spec.Api

/-! Properties of the functions of the Python module (C01, C15, C19). -/

namespace Verif

open Spec Variogram
open Spec.Mt (seedState)
open Dsfmt (Build)

/-! ## C01: length of the result -/

/-- **C01.** Whatever the arguments and the state of the generator: if the call returns, the result has
exactly the requested number of values. -/
theorem simulate_length (S : Setup) (e : Env) (v : Variogram) (nx : ℕ) (dx : ℝ) (ny : ℕ) (dy : ℝ)
    (nz : ℕ) (dz : ℝ) (padx pady padz : ℤ) (sx sy sz : ℝ) {s s' : Random} {out : List ℝ}
    (h : advancedSimulate S e v nx dx ny dy nz dz padx pady padz sx sy sz s = .ok (out, s')) :
    out.length = if ny ≤ 1 ∨ dy < 0 then nx else if nz ≤ 1 ∨ dz < 0 then nx * ny
      else nx * ny * nz := by
  have z : (0.0 : ℝ) = 0 := by norm_num
  rw [advancedSimulate_eq] at h
  obtain ⟨s1, -, h⟩ := Res.bind_eq_ok.1 h
  unfold seededSimulate at h
  rw [z] at h
  split_ifs at h ⊢ with h1 h2
  · unfold apiSimulate1D at h
    rw [Res.monad_bind_eq] at h
    obtain ⟨r, hr, h⟩ := Res.bind_eq_ok.1 h
    simp only [Res.ok.injEq, Prod.mk.injEq] at h
    rw [← h.1, simulate1D_length hr]
  · unfold apiSimulate2D at h
    rw [Res.monad_bind_eq] at h
    obtain ⟨r, hr, h⟩ := Res.bind_eq_ok.1 h
    obtain ⟨q, hq, h⟩ := Res.bind_eq_ok.1 h
    simp only [Res.ok.injEq, Prod.mk.injEq] at h
    rw [← h.1]
    exact simulate2D_length hr q (List.mem_of_getElem? (rd_eq_ok.1 hq))
  · unfold apiSimulate3D at h
    rw [Res.monad_bind_eq] at h
    obtain ⟨r, hr, h⟩ := Res.bind_eq_ok.1 h
    obtain ⟨q, hq, h⟩ := Res.bind_eq_ok.1 h
    simp only [Res.ok.injEq, Prod.mk.injEq] at h
    rw [← h.1]
    exact simulate3D_length hr q (List.mem_of_getElem? (rd_eq_ok.1 hq))

/-! ## C15: default settings -/

theorem desiredPadding_neg {p q : ℤ} (hp : p < 0) (hq : q < 0) :
    desiredPadding p = desiredPadding q := by
  funext l i
  unfold desiredPadding
  rw [if_pos hp, if_pos hq]

theorem fftCovGrid1D_off (v : Variogram) (nx : ℕ) (dx : ℝ) {sx sx' : ℝ} (h : 0.99999 ≤ sx)
    (h' : 0.99999 ≤ sx') : fftCovGrid1D v nx dx sx = fftCovGrid1D v nx dx sx' := by
  have g : (1e-12 : ℝ) < sx := lt_of_lt_of_le (by norm_num) h
  have g' : (1e-12 : ℝ) < sx' := lt_of_lt_of_le (by norm_num) h'
  unfold fftCovGrid1D findSmoothingFactors
  simp only [Res.monad_bind_eq, if_neg (not_lt.2 h), if_neg (not_lt.2 h'), g, g', true_and]
  refine congrArg _ (funext fun _ => ?_)
  split_ifs <;> rfl

theorem covCell2_off (v : Variogram) {sx sy : ℝ} (hx : 0.99999 ≤ sx) (hy : 0.99999 ≤ sy) (a b : ℝ)
    (i j : ℕ) (x y : ℝ) (c : Grid2D ℝ) :
    covCell2 v sx sy a b i j x y c = c.set i j (v.cov2 x y) := by
  unfold covCell2 scaleIf2
  simp only [Res.monad_bind_eq, if_neg (not_lt.2 hx), if_neg (not_lt.2 hy), Res.bind_ok]
  cases c.set i j (v.cov2 x y) <;> rfl

theorem covCell3_off (v : Variogram) {sx sy sz : ℝ} (hx : 0.99999 ≤ sx) (hy : 0.99999 ≤ sy)
    (hz : 0.99999 ≤ sz) (a b d : ℝ) (i j k : ℕ) (x y z : ℝ) (c : Grid3D ℝ) :
    covCell3 v sx sy sz a b d i j k x y z c = c.set i j k (v.cov3 x y z) := by
  unfold covCell3 scaleIf3
  simp only [Res.monad_bind_eq, if_neg (not_lt.2 hx), if_neg (not_lt.2 hy), if_neg (not_lt.2 hz),
    Res.bind_ok]
  cases c.set i j k (v.cov3 x y z) <;> rfl

theorem fftCovGrid2D_off (v : Variogram) (nx : ℕ) (dx : ℝ) (ny : ℕ) (dy : ℝ) {sx sx' sy sy' : ℝ}
    (h : 0.99999 ≤ sx) (h' : 0.99999 ≤ sx') (k : 0.99999 ≤ sy) (k' : 0.99999 ≤ sy') :
    fftCovGrid2D v nx dx ny dy sx sy = fftCovGrid2D v nx dx ny dy sx' sy' := by
  have g : (1e-12 : ℝ) < sx := lt_of_lt_of_le (by norm_num) h
  have g' : (1e-12 : ℝ) < sx' := lt_of_lt_of_le (by norm_num) h'
  have f : (1e-12 : ℝ) < sy := lt_of_lt_of_le (by norm_num) k
  have f' : (1e-12 : ℝ) < sy' := lt_of_lt_of_le (by norm_num) k'
  unfold fftCovGrid2D findSmoothingFactors covLoops2
  simp only [Res.monad_bind_eq, covCell2_off v h k, covCell2_off v h' k', g, g', f, f', true_and]
  refine congrArg _ (funext fun _ => congrArg _ (funext fun _ => ?_))
  split_ifs <;> rfl

theorem fftCovGrid3D_off (v : Variogram) (nx : ℕ) (dx : ℝ) (ny : ℕ) (dy : ℝ) (nz : ℕ) (dz : ℝ)
    {sx sx' sy sy' sz sz' : ℝ} (h : 0.99999 ≤ sx) (h' : 0.99999 ≤ sx') (k : 0.99999 ≤ sy)
    (k' : 0.99999 ≤ sy') (l : 0.99999 ≤ sz) (l' : 0.99999 ≤ sz') :
    fftCovGrid3D v nx dx ny dy nz dz sx sy sz = fftCovGrid3D v nx dx ny dy nz dz sx' sy' sz' := by
  have g : (1e-12 : ℝ) < sx := lt_of_lt_of_le (by norm_num) h
  have g' : (1e-12 : ℝ) < sx' := lt_of_lt_of_le (by norm_num) h'
  have f : (1e-12 : ℝ) < sy := lt_of_lt_of_le (by norm_num) k
  have f' : (1e-12 : ℝ) < sy' := lt_of_lt_of_le (by norm_num) k'
  have e : (1e-12 : ℝ) < sz := lt_of_lt_of_le (by norm_num) l
  have e' : (1e-12 : ℝ) < sz' := lt_of_lt_of_le (by norm_num) l'
  unfold fftCovGrid3D findSmoothingFactors covLoops3
  simp only [Res.monad_bind_eq, covCell3_off v h k l, covCell3_off v h' k' l', g, g', f, f', e, e',
    true_and]
  refine congrArg _ (funext fun _ => congrArg _ (funext fun _ => congrArg _ (funext fun _ => ?_)))
  split_ifs <;> rfl

/-- **C15.** `simulate` is `advanced.simulate` with the default settings: the same result, the same effect
on the generator, the same failures. -/
theorem simulate_eq_advanced (S : Setup) (e : Env) (v : Variogram) (nx : ℕ) (dx : ℝ) (ny : ℕ) (dy : ℝ)
    (nz : ℕ) (dz : ℝ) (s : Random) :
    simulate S e v nx dx ny dy nz dz s
      = advancedSimulate S e v nx dx ny dy nz dz (-1) (-1) (-1) 1 1 1 s := by
  unfold simulate
  norm_num

/-- **C15.** All negative paddings mean the same, and so do all smoothing values from 0.99999 on. -/
theorem advanced_defaults (S : Setup) (e : Env) (v : Variogram) (nx : ℕ) (dx : ℝ) (ny : ℕ) (dy : ℝ)
    (nz : ℕ) (dz : ℝ) {padx pady padz : ℤ} {sx sy sz : ℝ} (hx : padx < 0) (hy : pady < 0)
    (hz : padz < 0) (kx : 0.99999 ≤ sx) (ky : 0.99999 ≤ sy) (kz : 0.99999 ≤ sz) (s : Random) :
    advancedSimulate S e v nx dx ny dy nz dz padx pady padz sx sy sz s
      = simulate S e v nx dx ny dy nz dz s := by
  have k1 : (0.99999 : ℝ) ≤ 1.0 := by norm_num
  have n1 : (-1 : ℤ) < 0 := by norm_num
  unfold simulate
  rw [advancedSimulate_eq, advancedSimulate_eq]
  refine congrArg _ (funext fun s => ?_)
  unfold seededSimulate
  split_ifs
  · unfold apiSimulate1D simulate1D
    simp only [desiredPadding_neg hx n1, fftCovGrid1D_off v _ dx kx k1]
  · unfold apiSimulate2D simulate2D makeFilter2
    simp only [desiredPadding_neg hx n1, desiredPadding_neg hy n1,
      fftCovGrid2D_off v _ dx _ dy kx k1 ky k1]
  · unfold apiSimulate3D simulate3D makeFilter3
    simp only [desiredPadding_neg hx n1, desiredPadding_neg hy n1, desiredPadding_neg hz n1,
      fftCovGrid3D_off v _ dx _ dy _ dz kx k1 ky k1 kz k1]

/-! ## C19: number of dimensions -/

theorem simulationSize_length {v : Variogram} {nx : ℕ} {dx : ℝ} {ny : ℕ} {dy : ℝ} {nz : ℕ} {dz : ℝ}
    {out : List ℕ} (h : simulationSize v nx dx ny dy nz dz = .ok out) :
    out.length = if ny ≤ 1 then 1 else if nz ≤ 1 then 2 else 3 := by
  unfold simulationSize at h
  simp only [Res.monad_bind_eq] at h
  obtain ⟨p, hp, h⟩ := Res.bind_eq_ok.1 h
  obtain ⟨_, -, h⟩ := Res.bind_eq_ok.1 h
  obtain ⟨q, hq, h⟩ := Res.bind_eq_ok.1 h
  have e1 : out.length = p.length := by
    split at h
    · obtain ⟨_, -, h⟩ := Res.bind_eq_ok.1 h
      obtain ⟨r, hr, h⟩ := Res.bind_eq_ok.1 h
      split at h
      · obtain ⟨_, -, h⟩ := Res.bind_eq_ok.1 h
        rw [wr_length h, wr_length hr, wr_length hq]
      · simp only [Res.ok.injEq] at h
        rw [← h, wr_length hr, wr_length hq]
    · simp only [Res.ok.injEq] at h
      rw [← h, wr_length hq]
  rw [e1]
  unfold findNDimPadding at hp
  simp only [Res.monad_bind_eq] at hp
  by_cases h1 : ny ≤ 1
  · rw [if_pos h1] at hp ⊢
    obtain ⟨_, -, hp⟩ := Res.bind_eq_ok.1 hp
    simp only [Res.ok.injEq] at hp
    rw [← hp]; rfl
  · rw [if_neg h1] at hp ⊢
    by_cases h2 : nz ≤ 1
    · rw [if_pos h2] at hp ⊢
      obtain ⟨_, -, hp⟩ := Res.bind_eq_ok.1 hp
      obtain ⟨_, -, hp⟩ := Res.bind_eq_ok.1 hp
      simp only [Res.ok.injEq] at hp
      rw [← hp]; rfl
    · rw [if_neg h2] at hp ⊢
      obtain ⟨_, -, hp⟩ := Res.bind_eq_ok.1 hp
      obtain ⟨_, -, hp⟩ := Res.bind_eq_ok.1 hp
      obtain ⟨_, -, hp⟩ := Res.bind_eq_ok.1 hp
      simp only [Res.ok.injEq] at hp
      rw [← hp]; rfl

/-- **C19.** If every direction with more than one cell has a non-negative step, `simulation_size`
reports as many numbers as the field has dimensions: the field has the product of the sizes of that
many directions. -/
theorem simulationSize_dims_partial (S : Setup) (e : Env) (v : Variogram) (nx : ℕ) (dx : ℝ) (ny : ℕ)
    (dy : ℝ) (nz : ℕ) (dz : ℝ) (hy : 1 < ny → 0 ≤ dy) (hz : 1 < nz → 0 ≤ dz) {s s' : Random}
    {out : List ℝ} {sizes : List ℕ} (h : simulate S e v nx dx ny dy nz dz s = .ok (out, s'))
    (hs : simulationSize v nx dx ny dy nz dz = .ok sizes) :
    out.length = (([nx, ny, nz].take sizes.length).prod) := by
  rw [simulate_length S e v nx dx ny dy nz dz _ _ _ _ _ _ h, simulationSize_length hs]
  by_cases h1 : ny ≤ 1
  · simp [h1]
  · by_cases h2 : nz ≤ 1
    · have := hy (by omega)
      simp [h1, h2, not_lt.2 this]
    · have hy' := hy (by omega)
      have := hz (by omega)
      simp [h1, h2, not_lt.2 this, not_lt.2 hy', Nat.mul_assoc]

/-- **C19**, refutation. With a negative step in the second direction (here the default value -1)
`simulation_size` reports two dimensions, the second one with a meaningless size, and `simulate`
returns a one-dimensional field. -/
theorem simulationSize_dims_refuted :
    ∃ v, createVariogram "spherical".toList 250 125 (-1) 0 0 1.5 = .ok v ∧
      simulationSize v 100 10 100 (-1) 1 (-1) = .ok [126, 18446744073709551592] ∧
      ∀ (S : Setup) (e : Env) (s s' : Random) (out : List ℝ),
        simulate S e v 100 10 100 (-1) 1 (-1) s = .ok (out, s') → out.length = 100 := by
  obtain ⟨v, hv, hrx, hry, hrz, haz, -⟩ := createVariogram_params (s := "spherical".toList)
    (by unfold IsAscii; decide +kernel) 250 125 (-1) 0 0 1.5 (by norm_num) (by norm_num)
    (by norm_num)
  refine ⟨v, hv, ?_, fun S e s s' out h => ?_⟩
  · have ht : v.type = .spherical :=
      (createVariogram_names_partial (by unfold IsAscii; decide +kernel) hv).1 "spherical" .spherical
        (by simp [documentedNames]) (by unfold SameIgnoringCase; decide +kernel)
    have haz : v.azimuth = 0 := by simpa using haz
    have hry : v.rangeY = 125 := by rw [hry]; norm_num
    obtain ⟨r1, r2⟩ := ratio_spherical ht
    -- the first quotients are negative and the larger ones are exact
    have a1 := int_le_rnd64 (x := v.rangeToGridRatio * 250) (m := 400) (by push_cast; linarith) (by norm_num)
    have a2 := rnd64_le_int (x := v.rangeToGridRatio * 250) (m := 500) (by push_cast; linarith) (by norm_num)
    push_cast at a1 a2
    have b1 := int_le_rnd64 (x := rnd64 (v.rangeToGridRatio * 250) / 10) (m := 40) (by push_cast; linarith)
      (by norm_num)
    have b2 := rnd64_le_int (x := rnd64 (v.rangeToGridRatio * 250) / 10) (m := 50) (by push_cast; linarith)
      (by norm_num)
    push_cast at b1 b2
    obtain ⟨t1, c1, -, g1⟩ := toInt_mem (a := -60) (b := -50)
      (int_le_rnd64 (x := rnd64 (rnd64 (v.rangeToGridRatio * 250) / 10) - rnd64 ((100 : ℕ) : ℝ))
        (by rw [rnd64_nat (by norm_num)]; push_cast; linarith) (by norm_num))
      (rnd64_le_int (by rw [rnd64_nat (by norm_num)]; push_cast; linarith) (by norm_num)) (by norm_num)
      (by norm_num)
    have c2 : toInt (rnd64 (250 / 10)) = .ok 25 := by
      rw [show (250 / 10 : ℝ) = ((25 : ℤ) : ℝ) by norm_num, rnd64_int (by norm_num)]
      exact toInt_int (by norm_num) (by norm_num)
    have a3 := int_le_rnd64 (x := v.rangeToGridRatio * 125) (m := 200) (by push_cast; linarith) (by norm_num)
    have a4 := rnd64_le_int (x := v.rangeToGridRatio * 125) (m := 250) (by push_cast; linarith) (by norm_num)
    push_cast at a3 a4
    have b3 := int_le_rnd64 (x := rnd64 (v.rangeToGridRatio * 125) / (-1)) (m := -250) (by push_cast; linarith)
      (by norm_num)
    have b4 := rnd64_le_int (x := rnd64 (v.rangeToGridRatio * 125) / (-1)) (m := -200) (by push_cast; linarith)
      (by norm_num)
    push_cast at b3 b4
    obtain ⟨t3, c3, -, g3⟩ := toInt_mem (a := -350) (b := -300)
      (int_le_rnd64 (x := rnd64 (rnd64 (v.rangeToGridRatio * 125) / (-1)) - rnd64 ((100 : ℕ) : ℝ))
        (by rw [rnd64_nat (by norm_num)]; push_cast; linarith) (by norm_num))
      (rnd64_le_int (by rw [rnd64_nat (by norm_num)]; push_cast; linarith) (by norm_num)) (by norm_num)
      (by norm_num)
    have c4 : toInt (rnd64 (125 / (-1))) = .ok (-125) := by
      rw [show (125 / (-1) : ℝ) = ((-125 : ℤ) : ℝ) by norm_num, rnd64_int (by norm_num)]
      exact toInt_int (by norm_num) (by norm_num)
    have e1 : max t1 25 = 25 := max_eq_right (by omega)
    have e3 : max t3 (-125) = -125 := max_eq_right (by omega)
    have m1 : max (250 : ℝ) 125 = 250 := by norm_num
    have z0 : (0 : ℝ) = 0.0 := by norm_num
    unfold simulationSize findNDimPadding findGaussianFieldPadding
    have n1 : ¬ (10 : ℝ) = 0 := by norm_num
    have n2 : ¬ (-1 : ℝ) = 0 := by norm_num
    rw [if_neg (by norm_num), if_pos (by norm_num)]
    simp only [if_neg n1, if_neg n2, hrx, hry, haz, m1, if_pos z0, c1, c2, c3, c4, e1, e3, Res.monad_bind_eq, Res.bind_ok]
    norm_num [rd, wr, wrap64]
    exact ⟨rfl, rfl⟩
  · rw [simulate_length S e v _ _ _ _ _ _ _ _ _ _ _ _ h]
    norm_num

end Verif
