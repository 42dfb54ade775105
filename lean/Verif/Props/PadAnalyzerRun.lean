import Verif.Props.PadAnalyzerLine

/-! A concrete run of the padding analyzer that returns: the hypotheses of the theorems about it are
met. The numbers the generator draws are computed by the kernel. -/

namespace Verif.Py

open Spec Variogram Known
open Spec.Mt (seedState)
open Dsfmt (Build)

/-- The seed of the generator of a field that is simulated when `w` is next. -/
def innerSeed (w : BitVec 64) : BitVec 32 :=
  (((w &&& 0xffffffff#64).setWidth 32).setWidth 64).setWidth 32

/-- Six fields of three normal numbers can be drawn, one after the other, after seeding. -/
def sixFields (seed : BitVec 32) : Bool :=
  match seedOuts seed with
  | a :: b :: c :: d :: e :: f :: _ =>
    [a, b, c, d, e, f].all fun w => quick 3 (seedOuts (innerSeed w))
  | _ => false

theorem sixFields_3 : sixFields 3 = true := by decide +kernel

theorem run_setup : ∃ v, createVariogram "spherical".toList (1 / 6 * 3) (-1.0) (-1.0) 0.0 0.0 1.5 = .ok v ∧
    v.corr 1 = 0 ∧
    ∀ {F : Fftw} (_ : F.Laws) (b : Build) (e : Env) (s : Random), s.isInitialized = true →
      ∃ f : List ℝ → ℕ → ℝ, advancedSimulate ⟨F, exactPlatform, b⟩ e v 3 1 1 0 1 0 0 0 0 1.0 1.0 1.0 s
        = (flatNormals b 3 s).bind fun w => .ok ((List.range 3).map (f w.1), w.2) := by
  have hA : IsAscii "spherical".toList := by unfold IsAscii; decide +kernel
  obtain ⟨v, hv, hrx, -, -, -, -, -, -, hcorr⟩ := createVariogram_params hA (1 / 6 * 3) (-1.0) (-1.0) 0.0 0.0 1.5
    (by norm_num) (by norm_num) (by norm_num)
  have hc : ∃ t rx ry rz az dp, Variogram.create t 1.5 rx ry rz az dp 1.0 = .ok v := by
    have h := hv
    simp only [createVariogram, uppercase_ascii hA, Res.monad_bind_eq, Res.bind_ok] at h
    exact ⟨_, _, _, _, _, _, h⟩
  have ht : v.type = .spherical :=
    (createVariogram_names_partial hA hv).1 "spherical" .spherical
      (by simp [documentedNames]) (by unfold SameIgnoringCase; decide +kernel)
  obtain ⟨er1, er2⟩ := ratio_spherical ht
  obtain ⟨t, rx, ry, rz, az, dp, hc⟩ := hc
  obtain ⟨hf1, hf2, -⟩ := create_fields hc
  have hk : PadOk v 3 v.rangeX 1 :=
    padOk_of (by linarith) (by linarith) (by norm_num) (by rw [hrx]; norm_num) (by norm_num)
      (by rw [hrx]; norm_num)
  have hd : DirOk exactPlatform v 3 v.rangeX 1 0 1.0 :=
    dirOk_explicit (by norm_num) hk le_rfl (by norm_num) (by norm_num)
  obtain ⟨tx, r, h1, -, -, H⟩ := advancedSimulate_1D hc (p := exactPlatform) (nx := 3) (ny := 1)
    (dx := 1) (dy := 0) (sx := 1.0) (padx := 0) (by norm_num) hd
  rw [isTotal_explicit le_rfl] at h1
  have : tx = 3 := fftSize_self h1 (by norm_num)
    ⟨le_rfl, by simpa using smooth7_of_exps 0 1 0 0, by simp⟩
  subst this
  refine ⟨v, hv, ?_, fun hF b e s hs =>
    ⟨fun w => field1 3 (gridCov1 v r 3 1 1.0) fun a => w.getD a 0, H hF b e 1 0 0 0 1.0 1.0 s hs⟩⟩
  rw [(corr_arity v 1 0).2.2, hcorr, ht]
  have hn : (1 : ℝ) ≤ normDist (1 / 6 * 3) (if (-1.0 : ℝ) < 0 then 1 / 6 * 3 else -1.0)
      (if (-1.0 : ℝ) < 0 then 1 / 6 * 3 else -1.0) (0.0 * (Real.pi / 180)) (0.0 * (Real.pi / 180))
      ⟨1, 0, 0⟩ := by
    rw [if_pos (by norm_num), show (0.0 : ℝ) * (Real.pi / 180) = 0 by norm_num]
    simp [normDist, mainAxis, perpAxis, downAxis, Vec3.dot]
    norm_num
  simp only [corr1D]
  rw [if_neg (not_lt.2 (by norm_num only at hn ⊢; exact hn))]
  norm_num

/-- A field is simulated. -/
theorem run_field {F : Fftw} {b : Build} {v : Variogram}
    (hv : ∀ (e : Env) (s : Random), s.isInitialized = true → ∃ f : List ℝ → ℕ → ℝ,
      advancedSimulate ⟨F, exactPlatform, b⟩ e v 3 1 1 0 1 0 0 0 0 1.0 1.0 1.0 s
        = (flatNormals b 3 s).bind fun w => .ok ((List.range 3).map (f w.1), w.2))
    (e : Env) {s : Random} (hs : s.isInitialized = true) {w : BitVec 64} {l : List (BitVec 64)}
    (ha : Ahead (w :: l) s.dsfmt) (hq : quick 3 (seedOuts (innerSeed w)) = true) :
    ∃ g X d', (⟨v, 3, 1, 1, 0, 1, 0, 0, 0, 0⟩ : Ev).simulate ⟨F, exactPlatform, b⟩ e s
        = .ok (g, { s with dsfmt := d' }) ∧ Holds ⟨v, 3, 1, 1, 0, 1, 0, 0, 0, 0⟩ g X ∧ Ahead l d' := by
  obtain ⟨f, hf⟩ := hv e s hs
  obtain ⟨x, d', e1, h1⟩ := quick_flat ha hq b
  have key : (⟨v, 3, 1, 1, 0, 1, 0, 0, 0, 0⟩ : Ev).simulate ⟨F, exactPlatform, b⟩ e s
      = .ok (⟨3, 1, 1, (List.range 3).map (f x)⟩, { s with dsfmt := d' }) := by
    unfold Ev.simulate
    simp only [Res.monad_bind_eq, hf, e1, Res.bind_ok, reshapeF, List.length_map, List.length_range]
    rfl
  obtain ⟨out, -, h2⟩ := evSimulate_holds key
  exact ⟨_, _, d', key, h2, h1⟩

/-- The arguments of the run: one range of half a cell, no padding, three cells of size 1, one field. -/
noncomputable def runArgs : PadArgs :=
  ⟨[1 / 6], [0], some 3, some 3, none, some 1, .str "spherical", some 3, none⟩

theorem runArgs_values : runArgs.cells = 3 ∧ runArgs.length = 3 ∧ runArgs.factor = 1 ∧
    runArgs.theSeed = 3 ∧ runArgs.fields = 1 ∧ runArgs.dims = 1 ∧ runArgs.d = 1 ∧ runArgs.dr = 1 ∧
    runArgs.outputPadding = [0] := by
  have h1 : runArgs.cells = 3 := if_neg (by norm_num)
  have h2 : runArgs.length = 3 := if_neg (by norm_num)
  have h3 : runArgs.factor = 1 := by
    show (1.0 : ℝ) = 1
    norm_num
  have h4 : runArgs.theSeed = 3 := if_neg (by decide)
  have h5 : runArgs.fields = 1 := if_neg (by norm_num)
  have h6 : runArgs.dims = 1 := rfl
  have h7 : runArgs.d = 1 := by
    unfold PadArgs.d
    rw [h1, h2]
    norm_num
  have h8 : runArgs.dr = 1 := by
    unfold PadArgs.dr
    rw [h3, h7]
    norm_num
  refine ⟨h1, h2, h3, h4, h5, h6, h7, h8, ?_⟩
  unfold PadArgs.outputPadding
  rw [h7, h2]
  simp [runArgs, pyInt]

/-- One estimate of the run. -/
theorem run_analyze {F : Fftw} {b : Build} {v : Variogram}
    (hc : createVariogram "spherical".toList (1 / 6 * 3) (-1.0) (-1.0) 0.0 0.0 1.5 = .ok v)
    (hv : ∀ (e : Env) (s : Random), s.isInitialized = true → ∃ f : List ℝ → ℕ → ℝ,
      advancedSimulate ⟨F, exactPlatform, b⟩ e v 3 1 1 0 1 0 0 0 0 1.0 1.0 1.0 s
        = (flatNormals b 3 s).bind fun w => .ok ((List.range 3).map (f w.1), w.2))
    (e : ℕ → Env) {s : Random} (hs : s.isInitialized = true) {w1 w2 w3 : BitVec 64}
    {l : List (BitVec 64)} (ha : Ahead (w1 :: w2 :: w3 :: l) s.dsfmt)
    (hq1 : quick 3 (seedOuts (innerSeed w1)) = true) (hq2 : quick 3 (seedOuts (innerSeed w2)) = true)
    (hq3 : quick 3 (seedOuts (innerSeed w3)) = true) :
    ∃ est row d', runArgs.analyze ⟨F, exactPlatform, b⟩ e (1 / 6) 0 s
        = .ok (est, { s with dsfmt := d' }) ∧ est.deltas = [row] ∧ row.length = 2 ∧ Ahead l d' := by
  obtain ⟨v1, v2, v3, v4, v5, v6, v7, v8, v9⟩ := runArgs_values
  obtain ⟨g1, X1, d1, e1, h1, a1⟩ := run_field hv (e 0) hs ha hq1
  obtain ⟨g2, X2, d2, e2, h2, a2⟩ := run_field hv (e 1) (s := { s with dsfmt := d1 }) hs a1 hq2
  obtain ⟨g3, X3, d3, e3, h3, a3⟩ := run_field hv (e 2) (s := { s with dsfmt := d2 }) hs a2 hq3
  obtain ⟨mid, est, k1, k2, -⟩ := estimate_line (E := ⟨v, 3, 1, 1, 0, 1, 0, 0, 0, 0⟩) rfl rfl (K := 2)
    rfl (by norm_num) (by norm_num) h1 (grids := [g3]) (by simp) (X := fun _ => X3) (by simpa using h3)
  obtain ⟨mid', est', k1', k2', -⟩ := estimate_line (E := ⟨v, 3, 1, 1, 0, 1, 0, 0, 0, 0⟩) rfl rfl
    (K := 2) rfl (by norm_num) (by norm_num) h2 (grids := [g3]) (by simp) (X := fun _ => X3)
    (by simpa using h3)
  have hm : (⟨v, 3, 1, 1, 0, 1, 0, 0, 0, 0⟩ : Ev).midpoints 1 g2 = .ok mid' := by
    unfold Ev.estimate at k1'
    simp only [Res.monad_bind_eq] at k1'
    obtain ⟨m, z1, k1'⟩ := Res.bind_eq_ok.1 k1'
    obtain ⟨_, -, k1'⟩ := Res.bind_eq_ok.1 k1'
    simp only [Res.ok.injEq, Prod.mk.injEq] at k1'
    rw [z1, k1'.1]
  obtain ⟨r, r1, r2, -⟩ := convergence_ok k1 hm (10 : ℕ)
  obtain ⟨-, q2, q3⟩ := convergence_deltas (by norm_num) r1
  obtain ⟨-, row, -, q5, q6, -⟩ := q3 0 (by simp)
  have hds : r.deltas = [row] := by
    have hl : r.deltas.length = 1 := by simpa using q2
    obtain ⟨x, hx⟩ := List.length_eq_one_iff.1 hl
    rw [hx] at q5 ⊢
    simpa using q5
  refine ⟨r, row, d3, ?_, hds, by rw [q6, r2, k2], a3⟩
  unfold PadArgs.analyze
  rw [v1, v2, v5, v6, v7, v8]
  have hcv : createVariograms (1 / 6) 0 1 1 3 3 runArgs.vtype
      = .ok ⟨v, 3, 1, 1, 0, 1, 0, 0, 0, 0⟩ := by
    unfold createVariograms
    rw [if_pos rfl]
    have : variogram runArgs.vtype (1 / 6 * 3) (-1.0) (-1.0) 0.0 0.0 1.5 = .ok v := hc
    rw [this]
    rfl
  rw [hcv]
  have hn : Int.toNat 1 = 1 := rfl
  simp only [Res.monad_bind_eq, Res.bind_ok, Ev.pickReferencePoints, Ev.estimateWith, e1, e2, hn,
    Ev.simulateMany, e3]
  have r1' := r1
  rw [show (((10 : ℕ) : ℤ)) = 10 from rfl] at r1'
  rw [r1']
  rfl

/-- The hypotheses of the theorems of C75 are met; and the deviation that is reported for a distance of
one cell is 1, although the cells are independent as they should be at this range. -/
theorem concrete_padAnalyzer {F : Fftw} (hF : F.Laws) (b : Build) (e : ℕ → ℕ → Env) {s : Random}
    (hs : s.dsfmt.status.length = 192) :
    ∃ q s' row, padAnalyzer ⟨F, exactPlatform, b⟩ e runArgs s = .ok (q, s') ∧
      q.deltas = [row] ∧ row.length = 2 ∧ row[0]? = some (some 1) ∧ q.grid = [0, 2] ∧
      q.paddingF = [0] := by
  obtain ⟨v1, v2, v3, v4, v5, v6, v7, v8, v9⟩ := runArgs_values
  obtain ⟨v, hc, hcorr, hv⟩ := run_setup
  have hrun := sixFields_3
  unfold sixFields at hrun
  split at hrun
  swap
  · simp at hrun
  rename_i w1 w2 w3 w4 w5 w6 l hw
  simp only [List.all_cons, List.all_nil, Bool.and_eq_true, and_true] at hrun
  obtain ⟨q1, q2, q3, q4, q5, q6⟩ := hrun
  have h0 := ahead_seed 3
  rw [hw] at h0
  have s32 : (3 : BitVec 64).setWidth 32 = 3 := rfl
  obtain ⟨est, row, d1, e1, f1, g1, a1⟩ := run_analyze hc (hv hF b) (e 0)
    (s := ⟨true, 3, s.useSeedFile, s.seedFile, ⟨seedState 3, 382⟩⟩) rfl h0 q1 q2 q3
  obtain ⟨est2, row2, d2, e2, f2, g2, a2⟩ := run_analyze hc (hv hF b) (e 1)
    (s := ⟨true, 3, s.useSeedFile, s.seedFile, d1⟩) rfl a1 q4 q5 q6
  have hq : padAnalyzer ⟨F, exactPlatform, b⟩ e runArgs s
      = .ok (⟨[row2], [1 / 6], [0], [0, 2]⟩, ⟨true, 3, s.useSeedFile, s.seedFile, d2⟩) := by
    have hj : jobs runArgs.ranges [0] = [((1 / 6, 0), (0, 0))] := rfl
    have hlr : runArgs.ranges.length = 1 := rfl
    have hlin : linspacePoints ((2 : ℕ) * 1) 2 = [0, 2] := by
      simp [linspacePoints, List.range_succ]
    have hst : storeRow [List.replicate 2 (some 0)] (0 * 1 + 0) 2 row2 = .ok [row2] := by
      unfold storeRow
      rw [if_pos g2]
      rfl
    unfold padAnalyzer
    rw [v4, initializeSeed_eq 3 hs, v9, s32]
    have hf : pyFirst runArgs.ranges = .ok (1 / 6) := rfl
    have hf0 : pyFirst ([0] : List ℤ) = .ok 0 := rfl
    have hfd : pyFirst est.deltas = .ok row := by rw [f1]; rfl
    have hld : pyLast est2.deltas = .ok row2 := by rw [f2]; rfl
    simp only [Res.monad_bind_eq, Res.bind_ok, hf, hf0]
    rw [e1]
    simp only [Res.bind_ok, hfd, hj, g1, PadArgs.loop, Res.monad_bind_eq]
    rw [e2]
    simp only [Res.bind_ok, hld, hlr]
    rw [show List.replicate (([0] : List ℤ).length * 1) (List.replicate 2 (some (0 : ℝ)))
      = [List.replicate 2 (some 0)] from rfl, hst]
    simp only [Res.bind_ok]
    rw [v7, hlin, v1]
    simp [runArgs]
  obtain ⟨v', row', fields, j1, j2, -, -, -, -, j3⟩ := padAnalyzer_line_partial hq v6 v3
    (by rw [v2]; norm_num) (K := 2) (by rw [v1]) le_rfl (i := 0) (j := 0) (r := 1 / 6) (p := 0) rfl
    (by rw [v9]; rfl)
  have hvv : v' = v := by
    rw [v2] at j1
    have : variogram runArgs.vtype (1 / 6 * 3) (-1.0) (-1.0) 0.0 0.0 1.5 = .ok v := hc
    rw [this] at j1
    simpa using j1.symm
  subst hvv
  have hrow : row' = row2 := by simpa using j2.symm
  subst hrow
  rw [v7, hcorr, sub_zero] at j3
  exact ⟨_, _, row', hq, rfl, g2, j3, rfl, rfl⟩

end Verif.Py
