import Verif.Lemmas.Known
import Verif.Props.ApiGrid
import Verif.Props.ApiPad

/-! A concrete session with the Python module that returns: the hypotheses of the theorems about
calls that return are met. The numbers the generator draws are computed by the kernel. -/

namespace Verif

open Spec Variogram Known
open Spec.Mt (Admissible seedState Is12 val12)
open Dsfmt (Build nextWord)

/-- Seed 0 gives the doubles 1.030581026769374, 1.213140320067012, 1.299002525016001,
1.381138853044628 (to the digits shown), which are the first ones in the test output that the authors
of the generator publish for this seed. -/
theorem published_stream (b : Build) {d : Dsfmt} (hd : d.status.length = 192) :
    ∃ d0 d1 d2 d3 d4, Dsfmt.initGenRand 0 d = .ok d0 ∧
      nextWord b d0 = .ok (4607320143500780570#64, d1) ∧
      nextWord b d1 = .ok (4608142317466048832#64, d2) ∧
      nextWord b d2 = .ok (4608529006460262309#64, d3) ∧
      nextWord b d3 = .ok (4608898915596565614#64, d4) := by
  have h0 := ahead_seed 0
  have e : seedOuts 0 = (seedOuts 0).take 4 ++ (seedOuts 0).drop 4 := (List.take_append_drop 4 _).symm
  rw [e, seedOuts_0] at h0
  obtain ⟨d1, e1, -, h1⟩ := h0.next b
  obtain ⟨d2, e2, -, h2⟩ := h1.next b
  obtain ⟨d3, e3, -, h3⟩ := h2.next b
  obtain ⟨d4, e4, -, h4⟩ := h3.next b
  exact ⟨_, d1, d2, d3, d4, Dsfmt.initGenRand_eq 0 hd, e1, e2, e3, e4⟩

example : |val12 4607320143500780570#64 - 1.030581026769374| < 1e-15 ∧
    |val12 4608142317466048832#64 - 1.213140320067012| < 1e-15 ∧
    |val12 4608529006460262309#64 - 1.299002525016001| < 1e-15 ∧
    |val12 4608898915596565614#64 - 1.381138853044628| < 1e-15 := by
  refine ⟨?_, ?_, ?_, ?_⟩ <;> (unfold val12; rw [abs_lt]; norm_num)

theorem quick_object {n : ℕ} {r : BitVec 64} (h : quick n (seedOuts (r.setWidth 32)) = true)
    (b : Build) : ∃ l g, draws (RandomGenerator.norm01 b) n (seededObject r) = .ok (l, g) := by
  obtain ⟨l, d', e⟩ := quick_spec h b
    (s := ⟨true, r, false, "", ⟨seedState (r.setWidth 32), 382⟩⟩) (ahead_seed _)
  rw [seededObject_ofGlobal, draws_mapState (fun s => RandomGenerator.norm01_ofGlobal b s), e]
  exact ⟨l, _, rfl⟩

theorem quick_flat {n : ℕ} {w : BitVec 64} {l : List (BitVec 64)} {s : Random}
    (hs : Ahead (w :: l) s.dsfmt)
    (h : quick n (seedOuts ((((w &&& 0xffffffff#64).setWidth 32).setWidth 64).setWidth 32)) = true)
    (b : Build) :
    ∃ x d', flatNormals b n s = .ok (x, { s with dsfmt := d' }) ∧ Ahead l d' := by
  obtain ⟨d', e, ha⟩ := hs.drawUint32 b
  obtain ⟨x, g, e2⟩ := quick_object h b
  refine ⟨x, d', ?_, ha⟩
  unfold flatNormals
  simp only [e, Res.bind_ok, e2]

/-- The numbers needed by a one-dimensional, a two-dimensional and a three-dimensional simulation with
3, 12 and 36 cells, one after the other, can be drawn after seeding with `seed`. -/
def runOk (seed : BitVec 32) : Bool :=
  match seedOuts seed with
  | w :: w' :: l =>
    quick 3 (seedOuts ((((w &&& 0xffffffff#64).setWidth 32).setWidth 64).setWidth 32)) &&
    quick 12 (seedOuts ((((w' &&& 0xffffffff#64).setWidth 32).setWidth 64).setWidth 32)) &&
    quick 36 l
  | _ => false

theorem runOk_3 : runOk 3 = true := by decide +kernel

/-- A spherical variogram with range one half, on a grid with step 1. -/
theorem small_setup : ∃ v, createVariogram "spherical".toList 0.5 (-1) (-1) 0 0 1.5 = .ok v ∧
    (∃ t rx ry rz az dp, Variogram.create t 1.5 rx ry rz az dp 1.0 = .ok v) ∧ v.rangeX = 0.5 ∧
    v.rangeZ = 0.5 ∧ max v.rangeX v.rangeY = 0.5 ∧ padRangeY v = 0.5 ∧
    DirOk exactPlatform v 2 0.5 1 (-1) 1.0 ∧
    (∀ t, IsTotal v 2 0.5 1 (-1) false t → t = 3) ∧
    (∀ t, IsTotal v 2 0.5 1 (-1) true t → t = 4) := by
  have hA : IsAscii "spherical".toList := by unfold IsAscii; decide +kernel
  obtain ⟨v, hv, hrx, hry, hrz, haz, -⟩ := createVariogram_params hA 0.5 (-1) (-1) 0 0 1.5
    (by norm_num) (by norm_num) (by norm_num)
  have hc : ∃ t rx ry rz az dp, Variogram.create t 1.5 rx ry rz az dp 1.0 = .ok v := by
    have h := hv
    simp only [createVariogram, uppercase_ascii hA, Res.monad_bind_eq, Res.bind_ok] at h
    exact ⟨_, _, _, _, _, _, h⟩
  have ht : v.type = .spherical :=
    (createVariogram_names_partial hA hv).1 "spherical" .spherical
      (by simp [documentedNames]) (by unfold SameIgnoringCase; decide +kernel)
  obtain ⟨er1, er2⟩ := ratio_spherical ht
  have hk : PadOk v 2 0.5 1 :=
    padOk_of (by linarith) (by linarith) (by norm_num) (by norm_num) (by norm_num) (by norm_num)
  have haz : v.azimuth = 0 := by simpa using haz
  have hry : v.rangeY = 0.5 := by rw [hry]; norm_num
  have hrz : v.rangeZ = 0.5 := by rw [hrz]; norm_num
  have em : max v.rangeX v.rangeY = 0.5 := by rw [hrx, hry]; norm_num
  have ep : padRangeY v = 0.5 := by unfold padRangeY; rw [if_pos haz, hry]
  have hd : DirOk exactPlatform v 2 0.5 1 (-1) 1.0 :=
    dirOk_default 1 (by norm_num) hk (by norm_num)
      (by push_cast; linarith) (by norm_num) (by norm_num)
  have hpad : ∀ q, IsPadding v 2 0.5 1 (-1) q → q = 1 := fun q hq =>
    isPadding_default (q := 0) (n := 2) hk (by norm_num) (by norm_num)
      (by push_cast; linarith) hq
  have t3 : ∀ t, IsTotal v 2 0.5 1 (-1) false t → t = 3 := by
    rintro t ⟨q, hq, hf⟩
    rw [hpad q hq] at hf
    exact fftSize_self hf (by norm_num) ⟨le_rfl, by simpa using smooth7_of_exps 0 1 0 0, by simp⟩
  have t4 : ∀ t, IsTotal v 2 0.5 1 (-1) true t → t = 4 := by
    rintro t ⟨q, hq, hf⟩
    rw [hpad q hq] at hf
    refine fftSize_unique hf ?_
    unfold FftSize
    rw [if_neg (by norm_num)]
    refine ⟨⟨by norm_num, by simpa using smooth7_of_exps 2 0 0 0, fun _ => ⟨2, rfl⟩⟩, ?_⟩
    rintro m ⟨h1, -, h2⟩
    obtain ⟨k, rfl⟩ := h2 rfl
    omega
  exact ⟨v, hv, hc, hrx, hrz, em, ep, hd, t3, t4⟩

/-- A session with all kinds of calls, in any process, on any machine: after `seed(3)` fields in one,
two and three dimensions are simulated, and `seed()` gives 3. All calls return, and the arrays have the
requested lengths. -/
theorem concrete_session {F : Fftw} (hF : F.Laws) (b : Build) (e : Env) {s : Random}
    (hs : s.dsfmt.status.length = 192) :
    ∃ v, createVariogram "spherical".toList 0.5 (-1) (-1) 0 0 1.5 = .ok v ∧
      ∃ a1 a2 a3 s', session (pyCall ⟨F, exactPlatform, b⟩)
        [(e, .seed 3), (e, .simulate v 2 1 1 (-1) 1 (-1)), (e, .simulate v 2 1 2 1 1 (-1)),
          (e, .simulate v 2 1 2 1 2 1), (e, .getSeed)] s
          = .ok ([.none, .array a1, .array a2, .array a3, .int 3], s') ∧
        a1.length = 2 ∧ a2.length = 4 ∧ a3.length = 8 := by
  obtain ⟨v, hv, ⟨t, rx, ry, rz, az, dp, hc⟩, hrx, hrz, em, ep, hd, t3, t4⟩ := small_setup
  obtain ⟨tx, r, g1, -, -, H1⟩ := advancedSimulate_1D hc (p := exactPlatform) (nx := 2) (ny := 1) (dx := 1)
    (dy := -1) (sx := 1.0) (padx := -1) (by norm_num) (by rw [hrx]; exact hd)
  rw [hrx] at g1
  have := t3 tx g1
  subst this
  obtain ⟨tx, ty, r2, g1, g2, -, -, -, H2⟩ := advancedSimulate_2D hc (p := exactPlatform) (nx := 2) (ny := 2)
    (nz := 1) (dx := 1) (dy := 1) (dz := -1) (sx := 1.0) (sy := 1.0) (padx := -1) (pady := -1)
    (by norm_num) (by norm_num) (by norm_num) (by rw [em]; exact hd) (by rw [ep]; exact hd)
  rw [em] at g1
  rw [ep] at g2
  have := t4 tx g1
  subst this
  have := t3 ty g2
  subst this
  obtain ⟨tx, ty, tz, r3, g1, g2, g3, -, -, -, -, H3⟩ := advancedSimulate_3D hc (p := exactPlatform)
    (nx := 2) (ny := 2) (nz := 2) (dx := 1) (dy := 1) (dz := 1) (sx := 1.0) (sy := 1.0) (sz := 1.0)
    (padx := -1) (pady := -1) (padz := -1)
    (by norm_num) (by norm_num) (by norm_num) (by norm_num) (by rw [em]; exact hd)
    (by rw [ep]; exact hd) (by rw [hrz]; exact hd)
  rw [em] at g1
  rw [ep] at g2
  rw [hrz] at g3
  have := t4 tx g1
  subst this
  have := t3 ty g2
  subst this
  have := t3 tz g3
  subst this
  refine ⟨v, hv, ?_⟩
  have hrun := runOk_3
  unfold runOk at hrun
  split at hrun
  swap
  · simp at hrun
  rename_i w w' l hw
  simp only [Bool.and_eq_true] at hrun
  obtain ⟨⟨q1, q2⟩, q3⟩ := hrun
  have h0 := ahead_seed 3
  rw [hw] at h0
  have s32 : (3 : BitVec 64).setWidth 32 = 3 := rfl
  obtain ⟨x1, d1, e1, h1⟩ := quick_flat (s := ⟨true, 3, s.useSeedFile, s.seedFile, ⟨seedState 3, 382⟩⟩) h0 q1 b
  obtain ⟨x2, d2, e2, h2⟩ := quick_flat (s := ⟨true, 3, s.useSeedFile, s.seedFile, d1⟩) h1 q2 b
  obtain ⟨x3, d3, e3⟩ := quick_spec (s := ⟨true, 3, s.useSeedFile, s.seedFile, d2⟩) q3 b h2
  have H1 := H1 hF b e 1 (-1) (-1) (-1) 1.0 1.0 ⟨true, 3, s.useSeedFile, s.seedFile, ⟨seedState 3, 382⟩⟩ rfl
  have H2 := H2 hF b e (-1) 1.0 ⟨true, 3, s.useSeedFile, s.seedFile, d1⟩ rfl
  have H3 := H3 hF b e ⟨true, 3, s.useSeedFile, s.seedFile, d2⟩ rfl
  rw [e1, Res.bind_ok] at H1
  rw [e2, Res.bind_ok] at H2
  unfold solidNormals at H3
  rw [e3, Res.bind_ok] at H3
  have k1 : ∀ {α : Type} {f : ℕ → ℝ} {x : Res (List ℝ × α)} {n : ℕ} {t : α},
      x = .ok ((List.range n).map f, t) → ∃ a, x = .ok (a, t) ∧ a.length = n :=
    fun h => ⟨_, h, by simp⟩
  obtain ⟨a1, H1, l1⟩ := k1 H1
  obtain ⟨a2, H2, l2⟩ := k1 H2
  obtain ⟨a3, H3, l3⟩ := k1 H3
  refine ⟨a1, a2, a3, ⟨true, 3, s.useSeedFile, s.seedFile, d3⟩, ?_, l1, l2, l3⟩
  simp only [session, pyCall, initializeSeed_eq 3 hs, s32, Res.bind_ok, simulate, H1, H2, H3,
      Random.getStartSeed, pyRaise]
  rfl

/-- The state that is left is reachable, and a seed is in force in it. -/
example {F : Fftw} (hF : F.Laws) (b : Build) (e : Env) :
    ∃ s, Reachable ⟨F, exactPlatform, b⟩ s ∧ s.getStartSeed = .ok 3 := by
  obtain ⟨v, -, a1, a2, a3, s', h, -⟩ := concrete_session hF b e (s := .initial) rfl
  refine ⟨s', ⟨_, _, h⟩, ?_⟩
  have := getSeed_last _ 3 e e (before := []) (after := [(e, .simulate v 2 1 1 (-1) 1 (-1)),
    (e, .simulate v 2 1 2 1 1 (-1)), (e, .simulate v 2 1 2 1 2 1), (e, .getSeed)])
    (by simp [PyCall.seeds]) h
  unfold pyCall pyRaise at this
  unfold Random.getStartSeed at this ⊢
  split_ifs at this ⊢ <;> simp_all

theorem quick_0_3 : quick 12 (seedOuts 0) = true ∧ quick 12 (seedOuts 3) = true := by
  constructor <;> decide +kernel

/-- The hypotheses of the theorems of C45 are met: the convenience function returns a field if the seed
is 3, and also in a process in which no seed was set. -/
theorem concrete_grid {F : Fftw} (hF : F.Laws) (b : Build) (e : Env) :
    ∃ v, createVariogram "spherical".toList 0.5 (-1) (-1) 0 0 1.5 = .ok v ∧
      (∀ s : Random, s.isInitialized = true → s.startSeed = 3 →
        ∃ g, simulate2DGrid ⟨F, exactPlatform, b⟩ e v 2 1 2 1 s = .ok (g, s)) ∧
      ∃ g s', simulate2DGrid ⟨F, exactPlatform, b⟩ e v 2 1 2 1 .initial = .ok (g, s') := by
  obtain ⟨v, hv, ⟨t, rx, ry, rz, az, dp, hc⟩, hrx, hrz, em, ep, hd, t3, t4⟩ := small_setup
  obtain ⟨tx, ty, r, g1, g2, -, -, -, H⟩ := simulate2D_eq hc (p := exactPlatform) (nx := 2) (ny := 2)
    (dx := 1) (dy := 1) (sx := 1.0) (sy := 1.0) (padx := -1) (pady := -1)
    (by norm_num) (by rw [em]; exact hd) (by rw [ep]; exact hd)
  rw [em] at g1
  rw [ep] at g2
  have := t4 tx g1
  subst this
  have := t3 ty g2
  subst this
  refine ⟨v, hv, fun s hs h3 => ?_, ?_⟩
  · obtain ⟨l, g, e1⟩ := quick_object (r := 3) quick_0_3.2 b
    rw [simulate2DGrid_seeded hs, h3, H hF]
    simp only [rgOrNew, Res.bind_ok, e1]
    exact ⟨_, rfl⟩
  · obtain ⟨l, g, e1⟩ := quick_object (r := 0) quick_0_3.1 b
    obtain ⟨s1, e2, -⟩ := blank_draw b blank_initial
    rw [simulate2DGrid_unseeded rfl, H hF]
    simp only [rgOrNew, newRandomGenerator_eq, e2, Res.bind_ok, e1]
    exact ⟨_, _, rfl⟩

end Verif
