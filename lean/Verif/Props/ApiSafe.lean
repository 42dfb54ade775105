import Verif.Props.ApiField

/-! Every spectrum given to the inverse transform is a spectrum of real data (C34); valid calls have no
undefined behaviour (C43). -/

namespace Verif

open Spec Variogram
open Spec.Mt (Admissible seedState)
open Dsfmt (Build)

/-- Valid arguments of `advanced.simulate`: each direction that is used is valid (`DirOk`: positive
size, step, range and smoothing parameter; quotients and padded sizes that fit in an `int`). -/
def CallOk (p : Platform) (v : Variogram) (nx : ℕ) (dx : ℝ) (ny : ℕ) (dy : ℝ) (nz : ℕ) (dz : ℝ)
    (padx pady padz : ℤ) (sx sy sz : ℝ) : Prop :=
  (ny ≤ 1 ∨ dy < 0 → DirOk p v nx v.rangeX dx padx sx) ∧
  (¬ (ny ≤ 1 ∨ dy < 0) →
    DirOk p v nx (max v.rangeX v.rangeY) dx padx sx ∧ DirOk p v ny (padRangeY v) dy pady sy ∧
    (¬ (nz ≤ 1 ∨ dz < 0) → DirOk p v nz v.rangeZ dz padz sz))

/-- In all dimensions: the numbers that are drawn, and what is returned, as a function of the state
and of the draws only. -/
theorem advancedSimulate_form {t : VType} {pw rx ry rz az dp sd : ℝ} {v : Variogram}
    (hv : Variogram.create t pw rx ry rz az dp sd = .ok v) {p : Platform} {nx ny nz : ℕ}
    {dx dy dz sx sy sz : ℝ} {padx pady padz : ℤ}
    (h : CallOk p v nx dx ny dy nz dz padx pady padz sx sy sz) :
    ∃ (n : ℕ) (f : List ℝ → List ℝ), ∀ {F : Fftw} (_ : F.Laws) (b : Build) (e : Env) (s : Random),
      s.isInitialized = true →
      advancedSimulate ⟨F, p, b⟩ e v nx dx ny dy nz dz padx pady padz sx sy sz s
        = ((if ny ≤ 1 ∨ dy < 0 ∨ nz ≤ 1 ∨ dz < 0 then flatNormals else solidNormals) b n s).bind
            fun w => .ok (f w.1, w.2) := by
  by_cases h1 : ny ≤ 1 ∨ dy < 0
  · obtain ⟨tx, r, -, -, -, H⟩ := advancedSimulate_1D hv h1 (h.1 h1)
    refine ⟨tx, fun w => (List.range nx).map
      (field1 tx (gridCov1 v r tx dx sx) (fun a => w.getD a 0)), ?_⟩
    intro F hF b e s hs
    rw [if_pos (by tauto), H hF b e nz dz pady padz sy sz s hs]
  · obtain ⟨hx, hy, hz⟩ := h.2 h1
    have h1' := h1
    push Not at h1'
    by_cases h2 : nz ≤ 1 ∨ dz < 0
    · obtain ⟨tx, ty, r, -, -, -, -, -, H⟩ := advancedSimulate_2D hv h1'.1 h1'.2 h2 hx hy
      refine ⟨tx * ty, fun w => (List.range (nx * ny)).map fun m =>
        field2 tx ty (gridCov2 v r tx dx ty dy sx sy) (fun a b => w.getD (a * ty + b) 0)
          (m % nx) (m / nx), ?_⟩
      intro F hF b e s hs
      rw [if_pos (by tauto), H hF b e padz sz s hs]
    · have h2' := h2
      push Not at h2'
      obtain ⟨tx, ty, tz, r, -, -, -, -, -, -, -, H⟩ :=
        advancedSimulate_3D hv h1'.1 h1'.2 h2'.1 h2'.2 hx hy (hz h2)
      refine ⟨tx * ty * tz, fun w => (List.range (nx * ny * nz)).map fun m =>
                field3 tx ty tz (gridCov3 v r tx dx ty dy tz dz sx sy sz)
                  (fun a b c => w.getD ((a * ty + b) * tz + c) 0)
                  (m % nx) (m / nx % ny) (m / nx / ny), ?_⟩
      intro F hF b e s hs
      rw [if_neg (by tauto), H hF b e s hs]

theorem Res.bind_congr {α β : Type} {x : Res α} {f g : α → Res β} (h : ∀ a, x = .ok a → f a = g a) :
    x.bind f = x.bind g := by
  cases x with
  | ok a => exact h a rfl
  | throws m => rfl
  | ub w => rfl
  | nonfinite w => rfl
  | diverges => rfl

theorem ensureSeeded_initialized {b : Build} {t : BitVec 64} {s s' : Random}
    (h : ensureSeeded b t s = .ok s') : s'.isInitialized = true := by
  cases hi : s.isInitialized with
  | true =>
    rw [ensureSeeded_seeded hi, Res.ok.injEq] at h
    rw [← h, hi]
  | false =>
    rw [ensureSeeded_unseeded hi] at h
    unfold Random.initializeTime Random.initializeMT at h
    simp only [Res.monad_bind_eq] at h
    obtain ⟨_, _, h⟩ := Res.bind_eq_ok.1 h
    obtain ⟨_, _, h⟩ := Res.bind_eq_ok.1 h
    obtain ⟨_, _, h⟩ := Res.bind_eq_ok.1 h
    simp only [Res.ok.injEq] at h
    rw [← h]

/-- **C34.** `Fftw.Laws` says nothing about what the complex-to-real transform does with a half
spectrum that is not that of real data. For valid arguments, and whatever the state of the generator,
any two transforms that satisfy the laws give the same outcome: no other spectrum is ever given to
them. -/
theorem fftw_irrelevant {t : VType} {pw rx ry rz az dp sd : ℝ} {v : Variogram}
    (hv : Variogram.create t pw rx ry rz az dp sd = .ok v) {p : Platform} {nx ny nz : ℕ}
    {dx dy dz sx sy sz : ℝ} {padx pady padz : ℤ}
    (h : CallOk p v nx dx ny dy nz dz padx pady padz sx sy sz) {F F' : Fftw} (hF : F.Laws)
    (hF' : F'.Laws) (b : Build) (e : Env) (s : Random) :
    advancedSimulate ⟨F, p, b⟩ e v nx dx ny dy nz dz padx pady padz sx sy sz s
      = advancedSimulate ⟨F', p, b⟩ e v nx dx ny dy nz dz padx pady padz sx sy sz s := by
  obtain ⟨n, f, H⟩ := advancedSimulate_form hv h
  rw [advancedSimulate_eq, advancedSimulate_eq]
  refine Res.bind_congr fun s1 hs => ?_
  have hi := ensureSeeded_initialized hs
  rw [← advancedSimulate_seeded hi, ← advancedSimulate_seeded hi, H hF b e s1 hi, H hF' b e s1 hi]

/-! ## C43 -/

theorem Res.Clean.bind {α β : Type} {x : Res α} {f : α → Res β} (h : x.Clean)
    (hf : ∀ a, x = .ok a → (f a).Clean) : (x.bind f).Clean := by
  cases x with
  | ok a => exact hf a rfl
  | throws m => exact h
  | ub w => exact h
  | nonfinite w => exact h
  | diverges => exact h

theorem norm01_clean {b : Build} {s : Random} (h : Admissible s.dsfmt) :
    (Random.norm01 b s).Clean := by
  obtain ⟨U, -, H⟩ := Random.norm01_spec h
  obtain ⟨-, h1, h2, h3⟩ := H b
  by_cases c1 : ∃ x m, NormOut U x m
  · obtain ⟨x, m, hx⟩ := c1
    obtain ⟨s', e, -⟩ := h1 x m hx
    rw [e]; trivial
  · by_cases c2 : NormNaN U
    · rw [h2 c2]; trivial
    · rw [h3 (fun x m hx => c1 ⟨x, m, hx⟩) c2]; trivial

theorem draws_norm01_clean {b : Build} (n : ℕ) {s : Random} (h : Admissible s.dsfmt) :
    (Spec.draws (Random.norm01 b) n s).Clean := by
  induction n generalizing s with
  | zero => trivial
  | succ n ih =>
    unfold Spec.draws
    refine (norm01_clean h).bind fun r hr => ?_
    exact (ih (Random.norm01_range h hr).1).bind fun q _ => trivial

theorem draws_mapState {σ τ : Type} {f : σ → τ} {d : σ → Res (ℝ × σ)} {d' : τ → Res (ℝ × τ)}
    (h : ∀ s, d' (f s) = (d s).mapState f) (n : ℕ) (s : σ) :
    Spec.draws d' n (f s) = (Spec.draws d n s).mapState f := by
  induction n generalizing s with
  | zero => rfl
  | succ n ih =>
    unfold Spec.draws
    rw [h]
    unfold Res.mapState at ih ⊢
    simp only [Res.bind_assoc, Res.bind_ok, ih]

theorem seededObject_ofGlobal (n : BitVec 64) : seededObject n
    = RandomGenerator.ofGlobal ⟨true, n, false, "", ⟨seedState (n.setWidth 32), 382⟩⟩ := rfl

theorem flatNormals_clean {b : Build} (n : ℕ) {s : Random} (h : Admissible s.dsfmt) :
    (flatNormals b n s).Clean := by
  obtain ⟨r, d, -, e⟩ := drawUint32_ok b h
  unfold flatNormals
  rw [e, Res.bind_ok, seededObject_ofGlobal,
    draws_mapState (fun s => RandomGenerator.norm01_ofGlobal b s)]
  unfold Res.mapState
  rw [Res.bind_assoc]
  exact (draws_norm01_clean n (Dsfmt.seed_admissible _)).bind fun q _ => trivial

/-- **C43.** In every state that a process using the module can be in, `advanced.simulate` with valid
arguments has no undefined behaviour (no array access out of range, no conversion out of range, no
signed overflow) and throws no exception. No operation but the normal sampler can yield a NaN or not
stop (C42). -/
theorem simulate_clean {S : Setup} (hF : S.F.Laws) {t : VType} {pw rx ry rz az dp sd : ℝ}
    {v : Variogram} (hv : Variogram.create t pw rx ry rz az dp sd = .ok v) {nx ny nz : ℕ}
    {dx dy dz sx sy sz : ℝ} {padx pady padz : ℤ}
    (h : CallOk S.p v nx dx ny dy nz dz padx pady padz sx sy sz) (e : Env) {s : Random}
    (hs : Reachable S s) :
    (advancedSimulate S e v nx dx ny dy nz dz padx pady padz sx sy sz s).Clean := by
  obtain ⟨history, replies, hr⟩ := hs
  have hwf := session_wf wf_initial hr
  obtain ⟨s1, e1, h1, h2⟩ := ensureSeeded_ok (b := S.b) (t := e.time) hwf
  obtain ⟨n, f, H⟩ := advancedSimulate_form hv h
  rw [advancedSimulate_eq, e1, Res.bind_ok, ← advancedSimulate_seeded h2, H hF S.b e s1 h2]
  split_ifs
  · exact (flatNormals_clean n (h1.adm h2)).bind fun q _ => trivial
  · exact (draws_norm01_clean n (h1.adm h2)).bind fun q _ => trivial

/-- The hypotheses are met: the example of the documentation, in one, two and three dimensions, in the
state in which a process starts. -/
example (F : Fftw) (b : Build) : ∃ v, Variogram.create .spherical 2 250 125 125 0 0 1.5 = .ok v ∧
    CallOk exactPlatform v 100 10 1 (-1) 1 (-1) (-1) (-1) (-1) 1 1 1 ∧
    CallOk exactPlatform v 100 10 100 10 1 (-1) (-1) (-1) (-1) 1 1 1 ∧
    CallOk exactPlatform v 100 10 100 10 20 5 (-1) (-1) (-1) 1 1 0.5 ∧
    Reachable ⟨F, exactPlatform, b⟩ .initial := by
  obtain ⟨v, hv, h1, h2, h3, h4⟩ := doc_dirOk
  refine ⟨v, hv, ⟨fun _ => h1, fun h => absurd (Or.inl le_rfl) h⟩,
    ⟨fun h => ?_, fun _ => ⟨h2, h3, fun h => absurd (Or.inl le_rfl) h⟩⟩,
    ⟨fun h => ?_, fun _ => ⟨h2, h3, fun _ => h4⟩⟩, ⟨[], [], rfl⟩⟩
  · norm_num at h
  · norm_num at h

/-! ### Outside the precondition -/

/-- **C43 refuted for a zero step.** -/
theorem simulate_zero_step_ub {S : Setup} (e : Env) (v : Variogram) (nx : ℕ) {s : Random}
    (hs : Reachable S s) :
    simulate S e v nx 0 1 (-1) 1 (-1) s = .ub "int conversion of inf or NaN" := by
  obtain ⟨history, replies, hr⟩ := hs
  obtain ⟨s1, e1, -, -⟩ := ensureSeeded_ok (b := S.b) (t := e.time) (session_wf wf_initial hr)
  unfold simulate
  rw [advancedSimulate_eq, e1, Res.bind_ok]
  unfold seededSimulate apiSimulate1D simulate1D findNDimPadding
  rw [if_pos (Or.inl le_rfl)]
  simp [padding_zero_step_ub]

/-- **C43 refuted for `None`.** -/
theorem simulateNone_ub {S : Setup} (e : Env) {s : Random} (hs : Reachable S s) :
    simulateNone S e s = .ub "null pointer dereferenced" := by
  obtain ⟨history, replies, hr⟩ := hs
  obtain ⟨s1, e1, -, -⟩ := ensureSeeded_ok (b := S.b) (t := e.time) (session_wf wf_initial hr)
  unfold simulateNone
  rw [e1, Res.bind_ok]

theorem forRange_ok_each {σ : Type} {lo hi : ℕ} {body : ℕ → σ → Res σ} {s s' : σ}
    (h : forRange lo hi body s = .ok s') (i : ℕ) (h1 : lo ≤ i) (h2 : i < hi) :
    ∃ s1 s2, body i s1 = .ok s2 := by
  obtain ⟨n, hn⟩ : ∃ n, n = hi - lo := ⟨_, rfl⟩
  induction n generalizing lo s with
  | zero => omega
  | succ n ih =>
    rw [forRange_succ (by omega)] at h
    obtain ⟨s1, e1, h⟩ := Res.bind_eq_ok.1 h
    by_cases hi0 : i = lo
    · subst hi0
      exact ⟨s, s1, e1⟩
    · exact ih h (by omega) (by omega)

/-- One-dimensional simulation copies as many values as requested from an array whose length is the
padded size: it can return only if that is not shorter. -/
theorem simulate1D_fits {σ γ : Type} {F : Fftw} {p : Platform} {newRg : γ → Res (σ × γ)}
    {norm : σ → Res (ℝ × σ)} {v : Variogram} {nx : ℕ} {dx : ℝ} {m : ℕ} {rg : Option σ} {px : ℤ}
    {sx : ℝ} {g : γ} {r : List ℝ × σ × γ}
    (h : simulate1D F p newRg norm v nx dx m rg px sx g = .ok r) :
    ∃ d q t, findNDimPadding v nx dx 1 (-1) 1 (-1) = .ok d ∧ desiredPadding px d 0 = .ok q ∧
      findNewSize p (wrap64 (nx + q)) false = .ok t ∧ m ≤ t := by
  unfold simulate1D at h
  simp only [Res.monad_bind_eq] at h
  obtain ⟨d, hd, h⟩ := Res.bind_eq_ok.1 h
  obtain ⟨q, hq, h⟩ := Res.bind_eq_ok.1 h
  obtain ⟨t, ht, h⟩ := Res.bind_eq_ok.1 h
  refine ⟨d, q, t, hd, hq, ht, ?_⟩
  obtain ⟨_, -, h⟩ := Res.bind_eq_ok.1 h
  obtain ⟨_, -, h⟩ := Res.bind_eq_ok.1 h
  obtain ⟨_, -, h⟩ := Res.bind_eq_ok.1 h
  obtain ⟨_, -, h⟩ := Res.bind_eq_ok.1 h
  obtain ⟨_, -, h⟩ := Res.bind_eq_ok.1 h
  obtain ⟨_, -, h⟩ := Res.bind_eq_ok.1 h
  obtain ⟨_, -, h⟩ := Res.bind_eq_ok.1 h
  obtain ⟨tmp, htmp, h⟩ := Res.bind_eq_ok.1 h
  obtain ⟨out, hout, h⟩ := Res.bind_eq_ok.1 h
  have hl : tmp.length = t := by
    unfold computeFFTInv1D at htmp
    split at htmp
    · simp only [Res.ok.injEq] at htmp
      rw [← htmp, List.length_replicate]
    · rw [Res.monad_bind_eq] at htmp
      obtain ⟨_, -, htmp⟩ := Res.bind_eq_ok.1 htmp
      refine forRange_keeps (fun l : List ℝ => l.length = t) List.length_replicate
        (fun i s s' _ _ hs h => ?_) htmp
      rw [Res.monad_bind_eq] at h
      obtain ⟨_, -, h⟩ := Res.bind_eq_ok.1 h
      rw [wr_length h, hs]
  by_contra hlt
  push Not at hlt
  obtain ⟨s1, s2, hb⟩ := forRange_ok_each hout t (Nat.zero_le _) hlt
  obtain ⟨x, hx, -⟩ := Res.bind_eq_ok.1 hb
  rw [rd_eq_ok, List.getElem?_eq_none (by omega)] at hx
  cases hx

/-- **C43 refuted for a negative step.** The "padding" is negative and the padded grid is shorter than
the grid: the call never returns a field, whatever the state of the generator (if the normal numbers
can be drawn it reads past the end of an array). -/
theorem simulate_negative_step_refuted :
    ∃ v, createVariogram "spherical".toList 250 (-1) (-1) 0 0 1.5 = .ok v ∧
      ∀ (S : Setup), SizeOk S.p 76 → ∀ (e : Env) (s s' : Random) (out : List ℝ),
        simulate S e v 100 (-10) 1 (-1) 1 (-1) s ≠ .ok (out, s') := by
  obtain ⟨v, hv, hrx, -⟩ := createVariogram_params (s := "spherical".toList)
    (by unfold IsAscii; decide +kernel) 250 (-1) (-1) 0 0 1.5 (by norm_num) (by norm_num)
    (by norm_num)
  refine ⟨v, hv, fun S hS e s s' out h => ?_⟩
  have ht : v.type = .spherical :=
    (createVariogram_names_partial (by unfold IsAscii; decide +kernel) hv).1 "spherical" .spherical
      (by simp [documentedNames]) (by unfold SameIgnoringCase; decide +kernel)
  obtain ⟨t, c1, -, c1'⟩ := padArg_neg (ratio_spherical ht)
  have c2 : toInt (rnd64 (250 / (-10))) = .ok (-25) := by
    rw [show (250 / (-10) : ℝ) = ((-25 : ℤ) : ℝ) by norm_num, rnd64_int (by norm_num)]
    exact toInt_int (by norm_num) (by norm_num)
  have m : max t (-25) = -25 := max_eq_right (by omega)
  unfold simulate at h
  rw [advancedSimulate_eq] at h
  obtain ⟨s1, -, h⟩ := Res.bind_eq_ok.1 h
  unfold seededSimulate at h
  rw [if_pos (Or.inl le_rfl)] at h
  unfold apiSimulate1D at h
  rw [Res.monad_bind_eq] at h
  obtain ⟨r, hr, -⟩ := Res.bind_eq_ok.1 h
  obtain ⟨d, q, tt, hd, hq, ht', hle⟩ := simulate1D_fits hr
  have n1 : ¬ (-10 : ℝ) = 0 := by norm_num
  unfold findNDimPadding findGaussianFieldPadding at hd
  simp only [le_refl, if_true, if_neg n1, hrx, c1, c2, m, Res.monad_bind_eq, Res.bind_ok] at hd
  norm_num [wrap64] at hd
  subst hd
  unfold desiredPadding at hq
  rw [if_pos (by norm_num), rd_eq_ok] at hq
  simp only [List.getElem?_cons_zero, Option.some.injEq] at hq
  have hw : wrap64 ((100 : ℕ) + (q : ℤ)) = 76 := by
    rw [← hq]; rfl
  rw [hw] at ht'
  obtain ⟨t', e', hmin⟩ := findNewSize_least_partial S.p 76 false hS (by simp)
  rw [e', Res.ok.injEq] at ht'
  have : t' ≤ 80 := hmin.2 ⟨by norm_num, by
    have := smooth7_of_exps 4 0 1 0
    norm_num at this
    exact this, by simp⟩
  omega

/-- The hypothesis is met: padded size 76 is no problem. -/
example : SizeOk exactPlatform 76 := sizeOk_exact (by norm_num) (by norm_num)

/-- **C71, at the interface.** A one-dimensional field of 2^24 + 1 cells without padding: the transform size
becomes 2^24, less than the number of cells, and the call never returns a field, whatever the variogram and
the state of the generator (if the normal numbers can be drawn it reads past the end of an array). -/
theorem simulate_large_refuted (S : Setup) (v : ℕ) (log : ℝ → ℝ) (hp : S.p = ⟨some v, log⟩)
    (hlog : log = Real.log ∨ log = fun x => rnd64 (Real.log x)) (e : Env) (vg : Variogram) (dx dy dz : ℝ)
    (nz : ℕ) (sx sy sz : ℝ) (s s' : Random) (out : List ℝ) :
    advancedSimulate S e vg (2 ^ 24 + 1) dx 1 dy nz dz 0 0 0 sx sy sz s ≠ .ok (out, s') := by
  intro h
  rw [advancedSimulate_eq] at h
  obtain ⟨s1, -, h⟩ := Res.bind_eq_ok.1 h
  unfold seededSimulate at h
  rw [if_pos (Or.inl le_rfl)] at h
  unfold apiSimulate1D at h
  rw [Res.monad_bind_eq] at h
  obtain ⟨r, hr, -⟩ := Res.bind_eq_ok.1 h
  obtain ⟨d, q, t, -, hq, ht, hle⟩ := simulate1D_fits hr
  unfold desiredPadding at hq
  rw [if_neg (by norm_num), Res.ok.injEq] at hq
  subst hq
  rw [hp, show wrap64 (((2 ^ 24 + 1 : ℕ) : ℤ) + ((0 : ℤ).toNat : ℤ)) = 2 ^ 24 + 1 by rfl,
    findNewSize_double_refuted v false log hlog, Res.ok.injEq] at ht
  omega

/-- With one cell fewer the size is no problem. -/
example : SizeOk ⟨some 0, fun x => rnd64 (Real.log x)⟩ (2 ^ 24) :=
  sizeOk_double (logAcc_rnd64 _) ⟨0, rfl, Or.inl rfl⟩ (by norm_num) le_rfl

end Verif
