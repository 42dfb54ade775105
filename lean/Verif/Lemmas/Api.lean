import Verif.Lemmas.Sim
import Verif.Lemmas.Normal
import Verif.Lemmas.DsfmtSeed
import Verif.Props.Random

/-! Helper lemmas: the state of the Python module. -/

namespace Verif

open Spec
open Spec.Mt (Admissible seedState)
open Dsfmt (Build)

/-! ### Changing other members of the global state -/

/-- A change of the members of `Random` that leaves the generator proper alone. -/
structure Overlay (f : Random → Random) : Prop where
  dsfmt : ∀ s, (f s).dsfmt = s.dsfmt
  upd : ∀ s d, f { s with dsfmt := d } = { f s with dsfmt := d }

namespace Overlay

variable {f : Random → Random} (hf : Overlay f) (b : Build) (s : Random)
include hf

theorem unif01 : Random.unif01 b (f s) = (Random.unif01 b s).mapState f := by
  unfold Random.unif01 Res.mapState
  simp only [Res.monad_bind_eq, Res.bind_assoc, Res.bind_ok, hf.dsfmt]
  congr 1
  funext r
  rw [← hf.upd s r.2]

theorem drawUint32 : Random.drawUint32 b (f s) = (Random.drawUint32 b s).mapState f := by
  unfold Random.drawUint32 Res.mapState
  simp only [Res.monad_bind_eq, Res.bind_assoc, Res.bind_ok, hf.dsfmt]
  congr 1
  funext r
  rw [← hf.upd s r.2]

theorem wedgeRound : Random.wedgeRound (Random.unif01 b) (f s) = (Random.wedgeRound (Random.unif01 b) s).mapState f := by
  unfold Random.wedgeRound
  simp only [Res.monad_bind_eq, Res.mapState, Res.bind_assoc, Res.bind_ok, hf.unif01]

theorem discRound : Random.discRound (Random.unif01 b) (f s) = (Random.discRound (Random.unif01 b) s).mapState f := by
  unfold Random.discRound
  simp only [Res.monad_bind_eq, Res.mapState, Res.bind_assoc, Res.bind_ok, hf.unif01]

theorem tailRound : Random.tailRound (Random.unif01 b) (f s) = (Random.tailRound (Random.unif01 b) s).mapState f := by
  unfold Random.tailRound
  rw [untilLoop_map f (hf.discRound b)]
  simp only [Res.monad_bind_eq, Res.mapState, Res.bind_assoc, Res.bind_ok]
  congr 1
  funext r
  split
  · rfl
  · rfl

theorem norm01 : Random.norm01 b (f s) = (Random.norm01 b s).mapState f := by
  unfold Random.norm01 Random.norm01With
  simp only [Res.monad_bind_eq, hf.unif01, Res.mapState, Res.bind_assoc, Res.bind_ok]
  congr 1
  funext r
  split_ifs
  · simp only [Res.bind_assoc, Res.bind_ok]
  · simp only [Res.bind_assoc, Res.bind_ok]
  · rw [untilLoop_map f (hf.wedgeRound b)]; rfl
  · rw [untilLoop_map f (hf.tailRound b)]; rfl

theorem newRandomGenerator (raw : Dsfmt) :
    Verif.newRandomGenerator b raw (f s) = (Verif.newRandomGenerator b raw s).mapState f := by
  unfold Verif.newRandomGenerator
  simp only [Res.monad_bind_eq, hf.drawUint32, Res.mapState, Res.bind_assoc, Res.bind_ok]

omit hf in
theorem sim_mapState {α : Type} {f : Random → Random} (x : Res (α × Random)) :
    Sim false (fun r r' => r.1 = r'.1 ∧ r'.2 = f r.2) x (x.mapState f) := by
  cases x
  · exact .ok ⟨rfl, rfl⟩
  · exact .throws _
  · exact .ub _
  · exact .nonfinite _
  · exact .diverges

omit hf in
theorem mapState_of_sim {α : Type} {f : Random → Random} {x y : Res (α × Random)}
    (h : Sim false (fun r r' => r.1 = r'.1 ∧ r'.2 = f r.2) x y) : y = x.mapState f := by
  refine Sim.eq_map (h.mono fun a b hab => ?_)
  exact Prod.ext hab.1.symm hab.2

end Overlay

/-! ### Simulation with a seeded generator -/

/-- `SimulateWithAdvancedSettings` after the generator is known to be seeded. -/
noncomputable def seededSimulate (S : Setup) (e : Env) (v : Variogram) (nx : ℕ) (dx : ℝ) (ny : ℕ)
    (dy : ℝ) (nz : ℕ) (dz : ℝ) (padx pady padz : ℤ) (sx sy sz : ℝ) (s : Random) :
    Res (List ℝ × Random) :=
  if ny ≤ 1 ∨ dy < 0.0 then apiSimulate1D S e v nx dx padx sx s
  else if nz ≤ 1 ∨ dz < 0.0 then apiSimulate2D S e v nx dx ny dy padx pady sx sy s
  else apiSimulate3D S v nx dx ny dy nz dz padx pady padz sx sy sz s

theorem advancedSimulate_eq (S : Setup) (e : Env) (v : Variogram) (nx : ℕ) (dx : ℝ) (ny : ℕ)
    (dy : ℝ) (nz : ℕ) (dz : ℝ) (padx pady padz : ℤ) (sx sy sz : ℝ) (s : Random) :
    advancedSimulate S e v nx dx ny dy nz dz padx pady padz sx sy sz s
      = (ensureSeeded S.b e.time s).bind fun s =>
        seededSimulate S e v nx dx ny dy nz dz padx pady padz sx sy sz s := rfl

theorem ensureSeeded_seeded {b : Build} {t : BitVec 64} {s : Random} (h : s.isInitialized = true) :
    ensureSeeded b t s = .ok s := by
  unfold ensureSeeded Random.getStartSeed
  simp [h]

theorem ensureSeeded_unseeded {b : Build} {t : BitVec 64} {s : Random}
    (h : s.isInitialized = false) : ensureSeeded b t s = s.initializeTime b t := by
  unfold ensureSeeded Random.getStartSeed
  simp [h]

theorem newRandomGenerator_raw (b : Build) {raw raw' : Dsfmt} (h : raw.status.length = 192)
    (h' : raw'.status.length = 192) :
    newRandomGenerator b raw = newRandomGenerator b raw' := by
  funext s
  unfold newRandomGenerator
  simp only [Res.monad_bind_eq]
  congr 1
  funext r
  rw [object_seeded_later r.1 h h', object_seeded_later r.1 h' h']

theorem seededSimulate_env (S : Setup) (e e' : Env) (v : Variogram) (nx : ℕ) (dx : ℝ) (ny : ℕ)
    (dy : ℝ) (nz : ℕ) (dz : ℝ) (padx pady padz : ℤ) (sx sy sz : ℝ) (s : Random) :
    seededSimulate S e v nx dx ny dy nz dz padx pady padz sx sy sz s
      = seededSimulate S e' v nx dx ny dy nz dz padx pady padz sx sy sz s := by
  unfold seededSimulate apiSimulate1D apiSimulate2D
  rw [newRandomGenerator_raw S.b e.hraw e'.hraw]

section
variable (S : Setup) (e : Env) (v : Variogram) (nx : ℕ) (dx : ℝ) (ny : ℕ)
    (dy : ℝ) (nz : ℕ) (dz : ℝ) (padx pady padz : ℤ) (sx sy sz : ℝ)

theorem seededSimulate_overlay {f : Random → Random} (hf : Overlay f) (s : Random) :
    seededSimulate S e v nx dx ny dy nz dz padx pady padz sx sy sz (f s)
      = (seededSimulate S e v nx dx ny dy nz dz padx pady padz sx sy sz s).mapState f := by
  have hnew : ∀ g g' : Random, g' = f g →
      Sim false (fun r r' => r.1 = r'.1 ∧ r'.2 = f r.2)
        (newRandomGenerator S.b e.raw g) (newRandomGenerator S.b e.raw g') := by
    rintro g g' rfl
    rw [hf.newRandomGenerator]
    exact Overlay.sim_mapState _
  have hobj : ∀ r r' : RandomGenerator, r = r' → Sim false (fun r r' => r.1 = r'.1 ∧ r.2 = r'.2)
      (RandomGenerator.norm01 S.b r) (RandomGenerator.norm01 S.b r') := by
    rintro r r' rfl
    exact Sim.refl (fun _ => ⟨rfl, rfl⟩) _
  have hglob : ∀ g g' : Random, g' = f g →
      Sim false (fun r r' => r.1 = r'.1 ∧ r'.2 = f r.2)
        (Random.norm01 S.b g) (Random.norm01 S.b g') := by
    rintro g g' rfl
    rw [hf.norm01]
    exact Overlay.sim_mapState _
  unfold seededSimulate
  split_ifs
  · refine Overlay.mapState_of_sim ?_
    unfold apiSimulate1D
    simp only [Res.monad_bind_eq]
    refine (simulate1D_sim (Rσ := Eq) (Rγ := fun g g' => g' = f g) hobj hnew S.F S.p v nx dx nx padx
      sx rfl).bind fun r r' hr => .ok ⟨hr.1, hr.2.2⟩
  · refine Overlay.mapState_of_sim ?_
    unfold apiSimulate2D
    simp only [Res.monad_bind_eq]
    refine (simulate2D_sim (Rσ := Eq) (Rγ := fun g g' => g' = f g) hobj hnew S.F S.p v nx dx ny dy 1
      [] padx pady sx sy rfl).bind fun r r' hr => ?_
    rw [hr.1]
    exact Sim.bind_same _ fun _ => .ok ⟨rfl, hr.2.2⟩
  · refine Overlay.mapState_of_sim ?_
    unfold apiSimulate3D
    simp only [Res.monad_bind_eq]
    refine (simulate3D_sim (Rσ := fun g g' => g' = f g) hglob S.F S.p v nx dx ny dy nz dz 1
      [] padx pady padz sx sy sz rfl).bind fun r r' hr => ?_
    rw [hr.1]
    exact Sim.bind_same _ fun _ => .ok ⟨rfl, hr.2⟩

/-- A one- or two-dimensional simulation advances the global stream by one integer draw. -/
theorem seededSimulate_flat (hflat : ny ≤ 1 ∨ dy < 0 ∨ nz ≤ 1 ∨ dz < 0) {s s' : Random}
    {out : List ℝ}
    (h : seededSimulate S e v nx dx ny dy nz dz padx pady padz sx sy sz s = .ok (out, s')) :
    ∃ n, s.drawUint32 S.b = .ok (n, s') := by
  have hnew : ∀ r, newRandomGenerator S.b e.raw s = .ok r →
      ∃ n, s.drawUint32 S.b = .ok (n, r.2) := by
    intro r hr
    unfold newRandomGenerator at hr
    simp only [Res.monad_bind_eq] at hr
    obtain ⟨⟨n, s1⟩, e1, h1⟩ := Res.bind_eq_ok.1 hr
    obtain ⟨rg, _, h2⟩ := Res.bind_eq_ok.1 h1
    simp only [Res.ok.injEq] at h2
    rw [← h2]
    exact ⟨n, e1⟩
  have z : (0.0 : ℝ) = 0 := by norm_num
  unfold seededSimulate at h
  rw [z] at h
  split_ifs at h with h1 h2
  · unfold apiSimulate1D simulate1D rgOrNew at h
    simp only [Res.monad_bind_eq] at h
    obtain ⟨a, ha, h⟩ := Res.bind_eq_ok.1 h
    simp only [Res.ok.injEq, Prod.mk.injEq] at h
    obtain ⟨_, _, ha⟩ := Res.bind_eq_ok.1 ha
    obtain ⟨_, _, ha⟩ := Res.bind_eq_ok.1 ha
    obtain ⟨_, _, ha⟩ := Res.bind_eq_ok.1 ha
    obtain ⟨_, _, ha⟩ := Res.bind_eq_ok.1 ha
    obtain ⟨r, hr, ha⟩ := Res.bind_eq_ok.1 ha
    obtain ⟨_, _, ha⟩ := Res.bind_eq_ok.1 ha
    obtain ⟨_, _, ha⟩ := Res.bind_eq_ok.1 ha
    obtain ⟨_, _, ha⟩ := Res.bind_eq_ok.1 ha
    obtain ⟨_, _, ha⟩ := Res.bind_eq_ok.1 ha
    obtain ⟨_, _, ha⟩ := Res.bind_eq_ok.1 ha
    obtain ⟨_, _, ha⟩ := Res.bind_eq_ok.1 ha
    obtain ⟨_, _, ha⟩ := Res.bind_eq_ok.1 ha
    simp only [Res.ok.injEq] at ha
    obtain ⟨n, hn⟩ := hnew r hr
    refine ⟨n, ?_⟩
    rw [hn, ← h.2, ← ha]
  · unfold apiSimulate2D simulate2D rgOrNew at h
    simp only [Res.monad_bind_eq] at h
    obtain ⟨a, ha, h⟩ := Res.bind_eq_ok.1 h
    obtain ⟨_, _, h⟩ := Res.bind_eq_ok.1 h
    simp only [Res.ok.injEq, Prod.mk.injEq] at h
    obtain ⟨_, _, ha⟩ := Res.bind_eq_ok.1 ha
    obtain ⟨_, _, ha⟩ := Res.bind_eq_ok.1 ha
    obtain ⟨_, _, ha⟩ := Res.bind_eq_ok.1 ha
    obtain ⟨_, _, ha⟩ := Res.bind_eq_ok.1 ha
    obtain ⟨_, _, ha⟩ := Res.bind_eq_ok.1 ha
    obtain ⟨r, hr, ha⟩ := Res.bind_eq_ok.1 ha
    obtain ⟨_, _, ha⟩ := Res.bind_eq_ok.1 ha
    simp only [Res.ok.injEq] at ha
    obtain ⟨n, hn⟩ := hnew r hr
    refine ⟨n, ?_⟩
    rw [hn, ← h.2, ← ha]
  · exfalso
    tauto

theorem norm01_admissible {b : Build} {s : Random} (h : Admissible s.dsfmt) :
    Sim false (fun r r' => r.1 = r'.1 ∧ r.2 = r'.2 ∧ Admissible r.2.dsfmt)
      (Random.norm01 b s) (Random.norm01 b s) := by
  cases hn : Random.norm01 b s with
  | ok r => exact .ok ⟨rfl, rfl, (Random.norm01_range h hn).1⟩
  | throws m => exact .throws m
  | ub w => exact .ub w
  | nonfinite w => exact .nonfinite w
  | diverges => exact .diverges

theorem drawUint32_admissible {b : Build} {s s' : Random} {n : BitVec 64} (h : Admissible s.dsfmt)
    (hd : s.drawUint32 b = .ok (n, s')) : Admissible s'.dsfmt := by
  obtain ⟨X, L, hX, _, hp, h12⟩ := Dsfmt.admissible_pos h
  obtain ⟨⟨w, d⟩, e, hw, hpos, _⟩ := Dsfmt.nextWord_pos hX b hp
  unfold Random.drawUint32 Dsfmt.genrandUint32 at hd
  simp only [Res.monad_bind_eq, e, Res.bind_ok, Res.ok.injEq, Prod.mk.injEq] at hd
  rw [← hd.2]
  exact Dsfmt.pos_admissible hpos h12

theorem seededSimulate_admissible {s s' : Random} {out : List ℝ} (hs : Admissible s.dsfmt)
    (h : seededSimulate S e v nx dx ny dy nz dz padx pady padz sx sy sz s = .ok (out, s')) :
    Admissible s'.dsfmt := by
  by_cases hflat : ny ≤ 1 ∨ dy < 0 ∨ nz ≤ 1 ∨ dz < 0
  · obtain ⟨n, hn⟩ := seededSimulate_flat S e v nx dx ny dy nz dz padx pady padz sx sy sz hflat h
    exact drawUint32_admissible hs hn
  · have z : (0.0 : ℝ) = 0 := by norm_num
    push Not at hflat
    unfold seededSimulate at h
    rw [z, if_neg (by push Not; exact ⟨hflat.1, hflat.2.1⟩),
      if_neg (by push Not; exact hflat.2.2)] at h
    unfold apiSimulate3D at h
    rw [Res.monad_bind_eq] at h
    obtain ⟨r, hr, h⟩ := Res.bind_eq_ok.1 h
    have := simulate3D_sim (bad := false) (Rσ := fun g g' : Random => g = g' ∧ Admissible g.dsfmt)
      (norm := Random.norm01 S.b) (norm' := Random.norm01 S.b)
      (fun g g' hg => by obtain ⟨rfl, hg⟩ := hg; exact norm01_admissible hg) S.F S.p v nx dx ny dy nz dz 1
      [] padx pady padz sx sy sz (s := s) (s' := s) ⟨rfl, hs⟩
    rw [hr] at this
    cases this with
    | ok hab =>
      obtain ⟨g, _, h⟩ := Res.bind_eq_ok.1 h
      simp only [Res.ok.injEq, Prod.mk.injEq] at h
      rw [← h.2]
      exact hab.2.2

end

/-! ### Seeding -/

theorem initializeSeed_eq (n : BitVec 64) {s : Random} (hs : s.dsfmt.status.length = 192) :
    s.initializeSeed n = .ok { s with
      startSeed := n, isInitialized := true, dsfmt := ⟨seedState (n.setWidth 32), 382⟩ } := by
  unfold Random.initializeSeed Random.initializeMT
  simp only [Res.monad_bind_eq]
  rw [Dsfmt.initGenRand_eq _ hs]; rfl

theorem initializeMT_eq (n : BitVec 64) {s : Random} (hs : s.dsfmt.status.length = 192) :
    s.initializeMT n = .ok { s with dsfmt := ⟨seedState (n.setWidth 32), 382⟩ } := by
  unfold Random.initializeMT
  rw [Res.monad_bind_eq, Dsfmt.initGenRand_eq _ hs]; rfl

theorem drawUint32_ok (b : Build) {s : Random} (h : Admissible s.dsfmt) :
    ∃ (r : BitVec 32) (d : Dsfmt), Admissible d ∧
      s.drawUint32 b = .ok (r.setWidth 64, { s with dsfmt := d }) := by
  obtain ⟨X, L, hX, _, hp, h12⟩ := Dsfmt.admissible_pos h
  obtain ⟨⟨w, d⟩, e, _, hpos, _⟩ := Dsfmt.nextWord_pos hX b hp
  refine ⟨(w &&& 0xffffffff#64).setWidth 32, d, Dsfmt.pos_admissible hpos h12, ?_⟩
  unfold Random.drawUint32 Dsfmt.genrandUint32
  simp only [Res.monad_bind_eq, e, Res.bind_ok]

theorem initializeTime_eq (b : Build) (t : BitVec 64) {s : Random}
    (hs : s.dsfmt.status.length = 192) : ∃ r : BitVec 32, s.initializeTime b t = .ok { s with
      startSeed := r.setWidth 64, isInitialized := true, dsfmt := ⟨seedState r, 382⟩ } := by
  obtain ⟨r, d, hd, e⟩ := drawUint32_ok b
    (s := { s with dsfmt := ⟨seedState (t.setWidth 32), 382⟩ }) (Dsfmt.seed_admissible _)
  refine ⟨r, ?_⟩
  unfold Random.initializeTime
  rw [Res.monad_bind_eq, initializeMT_eq _ hs, Res.bind_ok, Res.monad_bind_eq, e, Res.bind_ok]
  simp only
  rw [initializeMT_eq _ (by exact hd.len)]
  have : (BitVec.setWidth 64 r).setWidth 32 = r := by
    rw [BitVec.setWidth_setWidth_of_le _ (by norm_num), BitVec.setWidth_eq]
  simp only [this]

/-! ### The state of the module -/

/-- What is true of the global state at all times. -/
structure WF (s : Random) : Prop where
  len : s.dsfmt.status.length = 192
  adm : s.isInitialized = true → Admissible s.dsfmt

theorem wf_initial : WF .initial := ⟨List.length_replicate, fun h => absurd h (by decide)⟩

/-- Only the seed file differs. -/
def strip (s : Random) : Random := { s with useSeedFile := false, seedFile := "" }

theorem strip_overlay : Overlay strip := ⟨fun _ => rfl, fun _ _ => rfl⟩

/-- A fixed seed is entered. -/
def mark (n : BitVec 64) (s : Random) : Random := { s with isInitialized := true, startSeed := n }

theorem mark_overlay (n : BitVec 64) : Overlay (mark n) := ⟨fun _ => rfl, fun _ _ => rfl⟩

theorem mark_self {s : Random} (h : s.isInitialized = true) : mark s.startSeed s = s := by
  unfold mark; rw [← h]

theorem mark_mapState {α : Type} {x : Res (α × Random)} {n : BitVec 64} {r : α × Random}
    (h : x.mapState (mark n) = .ok r) : r.2.isInitialized = true ∧ r.2.startSeed = n := by
  unfold Res.mapState at h
  obtain ⟨q, _, h⟩ := Res.bind_eq_ok.1 h
  simp only [Res.ok.injEq] at h
  rw [← h]
  exact ⟨rfl, rfl⟩

/-- Calls other than `seed(n)` do not change the seed. -/
theorem seededSimulate_seed {S : Setup} {e : Env} {v : Variogram} {nx : ℕ} {dx : ℝ} {ny : ℕ}
    {dy : ℝ} {nz : ℕ} {dz : ℝ} {padx pady padz : ℤ} {sx sy sz : ℝ} {s s' : Random} {out : List ℝ}
    (hs : s.isInitialized = true)
    (h : seededSimulate S e v nx dx ny dy nz dz padx pady padz sx sy sz s = .ok (out, s')) :
    s'.isInitialized = true ∧ s'.startSeed = s.startSeed := by
  have := seededSimulate_overlay S e v nx dx ny dy nz dz padx pady padz sx sy sz
    (mark_overlay s.startSeed) s
  rw [mark_self hs] at this
  rw [this] at h
  exact mark_mapState h

theorem wf_seeded (n : BitVec 32) (s : Random) (k : BitVec 64) :
    WF { s with startSeed := k, isInitialized := true, dsfmt := ⟨seedState n, 382⟩ } :=
  ⟨(Dsfmt.seed_admissible n).len, fun _ => Dsfmt.seed_admissible n⟩

theorem ensureSeeded_ok {b : Build} {t : BitVec 64} {s : Random} (h : WF s) :
    ∃ s1, ensureSeeded b t s = .ok s1 ∧ WF s1 ∧ s1.isInitialized = true := by
  cases hi : s.isInitialized with
  | true => exact ⟨s, ensureSeeded_seeded hi, h, hi⟩
  | false =>
    obtain ⟨r, e⟩ := initializeTime_eq b t h.len
    exact ⟨_, (ensureSeeded_unseeded hi).trans e, wf_seeded r s _, rfl⟩

theorem advancedSimulate_wf {S : Setup} {e : Env} {v : Variogram} {nx : ℕ} {dx : ℝ} {ny : ℕ}
    {dy : ℝ} {nz : ℕ} {dz : ℝ} {padx pady padz : ℤ} {sx sy sz : ℝ} {s s' : Random} {out : List ℝ}
    (hs : WF s)
    (h : advancedSimulate S e v nx dx ny dy nz dz padx pady padz sx sy sz s = .ok (out, s')) :
    WF s' ∧ s'.isInitialized = true := by
  obtain ⟨s1, e1, h1, h2⟩ := ensureSeeded_ok (b := S.b) (t := e.time) hs
  rw [advancedSimulate_eq, e1, Res.bind_ok] at h
  have h3 := seededSimulate_admissible S e v nx dx ny dy nz dz padx pady padz sx sy sz (h1.adm h2) h
  exact ⟨⟨h3.len, fun _ => h3⟩, (seededSimulate_seed h2 h).1⟩

/-- A call that throws or returns without touching the state. -/
theorem pyRaise_state {s s' : Random} {r : PyReply} {α : Type} {x : Res α} {f : α → PyReply}
    (h : pyRaise s (x.bind fun a => .ok (f a, s)) = .ok (r, s')) : s' = s := by
  cases x with
  | ok a =>
    simp only [Res.bind_ok, pyRaise, Res.ok.injEq, Prod.mk.injEq] at h
    exact h.2.symm
  | throws m =>
    simp only [Res.bind_throws, pyRaise, Res.ok.injEq, Prod.mk.injEq] at h
    exact h.2.symm
  | ub w => simp [pyRaise] at h
  | nonfinite w => simp [pyRaise] at h
  | diverges => simp [pyRaise] at h

theorem pyCall_wf {S : Setup} {s s' : Random} {c : Env × PyCall} {r : PyReply} (hs : WF s)
    (h : pyCall S s c = .ok (r, s')) : WF s' := by
  obtain ⟨e, c⟩ := c
  unfold pyCall at h
  cases c with
  | seed n =>
    simp only [initializeSeed_eq n hs.len, Res.bind_ok, Res.ok.injEq, Prod.mk.injEq] at h
    rw [← h.2]
    exact wf_seeded _ s n
  | getSeed => rw [pyRaise_state h]; exact hs
  | simulate =>
    obtain ⟨⟨out, s1⟩, h1, h2⟩ := Res.bind_eq_ok.1 h
    simp only [Res.ok.injEq, Prod.mk.injEq] at h2
    rw [← h2.2]
    exact (advancedSimulate_wf hs h1).1
  | advancedSimulate =>
    obtain ⟨⟨out, s1⟩, h1, h2⟩ := Res.bind_eq_ok.1 h
    simp only [Res.ok.injEq, Prod.mk.injEq] at h2
    rw [← h2.2]
    exact (advancedSimulate_wf hs h1).1
  | simulationSize => rw [pyRaise_state h]; exact hs
  | variogram => rw [pyRaise_state h]; exact hs
  | corr1 | corr2 | corr3 | quote =>
    simp only [Res.ok.injEq, Prod.mk.injEq] at h
    rw [← h.2]; exact hs

theorem session_wf {S : Setup} {cs : List (Env × PyCall)} {s s' : Random} {rs : List PyReply}
    (hs : WF s) (h : session (pyCall S) cs s = .ok (rs, s')) : WF s' := by
  induction cs generalizing s s' rs with
  | nil =>
    simp only [session, Res.ok.injEq, Prod.mk.injEq] at h
    rw [← h.2]; exact hs
  | cons c cs ih =>
    obtain ⟨⟨r, s1⟩, h1, h2⟩ := Res.bind_eq_ok.1 h
    obtain ⟨⟨rs', s2⟩, h3, h4⟩ := Res.bind_eq_ok.1 h2
    simp only [Res.ok.injEq, Prod.mk.injEq] at h4
    rw [← h4.2]
    exact ih (s := s1) (pyCall_wf hs h1) h3

end Verif
