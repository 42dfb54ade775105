import Verif.Props.ApiSafe

/-! The two-dimensional simulation function that fills a grid of the caller (C45). -/

namespace Verif

open Spec Variogram
open Spec.Mt (Admissible seedState DsfmtSeq Pos word)
open Dsfmt (Build)

/-- The global state after two-dimensional simulation. -/
theorem simulate2D_global {σ γ : Type} {F : Fftw} {p : Platform} {newRg : γ → Res (σ × γ)}
    {norm : σ → Res (ℝ × σ)} {v : Variogram} {nx : ℕ} {dx : ℝ} {ny : ℕ} {dy : ℝ} {K : ℤ}
    {l : List (Grid2D ℝ)} {rg : Option σ} {px py : ℤ} {sx sy : ℝ} {g : γ}
    {r : List (Grid2D ℝ) × σ × γ}
    (h : simulate2D F p newRg norm v nx dx ny dy K l rg px py sx sy g = .ok r) :
    ∃ s, rgOrNew newRg rg g = .ok (s, r.2.2) := by
  unfold simulate2D at h
  simp only [Res.monad_bind_eq] at h
  obtain ⟨_, _, h⟩ := Res.bind_eq_ok.1 h
  obtain ⟨_, _, h⟩ := Res.bind_eq_ok.1 h
  obtain ⟨_, _, h⟩ := Res.bind_eq_ok.1 h
  obtain ⟨_, _, h⟩ := Res.bind_eq_ok.1 h
  obtain ⟨_, _, h⟩ := Res.bind_eq_ok.1 h
  obtain ⟨q, hq, h⟩ := Res.bind_eq_ok.1 h
  obtain ⟨_, _, h⟩ := Res.bind_eq_ok.1 h
  simp only [Res.ok.injEq] at h
  exact ⟨q.1, by rw [hq, ← h]⟩

/-- With an object given, the global state is only passed through. -/
theorem simulate2D_passes {σ γ γ' : Type} (F : Fftw) (p : Platform) (newRg : γ → Res (σ × γ))
    (newRg' : γ' → Res (σ × γ'))
    (norm : σ → Res (ℝ × σ)) (v : Variogram) (nx : ℕ) (dx : ℝ) (ny : ℕ) (dy : ℝ) (K : ℤ)
    (l : List (Grid2D ℝ)) (rg : σ) (px py : ℤ) (sx sy : ℝ) (g : γ) (g' : γ') :
    simulate2D F p newRg norm v nx dx ny dy K l (some rg) px py sx sy g
      = (simulate2D F p newRg' norm v nx dx ny dy K l (some rg) px py sx sy g').bind fun r =>
          .ok (r.1, r.2.1, g) := by
  unfold simulate2D rgOrNew
  simp only [Res.monad_bind_eq, Res.bind_assoc, Res.bind_ok]

theorem createSeeded_eq (n : BitVec 64) (e : Env) :
    RandomGenerator.createSeeded n e.raw = .ok (seededObject n) := by
  unfold RandomGenerator.createSeeded RandomGenerator.initializeMT
  simp only [Res.monad_bind_eq, Dsfmt.initGenRand_eq _ e.hraw, Res.bind_ok]
  rfl

theorem simulate2DGrid_seeded {S : Setup} {e : Env} {v : Variogram} {nx : ℕ} {dx : ℝ} {ny : ℕ}
    {dy : ℝ} {s : Random} (h : s.isInitialized = true) :
    simulate2DGrid S e v nx dx ny dy s
      = (simulate2D S.F S.p (newRandomGenerator S.b e.raw) (RandomGenerator.norm01 S.b) v nx dx ny dy
          1 [] (some (seededObject s.startSeed)) (-1) (-1) 1.0 1.0 s).bind fun r =>
            (rd r.1 0).bind fun g => .ok (g, r.2.2) := by
  unfold simulate2DGrid Random.getStartSeed
  simp only [h, Bool.not_true, Bool.false_eq_true, if_false, createSeeded_eq, Res.monad_bind_eq,
    Res.bind_ok]

theorem simulate2DGrid_unseeded {S : Setup} {e : Env} {v : Variogram} {nx : ℕ} {dx : ℝ} {ny : ℕ}
    {dy : ℝ} {s : Random} (h : s.isInitialized = false) :
    simulate2DGrid S e v nx dx ny dy s
      = (simulate2D S.F S.p (newRandomGenerator S.b e.raw) (RandomGenerator.norm01 S.b) v nx dx ny dy
          1 [] none (-1) (-1) 1.0 1.0 s).bind fun r =>
            (rd r.1 0).bind fun g => .ok (g, r.2.2) := by
  unfold simulate2DGrid Random.getStartSeed
  simp only [h, Bool.not_false, if_true, Res.monad_bind_eq, Res.bind_ok]

/-- **C45.** With a seed in force the field depends on the seed only, not on how many numbers were drawn
since, and no number of the global stream is used. -/
theorem simulate2DGrid_repeats {S : Setup} {e e' : Env} {v : Variogram} {nx : ℕ} {dx : ℝ} {ny : ℕ}
    {dy : ℝ} {s s' t : Random} {g : Grid2D ℝ} (hs : s.isInitialized = true)
    (ht : t.isInitialized = true) (hst : t.startSeed = s.startSeed)
    (h : simulate2DGrid S e v nx dx ny dy s = .ok (g, s')) :
    s' = s ∧ simulate2DGrid S e' v nx dx ny dy t = .ok (g, t) := by
  rw [simulate2DGrid_seeded hs] at h
  obtain ⟨r, hr, h⟩ := Res.bind_eq_ok.1 h
  obtain ⟨q, hq, h⟩ := Res.bind_eq_ok.1 h
  simp only [Res.ok.injEq, Prod.mk.injEq] at h
  obtain ⟨o, ho⟩ := simulate2D_global hr
  simp only [rgOrNew, Res.ok.injEq, Prod.mk.injEq] at ho
  refine ⟨by rw [← h.2, ← ho.2], ?_⟩
  rw [simulate2DGrid_seeded ht, hst,
    simulate2D_passes _ _ _ (newRandomGenerator S.b e.raw) _ _ _ _ _ _ _ _ _ _ _ _ _ t s, hr]
  simp only [Res.bind_ok, hq, h.1]

/-- **C45.** In particular two calls in a row return the same field. -/
theorem simulate2DGrid_twice {S : Setup} {e e' : Env} {v : Variogram} {nx : ℕ} {dx : ℝ} {ny : ℕ}
    {dy : ℝ} {s s' : Random} {g : Grid2D ℝ} (hs : s.isInitialized = true)
    (h : simulate2DGrid S e v nx dx ny dy s = .ok (g, s')) :
    simulate2DGrid S e' v nx dx ny dy s' = .ok (g, s') := by
  obtain ⟨rfl, h2⟩ := simulate2DGrid_repeats (e' := e') hs hs rfl h
  exact h2

/-- **C45.** Without a seed one number of the global stream is used. -/
theorem simulate2DGrid_draws {S : Setup} {e : Env} {v : Variogram} {nx : ℕ} {dx : ℝ} {ny : ℕ}
    {dy : ℝ} {s s' : Random} {g : Grid2D ℝ} (hs : s.isInitialized = false)
    (h : simulate2DGrid S e v nx dx ny dy s = .ok (g, s')) :
    ∃ n, s.drawUint32 S.b = .ok (n, s') := by
  rw [simulate2DGrid_unseeded hs] at h
  obtain ⟨r, hr, h⟩ := Res.bind_eq_ok.1 h
  obtain ⟨q, hq, h⟩ := Res.bind_eq_ok.1 h
  simp only [Res.ok.injEq, Prod.mk.injEq] at h
  obtain ⟨o, ho⟩ := simulate2D_global hr
  simp only [rgOrNew, newRandomGenerator_eq] at ho
  obtain ⟨n, hn, ho⟩ := Res.bind_eq_ok.1 ho
  simp only [Res.ok.injEq, Prod.mk.injEq] at ho
  exact ⟨n.1, by rw [hn, ← h.2, ← ho.2]⟩

/-- A generator that was never seeded, after any number of draws. -/
def Blank (s : Random) : Prop :=
  s.isInitialized = false ∧ s.dsfmt.status = List.replicate 192 ⟨0, 0⟩ ∧ s.dsfmt.idx ≤ 382

theorem blank_initial : Blank .initial := ⟨rfl, rfl, Nat.zero_le _⟩

theorem zero_seq : DsfmtSeq (fun _ => ⟨0, 0⟩) (fun _ => ⟨0, 0⟩) := by
  constructor
  · intro i; rfl
  · intro i; rfl

theorem blank_draw (b : Build) {s : Random} (h : Blank s) :
    ∃ s', s.drawUint32 b = .ok (0, s') ∧ Blank s' := by
  obtain ⟨h1, h2, h3⟩ := h
  have hp : Pos (fun _ => ⟨0, 0⟩) (fun _ => ⟨0, 0⟩) s.dsfmt.idx s.dsfmt := by
    refine ⟨by rw [h2, List.length_replicate], 0, fun i hi => ?_, ?_, h3, by omega⟩
    · rw [h2, List.getElem?_replicate, if_pos (by omega)]
    · rw [h2, List.getElem?_replicate, if_pos (by omega)]
  obtain ⟨⟨w, d⟩, e, hw, hpos, _⟩ := Dsfmt.nextWord_pos zero_seq b hp
  have hw0 : w = 0 := by
    have hw' : w = _ := hw
    rw [hw']; unfold word; simp
  subst hw0
  refine ⟨{ s with dsfmt := d }, ?_, h1, ?_, ?_⟩
  · unfold Random.drawUint32 Dsfmt.genrandUint32
    simp only [Res.monad_bind_eq, e, Res.bind_ok]
    rfl
  · refine List.ext_getElem? fun i => ?_
    obtain ⟨hl, k, ha, hb, -⟩ := hpos
    by_cases hi : i < 191
    · rw [show ({ s with dsfmt := d } : Random).dsfmt.status[i]? = _ from ha i hi,
        List.getElem?_replicate, if_pos (by omega)]
    · by_cases hi' : i = 191
      · subst hi'
        rw [show ({ s with dsfmt := d } : Random).dsfmt.status[191]? = _ from hb,
          List.getElem?_replicate, if_pos (by omega)]
      · rw [List.getElem?_eq_none (by show d.status.length ≤ i; simp only at hl; omega),
          List.getElem?_eq_none (by rw [List.length_replicate]; omega)]
  · obtain ⟨hl, k, ha, hb, hc, -⟩ := hpos
    exact hc

/-- **C45, a finding.** A generator that was never seeded yields only zeros, so without a seed all calls
return one and the same field, in every process: that of the seed 0. -/
theorem simulate2DGrid_unseeded_zero {S : Setup} {e e' : Env} {v : Variogram} {nx : ℕ} {dx : ℝ}
    {ny : ℕ} {dy : ℝ} {s s' z : Random} {g : Grid2D ℝ} (hs : Blank s)
    (hz : z.isInitialized = true) (hz0 : z.startSeed = 0)
    (h : simulate2DGrid S e v nx dx ny dy s = .ok (g, s')) :
    Blank s' ∧ simulate2DGrid S e' v nx dx ny dy z = .ok (g, z) := by
  obtain ⟨s1, e1, hb⟩ := blank_draw S.b hs
  obtain ⟨n, hn⟩ := simulate2DGrid_draws hs.1 h
  have hs1 : s1 = s' := by
    rw [e1, Res.ok.injEq, Prod.mk.injEq] at hn; exact hn.2
  subst hs1
  refine ⟨hb, ?_⟩
  have key : simulate2D S.F S.p (newRandomGenerator S.b e.raw) (RandomGenerator.norm01 S.b) v nx dx
      ny dy 1 [] none (-1) (-1) 1.0 1.0 s
      = (simulate2D S.F S.p (newRandomGenerator S.b e.raw) (RandomGenerator.norm01 S.b) v nx dx
      ny dy 1 [] (some (seededObject 0)) (-1) (-1) 1.0 1.0 s1) := by
    unfold simulate2D rgOrNew
    simp only [newRandomGenerator_eq, e1, Res.bind_ok]
  rw [simulate2DGrid_unseeded hs.1, key] at h
  rw [simulate2DGrid_seeded hz, hz0,
    simulate2D_passes _ _ _ (newRandomGenerator S.b e.raw) _ _ _ _ _ _ _ _ _ _ _ _ _ z s1]
  obtain ⟨r, hr, h⟩ := Res.bind_eq_ok.1 h
  obtain ⟨q, hq, h⟩ := Res.bind_eq_ok.1 h
  simp only [Res.ok.injEq, Prod.mk.injEq] at h
  rw [hr]
  simp only [Res.bind_ok, hq, h.1]

end Verif
