import Verif.Lemmas.Loop
import Verif.Lemmas.DsfmtDraw
import Verif.Model.Random
import Verif.Spec.Normal

/-! Helper lemmas: the normal sampler as a function of the uniform numbers. -/

namespace Verif

open Spec

/-- The states a generator passes through and the numbers it yields. -/
def Runs {σ : Type} (draw : σ → Res (ℝ × σ)) (S : ℕ → σ) (U : ℕ → ℝ) : Prop :=
  ∀ i, draw (S i) = .ok (U i, S (i + 1))

theorem Runs.shift {σ : Type} {draw : σ → Res (ℝ × σ)} {S : ℕ → σ} {U : ℕ → ℝ}
    (h : Runs draw S U) (m : ℕ) : Runs draw (fun i => S (i + m)) fun i => U (i + m) := by
  intro i
  have := h (i + m)
  rwa [show i + m + 1 = i + 1 + m by ring] at this

theorem Runs.draws_eq {σ : Type} {draw : σ → Res (ℝ × σ)} {S : ℕ → σ} {U : ℕ → ℝ}
    (h : Runs draw S U) (n : ℕ) : draws draw n (S 0) = .ok ((List.range n).map U, S n) := by
  induction n generalizing S U with
  | zero => rfl
  | succ n ih =>
    unfold draws
    have := ih (h.shift 1)
    rw [zero_add] at this
    rw [h 0, Res.bind_ok, this, Res.bind_ok, List.range_succ_eq_map, List.map_cons, List.map_map]
    rfl

theorem Runs.streams {σ : Type} {draw : σ → Res (ℝ × σ)} {S : ℕ → σ} {U : ℕ → ℝ}
    (h : Runs draw S U) : Streams draw (S 0) U := fun n => ⟨S n, h.draws_eq n⟩

theorem streams_cons {σ : Type} {draw : σ → Res (ℝ × σ)} {s : σ} {U : ℕ → ℝ}
    (h : Streams draw s U) :
    ∃ s1, draw s = .ok (U 0, s1) ∧ Streams draw s1 fun i => U (i + 1) := by
  obtain ⟨s1', h1⟩ := h 1
  unfold draws at h1
  obtain ⟨⟨x, s1⟩, e, h1⟩ := Res.bind_eq_ok.1 h1
  obtain ⟨l, h2, h3⟩ := Res.bind_eq_ok.1 h1
  simp only [draws, Res.ok.injEq] at h2
  subst h2
  simp at h3
  refine ⟨s1, by rw [e, h3.1], fun n => ?_⟩
  obtain ⟨s', h4⟩ := h (n + 1)
  unfold draws at h4
  rw [e, Res.bind_ok] at h4
  obtain ⟨⟨l, s2⟩, h5, h6⟩ := Res.bind_eq_ok.1 h4
  simp only [Res.ok.injEq, Prod.mk.injEq] at h6
  refine ⟨s2, ?_⟩
  rw [h5]
  congr 2
  have := h6.1
  rw [List.range_succ_eq_map, List.map_cons, List.map_map] at this
  exact (List.cons.inj this).2

theorem Spec.Streams.runs {σ : Type} {draw : σ → Res (ℝ × σ)} {s : σ} {U : ℕ → ℝ}
    (h : Streams draw s U) : ∃ S, S 0 = s ∧ Runs draw S U := by
  have key : ∀ i, ∃ s', ∃ s'', (draws draw i s).Sat (fun r => r.2 = s') ∧
      draw s' = .ok (U i, s'') ∧ (draws draw (i + 1) s).Sat (fun r => r.2 = s'') := by
    intro i
    induction i generalizing s U with
    | zero =>
      obtain ⟨s1, e, _⟩ := streams_cons h
      refine ⟨s, s1, ⟨_, rfl, rfl⟩, e, ?_⟩
      unfold draws
      rw [e, Res.bind_ok]
      exact ⟨_, rfl, rfl⟩
    | succ i ih =>
      obtain ⟨s1, e, h1⟩ := streams_cons h
      obtain ⟨s', s'', ⟨r, e1, h2⟩, h3, ⟨q, e4, h4⟩⟩ := ih h1
      refine ⟨s', s'', ?_, h3, ?_⟩
      · unfold draws
        rw [e, Res.bind_ok, e1, Res.bind_ok]
        exact ⟨_, rfl, h2⟩
      · unfold draws
        rw [e, Res.bind_ok, e4, Res.bind_ok]
        exact ⟨_, rfl, h4⟩
  choose S T h1 h2 h3 using key
  refine ⟨S, ?_, fun i => ?_⟩
  · obtain ⟨r, e, h⟩ := h1 0
    rw [← h]
    simp only [draws, Res.ok.injEq] at e
    rw [← e]
  · rw [h2 i]
    obtain ⟨r, e, h⟩ := h1 (i + 1)
    obtain ⟨q, e', h'⟩ := h3 i
    rw [e, Res.ok.injEq] at e'
    rw [← h, ← h', e']

namespace Random

open Dsfmt (Build)

theorem g_eq (x : ℝ) : g x = wedge x := by
  have e : (-x * x / 2.0 : ℝ) = -(x ^ 2) / 2 := by norm_num; ring
  unfold g wedge
  simp only [e]
  have h1 : (1.0 : ℝ) = 1 := by norm_num
  have h3 : (3.0 : ℝ) = 3 := by norm_num
  have h2 : (2.0 : ℝ) = 2 := by norm_num
  rw [h1, h2, h3]
  by_cases a : |x| < 1
  · have b : |x| < 1.5 := a.trans (by norm_num)
    rw [if_pos a, if_pos a, if_pos b]
    ring
  · rw [if_neg a, if_neg a]
    by_cases b : |x| < 1.5
    · rw [if_pos b, if_pos b]; ring
    · rw [if_neg b, if_neg b]; ring

variable {σ : Type} {unif : σ → Res (ℝ × σ)} {S : ℕ → σ} {U : ℕ → ℝ}

/-! ### The wedge -/

theorem wedgeRound_eq (h : Runs unif S U)  :
    wedgeRound unif (S 0)
      = .ok (if wedge (6 * U 0 - 3) < 0.358 * U 1 then none else some (6 * U 0 - 3), S 2) := by
  unfold wedgeRound
  simp only [Res.monad_bind_eq, h 0, h 1, Res.bind_ok, g_eq]
  have h6 : (6.0 : ℝ) = 6 := by norm_num
  have h3 : (3.0 : ℝ) = 3 := by norm_num
  rw [h6, h3]

theorem wedgeLoop_ok (k : ℕ) (h : Runs unif S U)
    (hrej : ∀ i < k, wedge (6 * U (2 * i) - 3) < 0.358 * U (2 * i + 1))
    (hacc : 0.358 * U (2 * k + 1) ≤ wedge (6 * U (2 * k) - 3)) :
    untilLoop (wedgeRound unif) (S 0) = .ok (6 * U (2 * k) - 3, S (2 * k + 2)) := by
  induction k generalizing S U with
  | zero => rw [untilLoop_unfold, wedgeRound_eq h, if_neg (not_lt.2 hacc), Res.bind_ok]
  | succ k ih =>
    rw [untilLoop_unfold, wedgeRound_eq h, if_pos (hrej 0 (by omega)), Res.bind_ok]
    refine ih (h.shift 2) (fun i hi => ?_) ?_
    · have := hrej (i + 1) (by omega)
      rw [show 2 * (i + 1) = 2 * i + 2 by ring] at this
      exact this
    · rw [show 2 * (k + 1) = 2 * k + 2 by ring] at hacc
      exact hacc

theorem wedgeLoop_diverges (h : Runs unif S U)
    (hrej : ∀ i, wedge (6 * U (2 * i) - 3) < 0.358 * U (2 * i + 1)) :
    untilLoop (wedgeRound unif) (S 0) = .diverges := by
  refine untilLoop_diverges fun n => ?_
  induction n generalizing S U with
  | zero => rfl
  | succ n ih =>
    unfold untilFuel
    rw [wedgeRound_eq h, if_pos (hrej 0), Res.bind_ok]
    refine ih (h.shift 2) fun i => ?_
    have := hrej (i + 1)
    rw [show 2 * (i + 1) = 2 * i + 2 by ring] at this
    exact this

/-! ### The tail -/

theorem discRound_eq (h : Runs unif S U)  :
    discRound unif (S 0) = .ok (if 1 ≤ disc (U 0) (U 1) then none else
      some (2 * U 0 - 1, 2 * U 1 - 1, disc (U 0) (U 1)), S 2) := by
  unfold discRound
  simp only [Res.monad_bind_eq, h 0, h 1, Res.bind_ok]
  have h2 : (2.0 : ℝ) = 2 := by norm_num
  have h1 : (1.0 : ℝ) = 1 := by norm_num
  have e : (2 * U 0 - 1) * (2 * U 0 - 1) + (2 * U 1 - 1) * (2 * U 1 - 1) = disc (U 0) (U 1) := by
    unfold disc; ring
  rw [h2, h1, e]

/-- What a pair of uniforms does to the tail sampler. -/
theorem tailLoop_step (h : Runs unif S U)  :
    (1 ≤ disc (U 0) (U 1) → tailRound unif (S 0) = tailRound unif (S 2)) ∧
    (disc (U 0) (U 1) = 0 → tailRound unif (S 0) = .nonfinite "NaN returned") ∧
    (disc (U 0) (U 1) < 1 → disc (U 0) (U 1) ≠ 0 → ¬ TailAccept (U 0) (U 1) →
      tailRound unif (S 0) = .ok (none, S 2)) ∧
    (TailAccept (U 0) (U 1) → tailRound unif (S 0) = .ok (some (tailValue (U 0) (U 1)), S 2)) := by
  have e := discRound_eq h
  have h0 : 0 ≤ disc (U 0) (U 1) := by unfold disc; positivity
  have c3 : (3.0 : ℝ) = 3 := by norm_num
  have c9 : (9.0 : ℝ) = 9 := by norm_num
  have c2 : (2.0 : ℝ) = 2 := by norm_num
  refine ⟨fun hw => ?_, fun hw => ?_, fun hw hw0 hn => ?_, fun ha => ?_⟩
  · unfold tailRound
    rw [untilLoop_unfold, e, if_pos hw, Res.bind_ok]
  · unfold tailRound
    rw [untilLoop_unfold, e, if_neg (by rw [hw]; norm_num), Res.bind_ok]
    simp only [Res.monad_bind_eq, Res.bind_ok]
    rw [if_pos hw]
  · unfold tailRound
    rw [untilLoop_unfold, e, if_neg (not_le.2 hw), Res.bind_ok]
    simp only [Res.monad_bind_eq, Res.bind_ok]
    rw [if_neg hw0, c3, c9, c2]
    have : |stretch (U 0) (U 1) * (2 * U 0 - 1)| ≤ 3 ∧ |stretch (U 0) (U 1) * (2 * U 1 - 1)| ≤ 3 := by
      by_contra hc
      refine hn ⟨lt_of_le_of_ne h0 (Ne.symm hw0), hw, ?_⟩
      rw [not_and_or, not_le, not_le] at hc
      exact hc
    rw [show √((9 - 2 * Real.log (disc (U 0) (U 1))) / disc (U 0) (U 1)) = stretch (U 0) (U 1)
      from rfl, if_pos this]
  · obtain ⟨hp, hw, ha⟩ := ha
    unfold tailRound
    rw [untilLoop_unfold, e, if_neg (not_le.2 hw), Res.bind_ok]
    simp only [Res.monad_bind_eq, Res.bind_ok]
    rw [if_neg hp.ne', c3, c9, c2]
    have hno : ¬ (|stretch (U 0) (U 1) * (2 * U 0 - 1)| ≤ 3 ∧
        |stretch (U 0) (U 1) * (2 * U 1 - 1)| ≤ 3) := by
      rw [not_and_or, not_le, not_le]; exact ha
    rw [show √((9 - 2 * Real.log (disc (U 0) (U 1))) / disc (U 0) (U 1)) = stretch (U 0) (U 1)
      from rfl, if_neg hno]
    unfold tailValue
    congr

/-- The whole loop, one pair at a time. -/
theorem tailLoop_unfold (h : Runs unif S U)  :
    (disc (U 0) (U 1) = 0 → untilLoop (tailRound unif) (S 0) = .nonfinite "NaN returned") ∧
    (disc (U 0) (U 1) ≠ 0 → ¬ TailAccept (U 0) (U 1) →
      untilLoop (tailRound unif) (S 0) = untilLoop (tailRound unif) (S 2)) ∧
    (TailAccept (U 0) (U 1) →
      untilLoop (tailRound unif) (S 0) = .ok (tailValue (U 0) (U 1), S 2)) := by
  obtain ⟨h3, h4, h5, h6⟩ := tailLoop_step h
  refine ⟨fun hw => ?_, fun hw hn => ?_, fun ha => ?_⟩
  · rw [untilLoop_unfold, h4 hw]; rfl
  · by_cases h1 : 1 ≤ disc (U 0) (U 1)
    · rw [untilLoop_unfold, h3 h1, ← untilLoop_unfold]
    · rw [untilLoop_unfold, h5 (not_le.1 h1) hw hn, Res.bind_ok]
  · rw [untilLoop_unfold, h6 ha]; rfl

theorem tailLoop_ok (k : ℕ) (h : Runs unif S U)
    (hrej : ∀ i < k, ¬ TailAccept (U (2 * i)) (U (2 * i + 1)) ∧ disc (U (2 * i)) (U (2 * i + 1)) ≠ 0)
    (hacc : TailAccept (U (2 * k)) (U (2 * k + 1))) :
    untilLoop (tailRound unif) (S 0)
      = .ok (tailValue (U (2 * k)) (U (2 * k + 1)), S (2 * k + 2)) := by
  induction k generalizing S U with
  | zero => exact (tailLoop_unfold h).2.2 hacc
  | succ k ih =>
    rw [(tailLoop_unfold h).2.1 (hrej 0 (by omega)).2 (hrej 0 (by omega)).1]
    refine ih (h.shift 2) (fun i hi => ?_) ?_
    · have := hrej (i + 1) (by omega)
      rw [show 2 * (i + 1) = 2 * i + 2 by ring] at this
      exact this
    · rw [show 2 * (k + 1) = 2 * k + 2 by ring] at hacc
      exact hacc

theorem tailLoop_nan (k : ℕ) (h : Runs unif S U)
    (hrej : ∀ i < k, ¬ TailAccept (U (2 * i)) (U (2 * i + 1)) ∧ disc (U (2 * i)) (U (2 * i + 1)) ≠ 0)
    (hbad : disc (U (2 * k)) (U (2 * k + 1)) = 0) :
    untilLoop (tailRound unif) (S 0) = .nonfinite "NaN returned" := by
  induction k generalizing S U with
  | zero => exact (tailLoop_unfold h).1 hbad
  | succ k ih =>
    rw [(tailLoop_unfold h).2.1 (hrej 0 (by omega)).2 (hrej 0 (by omega)).1]
    refine ih (h.shift 2) (fun i hi => ?_) ?_
    · have := hrej (i + 1) (by omega)
      rw [show 2 * (i + 1) = 2 * i + 2 by ring] at this
      exact this
    · rw [show 2 * (k + 1) = 2 * k + 2 by ring] at hbad
      exact hbad

/-- The inner loop ends at the first pair in the disc. -/
theorem discLoop_ok (k : ℕ) (h : Runs unif S U)
    (hrej : ∀ i < k, 1 ≤ disc (U (2 * i)) (U (2 * i + 1))) :
    tailRound unif (S 0) = tailRound unif (S (2 * k)) := by
  induction k generalizing S U with
  | zero => rfl
  | succ k ih =>
    exact ((tailLoop_step h).1 (hrej 0 (by omega))).trans (ih (h.shift 2) fun i hi => by
      have := hrej (i + 1) (by omega)
      rw [show 2 * (i + 1) = 2 * i + 2 by ring] at this
      exact this)

theorem discLoop_diverges (h : Runs unif S U)
    (hrej : ∀ i, 1 ≤ disc (U (2 * i)) (U (2 * i + 1))) : tailRound unif (S 0) = .diverges := by
  have : untilLoop (discRound unif) (S 0) = .diverges := by
    refine untilLoop_diverges fun n => ?_
    induction n generalizing S U with
    | zero => rfl
    | succ n ih =>
      unfold untilFuel
      rw [discRound_eq h, if_pos (hrej 0), Res.bind_ok]
      refine ih (h.shift 2) fun i => ?_
      have := hrej (i + 1)
      rw [show 2 * (i + 1) = 2 * i + 2 by ring] at this
      exact this
  unfold tailRound
  rw [this]; rfl

theorem tailLoop_diverges (h : Runs unif S U)
    (hrej : ∀ i, ¬ TailAccept (U (2 * i)) (U (2 * i + 1)) ∧ disc (U (2 * i)) (U (2 * i + 1)) ≠ 0) :
    untilLoop (tailRound unif) (S 0) = .diverges := by
  refine untilLoop_diverges fun n => ?_
  induction n generalizing S U with
  | zero => rfl
  | succ n ih =>
    unfold untilFuel
    by_cases hin : ∃ k, disc (U (2 * k)) (U (2 * k + 1)) < 1
    · classical
      have e := discLoop_ok (Nat.find hin) h fun i hi => not_lt.1 (Nat.find_min hin hi)
      obtain ⟨_, _, e3, _⟩ := tailLoop_step (h.shift (2 * Nat.find hin))
      have h5 := Nat.find_spec hin
      have h4 := hrej (Nat.find hin)
      generalize Nat.find hin = k at *
      simp only [zero_add] at e3
      rw [show 1 + 2 * k = 2 * k + 1 by ring] at e3
      rw [e, e3 h5 h4.2 h4.1, Res.bind_ok]
      have h6 := ih (h.shift (2 + 2 * k)) fun i => by
        have := hrej (i + k + 1)
        rw [show 2 * (i + k + 1) = 2 * i + (2 + 2 * k) by ring,
          show 2 * i + (2 + 2 * k) + 1 = 2 * i + 1 + (2 + 2 * k) by ring] at this
        exact this
      rw [zero_add] at h6
      exact h6
    · push Not at hin
      rw [discLoop_diverges h hin]; rfl

/-! ### The sampler -/

theorem norm01_ok {x : ℝ} {m : ℕ} (h : Runs unif S U) (hx : NormOut U x m) :
    norm01With unif (S 0) = .ok (x, S m) := by
  have h0 := h.shift 1
  unfold norm01With
  simp only [Res.monad_bind_eq, h 0, Res.bind_ok]
  cases hx with
  | sum3 hu =>
    rw [if_pos hu]
    simp only [h (0 + 1), h (0 + 1 + 1), h (0 + 1 + 1 + 1), Res.bind_ok]
    norm_num
  | sum2 hu1 hu2 =>
    rw [if_neg (not_lt.2 hu1), if_pos hu2]
    simp only [h (0 + 1), h (0 + 1 + 1), Res.bind_ok]
    norm_num
  | wedge k hu1 hu2 hrej hacc =>
    rw [if_neg (not_lt.2 (le_trans (by norm_num) hu1)), if_neg (not_lt.2 hu1), if_pos hu2]
    exact wedgeLoop_ok k h0 hrej hacc
  | tail k hu hrej hacc =>
    rw [if_neg (not_lt.2 (le_trans (by norm_num) hu)), if_neg (not_lt.2 (le_trans (by norm_num) hu)),
      if_neg (not_lt.2 hu)]
    exact tailLoop_ok k h0 hrej hacc

theorem norm01_nan (h : Runs unif S U) (hx : NormNaN U) :
    norm01With unif (S 0) = .nonfinite "NaN returned" := by
  have h0 := h.shift 1
  obtain ⟨hu, k, hbad, hrej⟩ := hx
  unfold norm01With
  simp only [Res.monad_bind_eq, h 0, Res.bind_ok]
  rw [if_neg (not_lt.2 (le_trans (by norm_num) hu)), if_neg (not_lt.2 (le_trans (by norm_num) hu)),
      if_neg (not_lt.2 hu)]
  exact tailLoop_nan k h0 hrej hbad

theorem norm01_diverges (h : Runs unif S U) (hx : ∀ x m, ¬ NormOut U x m)
    (hn : ¬ NormNaN U) : norm01With unif (S 0) = .diverges := by
  classical
  have h0 := h.shift 1
  unfold norm01With
  simp only [Res.monad_bind_eq, h 0, Res.bind_ok]
  have h1 : ¬ U 0 < 0.8638 := fun h => hx _ _ (.sum3 h)
  have h2 : ¬ U 0 < 0.9745 := fun h => hx _ _ (.sum2 (not_lt.1 h1) h)
  rw [if_neg h1, if_neg h2]
  by_cases h3 : U 0 < 0.9973002039
  · rw [if_pos h3]
    refine wedgeLoop_diverges h0 fun i => ?_
    by_contra hc
    have hex : ∃ k, 0.358 * U (2 * k + 2) ≤ Spec.wedge (6 * U (2 * k + 1) - 3) := ⟨i, not_lt.1 hc⟩
    exact hx _ _ (.wedge (Nat.find hex) (not_lt.1 h2) h3
      (fun j hj => not_le.1 (Nat.find_min hex hj)) (Nat.find_spec hex))
  · rw [if_neg h3]
    refine tailLoop_diverges h0 fun i => ?_
    by_contra hc
    have hex : ∃ k, ¬ (¬ TailAccept (U (2 * k + 1)) (U (2 * k + 2)) ∧
        disc (U (2 * k + 1)) (U (2 * k + 2)) ≠ 0) := ⟨i, hc⟩
    have hmin : ∀ j < Nat.find hex, _ := fun j hj => not_not.1 (Nat.find_min hex hj)
    have hs := Nat.find_spec hex
    rw [not_and_or, not_not, not_not] at hs
    rcases hs with ha | h0
    · exact hx _ _ (.tail (Nat.find hex) (not_lt.1 h3) hmin ha)
    · exact hn ⟨not_lt.1 h3, Nat.find hex, h0, hmin⟩

/-! ### The uniform numbers -/

open Spec.Mt (Admissible DsfmtSeq Pos word val12 Is12)

theorem unif01_streams {X L : ℕ → W128} (hX : DsfmtSeq X L) (b : Build) {p : ℕ} {s : Random}
    (h : Pos X L p s.dsfmt) (h12 : ∀ q, p ≤ q → Is12 (word X q)) :
    Streams (unif01 b) s fun i => val12 (word X (p + i)) - 1 := by
  intro n
  induction n generalizing p s with
  | zero => exact ⟨s, rfl⟩
  | succ n ih =>
    obtain ⟨r, e, h1, h2⟩ := Dsfmt.draw_pos hX b h (h12 p le_rfl) .closeOpen
    obtain ⟨s', hs'⟩ := ih (s := { s with dsfmt := r.2 }) h2 fun q hq => h12 q (by omega)
    refine ⟨s', ?_⟩
    have e' : Dsfmt.genrandCloseOpen b s.dsfmt = .ok r := e
    have h1' : r.1 = val12 (word X p) - 1 := h1
    unfold draws
    rw [show unif01 b s = .ok (r.1, { s with dsfmt := r.2 }) by
      unfold unif01; rw [e']; rfl, Res.bind_ok, hs', Res.bind_ok, List.range_succ_eq_map,
      List.map_cons, List.map_map, h1']
    congr 3
    refine List.map_congr_left fun i _ => ?_
    simp only [Function.comp]
    rw [show p + 1 + i = p + (i + 1) by ring]

/-- In an admissible state the uniform numbers go on for ever, and are multiples of 2^-52 in [0, 1).
They are the same in both builds. -/
theorem exists_streams {s : Random} (h : Admissible s.dsfmt) :
    ∃ U : ℕ → ℝ, (∀ b, Streams (unif01 b) s U) ∧ ∀ i, ∃ n : ℕ, n < 2 ^ 52 ∧ U i = n / 2 ^ 52 := by
  obtain ⟨X, L, hX, _, hp, h12⟩ := Dsfmt.admissible_pos h
  refine ⟨_, fun b => unif01_streams hX b hp fun q _ =>
    Dsfmt.word_is12 (k := 0) (fun n _ => h12 n) q (by omega), fun i => ?_⟩
  refine ⟨_, Nat.mod_lt (word X (s.dsfmt.idx + i)).toNat (by norm_num), ?_⟩
  unfold val12
  ring

theorem multiple_01 {u : ℝ} (h : ∃ n : ℕ, n < 2 ^ 52 ∧ u = n / 2 ^ 52) : 0 ≤ u ∧ u < 1 := by
  obtain ⟨n, hn, rfl⟩ := h
  refine ⟨by positivity, (div_lt_one (by positivity)).2 ?_⟩
  exact_mod_cast hn

theorem streams_unique {σ : Type} {draw : σ → Res (ℝ × σ)} {s : σ} {U V : ℕ → ℝ}
    (h : Streams draw s U) (h' : Streams draw s V) : U = V := by
  funext i
  obtain ⟨s1, e1⟩ := h (i + 1)
  obtain ⟨s2, e2⟩ := h' (i + 1)
  rw [e1] at e2
  simp only [Res.ok.injEq, Prod.mk.injEq] at e2
  have := e2.1
  rw [List.map_inj_left] at this
  exact this i (by simp)

end Random

/-! ### Generator objects -/

namespace RandomGenerator

open Dsfmt (Build)

/-- The part of the global generator a generator object has. -/
def ofGlobal (s : Random) : RandomGenerator := ⟨s.dsfmt, s.startSeed, s.isInitialized⟩

variable (b : Build) (s : Random)

theorem unif01_ofGlobal : unif01 b (ofGlobal s) = (Random.unif01 b s).mapState ofGlobal := by
  unfold unif01 Random.unif01 Res.mapState
  simp only [Res.monad_bind_eq, Res.bind_assoc, Res.bind_ok]
  rfl

theorem unif01Open_ofGlobal :
    unif01Open b (ofGlobal s) = (Random.unif01Open b s).mapState ofGlobal := by
  unfold unif01Open Random.unif01Open Res.mapState
  simp only [Res.monad_bind_eq, Res.bind_assoc, Res.bind_ok]
  rfl

theorem drawUint32_ofGlobal :
    drawUint32 b (ofGlobal s) = (Random.drawUint32 b s).mapState ofGlobal := by
  unfold drawUint32 Random.drawUint32 Res.mapState
  simp only [Res.monad_bind_eq, Res.bind_assoc, Res.bind_ok]
  rfl

theorem g_eq (x : ℝ) : g x = Random.g x := rfl

theorem wedgeRound_ofGlobal :
    wedgeRound (unif01 b) (ofGlobal s) = (Random.wedgeRound (Random.unif01 b) s).mapState ofGlobal := by
  unfold wedgeRound Random.wedgeRound
  simp only [Res.monad_bind_eq, Res.mapState, Res.bind_assoc, Res.bind_ok, unif01_ofGlobal]
  rfl

theorem discRound_ofGlobal :
    discRound (unif01 b) (ofGlobal s) = (Random.discRound (Random.unif01 b) s).mapState ofGlobal := by
  unfold discRound Random.discRound
  simp only [Res.monad_bind_eq, Res.mapState, Res.bind_assoc, Res.bind_ok, unif01_ofGlobal]

theorem tailRound_ofGlobal :
    tailRound (unif01 b) (ofGlobal s) = (Random.tailRound (Random.unif01 b) s).mapState ofGlobal := by
  unfold tailRound Random.tailRound
  rw [untilLoop_map ofGlobal (discRound_ofGlobal b)]
  simp only [Res.monad_bind_eq, Res.mapState, Res.bind_assoc, Res.bind_ok]
  congr 1
  funext r
  split
  · rfl
  · rfl

theorem norm01_ofGlobal : norm01 b (ofGlobal s) = (Random.norm01 b s).mapState ofGlobal := by
  unfold norm01 Random.norm01 norm01With Random.norm01With
  simp only [Res.monad_bind_eq, unif01_ofGlobal, Res.mapState, Res.bind_assoc, Res.bind_ok]
  congr 1
  funext r
  split_ifs
  · simp only [Res.bind_assoc, Res.bind_ok]
  · simp only [Res.bind_assoc, Res.bind_ok]
  · rw [untilLoop_map ofGlobal (wedgeRound_ofGlobal b)]; rfl
  · rw [untilLoop_map ofGlobal (tailRound_ofGlobal b)]; rfl

theorem initializeMT_ofGlobal (seed : BitVec 64) :
    initializeMT seed (ofGlobal s) = (Random.initializeMT seed s).bind fun s => .ok (ofGlobal s) := by
  unfold initializeMT Random.initializeMT
  simp only [Res.monad_bind_eq, Res.bind_assoc, Res.bind_ok]
  rfl

theorem initializeSeed_ofGlobal (seed : BitVec 64) :
    initializeSeed seed (ofGlobal s)
      = (Random.initializeSeed seed s).bind fun s => .ok (ofGlobal s) :=
  initializeMT_ofGlobal { s with startSeed := seed, isInitialized := true } seed

theorem initializeTime_ofGlobal (time : BitVec 64) :
    initializeTime b time (ofGlobal s)
      = (Random.initializeTime b time s).bind fun s => .ok (ofGlobal s) := by
  unfold initializeTime Random.initializeTime
  simp only [Res.monad_bind_eq, Res.bind_assoc, Res.bind_ok, initializeMT_ofGlobal,
    drawUint32_ofGlobal, Res.mapState]
  congr 1
  funext s1
  congr 1
  funext r
  exact initializeMT_ofGlobal { r.2 with startSeed := r.1, isInitialized := true } r.1

end RandomGenerator

end Verif
