import Verif.Lemmas.NormalMix
import Verif.Lemmas.Normal
import Verif.Lemmas.Noise

/-! Helper lemmas: a generator of independent uniform numbers yields, with the normal sampler,
independent numbers of the law found. -/

namespace Verif.Iid

open MeasureTheory Set

variable {X Y : Type} [MeasurableSpace X] [MeasurableSpace Y] (κ : Measure X) [IsProbabilityMeasure κ]

/-- What is left after a number of runs. -/
def rest (prog : (ℕ → X) → Y × (ℕ → X)) : ℕ → (ℕ → X) → ℕ → X
  | 0, u => u
  | n + 1, u => rest prog n (prog u).2

omit [MeasurableSpace X] [MeasurableSpace Y] in
theorem results_rest (prog : (ℕ → X) → Y × (ℕ → X)) (n : ℕ) (u : ℕ → X) :
    results prog u n = (prog (rest prog n u)).1 := by
  induction n generalizing u with
  | zero => rfl
  | succ n ih => exact ih _

omit [MeasurableSpace X] [MeasurableSpace Y] in
theorem rest_succ (prog : (ℕ → X) → Y × (ℕ → X)) (n : ℕ) (u : ℕ → X) :
    rest prog (n + 1) u = (prog (rest prog n u)).2 := by
  induction n generalizing u with
  | zero => rfl
  | succ n ih => exact ih _

variable {κ}

theorem Fresh.rest_preserving {prog : (ℕ → X) → Y × (ℕ → X)} {ν : Measure Y} [IsProbabilityMeasure ν]
    (h : Fresh κ prog ν) (n : ℕ) : MeasurePreserving (rest prog n) (seq κ) (seq κ) := by
  have h1 : MeasurePreserving (fun u => (prog u).2) (seq κ) (seq κ) := by
    refine ⟨measurable_snd.comp h.measurable, Measure.ext_of_lintegral _ fun f hf => ?_⟩
    rw [lintegral_map hf (show Measurable fun u => (prog u).2 from measurable_snd.comp h.measurable)]
    have := h.law (fun _ r => f r) (hf.comp measurable_snd)
    rw [this]
    simp
  induction n with
  | zero => exact MeasurePreserving.id _
  | succ n ih => exact ih.comp h1

end Verif.Iid

namespace Verif.NormalLaw

open MeasureTheory Set ProbabilityTheory Filter
open Verif.Iid Verif.UnifSum Verif.WedgeBound Verif.TailLaw Verif.Spec
open scoped ENNReal Real

/-- The sampler ends with a number. -/
def Good (u : ℕ → ℝ) : Prop :=
  shift 1 u ∉ Never wedgeAcc ∧ shift 1 u ∉ Never accept ∧ ∀ i, u i ≠ 1 / 2

theorem disc_ne {a b : ℝ} (h : a ≠ 1 / 2) : disc a b ≠ 0 := by
  unfold disc
  intro h0
  have h1 : 2 * a - 1 = 0 := by
    have := sq_nonneg (2 * b - 1)
    have := sq_nonneg (2 * a - 1)
    exact pow_eq_zero_iff (n := 2) (by norm_num) |>.1 (by linarith)
  exact h (by linarith)

theorem normOut_prog {u : ℕ → ℝ} (h : Good u) : ∃ m, NormOut u (prog u).1 m ∧ (prog u).2 = shift m u := by
  obtain ⟨g1, g2, g3⟩ := h
  unfold prog
  by_cases h1 : u 0 < 0.8638
  · rw [if_pos h1]
    exact ⟨4, .sum3 h1, rfl⟩
  rw [if_neg h1]
  by_cases h2 : u 0 < 0.9745
  · rw [if_pos h2]
    exact ⟨3, .sum2 (not_lt.1 h1) h2, rfl⟩
  rw [if_neg h2]
  by_cases h3 : u 0 < 0.9973002039
  · rw [if_pos h3]
    rcases first_or_never wedgeAcc (shift 1 u) with hn | ⟨k, hk⟩
    · exact absurd hn g1
    · rw [loop_first _ hk]
      exact ⟨2 * k + 3, .wedge k (not_lt.1 h2) h3 (fun i hi => not_le.1 (hk.1 i hi)) hk.2, rfl⟩
  · rw [if_neg h3]
    rcases first_or_never accept (shift 1 u) with hn | ⟨k, hk⟩
    · exact absurd hn g2
    · rw [loop_first _ hk]
      exact ⟨2 * k + 3, .tail k (not_lt.1 h3) (fun i hi => ⟨hk.1 i hi, disc_ne (g3 _)⟩) hk.2, rfl⟩

theorem ae_good : ∀ᵐ u ∂seq unif, Good u := by
  have ms : MeasurePreserving (shift (X := ℝ) 1) (seq unif) (seq unif) := by
    refine ⟨measurable_shift 1, Measure.ext_of_lintegral _ fun f hf => ?_⟩
    rw [lintegral_map hf (measurable_shift 1)]
    have := lintegral_cons unif (F := fun _ r => f r) (hf.comp measurable_snd)
    rw [this]
    simp
  obtain ⟨K, k0, k1, hA, hV, hK⟩ := tail_law
  have hm4 : unif.prod unif accept = K * mass far := by
    have hm := hK (fun _ => 1) measurable_const
    simp only [one_mul, setLIntegral_one] at hm
    exact hm
  have hp4 : unif.prod unif accept ≠ 0 := by
    rw [hm4, mass_far]
    exact mul_ne_zero k0 (by rw [ne_eq, ENNReal.ofReal_eq_zero, not_le]; exact tail_pos)
  have hp3 : unif.prod unif wedgeAcc ≠ 0 := by
    have hm := wedge_law (F := fun _ => 1) measurable_const
    simp only [one_mul, setLIntegral_one, lintegral_wedge] at hm
    rw [hm]
    refine mul_ne_zero ?_ ?_
    · rw [ne_eq, ENNReal.ofReal_eq_zero, not_le]; norm_num
    · rw [ne_eq, ENNReal.ofReal_eq_zero, not_le]; exact lt_of_lt_of_le (by norm_num) G_bounds.1
  have n3 : ∀ᵐ u ∂seq unif, u ∉ Never wedgeAcc :=
    measure_eq_zero_iff_ae_notMem.1 (seq_never unif measurableSet_wedgeAcc hp3)
  have n4 : ∀ᵐ u ∂seq unif, u ∉ Never accept :=
    measure_eq_zero_iff_ae_notMem.1 (seq_never unif hA hp4)
  have n5 : ∀ i, ∀ᵐ u ∂seq unif, u i ≠ 1 / 2 := by
    intro i
    have hi : MeasurePreserving (fun u : ℕ → ℝ => u i) (seq unif) unif :=
      ⟨measurable_pi_apply i, Measure.infinitePi_map_eval _ i⟩
    refine hi.quasiMeasurePreserving.ae (p := fun a => a ≠ 1 / 2) ?_
    unfold unif
    exact ae_restrict_of_ae (measure_eq_zero_iff_ae_notMem.1 (Real.volume_singleton (a := 1 / 2)))
  filter_upwards [ms.quasiMeasurePreserving.ae n3, ms.quasiMeasurePreserving.ae n4, ae_all_iff.2 n5]
    with u h1 h2 h3
  exact ⟨h1, h2, h3⟩

theorem ae_good_all : ∀ᵐ u ∂seq unif, ∀ n, Good (rest prog n u) :=
  ae_all_iff.2 fun n => (fresh.rest_preserving n).quasiMeasurePreserving.ae ae_good

/-- Whenever every run ends, the normal numbers come one after the other. -/
theorem streams_results {σ : Type} {draw : σ → Res (ℝ × σ)} {s : σ} {u : ℕ → ℝ}
    (hs : Streams draw s u) (hg : ∀ n, Good (rest prog n u)) :
    Streams (Random.norm01With draw) s (results prog u) := by
  intro n
  induction n generalizing s u with
  | zero => exact ⟨s, rfl⟩
  | succ n ih =>
    obtain ⟨S, rfl, hr⟩ := hs.runs
    obtain ⟨m, hm, he⟩ := normOut_prog (hg 0)
    have e : Random.norm01With draw (S 0) = .ok ((prog u).1, S m) := Random.norm01_ok hr hm
    have he' : (prog u).2 = fun i => u (i + m) := he
    have hs' : Streams draw (S m) (prog u).2 := by
      have := (hr.shift m).streams
      rw [zero_add] at this
      rw [he']; exact this
    obtain ⟨s', h'⟩ := ih hs' fun k => hg (k + 1)
    refine ⟨s', ?_⟩
    unfold draws
    rw [e, Res.bind_ok, h', Res.bind_ok, List.range_succ_eq_map, List.map_cons, List.map_map]
    rfl

end Verif.NormalLaw
