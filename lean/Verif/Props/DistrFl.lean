import Verif.Lemmas.DistrFlWit
import Verif.Props.Random

/-!
# C74: uniform numbers and histograms in double arithmetic

`Uniform` and `GeneralDiscrete` with every operation rounded to a double. A number is a double if rounding leaves it
as it is. The uniform numbers the generators return are at most `1 - 2^-52`.
-/

namespace Verif

open scoped Fl
open Fl Spec
open Spec.Mt (Admissible val12 word)
open Dsfmt (Build)

/-! ### `Uniform` -/

/-- Draws stay in the interval, both ends included. -/
theorem uniformFl_draw_mem {σ : Type} {lo hi : ℝ} (hlo : rnd64 lo = lo) (hhi : rnd64 hi = hi) (h : lo ≤ hi)
    {unif : σ → Res (ℝ × σ)} {s s' : σ} {z : ℝ} (hu : unif s = .ok (z, s')) (h0 : 0 ≤ z) (h1 : z ≤ 1 - 2⁻¹ ^ 52) :
    ∃ x, drawQuantile (Uniform.quantileFl ⟨lo, hi⟩) unif s = .ok (x, s') ∧ lo ≤ x ∧ x ≤ hi := by
  refine ⟨lo +ᶠ z *ᶠ (hi -ᶠ lo), ?_, ?_, ?_⟩
  · unfold drawQuantile
    simp only [Res.monad_bind_eq]
    rw [hu, Res.bind_ok]
    rfl
  · have h2 : 0 ≤ z *ᶠ (hi -ᶠ lo) := rnd64_nonneg (mul_nonneg h0 (rnd64_nonneg (by linarith)))
    calc lo = rnd64 lo := hlo.symm
      _ ≤ _ := rnd64_mono (le_add_of_nonneg_right h2)
  · have h2 := uniform_step hlo hhi h h0 h1
    calc lo +ᶠ z *ᶠ (hi -ᶠ lo) ≤ rnd64 hi := rnd64_mono (by linarith)
      _ = hi := hhi

/-- With the generator of the library, in any state it can be in. -/
theorem uniformFl_draw_global {lo hi : ℝ} (hlo : rnd64 lo = lo) (hhi : rnd64 hi = hi) (h : lo ≤ hi) {s : Random}
    (hs : Admissible s.dsfmt) (b : Build) :
    ∃ x s', drawQuantile (Uniform.quantileFl ⟨lo, hi⟩) (Random.unif01 b) s = .ok (x, s') ∧ lo ≤ x ∧ x ≤ hi := by
  obtain ⟨U, hU, h01⟩ := Random.exists_streams hs
  obtain ⟨s', e, -⟩ := streams_cons (hU b)
  obtain ⟨n, hn, eU⟩ := h01 0
  have h1 : (n : ℝ) ≤ 2 ^ 52 - 1 := by
    rw [le_sub_iff_add_le]
    exact_mod_cast hn
  obtain ⟨x, ex, hx⟩ := uniformFl_draw_mem hlo hhi h e (by rw [eU]; positivity) (by
    rw [eU, div_le_iff₀ (by norm_num)]
    refine h1.trans ?_
    norm_num)
  exact ⟨x, s', ex, hx⟩

/-- The quantile is a monotone function. -/
theorem uniformFl_mono {lo hi : ℝ} (h : lo ≤ hi) {p q : ℝ} (hpq : p ≤ q) :
    ∃ x y, Uniform.quantileFl ⟨lo, hi⟩ p = .ok x ∧ Uniform.quantileFl ⟨lo, hi⟩ q = .ok y ∧ x ≤ y := by
  refine ⟨_, _, rfl, rfl, ?_⟩
  have h2 : 0 ≤ hi -ᶠ lo := rnd64_nonneg (by linarith)
  have h3 : p *ᶠ (hi -ᶠ lo) ≤ q *ᶠ (hi -ᶠ lo) := rnd64_mono (mul_le_mul_of_nonneg_right hpq h2)
  exact rnd64_mono (add_le_add_right h3 lo)

/-- It is the exact one but for rounding. -/
theorem uniformFl_error {lo hi M : ℝ} (hlo : |lo| ≤ M) (hhi : |hi| ≤ M) {p : ℝ} (h0 : 0 ≤ p) (h1 : p ≤ 1) :
    ∃ x, Uniform.quantileFl ⟨lo, hi⟩ p = .ok x ∧ |x - (lo + p * (hi - lo))| ≤ 2⁻¹ ^ 50 * M + 2⁻¹ ^ 1073 := by
  refine ⟨_, rfl, ?_⟩
  show |lo +ᶠ p *ᶠ (hi -ᶠ lo) - (lo + p * (hi - lo))| ≤ _
  unfold Fl.add Fl.mul Fl.sub
  have e1 := rnd64_abs_err (hi - lo)
  set r := rnd64 (hi - lo)
  have e2 := rnd64_abs_err (p * r)
  set t := rnd64 (p * r)
  have e3 := rnd64_abs_err (lo + t)
  set y := rnd64 (lo + t)
  rw [show (2⁻¹ : ℝ) ^ 1073 = 4 * 2⁻¹ ^ 1075 by
    rw [show 1075 = 1073 + 2 from rfl, pow_add (2⁻¹ : ℝ) 1073 2]
    generalize (2⁻¹ : ℝ) ^ 1073 = c
    ring]
  have hη : (0 : ℝ) < 2⁻¹ ^ 1075 := by positivity
  generalize (2⁻¹ : ℝ) ^ 1075 = η at *
  have hv : (2⁻¹ : ℝ) ^ 53 = 1 / 9007199254740992 := by norm_num
  rw [hv] at *
  rw [show (2⁻¹ : ℝ) ^ 50 = 8 / 9007199254740992 by norm_num]
  have hD : |hi - lo| ≤ 2 * M := (abs_sub hi lo).trans (by linarith)
  have hr : |r| ≤ 2 * M + (2 * M * (1 / 9007199254740992) + η) := by
    have := abs_sub_abs_le_abs_sub r (hi - lo)
    nlinarith
  have hpr : |p * r| ≤ |r| := by
    rw [abs_mul, abs_of_nonneg h0]
    exact mul_le_of_le_one_left (abs_nonneg _) h1
  have ht : |t| ≤ |r| + (|r| * (1 / 9007199254740992) + η) := by
    have := abs_sub_abs_le_abs_sub t (p * r)
    nlinarith
  have hlt : |lo + t| ≤ M + |t| := (abs_add_le _ _).trans (by linarith)
  have e4 : |p * (r - (hi - lo))| ≤ 2 * M * (1 / 9007199254740992) + η := by
    rw [abs_mul, abs_of_nonneg h0]
    refine (mul_le_of_le_one_left (abs_nonneg _) h1).trans (e1.trans ?_)
    nlinarith
  have tri : |y - (lo + p * (hi - lo))| ≤ |y - (lo + t)| + |t - p * r| + |p * (r - (hi - lo))| := by
    have : y - (lo + p * (hi - lo)) = (y - (lo + t)) + (t - p * r) + p * (r - (hi - lo)) := by ring
    rw [this]
    exact abs_add_three _ _ _
  have hM : 0 ≤ M := (abs_nonneg _).trans hlo
  nlinarith [abs_nonneg r]

/-- The upper end can be drawn, though the uniform numbers are below 1. -/
theorem uniformFl_max : Uniform.quantileFl ⟨2, 3⟩ (1 - 2⁻¹ ^ 52) = .ok 3 := by
  unfold Uniform.quantileFl
  rw [show (1 - 2⁻¹ ^ 52 : ℝ) = 4503599627370495 / 2 ^ 52 by norm_num]
  simp only [DistrFlWit.e47, DistrFlWit.e48, DistrFlWit.e49]

/-- `Quantile` should return numbers of the interval for all arguments from 0 to 1. It does not for 1. -/
theorem uniformFl_quantile_refuted :
    ¬ ∀ lo hi p : ℝ, rnd64 lo = lo → rnd64 hi = hi → lo ≤ hi → 0 ≤ p → p ≤ 1 →
      ∃ x, Uniform.quantileFl ⟨lo, hi⟩ p = .ok x ∧ x ≤ hi := by
  intro hall
  have h1 : rnd64 (-(1 / 2 ^ 53)) = -(1 / 2 ^ 53) := by
    rw [rnd64_neg, rnd64_eval (x := 1 / 2 ^ 53) 4503599627370496 105 (by norm_num) (by norm_num) (by norm_num)
      (by rw [abs_lt]; constructor <;> norm_num)]
    norm_num
  have h2 : rnd64 (4503599627370497 / 2 ^ 52) = 4503599627370497 / 2 ^ 52 := by
    rw [rnd64_eval (x := 4503599627370497 / 2 ^ 52) 4503599627370497 52 (by norm_num) (by norm_num) (by norm_num)
      (by rw [abs_lt]; constructor <;> norm_num)]
    norm_num
  obtain ⟨x, e, hx⟩ := hall (-(1 / 2 ^ 53)) (4503599627370497 / 2 ^ 52) 1 h1 h2 (by norm_num) (by norm_num) le_rfl
  unfold Uniform.quantileFl at e
  simp only [DistrFlWit.e50, DistrFlWit.e51, DistrFlWit.e52, Res.ok.injEq] at e
  rw [← e] at hx
  norm_num at hx

/-! ### `GeneralDiscrete` -/

/-- With at most a million bins of weights that are zero or neither very small nor very large, the rounded probabilities
and cumulated probabilities are those of the histogram up to `(2 n + 1) 2^-52` (relative) and `(3 n + 1) 2^-52`. For
arguments up to `1 - (3 n + 1) 2^-52` the quantile is a bin, not an empty one if the argument is positive, and brackets
the argument up to the same error. -/
theorem generalDiscreteFl_partial (hist : List ℝ) (hn : hist.length ≤ 2 ^ 20)
    (hw : ∀ x ∈ hist, x = 0 ∨ (2⁻¹ : ℝ) ^ 400 ≤ x ∧ x ≤ 2 ^ 400) (hs : 0 < hist.sum) :
    ∃ d, GeneralDiscrete.createFl hist = .ok d ∧
      (∀ i < hist.length, ∃ q, d.pdf i = .ok q ∧
        |q - hist.getD i 0 / hist.sum| ≤ (2 * (hist.length : ℝ) + 1) * 2⁻¹ ^ 52 * (hist.getD i 0 / hist.sum)) ∧
      (∀ i < hist.length, ∃ c, d.cdf i = .ok c ∧
        |c - (hist.take (i + 1)).sum / hist.sum| ≤ (3 * (hist.length : ℝ) + 1) * 2⁻¹ ^ 52) ∧
      ∀ p, p ≤ 1 - (3 * (hist.length : ℝ) + 1) * 2⁻¹ ^ 52 → ∃ k : ℕ, k < hist.length ∧ d.quantile p = .ok k ∧
        p ≤ (hist.take (k + 1)).sum / hist.sum + (3 * (hist.length : ℝ) + 1) * 2⁻¹ ^ 52 ∧
        (0 < p → (hist.take k).sum / hist.sum - (3 * (hist.length : ℝ) + 1) * 2⁻¹ ^ 52 < p ∧ 0 < hist.getD k 0) ∧
        (p ≤ 0 → k = 0) := by
  obtain ⟨d, hd, hpdf, hcdf, hq⟩ := GeneralDiscrete.createFl_spec hn hw hs
  exact ⟨d, hd, hpdf, hcdf, hq⟩

/-- The weights of this histogram meet the hypotheses. -/
example : ∃ d, GeneralDiscrete.createFl [1, 0, 3] = .ok d ∧ ∃ k : ℕ, k < 3 ∧ d.quantile (1 / 2) = .ok k ∧
    0 < ([1, 0, 3] : List ℝ).getD k 0 := by
  have h1 : (1 : ℝ) ≤ 2 ^ 400 := one_le_pow₀ (by norm_num)
  have h2 : (2⁻¹ : ℝ) ^ 400 ≤ 1 := pow_le_one₀ (by norm_num) (by norm_num)
  have h3 : (3 : ℝ) ≤ 2 ^ 400 := le_trans (by norm_num) (pow_le_pow_right₀ (by norm_num : (1 : ℝ) ≤ 2) (show 2 ≤ 400 by norm_num))
  obtain ⟨d, hd, -, -, hq⟩ := generalDiscreteFl_partial [1, 0, 3] (by norm_num) (by
    intro x hx
    simp only [List.mem_cons, List.not_mem_nil, or_false] at hx
    rcases hx with rfl | rfl | rfl
    · exact .inr ⟨h2, h1⟩
    · exact .inl rfl
    · exact .inr ⟨h2.trans (by norm_num), h3⟩) (by norm_num)
  obtain ⟨k, hk, e, -, h, -⟩ := hq (1 / 2) (by norm_num)
  exact ⟨d, hd, k, hk, e, (h (by norm_num)).2⟩

/-- `Quantile` should return a bin for all arguments from 0 to 1. With six equal bins it reads past the end of the
array for 1: the cumulated probabilities end at `1 - 2^-53`. -/
theorem generalDiscreteFl_quantile_one : ∃ d, GeneralDiscrete.createFl (List.replicate 6 1) = .ok d ∧
    d.cdf 5 = .ok (1 - 2⁻¹ ^ 53) ∧ d.quantile 1 = .ub "read out of range" := DistrFlWit.six

/-- Cumulated probabilities should be at most 1. With nine equal bins the last one is `1 + 2^-52`. -/
theorem generalDiscreteFl_cdf_above : ∃ d, GeneralDiscrete.createFl (List.replicate 9 1) = .ok d ∧
    d.cdf 8 = .ok (1 + 2⁻¹ ^ 52) := DistrFlWit.nine

/-- With fourteen equal bins the largest uniform number is enough for `Quantile` to read past the end. -/
theorem generalDiscreteFl_quantile_fourteen : ∃ d, GeneralDiscrete.createFl (List.replicate 14 1) = .ok d ∧
    d.quantile (1 - 2⁻¹ ^ 52) = .ub "read out of range" := DistrFlWit.fourteen

/-- A state whose next uniform number is the largest one. -/
def maxState : Dsfmt := ⟨List.replicate 192 ⟨0x3FFFFFFFFFFFFFFF#64, 0x3FFFFFFFFFFFFFFF#64⟩, 0⟩

theorem maxState_admissible : Admissible maxState := by
  refine ⟨List.length_replicate, Nat.zero_le _, fun i _ w hw => ?_⟩
  have := List.eq_of_mem_replicate (List.mem_of_getElem? hw)
  subst this
  exact ⟨rfl, rfl⟩

theorem maxState_unif (b : Build) (s : Random) :
    ∃ s', Random.unif01 b { s with dsfmt := maxState } = .ok (1 - 2⁻¹ ^ 52, s') := by
  obtain ⟨X, L, hX, hw, hp, h12⟩ := Dsfmt.admissible_pos maxState_admissible
  have hs := Random.unif01_streams hX b (s := { s with dsfmt := maxState }) hp fun q _ =>
    Dsfmt.word_is12 (k := 0) (fun n _ => h12 n) q (by omega)
  obtain ⟨s', e, -⟩ := streams_cons hs
  refine ⟨s', ?_⟩
  rw [e]
  have hX0 : X 0 = ⟨0x3FFFFFFFFFFFFFFF#64, 0x3FFFFFFFFFFFFFFF#64⟩ := by
    have := hw.el 0 (by norm_num)
    simp only [maxState, List.getElem?_replicate, zero_add] at this
    simpa using this.symm
  have : word X (maxState.idx + 0) = 0x3FFFFFFFFFFFFFFF#64 := by
    show word X 0 = _
    unfold word
    rw [if_pos (by norm_num), show 0 / 2 = 0 from rfl, hX0]
  simp only [this]
  norm_num [val12]

/-- Draws from a histogram should give a bin, whatever the state of the generator. They do not: there is a state in
which the draw reads past the end of the array. -/
theorem generalDiscreteFl_draw_refuted :
    ¬ ∀ (hist : List ℝ) (d : GeneralDiscrete) (b : Build) (s : Random), (∀ x ∈ hist, 0 < x) → hist ≠ [] →
      GeneralDiscrete.createFl hist = .ok d → Admissible s.dsfmt →
      ∃ (k : ℕ) (s' : Random), drawQuantile d.quantile (Random.unif01 b) s = .ok ((k : ℤ), s') ∧ k < hist.length := by
  intro hall
  obtain ⟨d, hd, hq⟩ := generalDiscreteFl_quantile_fourteen
  obtain ⟨s1, e1⟩ := maxState_unif .portable Random.initial
  obtain ⟨k, s', e, -⟩ := hall _ d .portable { Random.initial with dsfmt := maxState }
    (fun x hx => by rw [List.eq_of_mem_replicate hx]; norm_num) (by simp) hd maxState_admissible
  unfold drawQuantile at e
  simp only [Res.monad_bind_eq] at e
  rw [e1, Res.bind_ok] at e
  simp only [hq] at e
  exact absurd e (by simp [Res.bind])

end Verif
