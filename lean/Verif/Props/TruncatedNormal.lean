import Verif.Props.PhiInverse
import Verif.Props.Dsfmt

/-!
# C104: draws from truncated normal distributions

`DrawLowerTruncated`, `DrawUpperTruncated` and `DrawTwoSidedTruncated` of `Normal`.
-/

namespace Verif

open Spec MeasureTheory ProbabilityTheory Set Filter Real NormalD Phi

/-! ## Specification -/

/-- In the states `I` the generator yields numbers between 0 and 1, the ends excluded, and remains in these states. -/
def OpenUnif {σ : Type} (unif : σ → Res (ℝ × σ)) (I : σ → Prop) : Prop :=
  ∀ s, I s → ∃ u s', unif s = .ok (u, s') ∧ 0 < u ∧ u < 1 ∧ I s'

/-- A draw returns a number of `A`, and leaves the generator in a state of `I`. -/
def DrawsIn {σ : Type} (r : Res (ℝ × σ)) (I : σ → Prop) (A : Set ℝ) : Prop := ∃ x s', r = .ok (x, s') ∧ x ∈ A ∧ I s'

/-! ## The generators -/

theorem genrandOpenOpen_range (b : Dsfmt.Build) {d : Dsfmt} (h : Spec.Mt.Admissible d) :
    ∃ u d', Dsfmt.genrandOpenOpen b d = .ok (u, d') ∧ 0 < u ∧ u < 1 ∧ Spec.Mt.Admissible d' := by
  obtain ⟨xs, d', e, hr, ha⟩ := Dsfmt.draws_inRange b h [.openOpen]
  simp only [Mt.draws, Mt.Kind.draw] at e
  obtain ⟨⟨x, d1⟩, e1, e2⟩ := Res.bind_eq_ok.1 e
  simp only [Res.bind_ok, Res.ok.injEq, Prod.mk.injEq] at e2
  obtain ⟨rfl, rfl⟩ := e2
  obtain ⟨hx, -⟩ := List.forall₂_cons.1 hr
  exact ⟨x, _, e1, hx.1, hx.2, ha⟩

/-- `Random::Unif01Open` and `RandomGenerator::Unif01Open`, from every admissible state. -/
theorem unif01Open_range (b : Dsfmt.Build) :
    OpenUnif (Random.unif01Open b) (fun s => Spec.Mt.Admissible s.dsfmt) ∧
    OpenUnif (RandomGenerator.unif01Open b) (fun s => Spec.Mt.Admissible s.dsfmt) := by
  constructor
  · intro s hs
    obtain ⟨u, d', e, h0, h1, ha⟩ := genrandOpenOpen_range b hs
    unfold Random.unif01Open
    rw [Res.monad_bind_eq, e, Res.bind_ok]
    exact ⟨u, _, rfl, h0, h1, ha⟩
  · intro s hs
    obtain ⟨u, d', e, h0, h1, ha⟩ := genrandOpenOpen_range b hs
    unfold RandomGenerator.unif01Open
    rw [Res.monad_bind_eq, e, Res.bind_ok]
    exact ⟨u, _, rfl, h0, h1, ha⟩

/-! ## Helpers -/

namespace NormalD

theorem moderate_one : Moderate 1 := by
  constructor
  · norm_num
  · exact_mod_cast one_le_pow₀ (M₀ := ℝ) (n := 100) (by norm_num : (1 : ℝ) ≤ 10) |>.trans (by norm_num)

theorem phiInverse01 {y : ℝ} (h0 : 0 < y) (h1 : y < 1) : ∃ z, (NormalD.mk 0 1).phiInverse y = .ok z := by
  obtain ⟨q, x, -, h, -⟩ := phiInverse_partial (m := 0) moderate_one h0 h1
  exact ⟨x, h⟩

theorem between {a b u : ℝ} (h : a < b) (h0 : 0 < u) (h1 : u < 1) : a < a + u * (b - a) ∧ a + u * (b - a) < b := by
  constructor <;> nlinarith

variable {σ : Type} {unif : σ → Res (ℝ × σ)} {I : σ → Prop}

theorem lowerLoop_sat (hu : OpenUnif unif I) (mu sigma lower : ℝ) {pl pu : ℝ} (h0 : 0 < pl) (h1 : pl < pu) (h2 : pu ≤ 1)
    (n : ℕ) {o : ℝ} (ho0 : 0 < o) (ho1 : o < 1) {s : σ} (hs : I s) :
    ∃ r s', lowerLoop unif mu sigma lower pl pu n o s = .ok (r, s') ∧ I s' ∧ ∀ x, r = some x → lower ≤ x := by
  induction n generalizing o s with
  | zero => exact ⟨none, s, rfl, hs, by simp⟩
  | succ n ih =>
    obtain ⟨z, hz⟩ := phiInverse01 ho0 ho1
    unfold lowerLoop
    rw [Res.monad_bind_eq, hz, Res.bind_ok]
    by_cases hc : z * sigma + mu < lower
    · obtain ⟨u, s', e, hu0, hu1, hs'⟩ := hu s hs
      simp only [if_pos hc, Res.monad_bind_eq, e, Res.bind_ok]
      have := between h1 hu0 hu1
      exact ih (by linarith) (by linarith) hs'
    · simp only [if_neg hc]
      refine ⟨_, _, rfl, hs, fun x hx => ?_⟩
      rw [← Option.some.inj hx]
      exact not_lt.1 hc

theorem twoSidedLoop_sat (hu : OpenUnif unif I) (mu sigma lower upper : ℝ) {pl pu : ℝ} (h0 : 0 < pl) (h1 : pl < pu)
    (h2 : pu ≤ 1) (n : ℕ) {o : ℝ} (ho0 : 0 < o) (ho1 : o < 1) {s : σ} (hs : I s) :
    ∃ r s', twoSidedLoop unif mu sigma lower upper pl pu n o s = .ok (r, s') ∧ I s' ∧
      ∀ x, r = some x → lower ≤ x ∧ x ≤ upper := by
  induction n generalizing o s with
  | zero => exact ⟨none, s, rfl, hs, by simp⟩
  | succ n ih =>
    obtain ⟨z, hz⟩ := phiInverse01 ho0 ho1
    unfold twoSidedLoop
    rw [if_neg (by norm_num; linarith)]
    simp only [Res.monad_bind_eq, hz, Res.bind_ok]
    by_cases hc : z * sigma + mu < lower ∨ z * sigma + mu > upper
    · obtain ⟨u, s', e, hu0, hu1, hs'⟩ := hu s hs
      simp only [if_pos hc, Res.monad_bind_eq, e, Res.bind_ok]
      have := between h1 hu0 hu1
      exact ih (by linarith) (by linarith) hs'
    · simp only [if_neg hc]
      refine ⟨_, _, rfl, hs, fun x hx => ?_⟩
      rw [← Option.some.inj hx]
      push Not at hc
      exact hc

theorem isEqual_one {p : ℝ} (h1 : p < 1) : IsEqual 1.0 p ↔ 1 - p ≤ 1e-6 := by
  unfold IsEqual
  rw [if_neg (by norm_num), abs_of_pos (by norm_num; exact h1)]
  norm_num

theorem lowerAcceptReject_in (hu : OpenUnif unif I) (mu : ℝ) {sigma : ℝ} (hsig : 0 < sigma) (lower : ℝ) {s : σ} (hs : I s) :
    DrawsIn (lowerAcceptReject unif mu sigma lower s) I (Ici lower) := by
  obtain ⟨u, s1, e, hu0, hu1, hs1⟩ := hu s hs
  have hp0 := Phi_pos ((lower - mu) / sigma)
  have hp1 := Phi_lt_one ((lower - mu) / sigma)
  unfold lowerAcceptReject
  simp only [Res.monad_bind_eq, fdiv, if_neg hsig.ne', Res.bind_ok, cdf01_ok, e]
  split_ifs with h1 h2
  · exact ⟨_, _, rfl, self_mem_Ici, hs1⟩
  · norm_num at h2
    linarith
  · have hb := between hp1 hu0 hu1
    obtain ⟨r, s2, e2, hs2, hr⟩ := lowerLoop_sat hu mu sigma lower hp0 (pu := 1.0) (by norm_num; exact hp1) (by norm_num) 99999
      (o := Phi ((lower - mu) / sigma) + u * (1.0 - Phi ((lower - mu) / sigma))) (by norm_num; linarith)
      (by norm_num; linarith) hs1
    simp only [e2, Res.bind_ok]
    cases r with
    | some x => exact ⟨_, _, rfl, hr x rfl, hs2⟩
    | none =>
      obtain ⟨u', s3, e3, hu0', hu1', hs3⟩ := hu s2 hs2
      simp only [pdf01_ok, Res.bind_ok, e3]
      refine ⟨_, _, rfl, ?_, hs3⟩
      have hm := mills' ((lower - mu) / sigma)
      have ht : lower ≤ mu + sigma * phi ((lower - mu) / sigma) / (1 - Phi ((lower - mu) / sigma)) := by
        have h3 : (lower - mu) / sigma ≤ phi ((lower - mu) / sigma) / (1 - Phi ((lower - mu) / sigma)) := by
          rw [le_div_iff₀ (by linarith)]
          exact hm
        have h4 := mul_le_mul_of_nonneg_left h3 hsig.le
        rw [mul_div_cancel₀ _ hsig.ne'] at h4
        rw [mul_div_assoc]
        linarith
      show lower ≤ lower + u' * 2 * (mu + sigma * phi ((lower - mu) / sigma) / (1.0 - Phi ((lower - mu) / sigma)) - lower)
      norm_num at ht ⊢
      have : 0 ≤ mu + sigma * phi ((lower - mu) / sigma) / (1 - Phi ((lower - mu) / sigma)) - lower := by linarith
      positivity

theorem twoSidedAcceptReject_in (hu : OpenUnif unif I) (mu : ℝ) {sigma : ℝ} (hsig : 0 < sigma) {lower upper : ℝ}
    (hlu : lower ≤ upper) {s : σ} (hs : I s) :
    DrawsIn (twoSidedAcceptReject unif mu sigma lower upper s) I (Icc lower upper) := by
  obtain ⟨u, s1, e, hu0, hu1, hs1⟩ := hu s hs
  have hp0 := Phi_pos ((lower - mu) / sigma)
  have hp1 := Phi_lt_one ((upper - mu) / sigma)
  have mid : (upper + lower) / 2.0 ∈ Icc lower upper := by
    constructor <;> norm_num <;> linarith
  unfold twoSidedAcceptReject
  simp only [Res.monad_bind_eq, fdiv, if_neg hsig.ne', Res.bind_ok, cdf01_ok, e]
  split_ifs with h1
  · exact ⟨_, _, rfl, mid, hs1⟩
  · have hlt : Phi ((lower - mu) / sigma) < Phi ((upper - mu) / sigma) := by
      refine Phi_strictMono (div_lt_div_of_pos_right ?_ hsig)
      rcases hlu.lt_or_eq with h | rfl
      · linarith
      · exfalso
        apply h1
        unfold IsEqual
        rw [sub_self, abs_zero]
        split_ifs <;> positivity
    have hb := between hlt hu0 hu1
    obtain ⟨r, s2, e2, hs2, hr⟩ := twoSidedLoop_sat hu mu sigma lower upper hp0 hlt hp1.le 99999
      (o := Phi ((lower - mu) / sigma) + u * (Phi ((upper - mu) / sigma) - Phi ((lower - mu) / sigma))) (by linarith)
      (by linarith) hs1
    rw [e2, Res.bind_ok]
    cases r with
    | some x => exact ⟨_, _, rfl, hr x rfl, hs2⟩
    | none => exact ⟨_, _, rfl, mid, hs2⟩

end NormalD

/-! ## Ranges -/

section

variable {σ : Type} {unif : σ → Res (ℝ × σ)} {I : σ → Prop}

theorem sd_zero_iff {s : ℝ} (hs : 0 ≤ s) : IsZero s ↔ s ≤ 1e-6 := by
  have := RootPhi.isZero_iff (a := s) (e := 1.0e-6) (by norm_num) (by norm_num)
  rw [this, abs_of_nonneg hs]
  norm_num

/-- A draw with a lower limit is at least that limit; it fails if and only if the standard deviation is at most 10⁻⁶ and
the mean less than the limit. -/
theorem drawLower_range (hu : OpenUnif unif I) (m : ℝ) {sd : ℝ} (hsd : 0 ≤ sd) (lower : ℝ) {s : σ} (hs : I s) :
    (1e-6 < sd ∨ lower ≤ m → DrawsIn ((NormalD.mk m sd).drawLowerTruncated unif lower s) I (Ici lower)) ∧
    (sd ≤ 1e-6 ∧ m < lower → ∃ e, (NormalD.mk m sd).drawLowerTruncated unif lower s = .throws e) := by
  constructor
  · intro h
    unfold drawLowerTruncated
    by_cases hz : IsZero (NormalD.mk m sd).stdDev
    · have hz' := (sd_zero_iff hsd).1 hz
      have hm : lower ≤ m := by
        rcases h with h | h
        · linarith
        · exact h
      rw [if_pos hz, if_pos hm]
      exact ⟨_, _, rfl, hm, hs⟩
    · rw [if_neg hz]
      have hz' : 1e-6 < sd := not_le.1 fun h => hz ((sd_zero_iff hsd).2 h)
      exact lowerAcceptReject_in hu m (by norm_num at hz'; linarith) lower hs
  · rintro ⟨h1, h2⟩
    unfold drawLowerTruncated
    rw [if_pos ((sd_zero_iff hsd).2 h1), if_neg (not_le.2 h2)]
    exact ⟨_, rfl⟩

/-- A draw with an upper limit is at most that limit. -/
theorem drawUpper_range (hu : OpenUnif unif I) (m : ℝ) {sd : ℝ} (hsd : 0 ≤ sd) (upper : ℝ) {s : σ} (hs : I s) :
    (1e-6 < sd ∨ m ≤ upper → DrawsIn ((NormalD.mk m sd).drawUpperTruncated unif upper s) I (Iic upper)) ∧
    (sd ≤ 1e-6 ∧ upper < m → ∃ e, (NormalD.mk m sd).drawUpperTruncated unif upper s = .throws e) := by
  constructor
  · intro h
    unfold drawUpperTruncated
    by_cases hz : IsZero (NormalD.mk m sd).stdDev
    · have hz' := (sd_zero_iff hsd).1 hz
      have hm : m ≤ upper := by
        rcases h with h | h
        · linarith
        · exact h
      rw [if_pos hz, if_pos hm]
      exact ⟨_, _, rfl, hm, hs⟩
    · rw [if_neg hz]
      have hz' : 1e-6 < sd := not_le.1 fun h => hz ((sd_zero_iff hsd).2 h)
      obtain ⟨x, s', e, hx, hs'⟩ := lowerAcceptReject_in hu m (by norm_num at hz'; linarith : 0 < sd) (2 * m - upper) hs
      rw [Res.monad_bind_eq, e, Res.bind_ok]
      refine ⟨_, _, rfl, ?_, hs'⟩
      have : 2 * m - upper ≤ x := hx
      show 2 * m - x ≤ upper
      linarith
  · rintro ⟨h1, h2⟩
    unfold drawUpperTruncated
    rw [if_pos ((sd_zero_iff hsd).2 h1), if_neg (not_le.2 h2)]
    exact ⟨_, rfl⟩

/-- A draw with two limits lies between them, the ends included. -/
theorem drawTwoSided_range (hu : OpenUnif unif I) (m : ℝ) {sd : ℝ} (hsd : 0 ≤ sd) (lower upper : ℝ) {s : σ} (hs : I s) :
    (lower ≤ upper → 1e-6 < sd ∨ lower ≤ m ∧ m ≤ upper →
      DrawsIn ((NormalD.mk m sd).drawTwoSidedTruncated unif lower upper s) I (Icc lower upper)) ∧
    (upper < lower ∨ sd ≤ 1e-6 ∧ (m < lower ∨ upper < m) →
      ∃ e, (NormalD.mk m sd).drawTwoSidedTruncated unif lower upper s = .throws e) := by
  constructor
  · intro hlu h
    unfold drawTwoSidedTruncated
    rw [if_neg (not_lt.2 hlu)]
    by_cases hz : IsZero (NormalD.mk m sd).stdDev
    · have hz' := (sd_zero_iff hsd).1 hz
      have hm : lower ≤ m ∧ m ≤ upper := by
        rcases h with h | h
        · linarith
        · exact h
      rw [if_pos hz, if_pos hm]
      exact ⟨_, _, rfl, hm, hs⟩
    · rw [if_neg hz]
      have hz' : 1e-6 < sd := not_le.1 fun h => hz ((sd_zero_iff hsd).2 h)
      exact twoSidedAcceptReject_in hu m (by norm_num at hz'; linarith) hlu hs
  · intro h
    unfold drawTwoSidedTruncated
    by_cases hlu : upper < lower
    · rw [if_pos hlu]
      exact ⟨_, rfl⟩
    · rw [if_neg hlu]
      rcases h with h | ⟨h1, h2⟩
      · exact absurd h hlu
      · rw [if_pos ((sd_zero_iff hsd).2 h1), if_neg (by
          rintro ⟨h3, h4⟩
          simp only at h3 h4
          rcases h2 with h2 | h2 <;> linarith)]
        exact ⟨_, rfl⟩

end

/-! ## The law of the draws -/

namespace NormalD

theorem toQuantile {m s : ℝ} (hs : 0 < s) (x : ℝ) : (normalLaw m s).real (Iic x) = Phi ((x - m) / s) := by
  rw [normalLaw, real_Iic hs]

/-- What `PhiInverse` of the standard normal distribution gives, on the scale of the draw. -/
theorem phiInverse_scaled {m s y q : ℝ} (hs : 0 < s) (hq : IsNormalQuantile m s y q) (h0 : 0 < y) (h1 : y < 1) :
    ∃ z, (NormalD.mk 0 1).phiInverse y = .ok z ∧ (|z * s + m - q| ≤ 1e-10 * s ∨
      |(normalLaw m s).real (Iic (z * s + m)) - y| ≤ 1e-6) := by
  obtain ⟨r, hr, rfl⟩ := quantile_form hs hq
  obtain ⟨q', z, hq', hz, h⟩ := phiInverse_partial (m := 0) moderate_one h0 h1
  obtain ⟨r', hr', rfl⟩ := quantile_form one_pos hq'
  obtain rfl : r' = r := Phi_strictMono.injective (hr'.trans hr.symm)
  refine ⟨z, hz, h.imp (fun h => ?_) fun h => ?_⟩
  · rw [show z * s + m - (m + s * r') = s * (z - (0 + 1 * r')) by ring, abs_mul, abs_of_pos hs, mul_comm]
    gcongr
  · rw [toQuantile hs]
    rw [toQuantile one_pos] at h
    rwa [show (z * s + m - m) / s = (z - 0) / 1 by field_simp; ring]

end NormalD

section

variable {σ : Type} {unif : σ → Res (ℝ × σ)}

/-- Draws with a lower limit are quantiles of the truncated law: for the uniform number `u` the result is, up to the
errors of `PhiInverse`, the number below which a normal number that is known to be greater than the limit lies with
probability `u`. Missing are numbers close to the limit, which may be rejected, and limits in the upper tail. -/
theorem drawLower_quantile_partial {m sd : ℝ} (hsd : 1e-6 < sd) {lower u q : ℝ} {s s' : σ} (hu : unif s = .ok (u, s'))
    (h0 : 0 < u) (h1 : u < 1) (hl : 1e-6 < (normalLaw m sd).real (Ioi lower))
    (hq : (normalLaw m sd).real (Ioc lower q) = u * (normalLaw m sd).real (Ioi lower))
    (hn : 1e-6 ≤ (normalLaw m sd).real (Ioc lower q)) (hn' : lower + 1e-10 * sd ≤ q) :
    ∃ x, (NormalD.mk m sd).drawLowerTruncated unif lower s = .ok (x, s') ∧ (|x - q| ≤ 1e-10 * sd ∨
      |(normalLaw m sd).real (Iic x) - (normalLaw m sd).real (Iic q)| ≤ 1e-6) := by
  have hsp : 0 < sd := by norm_num at hsd; linarith
  have hp := (normal_describes (m := m) hsp).1
  have hlq : lower ≤ q := by
    have : 0 ≤ 1e-10 * sd := by positivity
    linarith
  have hp0 := Phi_pos ((lower - m) / sd)
  have hp1 := Phi_lt_one ((lower - m) / sd)
  have hupp : (normalLaw m sd).real (Ioi lower) = 1 - Phi ((lower - m) / sd) := by
    rw [← compl_Iic, probReal_compl_eq_one_sub measurableSet_Iic, toQuantile hsp]
  rw [hupp] at hl hq
  rw [real_Ioc hsp hlq] at hq hn
  have hb := between hp1 h0 h1
  have hqq : IsNormalQuantile m sd (Phi ((lower - m) / sd) + u * (1 - Phi ((lower - m) / sd))) q := by
    unfold IsNormalQuantile
    rw [toQuantile hsp]
    linarith
  obtain ⟨z, hz, h⟩ := phiInverse_scaled hsp hqq (by linarith) (by linarith)
  have hge : ¬ z * sd + m < lower := by
    intro hc
    rcases h with h | h
    · have := (abs_le.1 h).1
      linarith
    · rw [toQuantile hsp] at h
      have h5 := (abs_le.1 h).1
      have h6 : Phi ((z * sd + m - m) / sd) < Phi ((lower - m) / sd) :=
        Phi_strictMono (div_lt_div_of_pos_right (by linarith) hsp)
      linarith
  refine ⟨z * sd + m, ?_, ?_⟩
  · unfold drawLowerTruncated
    rw [if_neg (by rw [sd_zero_iff hsp.le]; exact not_le.2 hsd)]
    unfold lowerAcceptReject
    simp only [Res.monad_bind_eq, fdiv, if_neg hsp.ne', Res.bind_ok, cdf01_ok, hu]
    rw [if_neg (by rw [isEqual_one hp1]; exact not_le.2 hl)]
    unfold lowerLoop
    norm_num only at hz ⊢
    simp only [Res.monad_bind_eq, hz, Res.bind_ok, if_neg hge]
  · refine h.imp id fun h => ?_
    have := hqq
    unfold IsNormalQuantile at this
    rw [this]
    exact h

/-- A limit in the upper tail: if the probability of a greater number is at most 10⁻⁶, every draw is the limit. -/
theorem drawLower_tail_violation {m sd : ℝ} (hsd : 1e-6 < sd) {lower u : ℝ} {s s' : σ} (hu : unif s = .ok (u, s'))
    (hl : (normalLaw m sd).real (Ioi lower) ≤ 1e-6) :
    (NormalD.mk m sd).drawLowerTruncated unif lower s = .ok (lower, s') := by
  have hsp : 0 < sd := by norm_num at hsd; linarith
  have hp := (normal_describes (m := m) hsp).1
  have hupp : (normalLaw m sd).real (Ioi lower) = 1 - Phi ((lower - m) / sd) := by
    rw [← compl_Iic, probReal_compl_eq_one_sub measurableSet_Iic, toQuantile hsp]
  rw [hupp] at hl
  unfold drawLowerTruncated
  rw [if_neg (by rw [sd_zero_iff hsp.le]; exact not_le.2 hsd)]
  unfold lowerAcceptReject
  simp only [Res.monad_bind_eq, fdiv, if_neg hsp.ne', Res.bind_ok, cdf01_ok, hu]
  rw [if_pos (by rw [isEqual_one (Phi_lt_one _)]; exact hl)]

/-- Two limits between which there is a probability of at most 10⁻⁶: every draw is the middle. -/
theorem drawTwoSided_tail_violation {m sd : ℝ} (hsd : 1e-6 < sd) {lower upper u : ℝ} {s s' : σ} (hlu : lower ≤ upper)
    (hu : unif s = .ok (u, s')) (hl : (normalLaw m sd).real (Ioc lower upper) ≤ 1e-6) :
    (NormalD.mk m sd).drawTwoSidedTruncated unif lower upper s = .ok ((lower + upper) / 2, s') := by
  have hsp : 0 < sd := by norm_num at hsd; linarith
  rw [real_Ioc hsp hlu] at hl
  have hle : Phi ((lower - m) / sd) ≤ Phi ((upper - m) / sd) :=
    Phi_strictMono.monotone (div_le_div_of_nonneg_right (by linarith) hsp.le)
  unfold drawTwoSidedTruncated
  rw [if_neg (not_lt.2 hlu), if_neg (by rw [sd_zero_iff hsp.le]; exact not_le.2 hsd)]
  unfold twoSidedAcceptReject
  simp only [Res.monad_bind_eq, fdiv, if_neg hsp.ne', Res.bind_ok, cdf01_ok, hu]
  rw [if_pos (by
    rw [isEqual_iff (Phi_pos _) (Phi_lt_one _), abs_of_nonneg (by linarith)]
    exact hl)]
  norm_num
  ring

/-- An atom in the upper tail: all uniform numbers that belong to greater numbers of a probability between 5·10⁻⁷ and
10⁻⁶ give the mean plus ten standard deviations. -/
theorem drawLower_atom_violation {m sd : ℝ} (hsd : 1e-6 < sd) {lower u : ℝ} {s s' : σ} (hu : unif s = .ok (u, s'))
    (hl : 1e-6 < (normalLaw m sd).real (Ioi lower)) (h1 : (1 - u) * (normalLaw m sd).real (Ioi lower) ≤ 1e-6)
    (h2 : 5e-7 ≤ (1 - u) * (normalLaw m sd).real (Ioi lower)) :
    (NormalD.mk m sd).drawLowerTruncated unif lower s = .ok (m + 10 * sd, s') := by
  have hsp : 0 < sd := by norm_num at hsd; linarith
  have hp := (normal_describes (m := m) hsp).1
  have hupp : (normalLaw m sd).real (Ioi lower) = 1 - Phi ((lower - m) / sd) := by
    rw [← compl_Iic, probReal_compl_eq_one_sub measurableSet_Iic, toQuantile hsp]
  rw [hupp] at hl h1 h2
  have hp0 := Phi_pos ((lower - m) / sd)
  have hp1 := Phi_lt_one ((lower - m) / sd)
  have h10 := Phi_ten
  have hz : (NormalD.mk 0 1).phiInverse (Phi ((lower - m) / sd) + u * (1 - Phi ((lower - m) / sd))) = .ok (0 + 10 * 1) := by
    refine (phiInverse_tail_violation one_pos).1 _ ?_ ?_
    · norm_num at *
      linarith
    · rw [toQuantile one_pos]
      norm_num at *
      linarith
  have hlow : (lower - m) / sd < 10 := by
    rw [← Phi_strictMono.lt_iff_lt]
    norm_num at *
    linarith
  rw [div_lt_iff₀ hsp] at hlow
  norm_num only at hz
  unfold drawLowerTruncated
  rw [if_neg (by rw [sd_zero_iff hsp.le]; exact not_le.2 hsd)]
  unfold lowerAcceptReject
  simp only [Res.monad_bind_eq, fdiv, if_neg hsp.ne', Res.bind_ok, cdf01_ok, hu]
  rw [if_neg (by rw [isEqual_one hp1]; exact not_le.2 hl)]
  unfold lowerLoop
  norm_num only
  simp only [Res.monad_bind_eq, hz, Res.bind_ok]
  rw [if_neg (by linarith)]
  norm_num
  ring

/-- The hypotheses are met, and so are those of `drawLower_tail_violation`: a limit at the mean, and the uniform number
1 - 10⁻⁶; and a limit of the mean plus five standard deviations. -/
example : 1e-6 < (normalLaw 0 1).real (Ioi 0) ∧ (1 - (1 - 1e-6)) * (normalLaw 0 1).real (Ioi 0) ≤ 1e-6 ∧
    5e-7 ≤ (1 - (1 - 1e-6)) * (normalLaw 0 1).real (Ioi 0) ∧ (normalLaw 0 1).real (Ioi 5) ≤ 1e-6 := by
  have hp := (normal_describes (m := 0) one_pos).1
  have hupp : ∀ x, (normalLaw 0 1).real (Ioi x) = 1 - Phi ((x - 0) / 1) := by
    intro x
    rw [← compl_Iic, probReal_compl_eq_one_sub measurableSet_Iic, toQuantile one_pos]
  rw [hupp, hupp]
  have := Phi_zero
  have := Phi_five
  norm_num at *
  rw [Phi_zero]
  norm_num
  linarith

/-- Draws with a lower limit of 0 and the uniform number 1/2: the median of the half-normal law, between a half and one
standard deviation. -/
example (un : ℕ → Res (ℝ × ℕ)) (hu : un 0 = .ok (1 / 2, 1)) :
    ∃ q x, (normalLaw 0 1).real (Ioc 0 q) = 1 / 4 ∧ (NormalD.mk 0 1).drawLowerTruncated un 0 0 = .ok (x, 1) ∧
      (|x - q| ≤ 1e-10 ∨ |(normalLaw 0 1).real (Iic x) - 3 / 4| ≤ 1e-6) := by
  obtain ⟨q, hq⟩ := Phi_surj (p := 3 / 4) (by norm_num) (by norm_num)
  have hp := (normal_describes (m := 0) one_pos).1
  have hupp : (normalLaw 0 1).real (Ioi 0) = 1 / 2 := by
    rw [← compl_Iic, probReal_compl_eq_one_sub measurableSet_Iic, toQuantile one_pos]
    norm_num
    rw [Phi_zero]
    norm_num
  have hq0 : 1e-10 ≤ q := by
    rw [← Phi_strictMono.le_iff_le, hq]
    have e : Phi 1e-10 - Phi 0 = ∫ x in (0 : ℝ)..1e-10, phi x := Phi_sub (by norm_num)
    have up : ∀ x, phi x ≤ 1 := by
      intro x
      unfold phi
      have h1 : exp (-x ^ 2 / 2) ≤ 1 := Real.exp_le_one_iff.2 (by nlinarith [sq_nonneg x])
      have h3 : (√(2 * π))⁻¹ ≤ 1 := by
        refine inv_le_one_of_one_le₀ ?_
        rw [Real.one_le_sqrt]
        linarith [Real.pi_gt_three]
      exact mul_le_one₀ h3 (exp_pos _).le h1
    have i1 := intervalIntegral.integral_mono_on (a := (0 : ℝ)) (b := 1e-10) (by norm_num) (phi_int.intervalIntegrable)
      (_root_.intervalIntegrable_const (c := (1 : ℝ)) (μ := volume)) fun x _ => up x
    rw [← e, intervalIntegral.integral_const, Phi_zero] at i1
    norm_num at *
    linarith
  have hq0' : 0 ≤ q := by norm_num at hq0; linarith
  have hI : (normalLaw 0 1).real (Ioc 0 q) = 1 / 4 := by
    rw [real_Ioc one_pos hq0']
    norm_num
    rw [hq, Phi_zero]
    norm_num
  have hIq : (normalLaw 0 1).real (Iic q) = 3 / 4 := by
    rw [toQuantile one_pos]
    norm_num
    exact hq
  obtain ⟨x, hx, h⟩ := drawLower_quantile_partial (m := 0) (sd := 1) (by norm_num) (lower := 0) (q := q) hu (by norm_num)
    (by norm_num) (by rw [hupp]; norm_num) (by rw [hupp, hI]; norm_num) (by rw [hI]; norm_num) (by norm_num at *; exact hq0)
  refine ⟨q, x, hI, hx, ?_⟩
  rw [hIq, mul_one] at h
  exact h

/-- A seeded generator, and a draw between 1 and 2 from a normal distribution with mean 0 and standard deviation 1. -/
example (b : Dsfmt.Build) (seed : BitVec 32) (s : Random) (hs : s.dsfmt.status.length = 192) :
    ∃ d, Dsfmt.initGenRand seed s.dsfmt = .ok d ∧
      DrawsIn ((NormalD.mk 0 1).drawTwoSidedTruncated (Random.unif01Open b) 1 2 { s with dsfmt := d })
        (fun s => Mt.Admissible s.dsfmt) (Icc 1 2) := by
  obtain ⟨d, hd, ha, -⟩ := Dsfmt.seeding_admissible seed hs
  exact ⟨d, hd, (drawTwoSided_range (unif01Open_range b).1 0 (by norm_num) 1 2 (s := { s with dsfmt := d }) ha).1
    (by norm_num) (by norm_num)⟩

end

end Verif
