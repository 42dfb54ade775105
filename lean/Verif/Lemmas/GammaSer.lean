import Verif.Lemmas.GammaLn
import Verif.Lemmas.Loop
import Mathlib.Analysis.SpecialFunctions.Integrals.Basic
import Mathlib.Analysis.SpecialFunctions.ImproperIntegrals
import Mathlib.MeasureTheory.Integral.IntervalIntegral.FundThmCalculus
import Mathlib.Analysis.SpecialFunctions.Pow.Deriv
import Mathlib.Tactic.LinearCombination

/-!
# The series of the incomplete gamma function
-/

namespace Verif
namespace Gam

/-- A loop whose states are a sequence. -/
theorem untilLoop_seq {σ α : Type} {step : σ → Res (Option α × σ)} (st : ℕ → σ) (val : ℕ → α)
    (stop : ℕ → Prop) (hstep : ∀ n, (∀ m ≤ n, ¬ stop m) → step (st n) = .ok (none, st (n + 1)))
    (hstop : ∀ n, (∀ m < n, ¬ stop m) → stop n → ∃ s', step (st n) = .ok (some (val n), s')) (hex : ∃ n, stop n) :
    ∃ n s', stop n ∧ (∀ m < n, ¬ stop m) ∧ untilLoop step (st 0) = .ok (val n, s') := by
  classical
  have hf := Nat.find_spec hex
  have hm : ∀ m < Nat.find hex, ¬ stop m := fun m h => Nat.find_min hex h
  obtain ⟨s', hs'⟩ := hstop _ hm hf
  refine ⟨Nat.find hex, s', hf, hm, ?_⟩
  have key : ∀ d n, n + d = Nat.find hex → untilLoop step (st n) = .ok (val (Nat.find hex), s') := by
    intro d
    induction d with
    | zero =>
      intro n hn
      rw [add_zero] at hn
      rw [untilLoop_unfold, hn, hs', Res.bind_ok]
    | succ d ih =>
      intro n hn
      rw [untilLoop_unfold, hstep n (fun m h => hm m (by omega)), Res.bind_ok]
      exact ih (n + 1) (by omega)
  exact key (Nat.find hex) 0 (by omega)

/-- The incomplete gamma function. -/
noncomputable def lowG (a x : ℝ) : ℝ := ∫ t in (0:ℝ)..x, t ^ (a - 1) * Real.exp (-t)

theorem lowG_int {a x : ℝ} (ha : 0 < a) :
    IntervalIntegrable (fun t : ℝ => t ^ (a - 1) * Real.exp (-t)) MeasureTheory.volume 0 x :=
  (intervalIntegral.intervalIntegrable_rpow' (by linarith)).mul_continuousOn
    (Real.continuous_exp.comp continuous_neg).continuousOn

theorem lowG_rec {a x : ℝ} (ha : 0 < a) (hx : 0 < x) :
    lowG a x = x ^ a * Real.exp (-x) / a + lowG (a + 1) x / a := by
  have h1 : ∫ t in (0:ℝ)..x, (a * (t ^ (a - 1) * Real.exp (-t)) - t ^ (a + 1 - 1) * Real.exp (-t)) =
      x ^ a * Real.exp (-x) - (0:ℝ) ^ a * Real.exp (-0) := by
    apply intervalIntegral.integral_eq_sub_of_hasDerivAt_of_le (f := fun t : ℝ => t ^ a * Real.exp (-t)) hx.le
    · apply Continuous.continuousOn
      exact (Real.continuous_rpow_const ha.le).mul (Real.continuous_exp.comp continuous_neg)
    · intro t ht
      have d1 := Real.hasDerivAt_rpow_const (x := t) (p := a) (Or.inl ht.1.ne')
      have d2 : HasDerivAt (fun t : ℝ => Real.exp (-t)) (Real.exp (-t) * -1) t := (hasDerivAt_neg t).exp
      have e : a * (t ^ (a - 1) * Real.exp (-t)) - t ^ (a + 1 - 1) * Real.exp (-t) =
          a * t ^ (a - 1) * Real.exp (-t) + t ^ a * (Real.exp (-t) * -1) := by
        rw [show a + 1 - 1 = a by ring]
        ring
      rw [e]
      exact d1.mul d2
    · exact ((lowG_int ha).const_mul a).sub (lowG_int (by linarith))
  rw [intervalIntegral.integral_sub ((lowG_int ha).const_mul a) (lowG_int (by linarith)),
    intervalIntegral.integral_const_mul, Real.zero_rpow ha.ne'] at h1
  unfold lowG
  field_simp
  linarith

theorem lowG_nonneg {a x : ℝ} (hx : 0 < x) : 0 ≤ lowG a x := by
  apply intervalIntegral.integral_nonneg hx.le
  intro t ht
  have := Real.rpow_nonneg ht.1 (a - 1)
  positivity

theorem lowG_succ_le {a x : ℝ} (ha : 0 < a) (hx : 0 < x) : lowG (a + 1) x ≤ x * lowG a x := by
  unfold lowG
  rw [← intervalIntegral.integral_const_mul]
  apply intervalIntegral.integral_mono_on_of_le_Ioo hx.le (lowG_int (by linarith)) ((lowG_int ha).const_mul x)
  intro t ht
  have e : t ^ (a + 1 - 1) = t * t ^ (a - 1) := by
    rw [show a + 1 - 1 = 1 + (a - 1) by ring, Real.rpow_add ht.1, Real.rpow_one]
  rw [e, mul_assoc]
  apply mul_le_mul_of_nonneg_right ht.2.le
  have := Real.rpow_nonneg ht.1.le (a - 1)
  positivity

theorem lowG_le {b x : ℝ} (hx : 0 < x) (hb : x < b) : lowG b x ≤ x ^ b * Real.exp (-x) / (b - x) := by
  have hb0 : 0 < b := by linarith
  have h1 := lowG_rec hb0 hx
  have h2 := lowG_succ_le hb0 hx
  rw [le_div_iff₀ (by linarith)]
  have h3 : b * lowG b x = x ^ b * Real.exp (-x) + lowG (b + 1) x := by
    conv_lhs => rw [h1]
    field_simp
  linarith

/-- The terms of the series. -/
noncomputable def term (a x : ℝ) : ℕ → ℝ
  | 0 => 1 / a
  | n + 1 => term a x n * (x / (a + (n + 1 : ℕ)))

/-- The sums of the series. -/
noncomputable def tsum' (a x : ℝ) : ℕ → ℝ
  | 0 => 1 / a
  | n + 1 => tsum' a x n + term a x (n + 1)

theorem term_pos {a x : ℝ} (ha : 0 < a) (hx : 0 < x) (n : ℕ) : 0 < term a x n := by
  induction n with
  | zero => unfold term; positivity
  | succ n ih => unfold term; positivity

theorem tsum_ge {a x : ℝ} (ha : 0 < a) (hx : 0 < x) (n : ℕ) : 1 / a ≤ tsum' a x n := by
  induction n with
  | zero => exact le_refl _
  | succ n ih => unfold tsum'; have := term_pos ha hx (n + 1); linarith

theorem term_le {a x : ℝ} (ha : 0 < a) (hx : 0 < x) (n : ℕ) : term a x n ≤ 1 / a * (x / (a + 1)) ^ n := by
  induction n with
  | zero => simp [term]
  | succ n ih =>
    unfold term
    rw [pow_succ, ← mul_assoc]
    apply mul_le_mul ih _ (by positivity) (by positivity)
    apply div_le_div_of_nonneg_left hx.le (by linarith)
    push_cast
    have : (0:ℝ) ≤ n := Nat.cast_nonneg n
    linarith

theorem lowG_series {a x : ℝ} (ha : 0 < a) (hx : 0 < x) (n : ℕ) :
    lowG a x = x ^ a * Real.exp (-x) * tsum' a x n + term a x n * lowG (a + n + 1) x / x ^ n := by
  induction n with
  | zero =>
    rw [lowG_rec ha hx]
    simp only [tsum', term, Nat.cast_zero, add_zero, pow_zero]
    ring
  | succ n ih =>
    rw [ih, lowG_rec (a := a + n + 1) (by positivity) hx]
    have e : x ^ (a + n + 1) = x ^ a * x ^ n * x := by
      rw [Real.rpow_add hx, Real.rpow_add hx, Real.rpow_natCast, Real.rpow_one]
    rw [e]
    have e1 : tsum' a x (n + 1) = tsum' a x n + term a x (n + 1) := rfl
    have e2 : term a x (n + 1) = term a x n * (x / (a + (n + 1 : ℕ))) := rfl
    rw [e1, e2]
    push_cast
    have h : (a + n + 1) ≠ 0 := by positivity
    rw [show a + ((n:ℝ) + 1) = a + n + 1 by ring]
    have hxn := (pow_pos hx n).ne'
    rw [pow_succ]
    field_simp
    ring

theorem EPS_pos : 0 < EPS := by unfold EPS; positivity

theorem gser_round {a x : ℝ} (ha : 0 < a) (hx : 0 < x) (n : ℕ) :
    gserRound x (a + n, term a x n, tsum' a x n) =
      if term a x (n + 1) < tsum' a x (n + 1) * EPS then
        .ok (some (tsum' a x (n + 1)), (a + (n + 1 : ℕ), term a x (n + 1), tsum' a x (n + 1)))
      else .ok (none, (a + (n + 1 : ℕ), term a x (n + 1), tsum' a x (n + 1))) := by
  unfold gserRound
  have h : a + n + 1 ≠ 0 := by positivity
  have e : a + (n:ℝ) + 1 = a + (n + 1 : ℕ) := by push_cast; ring
  simp only
  rw [fdiv_ok h, bind_ok', e]
  have et : term a x n * (x / (a + (n + 1 : ℕ))) = term a x (n + 1) := rfl
  have es : tsum' a x n + term a x (n + 1) = tsum' a x (n + 1) := rfl
  rw [et, es, abs_of_pos (term_pos ha hx (n + 1)),
    abs_of_pos (lt_of_lt_of_le (by positivity) (tsum_ge ha hx (n + 1)))]

theorem gser_loop {a x : ℝ} (ha : 0 < a) (hx : 0 < x) (h : x < a + 1) :
    ∃ n s', term a x (n + 1) < tsum' a x (n + 1) * EPS ∧
      untilLoop (gserRound x) (a, 1 / a, 1 / a) = .ok (tsum' a x (n + 1), s') := by
  obtain ⟨n, s', h1, _, h2⟩ := untilLoop_seq (step := gserRound x)
    (fun n => (a + n, term a x n, tsum' a x n)) (fun n => tsum' a x (n + 1))
    (fun n => term a x (n + 1) < tsum' a x (n + 1) * EPS)
    (fun n hn => by rw [gser_round ha hx, if_neg (hn n le_rfl)])
    (fun n _ hn => ⟨_, by rw [gser_round ha hx, if_pos hn]⟩)
    (by
      obtain ⟨n, hn⟩ := exists_pow_lt_of_lt_one EPS_pos ((div_lt_one (by linarith)).2 h)
      refine ⟨n, ?_⟩
      have hr : 0 ≤ x / (a + 1) := by positivity
      have hr1 : x / (a + 1) ≤ 1 := ((div_lt_one (by linarith)).2 h).le
      calc term a x (n + 1) ≤ 1 / a * (x / (a + 1)) ^ (n + 1) := term_le ha hx _
        _ ≤ 1 / a * (x / (a + 1)) ^ n := by
          apply mul_le_mul_of_nonneg_left _ (by positivity)
          exact pow_le_pow_of_le_one hr hr1 (Nat.le_succ n)
        _ < 1 / a * EPS := mul_lt_mul_of_pos_left hn (by positivity)
        _ ≤ _ := mul_le_mul_of_nonneg_right (tsum_ge ha hx _) EPS_pos.le)
  refine ⟨n, s', h1, ?_⟩
  have e : ((a + (0:ℕ), term a x 0, tsum' a x 0) : ℝ × ℝ × ℝ) = (a, 1 / a, 1 / a) := by
    simp [term, tsum']
  rw [← e]
  exact h2

theorem gser_spec {a x : ℝ} (ha : 0 < a) (ha100 : a < 100) (hx : 0 < x) (h : x < a + 1) :
    ∃ R, gser a x = .ok R ∧ 0 < R ∧ R * G a ≤ lowG a x ∧ lowG a x ≤ (1 + 101 * EPS) * (R * G a) := by
  obtain ⟨n, s', h1, h2⟩ := gser_loop ha hx h
  refine ⟨tsum' a x (n + 1) * Real.exp (-x + a * Real.log x - lnG a), ?_, ?_⟩
  · unfold gser
    rw [gammln_eq ha, bind_ok', fdiv_ok ha.ne', bind_ok', h2, bind_ok', flog_ok hx, bind_ok']
  have hS : 0 < tsum' a x (n + 1) := lt_of_lt_of_le (by positivity) (tsum_ge ha hx (n + 1))
  have hRG : tsum' a x (n + 1) * Real.exp (-x + a * Real.log x - lnG a) * G a =
      x ^ a * Real.exp (-x) * tsum' a x (n + 1) := by
    unfold G
    rw [mul_assoc, ← Real.exp_add, Real.rpow_def_of_pos hx, ← Real.exp_add]
    rw [mul_comm]
    congr 2
    ring
  rw [hRG]
  have hser := lowG_series ha hx (n + 1)
  have hT := term_pos ha hx (n + 1)
  have hb : x < a + (n + 1 : ℕ) + 1 := by push_cast; have : (0:ℝ) ≤ n := Nat.cast_nonneg n; linarith
  have hrem := lowG_le hx hb
  have h0 := lowG_nonneg (a := a + (n + 1 : ℕ) + 1) hx
  have hp := pow_pos hx (n + 1)
  refine ⟨by positivity, ?_, ?_⟩
  · rw [hser]
    have : 0 ≤ term a x (n + 1) * lowG (a + (n + 1 : ℕ) + 1) x / x ^ (n + 1) := by positivity
    linarith
  · rw [hser]
    have e : x ^ (a + (n + 1 : ℕ) + 1) = x ^ a * x ^ (n + 1) * x := by
      rw [Real.rpow_add hx, Real.rpow_add hx, Real.rpow_natCast, Real.rpow_one]
    have hden : 1 ≤ a + (n + 1 : ℕ) + 1 - x := by push_cast; have : (0:ℝ) ≤ n := Nat.cast_nonneg n; linarith
    have hxa := Real.rpow_pos_of_pos hx a
    have he := Real.exp_pos (-x)
    have key : term a x (n + 1) * lowG (a + (n + 1 : ℕ) + 1) x / x ^ (n + 1) ≤
        101 * EPS * (x ^ a * Real.exp (-x) * tsum' a x (n + 1)) := by
      calc term a x (n + 1) * lowG (a + (n + 1 : ℕ) + 1) x / x ^ (n + 1)
          ≤ term a x (n + 1) * (x ^ (a + (n + 1 : ℕ) + 1) * Real.exp (-x) / (a + (n + 1 : ℕ) + 1 - x)) /
            x ^ (n + 1) := by gcongr
        _ ≤ term a x (n + 1) * (x ^ (a + (n + 1 : ℕ) + 1) * Real.exp (-x) / 1) / x ^ (n + 1) := by
          gcongr
        _ = term a x (n + 1) * x * (x ^ a * Real.exp (-x)) := by rw [e]; field_simp
        _ ≤ (tsum' a x (n + 1) * EPS) * 101 * (x ^ a * Real.exp (-x)) := by
          have hE := EPS_pos
          gcongr
          linarith
        _ = _ := by ring
    linarith

end Gam
end Verif
