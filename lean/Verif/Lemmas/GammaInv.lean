import Verif.Lemmas.GammaErr
import Verif.Lemmas.Lanczos3

/-!
# The incomplete gamma function: accuracy, and that the inverse is defined
-/

namespace Verif
namespace Gam

theorem lowG_le_Gamma {a x : ℝ} (ha : 0 < a) (hx : 0 < x) : lowG a x ≤ Real.Gamma a := by
  have h := tail_eq ha hx
  have hK := K_pos a hx 0
  have : 0 < x ^ a * Real.exp (-x) * K a x 0 := by positivity
  linarith

theorem gammp_ser {a x : ℝ} (ha : 0 < a) (ha100 : a < 100) (hx : 0 < x) (h : x < a + 1) :
    ∃ R, gammp a x = .ok R ∧ |R - lowG a x / Real.Gamma a| ≤ 1e-11 * (lowG a x / Real.Gamma a) := by
  obtain ⟨R, e, hR, h1, h2⟩ := gser_spec ha ha100 hx h
  refine ⟨R, ?_, ?_⟩
  · unfold gammp gammpWith
    rw [if_neg (by push Not; exact ⟨hx.le, ha⟩), if_neg hx.ne', if_neg (not_le.2 ha100), if_pos h, e]
  · have hg := Real.Gamma_pos_of_pos ha
    have hG := G_close ha
    have hE : 101 * EPS ≤ 1e-13 := by unfold EPS; norm_num
    have hRG : 0 < R * G a := mul_pos hR (G_pos a)
    have h3 : lowG a x ≤ R * G a + 1e-13 * (R * G a) := by
      have := mul_le_mul_of_nonneg_right hE hRG.le
      linarith
    have h4 : |R * G a - R * Real.Gamma a| ≤ 6e-12 * (R * Real.Gamma a) := by
      rw [← mul_sub, abs_mul, abs_of_pos hR]
      have := mul_le_mul_of_nonneg_left hG hR.le
      linarith
    have h5 := abs_le.1 h4
    have h6 : |R * Real.Gamma a - lowG a x| ≤ 1e-11 * lowG a x := by
      rw [abs_le]
      have := mul_pos hR hg
      norm_num at h3 h5 ⊢
      constructor <;> linarith [h5.1, h5.2]
    have e2 : R - lowG a x / Real.Gamma a = (R * Real.Gamma a - lowG a x) / Real.Gamma a := by
      field_simp
    rw [e2, abs_div, abs_of_pos hg, ← mul_div_assoc]
    exact div_le_div_of_nonneg_right h6 hg.le

theorem gammp_frac {a x : ℝ} (ha : 0 < a) (ha100 : a < 100) (h : a + 1 ≤ x) :
    ∃ R, gammp a x = .ok R ∧ |R - lowG a x / Real.Gamma a| ≤ 3e-9 * (1 - lowG a x / Real.Gamma a) := by
  have hx : 0 < x := by linarith
  obtain ⟨Q, e, hQ, h1⟩ := gcf_spec ha ha100 h
  refine ⟨1 - Q, ?_, ?_⟩
  · unfold gammp gammpWith
    rw [if_neg (by push Not; exact ⟨hx.le, ha⟩), if_neg hx.ne', if_neg (not_le.2 ha100), if_neg (not_lt.2 h), e]
    rfl
  · have hg := Real.Gamma_pos_of_pos ha
    have hG := G_close ha
    have hl := lowG_le_Gamma ha hx
    have h4 : |Q * G a - Q * Real.Gamma a| ≤ 6e-12 * (Q * Real.Gamma a) := by
      rw [← mul_sub, abs_mul, abs_of_pos hQ]
      have := mul_le_mul_of_nonneg_left hG hQ.le
      linarith
    have h5 := abs_le.1 h4
    have h7 := abs_le.1 h1
    have hQG : 0 < Q * G a := mul_pos hQ (G_pos a)
    have hQg : 0 < Q * Real.Gamma a := mul_pos hQ hg
    have h6 : |Q * Real.Gamma a - (Real.Gamma a - lowG a x)| ≤ 3e-9 * (Real.Gamma a - lowG a x) := by
      rw [abs_le]
      norm_num at h5 h7 ⊢
      constructor <;> linarith [h5.1, h5.2, h7.1, h7.2]
    have e2 : 1 - Q - lowG a x / Real.Gamma a = -((Q * Real.Gamma a - (Real.Gamma a - lowG a x)) / Real.Gamma a) := by
      field_simp
      ring
    have e3 : 3e-9 * (1 - lowG a x / Real.Gamma a) = 3e-9 * (Real.Gamma a - lowG a x) / Real.Gamma a := by
      field_simp
    rw [e2, abs_neg, abs_div, abs_of_pos hg, e3]
    exact div_le_div_of_nonneg_right h6 hg.le

theorem nodes_mem : ∀ p ∈ nodes.zip weights, 0 < p.1 ∧ p.1 < 1 := by
  intro p hp
  have h : p.1 ∈ nodes := (List.of_mem_zip hp).1
  revert h
  unfold nodes
  simp only [List.mem_cons, List.not_mem_nil, or_false]
  rintro (h | h | h | h | h | h | h | h | h | h | h | h | h | h | h | h | h | h) <;> rw [h] <;> norm_num

theorem quadLoop_ok (ex : ℝ → ℝ) (a1 lna1 : ℝ) {x xu : ℝ} (hx : 0 < x) (hxu : 0 ≤ xu) (ps : List (ℝ × ℝ))
    (hp : ∀ p ∈ ps, 0 < p.1 ∧ p.1 < 1) : ∀ s, ∃ r, quadLoop ex a1 lna1 x xu ps s = .ok r := by
  induction ps with
  | nil => intro s; exact ⟨s, rfl⟩
  | cons p ps ih =>
    intro s
    obtain ⟨q1, q2⟩ := hp p (List.mem_cons_self ..)
    have ht : 0 < x + (xu - x) * p.1 := by nlinarith
    unfold quadLoop
    simp only
    rw [flog_ok ht, bind_ok']
    exact ih (fun q hq => hp q (List.mem_cons_of_mem _ hq)) _

theorem gammpapprox_ok (ex : ℝ → ℝ) {a x : ℝ} (ha : 1 < a) (hx : 0 < x) (psig : ℤ) :
    ∃ r, gammpapproxWith ex a x psig = .ok r := by
  unfold gammpapproxWith
  have h1 : 0 < a - 1 := by linarith
  simp only
  rw [flog_ok h1, bind_ok', fsqrt_ok h1.le, bind_ok', gammln_eq (by linarith), bind_ok']
  have hxu : (0:ℝ) ≤ if x > a - 1 then max (a - 1 + 11.5 * √(a - 1)) (x + 6 * √(a - 1))
      else max 0.0 (min (a - 1 - 7.5 * √(a - 1)) (x - 5 * √(a - 1))) := by
    split_ifs
    · exact le_max_of_le_right (by positivity)
    · exact le_max_of_le_left (by norm_num)
  obtain ⟨r, hr⟩ := quadLoop_ok ex (a - 1) (Real.log (a - 1)) hx hxu _ nodes_mem 0
  rw [hr, bind_ok']
  split_ifs <;> exact ⟨_, rfl⟩

theorem gammp_ok {a x : ℝ} (ha : 0 < a) (hx : 0 ≤ x) : ∃ r, gammp a x = .ok r := by
  rcases hx.eq_or_lt with rfl | hx
  · refine ⟨0, ?_⟩
    unfold gammp gammpWith
    rw [if_neg (by push Not; exact ⟨le_refl _, ha⟩), if_pos rfl]
  by_cases h1 : a < 100
  · by_cases h2 : x < a + 1
    · obtain ⟨R, e, _⟩ := gammp_ser ha h1 hx h2
      exact ⟨R, e⟩
    · obtain ⟨R, e, _⟩ := gammp_frac ha h1 (not_lt.1 h2)
      exact ⟨R, e⟩
  · obtain ⟨r, hr⟩ := gammpapprox_ok Real.exp (by linarith : 1 < a) hx 1
    refine ⟨r, ?_⟩
    unfold gammp gammpWith
    rw [if_neg (by push Not; exact ⟨hx.le, ha⟩), if_neg hx.ne', if_pos (not_lt.1 h1)]
    exact hr

theorem fpow_ok {x y : ℝ} (h : 0 < x) : fpow x y = .ok (x ^ y) := by
  unfold fpow
  rw [if_neg (by push Not; intro h'; linarith), if_neg (by push Not; intro h'; linarith)]

theorem invStart_ok {p a : ℝ} (hp : 0 < p) (hp1 : p < 1) (ha : 1 < a) : ∃ x, invStart p a = .ok x ∧ 0 < x := by
  unfold invStart
  simp only
  have z5 : (0.5:ℝ) = 1 / 2 := by norm_num
  have z1 : (1.0:ℝ) = 1 := by norm_num
  have h1 : (0:ℝ) < if p < 0.5 then p else 1.0 - p := by split_ifs <;> linarith
  have h2 : (if p < 0.5 then p else 1.0 - p) ≤ 1 := by split_ifs <;> linarith
  have h3 : 0 ≤ -2.0 * Real.log (if p < 0.5 then p else 1.0 - p) := by
    have := Real.log_nonpos h1.le h2
    norm_num
    linarith
  have h4 : (1. + √(-2.0 * Real.log (if p < 0.5 then p else 1.0 - p)) *
      (0.99229 + √(-2.0 * Real.log (if p < 0.5 then p else 1.0 - p)) * 0.04481) : ℝ) ≠ 0 := by
    have := Real.sqrt_nonneg (-2.0 * Real.log (if p < 0.5 then p else 1.0 - p))
    positivity
  rw [flog_ok h1, bind_ok', fsqrt_ok h3, bind_ok', fdiv_ok h4, bind_ok', fdiv_ok (by positivity), bind_ok',
    fsqrt_ok (by linarith), bind_ok', fdiv_ok (by have := Real.sqrt_pos.2 (by linarith : 0 < a); positivity), bind_ok']
  exact ⟨_, rfl, lt_max_of_lt_left (by norm_num)⟩

theorem invStart1_ok {p a : ℝ} (hp : 0 < p) (hp1 : p < 1) (ha : 0 < a) (ha1 : a ≤ 1) :
    ∃ x, invStart1 p a = .ok x ∧ 0 < x := by
  unfold invStart1
  simp only
  have e0 : (1.0 - a * (0.253 + a * 0.12) : ℝ) = 1 - a * (253 / 1000 + a * (12 / 100)) := by norm_num
  have t1 : (0:ℝ) < 1 - a * (253 / 1000 + a * (12 / 100)) := by nlinarith
  have t2 : 1 - a * (253 / 1000 + a * (12 / 100)) < (1:ℝ) := by
    have : 0 < a * (253 / 1000 + a * (12 / 100)) := by positivity
    linarith
  rw [← e0] at t1 t2
  generalize (1.0 - a * (0.253 + a * 0.12) : ℝ) = t at t1 t2 ⊢
  have z1 : (1.0:ℝ) = 1 := by norm_num
  by_cases h : p < t
  · rw [if_pos h, fdiv_ok t1.ne', bind_ok', fdiv_ok ha.ne', bind_ok', fpow_ok (by positivity)]
    exact ⟨_, rfl, by positivity⟩
  · rw [if_neg h, fdiv_ok (by linarith), bind_ok']
    have h1 : 0 < 1.0 - (p - t) / (1.0 - t) := by
      rw [z1, sub_pos, div_lt_one (by linarith)]
      linarith
    have h2 : 1.0 - (p - t) / (1.0 - t) ≤ 1 := by
      have : 0 ≤ (p - t) / (1.0 - t) := div_nonneg (by linarith) (by linarith)
      linarith
    rw [flog_ok h1, bind_ok']
    refine ⟨_, rfl, ?_⟩
    have := Real.log_nonpos h1.le h2
    linarith

theorem invLoop_ok {p a : ℝ} (a1 lna1 afac gln : ℝ) (ha : 0 < a) (hf : a > 1 → 0 < afac) (n : ℕ) :
    ∀ {x : ℝ}, 0 < x → ∃ y, invLoop p a a1 lna1 afac gln n x = .ok y ∧ 0 < y := by
  induction n with
  | zero => intro x hx; exact ⟨x, rfl, hx⟩
  | succ n ih =>
    intro x hx
    have z0 : (0.0:ℝ) = 0 := by norm_num
    have z1 : (1.0:ℝ) = 1 := by norm_num
    obtain ⟨g, hg⟩ := gammp_ok ha hx.le
    have hd : ∃ t, invDens a a1 lna1 afac gln x = .ok t ∧ 0 < t := by
      unfold invDens
      rw [flog_ok hx, bind_ok']
      by_cases h : a > 1.0
      · rw [if_pos h]
        have := hf (by linarith)
        exact ⟨_, rfl, by positivity⟩
      · rw [if_neg h]
        exact ⟨_, rfl, Real.exp_pos _⟩
    obtain ⟨t, ht, ht0⟩ := hd
    unfold invLoop
    rw [if_neg (by rw [z0]; exact not_le.2 hx), hg, bind_ok']
    simp only
    rw [ht, bind_ok', fdiv_ok ht0.ne', bind_ok', fdiv_ok hx.ne', bind_ok']
    have hden : (1.0 - 0.5 * min 1.0 ((g - p) / t * ((a - 1.0) / x - 1)) : ℝ) ≠ 0 := by
      have h := min_le_left (1.0:ℝ) ((g - p) / t * ((a - 1.0) / x - 1))
      generalize min (1.0:ℝ) ((g - p) / t * ((a - 1.0) / x - 1)) = m at h ⊢
      have z5 : (0.5:ℝ) = 1 / 2 := by norm_num
      rw [z5, z1] at *
      intro hc
      linarith
    rw [fdiv_ok hden, bind_ok']
    generalize (g - p) / t / (1.0 - 0.5 * min 1.0 ((g - p) / t * ((a - 1.0) / x - 1))) = d
    have hx' : (0:ℝ) < if x - d ≤ 0.0 then 0.5 * (x - d + d) else x - d := by
      split_ifs with h
      · rw [sub_add_cancel]; positivity
      · rw [z0] at h; exact not_le.1 h
    split_ifs with h1 h2
    · rw [if_pos h1] at hx'
      exact ⟨_, rfl, hx'⟩
    · rw [if_pos h1] at hx'
      exact ih hx'
    · rw [if_neg h1] at hx'
      exact ⟨_, rfl, hx'⟩
    · rw [if_neg h1] at hx'
      exact ih hx'

theorem invgammp_ok {p a : ℝ} (ha : 0 < a) (hp : 0 < p) : ∃ y, invgammp p a = .ok y ∧ 0 < y := by
  have z0 : (0.0:ℝ) = 0 := by norm_num
  have z1 : (1.0:ℝ) = 1 := by norm_num
  unfold invgammp
  simp only
  rw [gammln_eq ha, bind_ok', if_neg (by rw [z0]; exact not_le.2 ha)]
  by_cases h1 : p ≥ 1.0
  · rw [if_pos h1, fsqrt_ok ha.le, bind_ok']
    exact ⟨_, rfl, lt_max_of_lt_left (by norm_num)⟩
  rw [if_neg h1, if_neg (by rw [z0]; exact not_le.2 hp)]
  have hp1 : p < 1 := by rw [z1] at h1; exact not_le.1 h1
  by_cases h2 : a > 1.0
  · rw [if_pos h2, flog_ok (by linarith), bind_ok']
    obtain ⟨x, hx, hx0⟩ := invStart_ok hp hp1 (by linarith : 1 < a)
    rw [hx, bind_ok']
    exact invLoop_ok _ _ _ _ ha (fun _ => Real.exp_pos _) _ hx0
  · rw [if_neg h2]
    have h2' : a ≤ 1 := by rw [z1] at h2; exact not_lt.1 h2
    obtain ⟨x, hx, hx0⟩ := invStart1_ok hp hp1 ha h2'
    rw [hx, bind_ok']
    exact invLoop_ok _ _ _ _ ha (fun h => absurd h (not_lt.2 h2')) _ hx0

theorem quad_zero {ex : ℝ → ℝ} {a1 lna1 x xu : ℝ}
    (h : ∀ y, 0 < y → y < 1 → 0 < x + (xu - x) * y ∧
      ex (-(x + (xu - x) * y - a1) + a1 * (Real.log (x + (xu - x) * y) - lna1)) = 0)
    (ps : List (ℝ × ℝ)) (hp : ∀ p ∈ ps, 0 < p.1 ∧ p.1 < 1) : quadLoop ex a1 lna1 x xu ps 0 = .ok 0 := by
  induction ps with
  | nil => rfl
  | cons p ps ih =>
    obtain ⟨q1, q2⟩ := hp p (List.mem_cons_self ..)
    obtain ⟨h1, h2⟩ := h p.1 q1 q2
    unfold quadLoop
    simp only
    rw [flog_ok h1, bind_ok', h2, mul_zero, add_zero]
    exact ih (fun q hq => hp q (List.mem_cons_of_mem _ hq))

/-- The integral for integers. -/
theorem lowG_nat {x : ℝ} (hx : 0 < x) (n : ℕ) : lowG (n + 1) x / Real.Gamma (n + 1) =
    1 - ∑ j ∈ Finset.range (n + 1), Real.exp (-x) * x ^ j / j.factorial := by
  induction n with
  | zero =>
    have h1 := tail_eq (a := 1) one_pos hx
    have h2 := K_rec0 (a := 1) hx
    have h3 : x * K 1 x 0 = 1 := by linarith
    rw [Real.rpow_one, mul_assoc, mul_comm (Real.exp (-x)), ← mul_assoc, h3, one_mul, Real.Gamma_one] at h1
    norm_num
    linarith
  | succ n ih =>
    have hp : (0:ℝ) < n + 1 := by positivity
    have h1 := lowG_rec hp hx
    rw [Finset.sum_range_succ, ← sub_sub, ← ih]
    rw [Real.Gamma_nat_eq_factorial] at *
    have e : ((n + 1 : ℕ) : ℝ) + 1 = (n : ℝ) + 1 + 1 := by push_cast; ring
    rw [Real.Gamma_nat_eq_factorial, e, h1, Nat.factorial_succ]
    have hx1 : x ^ ((n : ℝ) + 1) = x ^ (n + 1) := by
      rw [show ((n : ℝ) + 1) = ((n + 1 : ℕ) : ℝ) by push_cast; ring, Real.rpow_natCast]
    have hf : (n.factorial : ℝ) ≠ 0 := by positivity
    rw [hx1]
    push_cast
    field_simp
    ring

end Gam
end Verif
