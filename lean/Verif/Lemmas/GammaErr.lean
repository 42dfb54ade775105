import Verif.Lemmas.GammaFrac

/-!
# The error of the continued fraction
-/

namespace Verif
namespace Gam

/-- What the fraction still lacks after `n` terms. -/
noncomputable def fr (a x : ℝ) (n : ℕ) : ℝ := (a - (n + 1)) * (K a x (n + 1) / K a x n)

/-- The rest of the fraction. -/
noncomputable def fF (a x : ℝ) (n : ℕ) : ℝ := (n + 1) * (K a x n / K a x (n + 1))

section
variable {a x : ℝ}

theorem fF_pos (hx : 0 < x) (n : ℕ) : 0 < fF a x n := by
  have h1 := K_pos a hx n
  have h2 := K_pos a hx (n + 1)
  unfold fF; positivity

theorem fF_eq (hx : 0 < x) (n : ℕ) : fF a x n = fb a x (n + 1) + fr a x (n + 1) := by
  have h1 := K_pos a hx n
  have h2 := K_pos a hx (n + 1)
  have h := K_rec (a := a) hx n
  unfold fF fb fr
  push_cast
  field_simp
  linarith

theorem fF_fr (hx : 0 < x) (n : ℕ) : fF a x n * fr a x n = fan a (n + 1) := by
  have h1 := K_pos a hx n
  have h2 := K_pos a hx (n + 1)
  unfold fF fr fan
  push_cast
  field_simp
  ring

theorem ratio_le (hx : 0 < x) (n : ℕ) : 0 < K a x (n + 1) / K a x n ∧ K a x (n + 1) / K a x n ≤ 1 :=
  ⟨div_pos (K_pos a hx _) (K_pos a hx _), (div_le_one (K_pos a hx _)).2 (K_anti a hx n)⟩

theorem f_inv (ha : 0 < a) (hx : a + 1 ≤ x) (n : ℕ) : fh a x n * (fc a x n + fr a x n) * fD a x n =
    K a x 0 * (1 + fr a x 0 / c0) * (fc a x n * (fD a x n + fr a x n)) := by
  have hx0 : 0 < x := by linarith
  induction n with
  | zero =>
    have hb : (x + 1 - a) ≠ 0 := by linarith
    have hK := K_pos a hx0 0
    have h0 : K a x 0 * (x + 1 - a + fr a x 0) = 1 := by
      have h := K_rec0 (a := a) hx0
      unfold fr
      push_cast
      field_simp
      simp only [zero_add]
      linarith
    have hc0 : c0 ≠ 0 := by have := c0_ge; linarith
    show 1 / (x + 1 - a) * (c0 + fr a x 0) * (x + 1 - a) = K a x 0 * (1 + fr a x 0 / c0) * (c0 * (x + 1 - a + fr a x 0))
    have e : K a x 0 * (1 + fr a x 0 / c0) * (c0 * (x + 1 - a + fr a x 0)) =
        (c0 + fr a x 0) * (K a x 0 * (x + 1 - a + fr a x 0)) := by
      field_simp
    rw [e, h0]
    field_simp
  | succ n ih =>
    have p1 := fc_pos ha hx n
    have p2 := fD_pos ha hx n
    have q2 := fD_pos ha hx (n + 1)
    have hF := fF_eq (a := a) hx0 n
    have hFr := fF_fr (a := a) hx0 n
    have ec : fc a x (n + 1) = fb a x (n + 1) + fan a (n + 1) / fc a x n := rfl
    have eD : fD a x (n + 1) = fb a x (n + 1) + fan a (n + 1) / fD a x n := rfl
    have e1 : fc a x (n + 1) + fr a x (n + 1) = fF a x n * ((fc a x n + fr a x n) / fc a x n) := by
      rw [ec, ← hFr]
      field_simp
      rw [hF]
      ring
    have e2 : fD a x (n + 1) + fr a x (n + 1) = fF a x n * ((fD a x n + fr a x n) / fD a x n) := by
      rw [eD, ← hFr]
      field_simp
      rw [hF]
      ring
    have e3 : fh a x (n + 1) * fD a x (n + 1) = fh a x n * fc a x (n + 1) := by
      show fh a x n * (fc a x (n + 1) / fD a x (n + 1)) * fD a x (n + 1) = _
      field_simp
    calc fh a x (n + 1) * (fc a x (n + 1) + fr a x (n + 1)) * fD a x (n + 1)
        = fh a x (n + 1) * fD a x (n + 1) * (fc a x (n + 1) + fr a x (n + 1)) := by ring
      _ = fh a x n * fc a x (n + 1) * (fF a x n * ((fc a x n + fr a x n) / fc a x n)) := by rw [e3, e1]
      _ = fc a x (n + 1) * fF a x n / (fc a x n * fD a x n) *
          (fh a x n * (fc a x n + fr a x n) * fD a x n) := by field_simp
      _ = _ := by
        rw [ih, e2]
        field_simp

theorem f_ratio (ha : 0 < a) (hx : a + 1 ≤ x) (n : ℕ) : 0 < fD a x (n + 1) + fr a x (n + 1) ∧
    |fr a x (n + 1)| ≤ (n + 2) * (fD a x (n + 1) + fr a x (n + 1)) := by
  have hx0 : 0 < x := by linarith
  have p := fD_pos ha hx (n + 1)
  have hn : (0:ℝ) ≤ n := Nat.cast_nonneg n
  obtain ⟨k1, k2⟩ := ratio_le (a := a) hx0 (n + 1)
  by_cases h : (n:ℝ) + 2 ≤ a
  · have h1 : 0 ≤ fr a x (n + 1) := by
      unfold fr
      push_cast
      apply mul_nonneg _ k1.le
      linarith
    refine ⟨by linarith, ?_⟩
    rw [abs_of_nonneg h1]
    nlinarith
  · push Not at h
    have h1 : fr a x (n + 1) ≤ 0 := by
      unfold fr
      push_cast
      apply mul_nonpos_of_nonpos_of_nonneg _ k1.le
      linarith
    have h2 : -(n + 2 - a) ≤ fr a x (n + 1) := by
      unfold fr
      push_cast
      nlinarith
    have h3 : 1 ≤ fD a x (n + 1) + fr a x (n + 1) := by
      by_cases h4 : a < n + 1
      · have : x + n + 2 ≤ fD a x (n + 1) := fseq_ge_x ha hx (by linarith) n h4
        linarith
      · push Not at h4
        have : fb a x (n + 1) ≤ fD a x (n + 1) := fseq_ge_b ha hx (by linarith) n h4
        unfold fb at this
        push_cast at this
        linarith
    refine ⟨by linarith, ?_⟩
    rw [abs_of_nonpos h1]
    nlinarith

theorem f_err (ha : 0 < a) (ha100 : a < 100) (hx : a + 1 ≤ x) {n : ℕ} (hn : n ≤ 3700000)
    (hs : |fc a x (n + 1) / fD a x (n + 1) - 1| ≤ EPS) :
    |K a x 0 - fh a x (n + 1)| ≤ 2e-9 * fh a x (n + 1) := by
  have hx0 : 0 < x := by linarith
  have hinv := f_inv ha hx (n + 1)
  obtain ⟨hp, hr⟩ := f_ratio ha hx n
  have pc := fc_pos ha hx (n + 1)
  have pD := fD_pos ha hx (n + 1)
  have ph := fh_pos ha hx (n + 1)
  set c := fc a x (n + 1)
  set D := fD a x (n + 1)
  set r := fr a x (n + 1)
  set h := fh a x (n + 1)
  set k := K a x 0 * (1 + fr a x 0 / c0) with hk
  have hEv : EPS = 1 / 2 ^ 52 := rfl
  -- c is close to D
  have h1 : |c - D| ≤ EPS * D := by
    rw [div_sub_one pD.ne', abs_div, abs_of_pos pD, div_le_iff₀ pD] at hs
    exact hs
  have h2 : D ≤ 2 * c := by
    have := (abs_le.1 h1).1
    have : EPS * D ≤ D / 2 := by rw [hEv]; norm_num; linarith
    linarith
  have e : k - h = h * (r * (D - c)) / (c * (D + r)) := by
    have hne : c * (D + r) ≠ 0 := by positivity
    rw [eq_div_iff hne]
    linarith
  have hn' : (n:ℝ) ≤ 3700000 := by exact_mod_cast hn
  have h3 : |k - h| ≤ 1.7e-9 * h := by
    rw [e, abs_div, abs_mul, abs_mul, abs_of_pos ph, abs_of_pos (mul_pos pc hp), div_le_iff₀ (mul_pos pc hp),
      abs_sub_comm]
    have h4 : |r| * |c - D| ≤ ((n + 2) * (D + r)) * (EPS * (2 * c)) :=
      mul_le_mul hr (h1.trans (mul_le_mul_of_nonneg_left h2 EPS_pos.le)) (abs_nonneg _) (by positivity)
    have h5 : ((n:ℝ) + 2) * (EPS * 2) ≤ 1.7e-9 := by
      have : EPS * 2 ≤ 4.45e-16 := by rw [hEv]; norm_num
      calc ((n:ℝ) + 2) * (EPS * 2) ≤ 3700002 * 4.45e-16 :=
            mul_le_mul (by linarith) this (by have := EPS_pos; positivity) (by norm_num)
        _ ≤ 1.7e-9 := by norm_num
    calc h * (|r| * |c - D|) ≤ h * (((n + 2) * (D + r)) * (EPS * (2 * c))) :=
          mul_le_mul_of_nonneg_left h4 ph.le
      _ = (((n:ℝ) + 2) * (EPS * 2)) * (h * (c * (D + r))) := by ring
      _ ≤ 1.7e-9 * (h * (c * (D + r))) := mul_le_mul_of_nonneg_right h5 (by positivity)
      _ = _ := by ring
  -- the start of c
  have hK := K_pos a hx0 0
  have h6 : |k - K a x 0| ≤ 1e-12 * K a x 0 := by
    obtain ⟨k1, k2⟩ := ratio_le (a := a) hx0 0
    have e2 : k - K a x 0 = K a x 0 * (fr a x 0 / c0) := by rw [hk]; ring
    have hc0 := c0_ge
    rw [e2, abs_mul, abs_of_pos hK, mul_comm]
    apply mul_le_mul_of_nonneg_right _ hK.le
    rw [abs_div, abs_of_pos (by linarith : 0 < c0), div_le_iff₀ (by linarith)]
    have h7 : |fr a x 0| ≤ 99 := by
      unfold fr
      push_cast
      rw [abs_mul, abs_of_pos k1]
      have : |a - (0 + 1)| ≤ 99 := by rw [abs_le]; constructor <;> linarith
      calc |a - (0 + 1)| * _ ≤ 99 * 1 := mul_le_mul this k2 k1.le (by norm_num)
        _ = 99 := by norm_num
    refine h7.trans ?_
    have h8 : (2:ℝ) ^ 60 ≤ c0 := by unfold c0; exact pow_le_pow_right₀ (by norm_num) (by norm_num)
    have : (99:ℝ) ≤ 1e-12 * 2 ^ 60 := by norm_num
    refine this.trans (mul_le_mul_of_nonneg_left h8 (by norm_num))
  rw [abs_le] at h3 h6 ⊢
  norm_num at h3 h6 ⊢
  constructor <;> linarith [h3.1, h3.2, h6.1, h6.2]

theorem gcf_spec (ha : 0 < a) (ha100 : a < 100) (hx : a + 1 ≤ x) :
    ∃ Q, gcf a x = .ok Q ∧ 0 < Q ∧ |(Real.Gamma a - lowG a x) - Q * G a| ≤ 2e-9 * (Q * G a) := by
  have hx0 : 0 < x := by linarith
  obtain ⟨n, s', hn, hs, hl⟩ := gcf_loop ha ha100 hx
  have ph := fh_pos ha hx (n + 1)
  refine ⟨Real.exp (-x + a * Real.log x - lnG a) * fh a x (n + 1), ?_, by positivity, ?_⟩
  · unfold gcf
    have e0 : (1:ℝ) / FPMIN = c0 := by unfold FPMIN c0; rw [one_div_one_div]
    have hF : FPMIN ≠ 0 := by unfold FPMIN; positivity
    simp only
    rw [gammln_eq ha, bind_ok', fdiv_ok hF, bind_ok', e0, fdiv_ok (show x + 1 - a ≠ 0 by linarith), bind_ok', hl,
      bind_ok', flog_ok hx0, bind_ok']
  · have e : Real.exp (-x + a * Real.log x - lnG a) * fh a x (n + 1) * G a =
        x ^ a * Real.exp (-x) * fh a x (n + 1) := by
      unfold G
      rw [mul_right_comm, ← Real.exp_add, Real.rpow_def_of_pos hx0, ← Real.exp_add]
      congr 2
      ring
    rw [tail_eq ha hx0, e, ← mul_sub, abs_mul]
    have hp : 0 < x ^ a * Real.exp (-x) := by positivity
    rw [abs_of_pos hp]
    have := mul_le_mul_of_nonneg_left (f_err ha ha100 hx hn hs) hp.le
    linarith

end

end Gam
end Verif
