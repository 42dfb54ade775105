import Verif.Lemmas.GammaTail

/-!
# The continued fraction of the code
-/

namespace Verif
namespace Gam

/-- The terms `b` of the fraction. -/
noncomputable def fb (a x : ℝ) (n : ℕ) : ℝ := x + 1 - a + 2 * n

/-- The terms `an` of the fraction. -/
noncomputable def fan (a : ℝ) (n : ℕ) : ℝ := -(n : ℝ) * (n - a)

/-- The recursion of `c` and of the reciprocal of `d`. -/
noncomputable def fseq (a x e : ℝ) : ℕ → ℝ
  | 0 => e
  | n + 1 => fb a x (n + 1) + fan a (n + 1) / fseq a x e n

theorem fseq_ge {a x e : ℝ} (ha : 0 < a) (hx : a + 1 ≤ x) (he : 1 ≤ e) (n : ℕ) :
    (n : ℝ) + 1 ≤ fseq a x e n := by
  induction n with
  | zero => simpa [fseq] using he
  | succ n ih =>
    have hn : (0:ℝ) ≤ n := Nat.cast_nonneg n
    have hp : 0 < fseq a x e n := by linarith
    unfold fseq fb fan
    push_cast
    by_cases h : (n:ℝ) + 1 ≤ a
    · have : 0 ≤ -((n:ℝ) + 1) * ((n:ℝ) + 1 - a) / fseq a x e n := by
        apply div_nonneg _ hp.le
        nlinarith
      linarith
    · push Not at h
      have : -((n:ℝ) + 1 - a) ≤ -((n:ℝ) + 1) * ((n:ℝ) + 1 - a) / fseq a x e n := by
        rw [le_div_iff₀ hp]
        nlinarith
      linarith

theorem fseq_pos {a x e : ℝ} (ha : 0 < a) (hx : a + 1 ≤ x) (he : 1 ≤ e) (n : ℕ) : 0 < fseq a x e n := by
  have := fseq_ge ha hx he n
  have hn : (0:ℝ) ≤ n := Nat.cast_nonneg n
  linarith

theorem fseq_ge_x {a x e : ℝ} (ha : 0 < a) (hx : a + 1 ≤ x) (he : 1 ≤ e) (n : ℕ) (h : a < n + 1) :
    x + n + 2 ≤ fseq a x e (n + 1) := by
  have hp := fseq_pos ha hx he n
  have ih := fseq_ge ha hx he n
  unfold fseq fb fan
  push_cast
  have : -((n:ℝ) + 1 - a) ≤ -((n:ℝ) + 1) * ((n:ℝ) + 1 - a) / fseq a x e n := by
    rw [le_div_iff₀ hp]
    nlinarith
  linarith

/-- One step later the lower bound is nearly as good. -/
theorem fseq_ge_b {a x e : ℝ} (ha : 0 < a) (hx : a + 1 ≤ x) (he : 1 ≤ e) (n : ℕ) (h : (n:ℝ) + 1 ≤ a) :
    fb a x (n + 1) ≤ fseq a x e (n + 1) := by
  have hp := fseq_pos ha hx he n
  have hn : (0:ℝ) ≤ n := Nat.cast_nonneg n
  unfold fseq fan
  push_cast
  have : 0 ≤ -((n:ℝ) + 1) * ((n:ℝ) + 1 - a) / fseq a x e n := by
    apply div_nonneg _ hp.le
    nlinarith
  linarith

/-- The value of `c` before the first round. -/
noncomputable def c0 : ℝ := 2 ^ 970

theorem c0_ge : 1 ≤ c0 := by unfold c0; exact one_le_pow₀ (by norm_num)

/-- The values of `c`. -/
noncomputable def fc (a x : ℝ) (n : ℕ) : ℝ := fseq a x c0 n

/-- The reciprocals of `d`. -/
noncomputable def fD (a x : ℝ) (n : ℕ) : ℝ := fseq a x (x + 1 - a) n

/-- The values of `h`. -/
noncomputable def fh (a x : ℝ) : ℕ → ℝ
  | 0 => 1 / (x + 1 - a)
  | n + 1 => fh a x n * (fc a x (n + 1) / fD a x (n + 1))

section
variable {a x : ℝ}

theorem fD_ge (ha : 0 < a) (hx : a + 1 ≤ x) (n : ℕ) : (n : ℝ) + 1 ≤ fD a x n := fseq_ge ha hx (by linarith) n

theorem fc_ge (ha : 0 < a) (hx : a + 1 ≤ x) (n : ℕ) : (n : ℝ) + 1 ≤ fc a x n := fseq_ge ha hx c0_ge n

theorem fD_pos (ha : 0 < a) (hx : a + 1 ≤ x) (n : ℕ) : 0 < fD a x n := fseq_pos ha hx (by linarith) n

theorem fc_pos (ha : 0 < a) (hx : a + 1 ≤ x) (n : ℕ) : 0 < fc a x n := fseq_pos ha hx c0_ge n

theorem fh_pos (ha : 0 < a) (hx : a + 1 ≤ x) (n : ℕ) : 0 < fh a x n := by
  induction n with
  | zero => unfold fh; apply div_pos one_pos; linarith
  | succ n ih => unfold fh; exact mul_pos ih (div_pos (fc_pos ha hx _) (fD_pos ha hx _))

theorem fdiff (ha : 0 < a) (hx : a + 1 ≤ x) (n : ℕ) : |fc a x (n + 1) - fD a x (n + 1)| =
    |fan a (n + 1)| / (fc a x n * fD a x n) * |fc a x n - fD a x n| := by
  have h1 := fc_pos ha hx n
  have h2 := fD_pos ha hx n
  have e : fc a x (n + 1) - fD a x (n + 1) =
      -fan a (n + 1) / (fc a x n * fD a x n) * (fc a x n - fD a x n) := by
    have e1 : fc a x (n + 1) = fb a x (n + 1) + fan a (n + 1) / fc a x n := rfl
    have e2 : fD a x (n + 1) = fb a x (n + 1) + fan a (n + 1) / fD a x n := rfl
    rw [e1, e2]
    field_simp
    ring
  rw [e, abs_mul, abs_div, abs_neg, abs_of_pos (mul_pos h1 h2)]

/-- Where the index passes `a` the difference is at most 1. -/
theorem fdiff_le_one (ha : 0 < a) (hx : a + 1 ≤ x) (n : ℕ) (h : |((n:ℝ) + 1) - a| ≤ 1) :
    |fc a x (n + 1) - fD a x (n + 1)| ≤ 1 := by
  have h1 := fc_pos ha hx n
  have h2 := fD_pos ha hx n
  have hn : (0:ℝ) < n + 1 := by positivity
  have g1 := fc_ge ha hx n
  have g2 := fD_ge ha hx n
  have e : fc a x (n + 1) - fD a x (n + 1) = fan a (n + 1) * (1 / fc a x n - 1 / fD a x n) := by
    have e1 : fc a x (n + 1) = fb a x (n + 1) + fan a (n + 1) / fc a x n := rfl
    have e2 : fD a x (n + 1) = fb a x (n + 1) + fan a (n + 1) / fD a x n := rfl
    rw [e1, e2]
    ring
  have b1 : 1 / fc a x n ≤ 1 / (n + 1) := one_div_le_one_div_of_le hn g1
  have b2 : 1 / fD a x n ≤ 1 / (n + 1) := one_div_le_one_div_of_le hn g2
  have p1 : 0 < 1 / fc a x n := by positivity
  have p2 : 0 < 1 / fD a x n := by positivity
  have h3 : |1 / fc a x n - 1 / fD a x n| ≤ 1 / (n + 1) := by
    rw [abs_le]; constructor <;> linarith
  have h4 : |fan a (n + 1)| ≤ n + 1 := by
    unfold fan
    push_cast
    rw [abs_mul, abs_neg, abs_of_pos hn]
    nlinarith
  rw [e, abs_mul]
  calc |fan a (n + 1)| * |1 / fc a x n - 1 / fD a x n| ≤ (n + 1) * (1 / (n + 1)) :=
        mul_le_mul h4 h3 (abs_nonneg _) hn.le
    _ = 1 := by field_simp

/-- Beyond `a` the difference decreases. -/
theorem fdiff_step (ha : 0 < a) (hx : a + 1 ≤ x) (n : ℕ) (h : a ≤ (n:ℝ) + 1) :
    |fc a x (n + 1) - fD a x (n + 1)| ≤ |fc a x n - fD a x n| := by
  have g1 := fc_ge ha hx n
  have g2 := fD_ge ha hx n
  have hn : (0:ℝ) < n + 1 := by positivity
  rw [fdiff ha hx]
  have h4 : |fan a (n + 1)| ≤ ((n:ℝ) + 1) * (n + 1) := by
    unfold fan
    push_cast
    rw [abs_mul, abs_neg, abs_of_pos hn, abs_of_nonneg (by linarith)]
    nlinarith
  have : |fan a (n + 1)| / (fc a x n * fD a x n) ≤ 1 := by
    rw [div_le_one (mul_pos (fc_pos ha hx n) (fD_pos ha hx n))]
    exact h4.trans (mul_le_mul g1 g2 hn.le (fc_pos ha hx n).le)
  have := mul_le_mul_of_nonneg_right this (abs_nonneg (fc a x n - fD a x n))
  linarith

theorem fdiff_step2 (ha : 0 < a) (hx : a + 1 ≤ x) (n : ℕ) (h : a < (n:ℝ) + 1) :
    |fc a x (n + 2) - fD a x (n + 2)| * ((n:ℝ) + 3) ^ 2 ≤
      |fc a x (n + 1) - fD a x (n + 1)| * ((n:ℝ) + 2) ^ 2 := by
  have g1 : x + n + 2 ≤ fc a x (n + 1) := fseq_ge_x ha hx c0_ge n h
  have g2 : x + n + 2 ≤ fD a x (n + 1) := fseq_ge_x ha hx (by linarith) n h
  have p1 := fc_pos ha hx (n + 1)
  have p2 := fD_pos ha hx (n + 1)
  have hn : (0:ℝ) ≤ n := Nat.cast_nonneg n
  rw [fdiff ha hx (n + 1)]
  have h4 : |fan a (n + 1 + 1)| ≤ ((n:ℝ) + 2) ^ 2 := by
    unfold fan
    push_cast
    rw [abs_mul, abs_neg, abs_of_pos (by linarith), abs_of_nonneg (by linarith)]
    nlinarith
  have h5 : ((n:ℝ) + 3) ^ 2 ≤ fc a x (n + 1) * fD a x (n + 1) := by
    rw [pow_two]
    exact mul_le_mul (by linarith) (by linarith) (by linarith) p1.le
  have h6 : |fan a (n + 1 + 1)| / (fc a x (n + 1) * fD a x (n + 1)) * ((n:ℝ) + 3) ^ 2 ≤ ((n:ℝ) + 2) ^ 2 := by
    rw [div_mul_eq_mul_div, div_le_iff₀ (mul_pos p1 p2)]
    exact mul_le_mul h4 h5 (by positivity) (by positivity)
  have := mul_le_mul_of_nonneg_right h6 (abs_nonneg (fc a x (n + 1) - fD a x (n + 1)))
  linarith

/-- The difference after many rounds. -/
theorem fdiff_bound (ha : 0 < a) (ha100 : a < 100) (hx : a + 1 ≤ x) (n : ℕ) (hn : 101 ≤ n) :
    |fc a x n - fD a x n| * ((n:ℝ) + 1) ^ 2 ≤ 10404 := by
  obtain ⟨m, hm1, hm2, hm3⟩ : ∃ m : ℕ, m ≤ 99 ∧ |((m:ℝ) + 1) - a| ≤ 1 ∧ a ≤ (m:ℝ) + 1 + 1 ∧ a < (m:ℝ) + 1 + 1 := by
    by_cases h1 : a < 1
    · exact ⟨0, by norm_num, by rw [abs_le]; constructor <;> push_cast <;> linarith, by push_cast; linarith,
        by push_cast; linarith⟩
    · push Not at h1
      have f1 : (1:ℕ) ≤ ⌊a⌋₊ := Nat.le_floor (by simpa using h1)
      have f2 := Nat.floor_le ha.le
      have f3 := Nat.lt_floor_add_one a
      have f4 : ⌊a⌋₊ < 100 := (Nat.floor_lt ha.le).2 (by exact_mod_cast ha100)
      refine ⟨⌊a⌋₊ - 1, by omega, ?_⟩
      have e : ((⌊a⌋₊ - 1 : ℕ) : ℝ) + 1 = ⌊a⌋₊ := by rw [Nat.cast_sub f1]; push_cast; ring
      rw [e]
      refine ⟨?_, f3.le, f3⟩
      rw [abs_le]; constructor <;> linarith
  have s1 := fdiff_le_one ha hx m hm2
  have s2 : |fc a x (m + 2) - fD a x (m + 2)| ≤ 1 :=
    (fdiff_step ha hx (m + 1) (by push_cast; exact hm3.1)).trans s1
  have key : ∀ d : ℕ, |fc a x (m + 2 + d) - fD a x (m + 2 + d)| * (((m + 2 + d : ℕ):ℝ) + 1) ^ 2 ≤ ((m:ℝ) + 3) ^ 2 := by
    intro d
    induction d with
    | zero =>
      push_cast
      have := mul_le_mul_of_nonneg_right s2 (by positivity : (0:ℝ) ≤ ((m:ℝ) + 3) ^ 2)
      rw [add_zero, show (m:ℝ) + 2 + 0 + 1 = m + 3 by ring]
      linarith
    | succ d ih =>
      have := fdiff_step2 ha hx (m + 1 + d) (by push_cast; have : (0:ℝ) ≤ d := Nat.cast_nonneg d; linarith [hm3.2])
      refine le_trans ?_ ih
      rw [show m + 2 + (d + 1) = m + 1 + d + 2 by ring, show m + 2 + d = m + 1 + d + 1 by ring]
      push_cast at this ⊢
      rw [show (m:ℝ) + 1 + d + 2 + 1 = m + 1 + d + 3 by ring, show (m:ℝ) + 1 + d + 1 + 1 = m + 1 + d + 2 by ring]
      exact this
  obtain ⟨d, rfl⟩ : ∃ d, n = m + 2 + d := ⟨n - (m + 2), by omega⟩
  refine (key d).trans ?_
  have : (m:ℝ) ≤ 99 := by exact_mod_cast hm1
  have h0 : (0:ℝ) ≤ m := Nat.cast_nonneg m
  nlinarith

/-- When the loop of `gcf` ends. -/
def fstop (a x : ℝ) (n : ℕ) : Prop := |fc a x (n + 1) / fD a x (n + 1) - 1| ≤ EPS

theorem fstop_late (ha : 0 < a) (ha100 : a < 100) (hx : a + 1 ≤ x) : fstop a x 3700000 := by
  unfold fstop
  have hb := fdiff_bound ha ha100 hx 3700001 (by norm_num)
  have hp := fD_pos ha hx 3700001
  have hg := fD_ge ha hx 3700001
  rw [div_sub_one hp.ne', abs_div, abs_of_pos hp, div_le_iff₀ hp]
  norm_num at hb hg ⊢
  have h1 : |fc a x 3700001 - fD a x 3700001| ≤ 10404 / 3700002 ^ 2 := by
    rw [le_div_iff₀ (by norm_num)]; linarith
  refine h1.trans ?_
  have h2 : EPS * 3700002 ≤ EPS * fD a x 3700001 := mul_le_mul_of_nonneg_left hg EPS_pos.le
  refine le_trans ?_ h2
  unfold EPS
  norm_num

theorem away_eq {d : ℝ} (h : 1 ≤ d) : away d = d := by
  unfold away
  rw [if_neg]
  rw [not_lt, abs_of_pos (by linarith)]
  refine le_trans ?_ h
  unfold FPMIN
  rw [div_le_one (by positivity)]
  exact one_le_pow₀ (by norm_num)

/-- The states of the loop. -/
noncomputable def fstate (a x : ℝ) (n : ℕ) : Frac := ⟨n + 1, fb a x n, fc a x n, 1 / fD a x n, fh a x n⟩

theorem gcf_round (ha : 0 < a) (hx : a + 1 ≤ x) (n : ℕ) : gcfRound a (fstate a x n) =
    if |fc a x (n + 1) / fD a x (n + 1) - 1| ≤ EPS then
      .ok (some (fh a x (n + 1)), ⟨n + 1, fb a x (n + 1), fc a x (n + 1), 1 / fD a x (n + 1), fh a x (n + 1)⟩)
    else if n + 1 + 1 < 2 ^ 31 then .ok (none, fstate a x (n + 1)) else .ub "int overflow" := by
  have p1 := fc_pos ha hx n
  have p2 := fD_pos ha hx (n + 1)
  have hn : (0:ℝ) ≤ n := Nat.cast_nonneg n
  have eb : fb a x n + 2 = fb a x (n + 1) := by unfold fb; push_cast; ring
  have ea : -(((n + 1 : ℕ)):ℝ) * (((n + 1 : ℕ):ℝ) - a) = fan a (n + 1) := rfl
  have eD : fan a (n + 1) * (1 / fD a x n) + fb a x (n + 1) = fD a x (n + 1) := by
    have e2 : fD a x (n + 1) = fb a x (n + 1) + fan a (n + 1) / fD a x n := rfl
    rw [e2]; ring
  have ec : fb a x (n + 1) + fan a (n + 1) / fc a x n = fc a x (n + 1) := rfl
  have g1 := fc_ge ha hx (n + 1)
  have g2 := fD_ge ha hx (n + 1)
  push_cast at g1 g2
  have edel : 1 / fD a x (n + 1) * fc a x (n + 1) = fc a x (n + 1) / fD a x (n + 1) := by ring
  have eh : fh a x n * (fc a x (n + 1) / fD a x (n + 1)) = fh a x (n + 1) := rfl
  unfold gcfRound fstate
  simp only
  rw [eb, ea, eD, fdiv_ok p1.ne', bind_ok', ec, away_eq (by linarith), away_eq (by linarith), fdiv_ok p2.ne',
    bind_ok', edel, eh]

theorem gcf_loop (ha : 0 < a) (ha100 : a < 100) (hx : a + 1 ≤ x) :
    ∃ n s', n ≤ 3700000 ∧ |fc a x (n + 1) / fD a x (n + 1) - 1| ≤ EPS ∧
      untilLoop (gcfRound a) ⟨1, x + 1 - a, c0, 1 / (x + 1 - a), 1 / (x + 1 - a)⟩ = .ok (fh a x (n + 1), s') := by
  have hlate := fstop_late ha ha100 hx
  obtain ⟨n, s', h1, hmin, h2⟩ := untilLoop_seq (step := gcfRound a) (fstate a x) (fun n => fh a x (n + 1))
    (fstop a x)
    (fun n hn => by
      rw [gcf_round ha hx, if_neg (show ¬ |fc a x (n + 1) / fD a x (n + 1) - 1| ≤ EPS from hn n le_rfl), if_pos]
      by_contra hc
      exact hn 3700000 (by omega) hlate)
    (fun n _ hn => ⟨_, by rw [gcf_round ha hx, if_pos (show |fc a x (n + 1) / fD a x (n + 1) - 1| ≤ EPS from hn)]⟩) ⟨_, hlate⟩
  refine ⟨n, s', ?_, h1, ?_⟩
  · by_contra hc
    exact hmin 3700000 (by omega) hlate
  · have e : fstate a x 0 = ⟨1, x + 1 - a, c0, 1 / (x + 1 - a), 1 / (x + 1 - a)⟩ := by
      simp [fstate, fb, fc, fD, fh, fseq]
    rw [← e]
    exact h2

end

end Gam
end Verif
