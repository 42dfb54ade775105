import Verif.Model.Gamma
import Verif.Lemmas.Outcome
import Mathlib.Tactic.Linarith
import Mathlib.Tactic.Positivity
import Mathlib.Tactic.FieldSimp
import Mathlib.Tactic.NormNum

/-!
# The logarithm of the gamma function is defined
-/

namespace Verif
namespace Gam

theorem fdiv_ok {x y : ℝ} (h : y ≠ 0) : fdiv x y = .ok (x / y) := by unfold fdiv; rw [if_neg h]

theorem flog_ok {x : ℝ} (h : 0 < x) : flog x = .ok (Real.log x) := by
  unfold flog; rw [if_neg (not_le.2 h)]

theorem fsqrt_ok {x : ℝ} (h : 0 ≤ x) : fsqrt x = .ok √x := by
  unfold fsqrt; rw [if_neg (not_lt.2 h)]

theorem bind_ok' {α β : Type} (a : α) (f : α → Res β) : (Res.ok a >>= f) = f a := rfl

/-- The sum that `serLoop` computes. -/
noncomputable def serSum : List ℝ → ℝ → ℝ
  | [], _ => 0
  | c :: cs, y => c / (y + 1) + serSum cs (y + 1)

theorem serLoop_eq (cs : List ℝ) : ∀ {y s : ℝ}, 0 < y → serLoop cs y s = .ok (s + serSum cs y) := by
  induction cs with
  | nil => intro y s _; simp [serLoop, serSum]
  | cons c cs ih =>
    intro y s hy
    unfold serLoop serSum
    simp only
    rw [fdiv_ok (by positivity), bind_ok', ih (by linarith)]
    congr 1
    ring

/-- The sum of `gammln`. -/
noncomputable def ser (x : ℝ) : ℝ := 0.999999999999997092 + serSum cof x

theorem small_term {c x B : ℝ} (hx : 0 < x) (h : |c| ≤ B) (n : ℝ) (hn : 1 ≤ n) : -B ≤ c / (x + n) := by
  have h1 : |c / (x + n)| ≤ B := by
    rw [abs_div, abs_of_pos (show 0 < x + n by linarith)]
    exact (div_le_self (abs_nonneg _) (by linarith)).trans h
  exact (abs_le.1 h1).1

theorem ser_pos {x : ℝ} (hx : 0 < x) : 0 < ser x := by
  have e : ser x = 0.999999999999997092 + (57.1562356658629235 / (x + 1) + (-59.5979603554754912 / (x + 2) +
      (14.1360979747417471 / (x + 3) + (-0.491913816097620199 / (x + 4) +
      (0.339946499848118887e-4 / (x + 5) + (0.465236289270485756e-4 / (x + 6) +
      (-0.983744753048795646e-4 / (x + 7) + (0.158088703224912494e-3 / (x + 8) +
      (-0.210264441724104883e-3 / (x + 9) + (0.217439618115212643e-3 / (x + 10) +
      (-0.164318106536763890e-3 / (x + 11) + (0.844182239838527433e-4 / (x + 12) +
      (-0.261908384015814087e-4 / (x + 13) + 0.368991826595316234e-5 / (x + 14)))))))))))))) := by
    unfold ser cof
    simp only [serSum, add_zero, add_assoc]
    norm_num
  have h1 : 57.1562356658629235 / (x + 2) ≤ 57.1562356658629235 / (x + 1) := by
    apply div_le_div_of_nonneg_left <;> norm_num <;> linarith
  have h2 : 9 / (x + 2) ≤ 14.1360979747417471 / (x + 3) := by
    rw [div_le_div_iff₀ (by linarith) (by linarith)]
    linarith
  have h3 : -0.491913816097620199 / (x + 2) ≤ -0.491913816097620199 / (x + 4) := by
    rw [div_le_div_iff₀ (by linarith) (by linarith)]
    linarith
  have h4 : 0 < 57.1562356658629235 / (x + 2) + -59.5979603554754912 / (x + 2) + 9 / (x + 2) +
      -0.491913816097620199 / (x + 2) := by
    rw [← add_div, ← add_div, ← add_div]
    apply div_pos _ (by linarith)
    norm_num
  have t1 := small_term (c := 0.339946499848118887e-4) (B := 0.001) hx (by rw [abs_le]; constructor <;> norm_num) 5 (by norm_num)
  have t2 := small_term (c := 0.465236289270485756e-4) (B := 0.001) hx (by rw [abs_le]; constructor <;> norm_num) 6 (by norm_num)
  have t3 := small_term (c := -0.983744753048795646e-4) (B := 0.001) hx (by rw [abs_le]; constructor <;> norm_num) 7 (by norm_num)
  have t4 := small_term (c := 0.158088703224912494e-3) (B := 0.001) hx (by rw [abs_le]; constructor <;> norm_num) 8 (by norm_num)
  have t5 := small_term (c := -0.210264441724104883e-3) (B := 0.001) hx (by rw [abs_le]; constructor <;> norm_num) 9 (by norm_num)
  have t6 := small_term (c := 0.217439618115212643e-3) (B := 0.001) hx (by rw [abs_le]; constructor <;> norm_num) 10 (by norm_num)
  have t7 := small_term (c := -0.164318106536763890e-3) (B := 0.001) hx (by rw [abs_le]; constructor <;> norm_num) 11 (by norm_num)
  have t8 := small_term (c := 0.844182239838527433e-4) (B := 0.001) hx (by rw [abs_le]; constructor <;> norm_num) 12 (by norm_num)
  have t9 := small_term (c := -0.261908384015814087e-4) (B := 0.001) hx (by rw [abs_le]; constructor <;> norm_num) 13 (by norm_num)
  have t10 := small_term (c := 0.368991826595316234e-5) (B := 0.001) hx (by rw [abs_le]; constructor <;> norm_num) 14 (by norm_num)
  rw [e]
  have hc : (0:ℝ) < 0.999999999999997092 - 10 * 0.001 := by norm_num
  linarith

/-- The value of `gammln`. -/
noncomputable def lnG (x : ℝ) : ℝ := (x + 0.5) * Real.log (x + 5.2421875) - (x + 5.2421875) +
  Real.log (2.5066282746310005 * ser x / x)

theorem gammln_eq {x : ℝ} (hx : 0 < x) : gammln x = .ok (lnG x) := by
  unfold gammln
  rw [if_neg (not_le.2 hx)]
  have h0 : (0:ℝ) < x + 5.24218750000000000 := by norm_num; linarith
  have hs := ser_pos hx
  simp only
  rw [flog_ok h0, bind_ok', serLoop_eq _ hx, bind_ok', fdiv_ok hx.ne', bind_ok']
  have hq : 0 < 2.5066282746310005 * (0.999999999999997092 + serSum cof x) / x := by
    have : 0 < 0.999999999999997092 + serSum cof x := hs
    positivity
  rw [flog_ok hq, bind_ok']
  unfold lnG ser
  norm_num

theorem gammln_throws {x : ℝ} (hx : x ≤ 0) : gammln x = .throws "Bad argument in gammln" := by
  unfold gammln; rw [if_pos hx]

/-- The number that the code takes for `Γ(a)`. -/
noncomputable def G (a : ℝ) : ℝ := Real.exp (lnG a)

theorem G_pos (a : ℝ) : 0 < G a := Real.exp_pos _

end Gam
end Verif
