import Verif.Lemmas.GammaLn
import Mathlib.Analysis.Calculus.Deriv.Mul
import Mathlib.Analysis.Calculus.Deriv.Add
import Mathlib.Tactic.Ring
import Mathlib.Tactic.LinearCombination

/-!
# Polynomials as lists of coefficients, and the sum of `gammln` as a quotient of polynomials
-/

namespace Verif
namespace Gam

/-- The value of a polynomial. -/
noncomputable def pe : List ℤ → ℝ → ℝ
  | [], _ => 0
  | c :: p, x => c + x * pe p x

def padd : List ℤ → List ℤ → List ℤ
  | [], q => q
  | p, [] => p
  | a :: p, b :: q => (a + b) :: padd p q

def pscale (c : ℤ) : List ℤ → List ℤ
  | [] => []
  | a :: p => (c * a) :: pscale c p

def pmul : List ℤ → List ℤ → List ℤ
  | [], _ => []
  | a :: p, q => padd (pscale a q) (0 :: pmul p q)

def pder : List ℤ → List ℤ
  | [] => []
  | _ :: p => padd p (0 :: pder p)

theorem pe_add (p : List ℤ) : ∀ (q : List ℤ) (x : ℝ), pe (padd p q) x = pe p x + pe q x := by
  induction p with
  | nil => intro q x; simp [padd, pe]
  | cons a p ih =>
    intro q x
    cases q with
    | nil => simp [padd, pe]
    | cons b q =>
      simp only [padd, pe]
      rw [ih]
      push_cast
      ring

theorem pe_scale (c : ℤ) (p : List ℤ) (x : ℝ) : pe (pscale c p) x = c * pe p x := by
  induction p with
  | nil => simp [pscale, pe]
  | cons a p ih => simp only [pscale, pe]; rw [ih]; push_cast; ring

theorem pe_mul (p : List ℤ) (q : List ℤ) (x : ℝ) : pe (pmul p q) x = pe p x * pe q x := by
  induction p with
  | nil => simp [pmul, pe]
  | cons a p ih =>
    simp only [pmul]
    rw [pe_add, pe_scale]
    simp only [pe]
    rw [ih]
    push_cast
    ring

theorem pe_der (p : List ℤ) (x : ℝ) : HasDerivAt (pe p) (pe (pder p) x) x := by
  induction p with
  | nil =>
    have e : pe [] = fun _ => 0 := by funext; rfl
    rw [e]
    exact hasDerivAt_const x 0
  | cons a p ih =>
    have d := ((hasDerivAt_id x).mul ih).const_add (a:ℝ)
    have e : pe (pder (a :: p)) x = 1 * pe p x + id x * pe (pder p) x := by
      simp only [pder]
      rw [pe_add]
      simp only [pe]
      push_cast
      simp only [id]
      ring
    rw [e]
    exact d

theorem pe_nonneg {p : List ℤ} (h : p.all (fun c => decide (0 ≤ c)) = true) {x : ℝ} (hx : 0 ≤ x) : 0 ≤ pe p x := by
  induction p with
  | nil => exact le_refl _
  | cons a p ih =>
    simp only [List.all_cons, Bool.and_eq_true, decide_eq_true_eq] at h
    simp only [pe]
    have := ih h.2
    have h1 : (0:ℝ) ≤ a := by exact_mod_cast h.1
    positivity

/-- The derivative of a polynomial without negative coefficients. -/
theorem pe_der_le {p : List ℤ} (h : p.all (fun c => decide (0 ≤ c)) = true) {x : ℝ} (hx : 0 ≤ x) :
    0 ≤ pe (pder p) x ∧ x * pe (pder p) x ≤ p.length * pe p x := by
  induction p with
  | nil => simp [pder, pe]
  | cons a p ih =>
    simp only [List.all_cons, Bool.and_eq_true, decide_eq_true_eq] at h
    obtain ⟨i1, i2⟩ := ih h.2
    have h1 : (0:ℝ) ≤ a := by exact_mod_cast h.1
    have h2 := pe_nonneg h.2 hx
    have e : pe (pder (a :: p)) x = pe p x + x * pe (pder p) x := by
      simp only [pder]
      rw [pe_add]
      simp only [pe]
      push_cast
      ring
    rw [e]
    refine ⟨by positivity, ?_⟩
    simp only [pe, List.length_cons]
    push_cast
    have h3 := mul_le_mul_of_nonneg_left i2 hx
    have h4 : 0 ≤ (p.length:ℝ) * a := by positivity
    nlinarith

/-- The coefficients of `gammln` times `10 ^ 23`. -/
def cofZ : List ℤ := [5715623566586292350000000, -5959796035547549120000000,
  1413609797474174710000000, -49191381609762019900000, 3399464998481188870,
  4652362892704857560, -9837447530487956460, 15808870322491249400,
  -21026444172410488300, 21743961811521264300, -16431810653676389000,
  8441822398385274330, -2619083840158140870, 368991826595316234]

theorem cof_eq : cof = cofZ.map fun z : ℤ => (z:ℝ) / 10 ^ 23 := by
  simp only [cof, cofZ, List.map_cons, List.map_nil]
  norm_num

/-- The common denominator. -/
def pden : List ℤ → ℤ → List ℤ
  | [], _ => [1]
  | _ :: cs, k => pmul [k + 1, 1] (pden cs (k + 1))

/-- The numerator. -/
def pnum : List ℤ → ℤ → List ℤ
  | [], _ => []
  | c :: cs, k => padd (pscale c (pden cs (k + 1))) (pmul [k + 1, 1] (pnum cs (k + 1)))

theorem pden_pos (cs : List ℤ) : ∀ {k : ℤ} {x : ℝ}, 0 ≤ k → 0 ≤ x → 0 < pe (pden cs k) x := by
  induction cs with
  | nil => intro k x _ _; simp [pden, pe]
  | cons c cs ih =>
    intro k x hk hx
    simp only [pden]
    rw [pe_mul]
    apply mul_pos _ (ih (by omega) hx)
    simp only [pe]
    have : (0:ℝ) ≤ k := by exact_mod_cast hk
    push_cast
    linarith

theorem pnum_eq (cs : List ℤ) : ∀ {k : ℤ} {x : ℝ}, 0 ≤ k → 0 ≤ x →
    10 ^ 23 * serSum (cs.map fun z : ℤ => (z:ℝ) / 10 ^ 23) (x + k) * pe (pden cs k) x = pe (pnum cs k) x := by
  induction cs with
  | nil => intro k x _ _; simp [serSum, pnum, pe]
  | cons c cs ih =>
    intro k x hk hx
    have h := ih (k := k + 1) (by omega) hx
    have hk' : (0:ℝ) ≤ k := by exact_mod_cast hk
    simp only [List.map_cons, serSum, pden, pnum]
    rw [pe_add, pe_scale, pe_mul, pe_mul, ← h]
    simp only [pe]
    push_cast
    have hne : x + k + 1 ≠ 0 := by linarith
    rw [show x + ((k:ℝ) + 1) = x + k + 1 by ring]
    field_simp
    ring

/-- The sum of `gammln` times the denominators. -/
def pP (k : ℤ) : List ℤ := padd (pscale 99999999999999709200000 (pden cofZ k)) (pnum cofZ k)

theorem pP_eq {k : ℤ} {x : ℝ} (hk : 0 ≤ k) (hx : 0 ≤ x) :
    10 ^ 23 * ser (x + k) * pe (pden cofZ k) x = pe (pP k) x := by
  unfold pP ser
  rw [pe_add, pe_scale, ← pnum_eq cofZ hk hx, cof_eq]
  push_cast
  have : (0.999999999999997092:ℝ) * 10 ^ 23 = 99999999999999709200000 := by norm_num
  linear_combination (pe (pden cofZ k) x) * this

theorem pden_shift {x : ℝ} : pe (pden cofZ 1) x * (x + 1) = pe (pden cofZ 0) x * (x + 15) := by
  simp only [cofZ, pden, pe_mul, pe]
  push_cast
  ring

theorem pP_nonneg0 : (pP 0).all (fun c => decide (0 ≤ c)) = true := by decide +kernel

theorem pP_nonneg1 : (pP 1).all (fun c => decide (0 ≤ c)) = true := by decide +kernel

theorem pP_pos {k : ℤ} {x : ℝ} (hk : 0 ≤ k) (hx : 0 < x) : 0 < pe (pP k) x := by
  rw [← pP_eq hk hx.le]
  have hk' : (0:ℝ) ≤ k := by exact_mod_cast hk
  have h1 := ser_pos (show 0 < x + k by linarith)
  exact mul_pos (mul_pos (by norm_num) h1) (pden_pos cofZ hk hx.le)

attribute [irreducible] pP

/-- The polynomials `A`, `B` and `C` of the second derivative. -/
def pA : List ℤ := [799, 128]
def pB : List ℤ := [671, 128]
def pC : List ℤ := [15, 1]
def sq (p : List ℤ) : List ℤ := pmul p p

/-- The numerator of the second derivative of the logarithm of a polynomial. -/
def plog2 (p : List ℤ) : List ℤ := padd (pmul (pder (pder p)) p) (pscale (-1) (sq (pder p)))

/-- The numerator of the second derivative of the defect. -/
def pN : List ℤ :=
  padd (pscale 128 (pmul (padd pA [607]) (pmul (sq pB) (pmul (sq (pP 1)) (pmul (sq (pP 0)) (sq pC))))))
  (padd (pscale (-128) (pmul (padd pB [607]) (pmul (sq pA) (pmul (sq (pP 1)) (pmul (sq (pP 0)) (sq pC))))))
  (padd (pmul (plog2 (pP 1)) (pmul (sq pA) (pmul (sq pB) (pmul (sq (pP 0)) (sq pC)))))
  (padd (pscale (-1) (pmul (plog2 (pP 0)) (pmul (sq pA) (pmul (sq pB) (pmul (sq (pP 1)) (sq pC))))))
    (pmul (sq pA) (pmul (sq pB) (pmul (sq (pP 1)) (sq (pP 0))))))))

/-- Its denominator. -/
def pD : List ℤ := pmul (sq pA) (pmul (sq pB) (pmul (sq (pP 1)) (pmul (sq (pP 0)) (sq pC))))

/-- The numerator times the fourth power of `x + 1`. -/
def pN4 : List ℤ := pmul (sq (sq [1, 1])) pN

theorem pN_upper : (padd pD (pscale (-200000000000) pN4)).all (fun c => decide (0 ≤ c)) = true := by decide +kernel

theorem pN_lower : (padd pD (pscale 200000000000 pN4)).all (fun c => decide (0 ≤ c)) = true := by decide +kernel

theorem pN_bound {x : ℝ} (hx : 0 ≤ x) : 2e11 * (|pe pN x| * (1 + x) ^ 4) ≤ pe pD x := by
  have h1 := pe_nonneg pN_upper hx
  have h2 := pe_nonneg pN_lower hx
  rw [pe_add, pe_scale] at h1 h2
  have e : pe pN4 x = (1 + x) ^ 4 * pe pN x := by
    unfold pN4 sq
    rw [pe_mul, pe_mul, pe_mul]
    simp only [pe]
    push_cast
    ring
  rw [e] at h1 h2
  push_cast at h1 h2
  have hp : 0 ≤ (1 + x) ^ 4 := by positivity
  rcases abs_cases (pe pN x) with ⟨h, _⟩ | ⟨h, _⟩ <;> rw [h] <;> norm_num <;> nlinarith

end Gam
end Verif
