import Verif.Props.FieldCov
import Mathlib.Analysis.Convex.SpecificFunctions.Pow

/-!
# C08: one-dimensional fields that are never clipped

A covariance that is non-negative, decreasing and convex in the length of the lag has a
non-negative spectrum on every cycle.
-/

namespace Verif

open Finset Spec Variogram

/-! ## Helper lemmas -/

theorem sum_range_shift {n : ℕ} (f : ℤ → ℝ) (h : f n = f 0) :
    ∑ a ∈ range n, f ((a : ℤ) + 1) = ∑ a ∈ range n, f a := by
  have h1 := Finset.sum_range_succ (fun a : ℕ => f (a : ℤ)) n
  have h2 := Finset.sum_range_succ' (fun a : ℕ => f (a : ℤ)) n
  rw [h1] at h2
  push_cast at h2
  rw [h] at h2
  linarith

theorem cos_natCast_mul_of_cos_eq_one {θ : ℝ} (h : Real.cos θ = 1) (a : ℕ) :
    Real.cos (a * θ) = 1 := by
  obtain ⟨m, rfl⟩ := (Real.cos_eq_one_iff θ).1 h
  rw [show (a : ℝ) * (m * (2 * Real.pi)) = ((a * m : ℤ) : ℝ) * (2 * Real.pi) by push_cast; ring]
  exact Real.cos_int_mul_two_pi _

theorem spectrum1_nonneg_of_convex {n : ℕ} (hn : 0 < n) (g : ℕ → ℝ) (h0 : ∀ m, 0 ≤ g m)
    (hd : ∀ m, g (m + 1) ≤ g m) (hc : ∀ m, 2 * g (m + 1) ≤ g m + g (m + 2)) (k : ℕ) :
    0 ≤ spectrum1 n (fun a => g (lag n a).natAbs) k := by
  set θ : ℝ := 2 * Real.pi * (k / n) with hθ
  have hn0 : (n : ℝ) ≠ 0 := by exact_mod_cast hn.ne'
  have hph : ∀ a : ℕ, phase1 n k a = a * θ := by
    intro a; unfold phase1; rw [hθ]; push_cast; ring
  have hS : spectrum1 n (fun a => g (lag n a).natAbs) k
      = ∑ a ∈ range n, g (lag n a).natAbs * Real.cos (a * θ) := by
    unfold spectrum1
    exact Finset.sum_congr rfl fun a _ => by rw [hph]
  rw [hS]
  by_cases h1 : Real.cos θ = 1
  · refine Finset.sum_nonneg fun a _ => ?_
    rw [cos_natCast_mul_of_cos_eq_one h1, mul_one]
    exact h0 _
  have hlt : 0 < 2 - 2 * Real.cos θ := by
    have := Real.cos_le_one θ
    rcases lt_or_eq_of_le this with h | h
    · linarith
    · exact absurd h h1
  -- periodic extension
  set C : ℤ → ℝ := fun x => g (lag n (red n x)).natAbs with hC
  have hCn : ∀ a < n, C (a : ℤ) = g (lag n a).natAbs := by
    intro a ha; simp only [hC]; rw [red_nat ha]
  have hper : ∀ x, C (x + n) = C x := by
    intro x
    simp only [hC]
    rw [red_congr (k := x + n) (l := x) ⟨1, by ring⟩]
  have hcosper : ∀ x : ℤ, Real.cos (((x + n : ℤ) : ℝ) * θ) = Real.cos (x * θ) := by
    intro x
    have : ((x + n : ℤ) : ℝ) * θ = x * θ + k * (2 * Real.pi) := by
      rw [hθ]; push_cast; field_simp
    rw [this]
    have := Real.cos_add_int_mul_two_pi (x * θ) k
    exact_mod_cast this
  have hT : ∑ a ∈ range n, g (lag n a).natAbs * Real.cos (a * θ)
      = ∑ a ∈ range n, C (a : ℤ) * Real.cos (((a : ℤ) : ℝ) * θ) := by
    refine Finset.sum_congr rfl fun a ha => ?_
    rw [hCn a (mem_range.1 ha)]
    push_cast; rfl
  rw [hT]
  set T := ∑ a ∈ range n, C (a : ℤ) * Real.cos (((a : ℤ) : ℝ) * θ) with hTd
  have e1 : ∑ a ∈ range n, C (a : ℤ) * Real.cos ((((a : ℤ) + 1 : ℤ) : ℝ) * θ)
      = ∑ a ∈ range n, C ((a : ℤ) - 1) * Real.cos (((a : ℤ) : ℝ) * θ) := by
    have := sum_range_shift (n := n) (fun x => C (x - 1) * Real.cos ((x : ℝ) * θ)) (by
      have h2 := hper (0 - 1)
      have h3 := hcosper 0
      rw [show (0 : ℤ) - 1 + n = n - 1 by ring] at h2
      rw [zero_add] at h3
      rw [h2, h3])
    simpa using this
  have e2 : ∑ a ∈ range n, C (a : ℤ) * Real.cos ((((a : ℤ) - 1 : ℤ) : ℝ) * θ)
      = ∑ a ∈ range n, C ((a : ℤ) + 1) * Real.cos (((a : ℤ) : ℝ) * θ) := by
    have := sum_range_shift (n := n) (fun x => C x * Real.cos (((x - 1 : ℤ) : ℝ) * θ)) (by
      have h2 := hper 0
      have h3 := hcosper (0 - 1)
      rw [show (0 : ℤ) - 1 + n = n - 1 by ring] at h3
      rw [zero_add] at h2
      rw [h2, h3])
    rw [← this]
    simp
  have e3 : ∑ a ∈ range n, C ((a : ℤ) - 1) = ∑ a ∈ range n, C (a : ℤ) := by
    have := sum_range_shift (n := n) (fun x => C (x - 1)) (by
      have h2 := hper (0 - 1)
      rw [show (0 : ℤ) - 1 + n = n - 1 by ring] at h2
      rw [h2])
    rw [← this]
    simp
  have e4 : ∑ a ∈ range n, C ((a : ℤ) + 1) = ∑ a ∈ range n, C (a : ℤ) :=
    sum_range_shift C (by have := hper 0; rwa [zero_add] at this)
  have key : (2 - 2 * Real.cos θ) * T = ∑ a ∈ range n,
      (C ((a : ℤ) - 1) + C ((a : ℤ) + 1) - 2 * C (a : ℤ)) * (1 - Real.cos (((a : ℤ) : ℝ) * θ)) := by
    have h1 : ∑ a ∈ range n, (C ((a : ℤ) - 1) + C ((a : ℤ) + 1) - 2 * C (a : ℤ))
        * (1 - Real.cos (((a : ℤ) : ℝ) * θ))
        = (∑ a ∈ range n, C ((a : ℤ) - 1) + ∑ a ∈ range n, C ((a : ℤ) + 1)
            - 2 * ∑ a ∈ range n, C (a : ℤ))
          - (∑ a ∈ range n, C ((a : ℤ) - 1) * Real.cos (((a : ℤ) : ℝ) * θ)
            + ∑ a ∈ range n, C ((a : ℤ) + 1) * Real.cos (((a : ℤ) : ℝ) * θ) - 2 * T) := by
      rw [hTd]
      simp only [Finset.mul_sum, ← Finset.sum_add_distrib, ← Finset.sum_sub_distrib]
      exact Finset.sum_congr rfl fun a _ => by ring
    rw [h1, e3, e4, ← e1, ← e2]
    have h2 : ∑ a ∈ range n, C (a : ℤ) * Real.cos ((((a : ℤ) + 1 : ℤ) : ℝ) * θ)
        + ∑ a ∈ range n, C (a : ℤ) * Real.cos ((((a : ℤ) - 1 : ℤ) : ℝ) * θ)
        = 2 * Real.cos θ * T := by
      rw [hTd, Finset.mul_sum, ← Finset.sum_add_distrib]
      refine Finset.sum_congr rfl fun a _ => ?_
      push_cast
      rw [add_mul, sub_mul, one_mul, Real.cos_add, Real.cos_sub]
      ring
    rw [h2]
    ring
  have hpos : 0 ≤ (2 - 2 * Real.cos θ) * T := by
    rw [key]
    refine Finset.sum_nonneg fun a ha => ?_
    rw [mem_range] at ha
    rcases Nat.eq_zero_or_pos a with rfl | ha0
    · simp
    refine mul_nonneg ?_ (by linarith [Real.cos_le_one (((a : ℤ) : ℝ) * θ)])
    -- the cyclic second difference
    have c1 : C ((a : ℤ) - 1) = g (lag n (a - 1)).natAbs := by
      rw [← hCn (a - 1) (by omega)]; congr 1; omega
    have c2 : C (a : ℤ) = g (lag n a).natAbs := hCn a ha
    have c3 : C ((a : ℤ) + 1) = g (min (a + 1) (n - (a + 1))) := by
      rcases lt_or_ge (a + 1) n with h | h
      · have := hCn (a + 1) h
        push_cast at this
        rw [this]
        congr 1
        unfold lag; split <;> omega
      · have : a + 1 = n := by omega
        have h2 := hper 0
        rw [zero_add] at h2
        rw [show (a : ℤ) + 1 = n by omega, h2]
        have := hCn 0 hn
        push_cast at this
        rw [this]
        congr 1
        rw [lag_zero hn]; simp; omega
    have m1 : (lag n (a - 1)).natAbs = min (a - 1) (n - (a - 1)) := by
      unfold lag; split <;> omega
    have m2 : (lag n a).natAbs = min a (n - a) := by unfold lag; split <;> omega
    rw [c1, c2, c3, m1, m2]
    rcases lt_trichotomy (2 * a + 1) n with h | h | h
    · rw [min_eq_left (by omega), min_eq_left (by omega), min_eq_left (by omega)]
      have := hc (a - 1)
      rw [show a - 1 + 1 = a by omega, show a - 1 + 2 = a + 1 by omega] at this
      linarith
    · rw [min_eq_left (by omega), min_eq_right (by omega), min_eq_left (by omega),
        show n - (a + 1) = a by omega]
      have := hd (a - 1)
      rw [show a - 1 + 1 = a by omega] at this
      linarith
    · rcases lt_trichotomy (2 * a) n with h' | h' | h'
      · omega
      · rw [min_eq_left (by omega), min_eq_right (by omega), min_eq_left (by omega),
          show n - (a + 1) = a - 1 by omega]
        have := hd (a - 1)
        rw [show a - 1 + 1 = a by omega] at this
        linarith
      · rcases lt_trichotomy (2 * a) (n + 1) with h'' | h'' | h''
        · omega
        · rw [min_eq_left (by omega), min_eq_right (by omega), min_eq_right (by omega),
            show n - (a + 1) = a - 2 by omega, show n - a = a - 1 by omega]
          have := hd (a - 2)
          rw [show a - 2 + 1 = a - 1 by omega] at this
          linarith
        · rw [min_eq_right (by omega), min_eq_right (by omega), min_eq_right (by omega)]
          have := hc (n - (a + 1))
          rw [show n - (a + 1) + 1 = n - a by omega,
            show n - (a + 1) + 2 = n - (a - 1) by omega] at this
          linarith
  by_contra hneg
  push Not at hneg
  nlinarith

/-- The one-dimensional types with a convex correlation function. -/
def ConvexType (t : VType) (pw : ℝ) : Prop :=
  t = .spherical ∨ t = .exponential ∨ (t = .generalExponential ∧ 0 < pw ∧ pw ≤ 1)

theorem sph_eq {d : ℝ} (hd : 0 ≤ d) (p : ℝ) :
    corr1D .spherical p d = (max (1 - d) 0) ^ 2 * (3 - max (1 - d) 0) / 2 := by
  unfold corr1D
  simp only
  split_ifs with h
  · rw [max_eq_left (by norm_num at h; linarith)]; norm_num; ring
  · rw [max_eq_right (by norm_num at h; linarith)]; norm_num

theorem corr1D_nonneg {t : VType} {pw : ℝ} (ht : ConvexType t pw) {d : ℝ} (hd : 0 ≤ d) :
    0 ≤ corr1D t pw d := by
  rcases ht with rfl | rfl | ⟨rfl, h1, h2⟩
  · rw [sph_eq hd]
    have h1 : max (1 - d) 0 ≤ 1 := max_le (by linarith) (by norm_num)
    exact div_nonneg (mul_nonneg (sq_nonneg _) (by linarith)) (by norm_num)
  · exact (Real.exp_pos _).le
  · unfold corr1D
    simp only
    rw [if_neg (by rintro ⟨-, h⟩; linarith)]
    exact (Real.exp_pos _).le

theorem corr1D_anti {t : VType} {pw : ℝ} (ht : ConvexType t pw) {d e : ℝ} (hd : 0 ≤ d)
    (he : d ≤ e) : corr1D t pw e ≤ corr1D t pw d := by
  rcases ht with rfl | rfl | ⟨rfl, h1, h2⟩
  · rw [sph_eq hd, sph_eq (hd.trans he)]
    have h1 : max (1 - d) 0 ≤ 1 := max_le (by linarith) (by norm_num)
    have h2 : 0 ≤ max (1 - e) 0 := le_max_right _ _
    have h3 : max (1 - e) 0 ≤ max (1 - d) 0 := max_le_max (by linarith) le_rfl
    generalize max (1 - d) 0 = a at *
    generalize max (1 - e) 0 = b at *
    have : (a - b) * (3 * (a + b) - (a ^ 2 + a * b + b ^ 2)) ≥ 0 := by
      refine mul_nonneg (by linarith) ?_
      nlinarith
    nlinarith
  · unfold corr1D
    simp only
    exact Real.exp_le_exp.2 (by norm_num; linarith)
  · unfold corr1D
    simp only
    rw [if_neg (by rintro ⟨-, h⟩; linarith), if_neg (by rintro ⟨-, h⟩; linarith)]
    have := Real.rpow_le_rpow hd he h1.le
    exact Real.exp_le_exp.2 (by norm_num; linarith)

theorem exp_mid (a b : ℝ) : 2 * Real.exp ((a + b) / 2) ≤ Real.exp a + Real.exp b := by
  have ha : Real.exp a = Real.exp (a / 2) ^ 2 := by rw [← Real.exp_nat_mul]; congr 1; push_cast; ring
  have hb : Real.exp b = Real.exp (b / 2) ^ 2 := by rw [← Real.exp_nat_mul]; congr 1; push_cast; ring
  rw [ha, hb, add_div, Real.exp_add]
  nlinarith [sq_nonneg (Real.exp (a / 2) - Real.exp (b / 2))]

theorem corr1D_mid {t : VType} {pw : ℝ} (ht : ConvexType t pw) {d e : ℝ} (hd : 0 ≤ d)
    (he : 0 ≤ e) : 2 * corr1D t pw ((d + e) / 2) ≤ corr1D t pw d + corr1D t pw e := by
  have hm : 0 ≤ (d + e) / 2 := by linarith
  rcases ht with rfl | rfl | ⟨rfl, h1, h2⟩
  · rw [sph_eq hd, sph_eq he, sph_eq hm]
    have a1 : max (1 - d) 0 ≤ 1 := max_le (by linarith) (by norm_num)
    have b1 : max (1 - e) 0 ≤ 1 := max_le (by linarith) (by norm_num)
    have a0 : 0 ≤ max (1 - d) 0 := le_max_right _ _
    have b0 : 0 ≤ max (1 - e) 0 := le_max_right _ _
    have m0 : 0 ≤ max (1 - (d + e) / 2) 0 := le_max_right _ _
    have hmid : max (1 - (d + e) / 2) 0 ≤ (max (1 - d) 0 + max (1 - e) 0) / 2 :=
      max_le (by linarith [le_max_left (1 - d) 0, le_max_left (1 - e) 0]) (by linarith)
    generalize max (1 - d) 0 = a at *
    generalize max (1 - e) 0 = b at *
    generalize max (1 - (d + e) / 2) 0 = m at *
    set q := (a + b) / 2 with hq
    have s1 : m ^ 2 * (3 - m) ≤ q ^ 2 * (3 - q) := by
      have : (q - m) * (3 * (q + m) - (q ^ 2 + q * m + m ^ 2)) ≥ 0 := by
        refine mul_nonneg (by linarith) ?_
        have : q ≤ 1 := by rw [hq]; linarith
        nlinarith
      nlinarith
    have s2 : 2 * (q ^ 2 * (3 - q)) ≤ a ^ 2 * (3 - a) + b ^ 2 * (3 - b) := by
      have : (a - b) ^ 2 * (2 - (a + b)) ≥ 0 := mul_nonneg (sq_nonneg _) (by linarith)
      rw [hq]
      nlinarith
    linarith
  · unfold corr1D
    simp only
    have := exp_mid (-3.0 * d) (-3.0 * e)
    rwa [show (-3.0 * d + -3.0 * e) / 2 = -3.0 * ((d + e) / 2) by norm_num; ring] at this
  · unfold corr1D
    simp only
    rw [if_neg (by rintro ⟨-, h⟩; linarith), if_neg (by rintro ⟨-, h⟩; linarith),
      if_neg (by rintro ⟨-, h⟩; linarith)]
    refine le_trans ?_ (exp_mid _ _)
    have hconc := (Real.concaveOn_rpow h1.le h2).2 (Set.mem_Ici.2 hd) (Set.mem_Ici.2 he)
      (show (0 : ℝ) ≤ 1 / 2 by norm_num) (show (0 : ℝ) ≤ 1 / 2 by norm_num) (by norm_num)
    simp only [smul_eq_mul] at hconc
    rw [show 1 / 2 * d + 1 / 2 * e = (d + e) / 2 by ring] at hconc
    have : Real.exp (-3.0 * ((d + e) / 2) ^ pw)
        ≤ Real.exp ((-3.0 * d ^ pw + -3.0 * e ^ pw) / 2) :=
      Real.exp_le_exp.2 (by norm_num; linarith)
    linarith

/-! ## C08 -/

section
variable {t : VType} {pw rx ry rz az dp sd : ℝ} {v : Variogram}
  (hv : Variogram.create t pw rx ry rz az dp sd = .ok v)
include hv

/-- The correlation at a one-dimensional lag. -/
theorem corr_line (x : ℝ) :
    v.corr x = corr1D t pw (|x| * normDist rx ry rz az dp ⟨1, 0, 0⟩) := by
  rw [(corr_arity v x 0).2.2, corr3_eq_normDist hv]
  congr 1
  unfold normDist
  rw [← Real.sqrt_sq_eq_abs, ← Real.sqrt_mul (sq_nonneg _)]
  congr 1
  simp only [Vec3.dot]
  ring

/-- **C08.** For the types `spherical`, `exponential` and `general_exponential` with power at most 1
the spectrum on every cycle is non-negative, whatever the ranges, angles, steps and sizes. -/
theorem spectrum1_nonneg (ht : ConvexType t pw) {tx : ℕ} (htx : 0 < tx) (r : ℝ × ℝ × ℝ)
    (dx : ℝ) {sx : ℝ} (hs : 0.99999 ≤ sx) (k : ℕ) :
    0 ≤ spectrum1 tx (gridCov1 v r tx dx sx) k := by
  set h := |dx| * normDist rx ry rz az dp ⟨1, 0, 0⟩ with hh
  have hh0 : 0 ≤ h := mul_nonneg (abs_nonneg _) (Real.sqrt_nonneg _)
  obtain ⟨-, -, -, -, -, -, -, hvar⟩ := create_fields hv
  have hvar0 : 0 ≤ v.var := by rw [hvar]; exact mul_self_nonneg _
  set g : ℕ → ℝ := fun m => v.var * corr1D t pw (m * h) with hg
  have hgc : gridCov1 v r tx dx sx = fun a => g (lag tx a).natAbs := by
    funext a
    simp only [gridCov1, kernel_off hs, mul_one, cov1, hg, corr_line hv]
    congr 2
    rw [abs_mul, hh, ← mul_assoc]
    congr 2
    rw [Nat.cast_natAbs, Int.cast_abs]
  rw [hgc]
  have hm : ∀ m : ℕ, 0 ≤ (m : ℝ) * h := fun m => mul_nonneg (Nat.cast_nonneg _) hh0
  refine spectrum1_nonneg_of_convex htx g (fun m => ?_) (fun m => ?_) (fun m => ?_) k
  · exact mul_nonneg hvar0 (corr1D_nonneg ht (hm m))
  · refine mul_le_mul_of_nonneg_left (corr1D_anti ht (hm m) ?_) hvar0
    push_cast; linarith
  · have := corr1D_mid ht (hm m) (hm (m + 2))
    rw [show ((m : ℝ) * h + ((m + 2 : ℕ) : ℝ) * h) / 2 = ((m + 1 : ℕ) : ℝ) * h by
      push_cast; ring] at this
    have := mul_le_mul_of_nonneg_left this hvar0
    simp only [hg]
    linarith

variable {F : Fftw} (hF : F.Laws) {p : Platform}
include hF

/-- **C08 with C04.** For these types one-dimensional simulation has exactly the requested
covariance at the lag around the padded grid, without any further assumption. -/
theorem simulate1D_covariance_convex (ht : ConvexType t pw) {nx : ℕ} {dx sx : ℝ} {padx : ℤ}
    (hx : DirOk p v nx v.rangeX dx padx sx) (hs : 0.99999 ≤ sx) :
    ∃ tx, IsTotal v nx v.rangeX dx padx false tx ∧ nx ≤ tx ∧
      HasFieldCov1 F p v nx dx padx sx fun d => v.cov1 (wrapLag tx d * dx) := by
  obtain ⟨tx, r, h1, h2, h3, h4⟩ := simulate1D_covariance hF hv hx
  refine ⟨tx, h1, h2, ?_⟩
  have htx : 0 < tx := by have := hx.size; omega
  have := h4 fun k _ => spectrum1_nonneg hv ht htx r dx hs k
  have e : (fun d => v.cov1 (wrapLag tx d * dx)) = wrapCov1 v r tx dx sx := by
    funext d
    unfold wrapCov1
    rw [kernel_off hs, mul_one]
  rw [e]
  exact this

end

end Verif
