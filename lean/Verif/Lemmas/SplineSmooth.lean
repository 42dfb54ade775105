import Verif.Lemmas.Spline
import Mathlib.Analysis.Calculus.ContDiff.Defs
import Mathlib.Analysis.Calculus.ContDiff.Operations
import Mathlib.Analysis.Calculus.ContDiff.Deriv
import Mathlib.Analysis.Calculus.Deriv.Pow
import Mathlib.Analysis.Calculus.Deriv.Polynomial
import Mathlib.MeasureTheory.Integral.IntervalIntegral.IntegrationByParts

/-! Natural cubic splines: smoothness, uniqueness and least curvature. -/

namespace Verif.Interp

open Set Filter Topology

theorem hasDerivAt_posPow (m : ℕ) (t : ℝ) :
    HasDerivAt (fun t : ℝ => max t 0 ^ (m + 2)) ((m + 2 : ℕ) * max t 0 ^ (m + 1)) t := by
  rcases lt_trichotomy t 0 with h | h | h
  · have e : (fun t : ℝ => max t 0 ^ (m + 2)) =ᶠ[𝓝 t] fun _ => 0 := by
      filter_upwards [Iio_mem_nhds h] with s hs
      rw [max_eq_right (le_of_lt hs)]; simp
    rw [max_eq_right h.le]
    simpa using (hasDerivAt_const t (0 : ℝ)).congr_of_eventuallyEq e
  · subst h
    have h1 : HasDerivWithinAt (fun t : ℝ => max t 0 ^ (m + 2)) 0 (Iic 0) 0 := by
      refine (hasDerivWithinAt_const 0 (Iic 0) (0 : ℝ)).congr ?_ (by simp)
      intro s hs
      rw [max_eq_right hs]; simp
    have h2 : HasDerivWithinAt (fun t : ℝ => max t 0 ^ (m + 2)) 0 (Ici 0) 0 := by
      have := (hasDerivAt_pow (m + 2) (0 : ℝ)).hasDerivWithinAt (s := Ici 0)
      simp only [Nat.add_succ_sub_one, pow_succ, mul_zero] at this
      refine this.congr ?_ (by simp)
      intro s hs
      rw [max_eq_left hs]; ring
    have := h1.union h2
    rw [Iic_union_Ici, hasDerivWithinAt_univ] at this
    simpa using this
  · have e : (fun t : ℝ => max t 0 ^ (m + 2)) =ᶠ[𝓝 t] fun s => s ^ (m + 2) := by
      filter_upwards [Ioi_mem_nhds h] with s hs
      rw [max_eq_left (le_of_lt hs)]
    rw [max_eq_left h.le]
    exact (hasDerivAt_pow (m + 2) t).congr_of_eventuallyEq e

theorem contDiff_posCube : ContDiff ℝ 2 fun t : ℝ => max t 0 ^ 3 := by
  have d1 : deriv (fun t : ℝ => max t 0 ^ 3) = fun t => 3 * max t 0 ^ 2 := by
    funext t
    have := (hasDerivAt_posPow 1 t).deriv
    simpa using this
  have d2 : deriv (fun t : ℝ => max t 0 ^ 2) = fun t => 2 * max t 0 := by
    funext t
    have := (hasDerivAt_posPow 0 t).deriv
    simpa using this
  rw [show (2 : WithTop ℕ∞) = 1 + 1 by norm_num, contDiff_succ_iff_deriv]
  refine ⟨fun t => (hasDerivAt_posPow 1 t).differentiableAt, by simp, ?_⟩
  rw [d1]
  refine contDiff_const.mul ?_
  rw [show (1 : WithTop ℕ∞) = 0 + 1 by norm_num, contDiff_succ_iff_deriv]
  refine ⟨fun t => (hasDerivAt_posPow 0 t).differentiableAt, by simp, ?_⟩
  rw [d2]
  exact contDiff_zero.2 (by fun_prop)

section
variable (X Y : ℕ → ℝ)

/-- The spline as one function. -/
noncomputable def splineFn (n : ℕ) (x : ℝ) : ℝ :=
  piece X Y n 0 x + ∑ k ∈ Finset.range (n - 2), (cA X Y n (k + 1) - cA X Y n k) * max (x - X (k + 1)) 0 ^ 3

variable {X Y} {n : ℕ}

theorem splineFn_contDiff : ContDiff ℝ 2 (splineFn X Y n) := by
  unfold splineFn
  refine ContDiff.add ?_ ?_
  · unfold piece
    fun_prop
  · refine ContDiff.sum fun k _ => contDiff_const.mul ?_
    exact contDiff_posCube.comp (by fun_prop : ContDiff ℝ 2 fun x : ℝ => x - X (k + 1))

theorem splineFn_eq (hX : ∀ i, i + 1 < n → 0 < gapF X i) {j : ℕ} (hj : j + 2 ≤ n) {x : ℝ}
    (h1 : ∀ k, k < j → X (k + 1) ≤ x) (h2 : ∀ k, j ≤ k → k + 2 < n → x ≤ X (k + 1)) :
    splineFn X Y n x = piece X Y n j x := by
  have hlow : ∀ m, m ≤ j → piece X Y n 0 x
      + ∑ k ∈ Finset.range m, (cA X Y n (k + 1) - cA X Y n k) * max (x - X (k + 1)) 0 ^ 3 = piece X Y n m x := by
    intro m
    induction m with
    | zero => intro _; simp
    | succ m ih =>
      intro hm
      rw [Finset.sum_range_succ, ← add_assoc, ih (by omega), piece_succ hX (by omega),
        max_eq_left (by linarith [h1 m (by omega)])]
  have hup : ∀ d, j + d ≤ n - 2 →
      ∑ k ∈ Finset.range (j + d), (cA X Y n (k + 1) - cA X Y n k) * max (x - X (k + 1)) 0 ^ 3
        = ∑ k ∈ Finset.range j, (cA X Y n (k + 1) - cA X Y n k) * max (x - X (k + 1)) 0 ^ 3 := by
    intro d
    induction d with
    | zero => intro _; rfl
    | succ d ih =>
      intro hd
      rw [← add_assoc, Finset.sum_range_succ, ih (by omega),
        max_eq_right (by linarith [h2 (j + d) (by omega) (by omega)])]
      simp
  have := hup (n - 2 - j) (by omega)
  rw [show j + (n - 2 - j) = n - 2 by omega] at this
  rw [splineFn, this, hlow j (le_refl _)]

/-- The second derivative of a piece. -/
theorem piece_deriv2 (i : ℕ) (x : ℝ) :
    deriv (deriv (piece X Y n i)) x = 2 * cB X Y n i + 6 * cA X Y n i * (x - X i) := by
  have e : piece X Y n i = fun x => Y i + cC X Y n i * (x - X i) + cB X Y n i * (x - X i) ^ 2
      + cA X Y n i * (x - X i) ^ 3 := by
    funext x; unfold piece; ring
  have d0 : ∀ x, HasDerivAt (fun x : ℝ => x - X i) 1 x := fun x => (hasDerivAt_id x).sub_const _
  have d1 : deriv (piece X Y n i) = fun x => cC X Y n i + cB X Y n i * (2 * (x - X i))
      + cA X Y n i * (3 * (x - X i) ^ 2) := by
    funext x
    rw [e]
    have h := ((((d0 x).const_mul (cC X Y n i)).const_add (Y i)).add
      (((d0 x).pow 2).const_mul (cB X Y n i))).add (((d0 x).pow 3).const_mul (cA X Y n i))
    have := h.deriv
    refine Eq.trans this ?_
    norm_num
  rw [d1]
  have h := ((((d0 x).const_mul 2).const_mul (cB X Y n i)).const_add (cC X Y n i)).add
    ((((d0 x).pow 2).const_mul 3).const_mul (cA X Y n i))
  refine Eq.trans h.deriv ?_
  norm_num
  ring

end

/-- A natural cubic spline through the points: two continuous derivatives, a cubic polynomial between neighbouring points,
where the first and the last extend beyond the points, and no second derivative at the ends. -/
structure NaturalSpline (x_in y_in : List ℝ) (s : ℝ → ℝ) : Prop where
  smooth : ContDiff ℝ 2 s
  through : ∀ i (h : i < x_in.length) (h' : i < y_in.length), s x_in[i] = y_in[i]
  cubic : ∀ i (h : i + 1 < x_in.length), ∃ a b c d : ℝ, ∀ x, (i = 0 ∨ x_in[i] ≤ x) →
    (i + 2 = x_in.length ∨ x ≤ x_in[i + 1]) → s x = a + b * x + c * x ^ 2 + d * x ^ 3
  first : ∀ h : 0 < x_in.length, deriv (deriv s) x_in[0] = 0
  last : ∀ h : x_in.length - 1 < x_in.length, deriv (deriv s) x_in[x_in.length - 1] = 0

theorem fn_eq {l : List ℝ} {i : ℕ} (h : i < l.length) : fn l i = l[i] := by
  simp [fn, List.getD_eq_getElem?_getD, h]

variable {x_in y_in : List ℝ}

theorem fn_le (hs : x_in.Pairwise (· < ·)) {i j : ℕ} (hij : i ≤ j) (hj : j < x_in.length) : fn x_in i ≤ fn x_in j := by
  rcases Nat.lt_or_ge i j with h | h
  · rw [fn_eq (by omega), fn_eq hj]
    exact (List.pairwise_iff_getElem.1 hs i j (by omega) hj h).le
  · rw [show i = j by omega]

theorem fn_lt (hs : x_in.Pairwise (· < ·)) {i j : ℕ} (hij : i < j) (hj : j < x_in.length) : fn x_in i < fn x_in j := by
  rw [fn_eq (by omega), fn_eq hj]
  exact List.pairwise_iff_getElem.1 hs i j (by omega) hj hij

/-- The region of interval `i`. -/
theorem splineFn_region (hs : x_in.Pairwise (· < ·)) {i : ℕ} (hi : i + 1 < x_in.length) {x : ℝ}
    (h0 : i = 0 ∨ fn x_in i ≤ x) (h1 : i + 2 = x_in.length ∨ x ≤ fn x_in (i + 1)) :
    splineFn (fn x_in) (fn y_in) x_in.length x = piece (fn x_in) (fn y_in) x_in.length i x := by
  refine splineFn_eq (fun i h => gap_pos hs h) (by omega) ?_ ?_
  · intro k hk
    exact (fn_le hs (by omega) (by omega)).trans (h0.resolve_left (by omega))
  · intro k hk hk2
    exact (h1.resolve_left (by omega)).trans (fn_le hs (by omega) (by omega))

theorem naturalSpline_exists (hl : x_in.length = y_in.length) (h3 : 3 ≤ x_in.length) (hs : x_in.Pairwise (· < ·)) :
    NaturalSpline x_in y_in (splineFn (fn x_in) (fn y_in) x_in.length) := by
  have hX : ∀ i, i + 1 < x_in.length → 0 < gapF (fn x_in) i := fun i h => gap_pos hs h
  refine ⟨splineFn_contDiff, ?_, ?_, ?_, ?_⟩
  · intro i h h'
    rw [← fn_eq h, ← fn_eq h']
    by_cases hi : i + 1 < x_in.length
    · rw [splineFn_region hs hi (.inr le_rfl) (.inr (fn_le hs (by omega) hi)), piece_left hX]
    · obtain ⟨k, rfl⟩ : ∃ k, i = k + 1 := ⟨i - 1, by omega⟩
      rw [splineFn_region hs (i := k) h (.inr (fn_le hs (by omega) h)) (.inr le_rfl),
        ← piece_right_aux (X := fn x_in) (Y := fn y_in) (n := x_in.length) (hX k h).ne', piece, gapF]
  · intro i hi
    refine ⟨fn y_in i - cC (fn x_in) (fn y_in) x_in.length i * fn x_in i
        + cB (fn x_in) (fn y_in) x_in.length i * fn x_in i ^ 2 - cA (fn x_in) (fn y_in) x_in.length i * fn x_in i ^ 3,
      cC (fn x_in) (fn y_in) x_in.length i - 2 * cB (fn x_in) (fn y_in) x_in.length i * fn x_in i
        + 3 * cA (fn x_in) (fn y_in) x_in.length i * fn x_in i ^ 2,
      cB (fn x_in) (fn y_in) x_in.length i - 3 * cA (fn x_in) (fn y_in) x_in.length i * fn x_in i,
      cA (fn x_in) (fn y_in) x_in.length i, ?_⟩
    intro x h0 h1
    rw [← fn_eq (show i < x_in.length by omega)] at h0
    rw [← fn_eq hi] at h1
    rw [splineFn_region hs hi h0 h1, piece]
    ring
  · intro h
    rw [← fn_eq h]
    have e : splineFn (fn x_in) (fn y_in) x_in.length =ᶠ[𝓝 (fn x_in 0)] piece (fn x_in) (fn y_in) x_in.length 0 := by
      filter_upwards [Iio_mem_nhds (fn_lt hs (i := 0) (j := 1) (by omega) (by omega))] with x hx
      exact splineFn_region hs (by omega) (.inl rfl) (.inr (le_of_lt hx))
    rw [e.deriv.deriv_eq, piece_deriv2, cB, curv_zero]
    simp
  · intro h
    rw [← fn_eq h]
    obtain ⟨k, hk⟩ : ∃ k, x_in.length = k + 2 := ⟨x_in.length - 2, by omega⟩
    have e : splineFn (fn x_in) (fn y_in) x_in.length =ᶠ[𝓝 (fn x_in (x_in.length - 1))]
        piece (fn x_in) (fn y_in) x_in.length k := by
      filter_upwards [Ioi_mem_nhds (fn_lt hs (i := k) (j := x_in.length - 1) (by omega) (by omega))] with x hx
      exact splineFn_region hs (by omega) (.inr (le_of_lt hx)) (.inl (by omega))
    have hb := cB_succ (X := fn x_in) (Y := fn y_in) (n := x_in.length) (i := k) (hX k (by omega)).ne'
    have hz : cB (fn x_in) (fn y_in) x_in.length (k + 1) = 0 := by
      have := curv_last (X := fn x_in) (Y := fn y_in) (n := x_in.length) (by omega)
      rw [show x_in.length - 1 = k + 1 by omega] at this
      rw [cB, this]; simp
    rw [e.deriv.deriv_eq, piece_deriv2, show x_in.length - 1 = k + 1 by omega]
    rw [hz] at hb
    have : fn x_in (k + 1) - fn x_in k = gapF (fn x_in) k := rfl
    rw [this]
    linarith

/-- The second derivative of a spline in an interval. -/
theorem spline_deriv2 {s : ℝ → ℝ} (hsm : ContDiff ℝ 2 s) {l r a b c d : ℝ} (hlr : l < r)
    (h : ∀ x, l ≤ x → x ≤ r → s x = a + b * x + c * x ^ 2 + d * x ^ 3) :
    ∀ x ∈ Icc l r, deriv (deriv s) x = 2 * c + 6 * d * x := by
  have hP : ∀ x, deriv (deriv fun x : ℝ => a + b * x + c * x ^ 2 + d * x ^ 3) x = 2 * c + 6 * d * x := by
    have d1 : (deriv fun x : ℝ => a + b * x + c * x ^ 2 + d * x ^ 3) = fun x => b + c * (2 * x) + d * (3 * x ^ 2) := by
      funext x
      have h := ((((hasDerivAt_id x).const_mul b).const_add a).add ((hasDerivAt_pow 2 x).const_mul c)).add
        ((hasDerivAt_pow 3 x).const_mul d)
      refine Eq.trans h.deriv ?_
      norm_num
    intro x
    rw [d1]
    have h := ((((hasDerivAt_id x).const_mul 2).const_mul c).const_add b).add
      (((hasDerivAt_pow 2 x).const_mul 3).const_mul d)
    refine Eq.trans h.deriv ?_
    norm_num
    ring
  have hc : Continuous (deriv (deriv s)) := by
    have h1 : ContDiff ℝ 1 (deriv s) := by
      rw [show (2 : WithTop ℕ∞) = 1 + 1 by norm_num, contDiff_succ_iff_deriv] at hsm
      exact hsm.2.2
    exact h1.continuous_deriv (le_refl _)
  have ho : EqOn (deriv (deriv s)) (fun x => 2 * c + 6 * d * x) (Ioo l r) := by
    intro x hx
    have e : s =ᶠ[𝓝 x] fun x : ℝ => a + b * x + c * x ^ 2 + d * x ^ 3 := by
      filter_upwards [Ioo_mem_nhds hx.1 hx.2] with y hy
      exact h y hy.1.le hy.2.le
    rw [e.deriv.deriv_eq, hP]
  have := ho.closure hc (by fun_prop)
  rw [closure_Ioo hlr.ne] at this
  exact this

theorem contDiff_two {w : ℝ → ℝ} (hw : ContDiff ℝ 2 w) : Differentiable ℝ w ∧ Differentiable ℝ (deriv w) ∧
    Continuous (deriv w) ∧ Continuous (deriv (deriv w)) := by
  have h2 := hw
  rw [show (2 : WithTop ℕ∞) = 1 + 1 by norm_num, contDiff_succ_iff_deriv] at h2
  refine ⟨h2.1, h2.2.2.differentiable (by norm_num), h2.2.2.continuous, h2.2.2.continuous_deriv (le_refl _)⟩

/-- The second derivative of a natural spline is orthogonal to that of a function that is zero at the points. -/
theorem spline_orthogonal {s w : ℝ → ℝ} (h2 : 2 ≤ x_in.length) (hs : x_in.Pairwise (· < ·))
    (hsp : NaturalSpline x_in y_in s) (hw : ContDiff ℝ 2 w) (hz : ∀ i, i < x_in.length → w (fn x_in i) = 0) :
    ∫ x in (fn x_in 0)..(fn x_in (x_in.length - 1)), deriv (deriv s) x * deriv (deriv w) x = 0 := by
  obtain ⟨hw0, hw1, hw2, hw3⟩ := contDiff_two hw
  obtain ⟨-, -, -, hs3⟩ := contDiff_two hsp.smooth
  have hone : ∀ k, k < x_in.length - 1 → ∫ x in (fn x_in k)..(fn x_in (k + 1)), deriv (deriv s) x * deriv (deriv w) x
      = deriv (deriv s) (fn x_in (k + 1)) * deriv w (fn x_in (k + 1))
        - deriv (deriv s) (fn x_in k) * deriv w (fn x_in k) := by
    intro k hk
    have hlt : fn x_in k < fn x_in (k + 1) := fn_lt hs (by omega) (by omega)
    obtain ⟨a, b, c, d, hp⟩ := hsp.cubic k (by omega)
    have hd := spline_deriv2 hsp.smooth hlt (a := a) (b := b) (c := c) (d := d) (fun x h0 h1 => hp x
      (.inr (by rw [← fn_eq (by omega)]; exact h0)) (.inr (by rw [← fn_eq (by omega)]; exact h1)))
    have e1 : ∫ x in (fn x_in k)..(fn x_in (k + 1)), deriv (deriv s) x * deriv (deriv w) x
        = ∫ x in (fn x_in k)..(fn x_in (k + 1)), (2 * c + 6 * d * x) * deriv (deriv w) x := by
      refine intervalIntegral.integral_congr fun x hx => ?_
      rw [uIcc_of_le hlt.le] at hx
      simp only [hd x hx]
    have e2 := intervalIntegral.integral_mul_deriv_eq_deriv_mul (a := fn x_in k) (b := fn x_in (k + 1))
      (u := fun x => 2 * c + 6 * d * x) (u' := fun _ => 6 * d) (v := deriv w) (v' := deriv (deriv w))
      (fun x _ => by simpa using ((hasDerivAt_id x).const_mul (6 * d)).const_add (2 * c))
      (fun x _ => (hw1 x).hasDerivAt) (continuous_const.intervalIntegrable _ _) (hw3.intervalIntegrable _ _)
    have e3 : ∫ x in (fn x_in k)..(fn x_in (k + 1)), 6 * d * deriv w x = 0 := by
      rw [intervalIntegral.integral_const_mul, intervalIntegral.integral_deriv_eq_sub (fun x _ => hw0 x)
        (hw2.intervalIntegrable _ _), hz _ (by omega), hz _ (by omega)]
      simp
    rw [e1, e2, e3, hd _ (left_mem_Icc.2 hlt.le), hd _ (right_mem_Icc.2 hlt.le)]
    simp
  have hsum := intervalIntegral.sum_integral_adjacent_intervals (f := fun x => deriv (deriv s) x * deriv (deriv w) x)
    (μ := MeasureTheory.volume) (a := fn x_in) (n := x_in.length - 1)
    (fun k _ => (hs3.mul hw3).intervalIntegrable _ _)
  rw [← hsum, Finset.sum_congr rfl fun k hk => hone k (Finset.mem_range.1 hk),
    Finset.sum_range_sub (fun k => deriv (deriv s) (fn x_in k) * deriv w (fn x_in k))]
  rw [fn_eq (show 0 < x_in.length by omega), fn_eq (show x_in.length - 1 < x_in.length by omega), hsp.first (by omega),
    hsp.last (by omega)]
  simp

theorem deriv2_sub {f g : ℝ → ℝ} (hf : ContDiff ℝ 2 f) (hg : ContDiff ℝ 2 g) (x : ℝ) :
    deriv (deriv fun x => f x - g x) x = deriv (deriv f) x - deriv (deriv g) x := by
  obtain ⟨f0, f1, -, -⟩ := contDiff_two hf
  obtain ⟨g0, g1, -, -⟩ := contDiff_two hg
  have : (deriv fun x => f x - g x) = fun x => deriv f x - deriv g x := by
    funext x
    exact deriv_fun_sub (f0 x) (g0 x)
  rw [this]
  exact deriv_fun_sub (f1 x) (g1 x)

/-- Natural splines have the least curvature. -/
theorem spline_least {s g : ℝ → ℝ} (hl : x_in.length = y_in.length) (h2 : 2 ≤ x_in.length) (hs : x_in.Pairwise (· < ·))
    (hsp : NaturalSpline x_in y_in s) (hg : ContDiff ℝ 2 g)
    (hz : ∀ i (h : i < x_in.length) (h' : i < y_in.length), g x_in[i] = y_in[i]) :
    ∫ x in (fn x_in 0)..(fn x_in (x_in.length - 1)), deriv (deriv s) x ^ 2
      ≤ ∫ x in (fn x_in 0)..(fn x_in (x_in.length - 1)), deriv (deriv g) x ^ 2 := by
  have hw : ContDiff ℝ 2 fun x => g x - s x := hg.sub hsp.smooth
  have ho := spline_orthogonal h2 hs hsp hw (fun i hi => by
    rw [fn_eq hi, hz i hi (by omega), hsp.through i hi (by omega), sub_self])
  obtain ⟨-, -, -, hw3⟩ := contDiff_two hw
  obtain ⟨-, -, -, hs3⟩ := contDiff_two hsp.smooth
  have hle : fn x_in 0 ≤ fn x_in (x_in.length - 1) := fn_le hs (by omega) (by omega)
  have e : ∀ x, deriv (deriv g) x ^ 2 = deriv (deriv s) x ^ 2
      + 2 * (deriv (deriv s) x * deriv (deriv fun x => g x - s x) x) + deriv (deriv fun x => g x - s x) x ^ 2 := by
    intro x
    rw [deriv2_sub hg hsp.smooth]
    ring
  have i1 : IntervalIntegrable (fun x => deriv (deriv s) x ^ 2) MeasureTheory.volume (fn x_in 0) (fn x_in (x_in.length - 1)) :=
    (hs3.pow 2).intervalIntegrable _ _
  have i2 : IntervalIntegrable (fun x => 2 * (deriv (deriv s) x * deriv (deriv fun x => g x - s x) x))
      MeasureTheory.volume (fn x_in 0) (fn x_in (x_in.length - 1)) :=
    (continuous_const.mul (hs3.mul hw3)).intervalIntegrable _ _
  have i3 : IntervalIntegrable (fun x => deriv (deriv fun x => g x - s x) x ^ 2)
      MeasureTheory.volume (fn x_in 0) (fn x_in (x_in.length - 1)) := (hw3.pow 2).intervalIntegrable _ _
  have hpos : 0 ≤ ∫ x in (fn x_in 0)..(fn x_in (x_in.length - 1)), deriv (deriv fun x => g x - s x) x ^ 2 :=
    intervalIntegral.integral_nonneg hle fun x _ => sq_nonneg _
  rw [intervalIntegral.integral_congr (g := fun x => deriv (deriv s) x ^ 2
      + 2 * (deriv (deriv s) x * deriv (deriv fun x => g x - s x) x) + deriv (deriv fun x => g x - s x) x ^ 2)
      (fun x _ => e x) (f := fun x => deriv (deriv g) x ^ 2),
    intervalIntegral.integral_add (i1.add i2) i3, intervalIntegral.integral_add i1 i2,
    intervalIntegral.integral_const_mul, ho]
  linarith

/-- There is only one natural spline through the points. -/
theorem spline_unique {s t : ℝ → ℝ} (hl : x_in.length = y_in.length) (h2 : 2 ≤ x_in.length) (hs : x_in.Pairwise (· < ·))
    (hsp : NaturalSpline x_in y_in s) (htp : NaturalSpline x_in y_in t) : s = t := by
  have hw : ContDiff ℝ 2 fun x => s x - t x := hsp.smooth.sub htp.smooth
  have hz : ∀ i, i < x_in.length → (fun x => s x - t x) (fn x_in i) = 0 := fun i hi => by
    simp only
    rw [fn_eq hi, htp.through i hi (by omega), hsp.through i hi (by omega), sub_self]
  have o1 := spline_orthogonal h2 hs hsp hw hz
  have o2 := spline_orthogonal h2 hs htp hw hz
  obtain ⟨-, -, -, hw3⟩ := contDiff_two hw
  obtain ⟨-, -, -, hs3⟩ := contDiff_two hsp.smooth
  obtain ⟨-, -, -, ht3⟩ := contDiff_two htp.smooth
  have hlt : fn x_in 0 < fn x_in (x_in.length - 1) := fn_lt hs (by omega) (by omega)
  have o3 : ∫ x in (fn x_in 0)..(fn x_in (x_in.length - 1)), deriv (deriv fun x => s x - t x) x ^ 2 = 0 := by
    have e : ∀ x, deriv (deriv fun x => s x - t x) x ^ 2
        = deriv (deriv s) x * deriv (deriv fun x => s x - t x) x
          - deriv (deriv t) x * deriv (deriv fun x => s x - t x) x := by
      intro x
      rw [deriv2_sub hsp.smooth htp.smooth]
      ring
    have i1 : IntervalIntegrable (fun x => deriv (deriv s) x * deriv (deriv fun x => s x - t x) x) MeasureTheory.volume
      (fn x_in 0) (fn x_in (x_in.length - 1)) := (hs3.mul hw3).intervalIntegrable _ _
    have i2 : IntervalIntegrable (fun x => deriv (deriv t) x * deriv (deriv fun x => s x - t x) x) MeasureTheory.volume
      (fn x_in 0) (fn x_in (x_in.length - 1)) := (ht3.mul hw3).intervalIntegrable _ _
    rw [intervalIntegral.integral_congr (fun x _ => e x), intervalIntegral.integral_sub i1 i2, o1, o2, sub_zero]
  have hzero : ∀ x ∈ Icc (fn x_in 0) (fn x_in (x_in.length - 1)), deriv (deriv fun x => s x - t x) x = 0 := by
    intro x hx
    by_contra hne
    have := intervalIntegral.integral_pos hlt (hw3.pow 2).continuousOn (fun x _ => sq_nonneg _)
      ⟨x, hx, lt_of_le_of_ne (sq_nonneg _) (Ne.symm (pow_ne_zero 2 hne))⟩
    exact absurd o3 this.ne'
  have hreg : ∀ i (hi : i + 1 < x_in.length) x, (i = 0 ∨ x_in[i] ≤ x) → (i + 2 = x_in.length ∨ x ≤ x_in[i + 1]) →
      s x = t x := by
    intro i hi x h0 h1
    obtain ⟨a, b, c, d, hp⟩ := hsp.cubic i hi
    obtain ⟨a', b', c', d', hp'⟩ := htp.cubic i hi
    have hil : fn x_in i < fn x_in (i + 1) := fn_lt hs (by omega) hi
    have hd : ∀ x ∈ Icc (fn x_in i) (fn x_in (i + 1)), deriv (deriv fun x => s x - t x) x
        = 2 * (c - c') + 6 * (d - d') * x := by
      refine spline_deriv2 (a := a - a') (b := b - b') hw hil fun x h0 h1 => ?_
      rw [fn_eq (by omega)] at h0
      rw [fn_eq hi] at h1
      rw [hp x (.inr h0) (.inr h1), hp' x (.inr h0) (.inr h1)]
      ring
    have hsub : ∀ x ∈ Icc (fn x_in i) (fn x_in (i + 1)), x ∈ Icc (fn x_in 0) (fn x_in (x_in.length - 1)) := fun x hx =>
      ⟨(fn_le hs (by omega) (by omega)).trans hx.1, hx.2.trans (fn_le hs (by omega) (by omega))⟩
    have el := (hd _ (left_mem_Icc.2 hil.le)).symm.trans (hzero _ (hsub _ (left_mem_Icc.2 hil.le)))
    have er := (hd _ (right_mem_Icc.2 hil.le)).symm.trans (hzero _ (hsub _ (right_mem_Icc.2 hil.le)))
    have hdd : d - d' = 0 := by
      have : (d - d') * (fn x_in (i + 1) - fn x_in i) = 0 := by linarith
      rcases mul_eq_zero.1 this with h | h
      · exact h
      · linarith
    have hcc : c - c' = 0 := by rw [hdd] at el; linarith
    have wl := hz i (by omega)
    have wr := hz (i + 1) hi
    simp only at wl wr
    have f1 : fn x_in i = x_in[i] := fn_eq (by omega)
    have f2 : fn x_in (i + 1) = x_in[i + 1] := fn_eq hi
    rw [hp _ (.inr (by rw [f1])) (.inr (by rw [← f2]; exact hil.le)),
      hp' _ (.inr (by rw [f1])) (.inr (by rw [← f2]; exact hil.le))] at wl
    rw [hp _ (.inr (by rw [← f1]; exact hil.le)) (.inr (by rw [f2])),
      hp' _ (.inr (by rw [← f1]; exact hil.le)) (.inr (by rw [f2]))] at wr
    have hd0 : d = d' := by linarith
    have hc0 : c = c' := by linarith
    subst hd0 hc0
    have hbb : b - b' = 0 := by
      have : (b - b') * (fn x_in (i + 1) - fn x_in i) = 0 := by linarith
      rcases mul_eq_zero.1 this with h | h
      · exact h
      · linarith
    have hb0 : b = b' := by linarith
    subst hb0
    have ha0 : a = a' := by linarith
    rw [hp x h0 h1, hp' x h0 h1, ha0]
  funext x
  -- the interval of `x`
  classical
  let P : ℕ → Prop := fun k => k = 0 ∨ fn x_in k ≤ x
  have hP := Nat.findGreatest_spec (P := P) (m := 0) (n := x_in.length - 2) (by omega) (.inl rfl)
  have hle := Nat.findGreatest_le (P := P) (x_in.length - 2)
  refine hreg (Nat.findGreatest P (x_in.length - 2)) (by omega) x ?_ ?_
  · rw [← fn_eq (by omega)]; exact hP
  · by_cases h : Nat.findGreatest P (x_in.length - 2) = x_in.length - 2
    · exact .inl (by omega)
    · right
      rw [← fn_eq (by omega)]
      by_contra hc
      have := Nat.le_findGreatest (P := P) (m := Nat.findGreatest P (x_in.length - 2) + 1) (n := x_in.length - 2)
        (by omega) (.inr (by linarith))
      omega

end Verif.Interp
