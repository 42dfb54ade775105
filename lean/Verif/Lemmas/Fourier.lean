import Mathlib.Analysis.SpecialFunctions.Complex.Log
import Mathlib.Analysis.SpecialFunctions.Trigonometric.Basic
import Mathlib.Algebra.BigOperators.Ring.Finset
import Mathlib.Algebra.Order.BigOperators.Ring.Finset
import Mathlib.Algebra.Field.GeomSum
import Mathlib.Algebra.BigOperators.Field
import Mathlib.Data.Complex.BigOperators

/-!
# Fourier analysis on a periodic box

A `Pairing` is what one-, two- and three-dimensional discrete Fourier transforms have in common: a
group of integer index vectors, a finite box of representatives, and characters `e k x`
(`exp(2 pi i k.x/n)`). The covariance computation of the simulation is done once here.
-/

namespace Verif

open Finset Complex ComplexConjugate

open scoped Classical in
/-- A periodic box with its characters. -/
structure Pairing (G : Type) [AddCommGroup G] where
  box : Finset G
  N : ℕ
  N_pos : 0 < N
  e : G → G → ℂ
  per : G → Prop
  e_add : ∀ k x y, e k (x + y) = e k x * e k y
  add_e : ∀ k l x, e (k + l) x = e k x * e l x
  conj_e : ∀ k x, conj (e k x) = e k (-x)
  neg_e : ∀ k x, e (-k) x = e k (-x)
  symm : ∀ k x, e k x = e x k
  per_e : ∀ k x, per k → e k x = 1
  ortho : ∀ k, ∑ x ∈ box, e k x = if per k then (N : ℂ) else 0
  zero_mem : 0 ∈ box
  rep : ∀ k, ∃ k' ∈ box, per (k - k')
  uniq : ∀ a ∈ box, ∀ b ∈ box, per (a - b) → a = b
  per_neg : ∀ k, per k → per (-k)
  per_add : ∀ k l, per k → per l → per (k + l)

namespace Pairing

variable {G : Type} [AddCommGroup G] (P : Pairing G)

theorem N_ne : (P.N : ℂ) ≠ 0 := by exact_mod_cast P.N_pos.ne'

theorem N_posR : (0 : ℝ) < P.N := by exact_mod_cast P.N_pos

theorem e_zero (k : G) : P.e k 0 = 1 := by
  have h := P.e_add k 0 0
  have hne : P.e k 0 ≠ 0 := by
    intro h0
    -- then every value is zero, contradicting `per_e` at `0`
    have h1 : P.per 0 := by
      obtain ⟨k', _, hp⟩ := P.rep 0
      have := P.per_add _ _ hp (P.per_neg _ hp)
      simpa using this
    have h2 := P.per_e 0 k h1
    rw [P.symm] at h2
    rw [h0] at h2
    exact zero_ne_one h2
  rw [add_zero] at h
  exact (mul_left_cancel₀ hne (by rw [mul_one]; exact h.symm))

theorem zero_e (x : G) : P.e 0 x = 1 := by rw [P.symm, P.e_zero]

theorem per_zero : P.per 0 := by
  obtain ⟨k', _, hp⟩ := P.rep 0
  have := P.per_add _ _ hp (P.per_neg _ hp)
  simpa using this

theorem e_neg_mul (k x : G) : P.e k (-x) * P.e k x = 1 := by
  rw [← P.e_add]; simp [P.e_zero]

/-- Characters do not change under a period in the frequency ... -/
theorem e_congr {k l : G} (h : P.per (k - l)) (x : G) : P.e k x = P.e l x := by
  have := P.add_e (k - l) l x
  rw [sub_add_cancel, P.per_e _ _ h, one_mul] at this
  exact this

/-- ... or in the position. -/
theorem e_congr' {x y : G} (h : P.per (x - y)) (k : G) : P.e k x = P.e k y := by
  rw [P.symm k x, P.symm k y, P.e_congr h]

/-- A sum over the box does not change when the frequency is negated. -/
theorem sum_neg {F : G → ℂ} (hF : ∀ k l, P.per (k - l) → F k = F l) :
    ∑ k ∈ P.box, F (-k) = ∑ k ∈ P.box, F k := by
  choose r hr hp using P.rep
  refine Finset.sum_bij (fun k _ => r (-k)) (fun k _ => hr _) ?_ ?_ ?_
  · intro a ha b hb hab
    refine P.uniq a ha b hb ?_
    have h1 := hp (-a)
    have h2 := P.per_neg _ (hp (-b))
    rw [show r (-a) = r (-b) from hab] at h1
    have := P.per_neg _ (P.per_add _ _ h1 h2)
    have e : -(-a - r (-b) + -(-b - r (-b))) = a - b := by abel
    rwa [e] at this
  · intro b hb
    refine ⟨r (-b), hr _, ?_⟩
    refine P.uniq _ (hr _) b hb ?_
    have h1 := P.per_neg _ (hp (-(r (-b))))
    have e2 : r (-(r (-b))) - b = (-(-(r (-b)) - r (-(r (-b))))) + ((-b) - r (-b)) := by abel
    rw [e2]
    exact P.per_add _ _ h1 (hp (-b))
  · intro a _
    exact hF _ _ (hp (-a))

/-- Shifting the argument of a periodic function does not change its sum over the box. -/
theorem sum_shift {F : G → ℂ} (hF : ∀ k l, P.per (k - l) → F k = F l) (d : G) :
    ∑ k ∈ P.box, F (k + d) = ∑ k ∈ P.box, F k := by
  choose r hr hp using P.rep
  refine Finset.sum_bij (fun k _ => r (k + d)) (fun k _ => hr _) ?_ ?_ ?_
  · intro a ha b hb hab
    refine P.uniq a ha b hb ?_
    have h1 := hp (a + d)
    have h2 := P.per_neg _ (hp (b + d))
    rw [show r (a + d) = r (b + d) from hab] at h1
    have := P.per_add _ _ h1 h2
    have e : a + d - r (b + d) + -(b + d - r (b + d)) = a - b := by abel
    rwa [e] at this
  · intro b hb
    refine ⟨r (b - d), hr _, ?_⟩
    refine P.uniq _ (hr _) b hb ?_
    have h1 := P.per_neg _ (hp (r (b - d) + d))
    have h2 := P.per_neg _ (hp (b - d))
    have := P.per_add _ _ h1 h2
    have e : -(r (b - d) + d - r (r (b - d) + d)) + -(b - d - r (b - d)) =
        r (r (b - d) + d) - b := by abel
    rwa [e] at this
  · intro a _
    exact hF _ _ (hp (a + d))

/-- Discrete Fourier transform (forward sign). -/
noncomputable def dft (a : G → ℂ) (k : G) : ℂ := ∑ x ∈ P.box, a x * P.e k (-x)

/-- Unnormalised inverse transform. -/
noncomputable def idft (Z : G → ℂ) (x : G) : ℂ := ∑ k ∈ P.box, Z k * P.e k x

theorem dft_congr {a : G → ℂ} {k l : G} (h : P.per (k - l)) : P.dft a k = P.dft a l := by
  unfold dft
  exact Finset.sum_congr rfl fun x _ => by rw [P.e_congr h]

/-- Transform of real data is Hermitian. -/
theorem dft_neg {a : G → ℂ} (ha : ∀ x, conj (a x) = a x) (k : G) :
    P.dft a (-k) = conj (P.dft a k) := by
  unfold dft
  rw [map_sum]
  refine Finset.sum_congr rfl fun x _ => ?_
  rw [map_mul, ha, P.conj_e, P.neg_e]

open scoped Classical in
/-- Fourier inversion. -/
theorem idft_dft (a : G → ℂ) {x : G} (hx : x ∈ P.box) : P.idft (P.dft a) x = P.N * a x := by
  unfold idft dft
  simp_rw [Finset.sum_mul]
  rw [Finset.sum_comm]
  have : ∀ y ∈ P.box, ∑ k ∈ P.box, a y * P.e k (-y) * P.e k x = if y = x then P.N * a x else 0 := by
    intro y hy
    have h1 : ∀ k ∈ P.box, a y * P.e k (-y) * P.e k x = a y * P.e (x - y) k := by
      intro k _
      rw [mul_assoc, ← P.e_add, P.symm (x - y), neg_add_eq_sub]
    rw [Finset.sum_congr rfl h1, ← Finset.mul_sum, P.ortho]
    by_cases hxy : y = x
    · subst hxy
      rw [if_pos rfl, sub_self, if_pos P.per_zero, mul_comm]
    · rw [if_neg hxy, if_neg, mul_zero]
      intro hp
      exact hxy (P.uniq x hx y hy hp).symm
  rw [Finset.sum_congr rfl this, Finset.sum_ite_eq' P.box x, if_pos hx]

open scoped Classical in
/-- Inversion in the other direction: the transform of an inverse transform. -/
theorem dft_idft (Z : G → ℂ) {k : G} (hk : k ∈ P.box) : P.dft (P.idft Z) k = P.N * Z k := by
  unfold idft dft
  simp_rw [Finset.sum_mul]
  rw [Finset.sum_comm]
  have : ∀ l ∈ P.box, ∑ x ∈ P.box, Z l * P.e l x * P.e k (-x) = if l = k then P.N * Z k else 0 := by
    intro l hl
    have h1 : ∀ x ∈ P.box, Z l * P.e l x * P.e k (-x) = Z l * P.e (l - k) x := by
      intro x _
      rw [mul_assoc, ← P.neg_e, ← P.add_e, sub_eq_add_neg]
    rw [Finset.sum_congr rfl h1, ← Finset.mul_sum, P.ortho]
    by_cases hxy : l = k
    · subst hxy
      rw [if_pos rfl, sub_self, if_pos P.per_zero, mul_comm]
    · rw [if_neg hxy, if_neg, mul_zero]
      intro hp
      exact hxy (P.uniq l hl k hk hp)
  rw [Finset.sum_congr rfl this, Finset.sum_ite_eq' P.box k, if_pos hk]

/-- The inverse transform of a periodic Hermitian function is real. -/
theorem idft_real {Z : G → ℂ} (hper : ∀ k l, P.per (k - l) → Z k = Z l)
    (hherm : ∀ k, Z (-k) = conj (Z k)) (x : G) : ((P.idft Z x).re : ℂ) = P.idft Z x := by
  rw [← Complex.conj_eq_iff_re]
  unfold idft
  rw [map_sum]
  have h1 : ∀ k ∈ P.box, conj (Z k * P.e k x) = Z (-k) * P.e (-k) x := by
    intro k _
    rw [map_mul, hherm, P.conj_e, P.neg_e]
  rw [Finset.sum_congr rfl h1]
  exact P.sum_neg (F := fun k => Z k * P.e k x) fun k l h => by rw [hper k l h, P.e_congr h]

/-- Convolution theorem. -/
theorem idft_mul_dft (a b : G → ℂ) (hb : ∀ x y, P.per (x - y) → b x = b y) (x : G) :
    P.idft (fun k => P.dft a k * P.dft b k) x = P.N * ∑ y ∈ P.box, a y * b (x - y) := by
  -- expand `dft a` only
  have h1 : P.idft (fun k => P.dft a k * P.dft b k) x
      = ∑ y ∈ P.box, a y * P.idft (P.dft b) (x - y) := by
    unfold idft
    simp_rw [Finset.mul_sum]
    rw [Finset.sum_comm]
    refine Finset.sum_congr rfl fun k _ => ?_
    conv_lhs => rw [dft, Finset.sum_mul, Finset.sum_mul]
    refine Finset.sum_congr rfl fun y _ => ?_
    rw [sub_eq_add_neg, P.e_add]
    ring
  rw [h1, Finset.mul_sum]
  refine Finset.sum_congr rfl fun y _ => ?_
  obtain ⟨z, hz, hp⟩ := P.rep (x - y)
  have h2 : P.idft (P.dft b) (x - y) = P.idft (P.dft b) z := by
    unfold idft
    exact Finset.sum_congr rfl fun k _ => by rw [P.e_congr' hp]
  rw [h2, P.idft_dft b hz, hb _ _ hp]
  ring

/-! ### The spectral square root and the covariance of the field -/

/-- Real part of the spectrum of real data. -/
noncomputable def spec (c : G → ℝ) (k : G) : ℝ := (P.dft (fun x => (c x : ℂ)) k).re

theorem spec_congr {c : G → ℝ} {k l : G} (h : P.per (k - l)) : P.spec c k = P.spec c l := by
  unfold spec; rw [P.dft_congr h]

theorem spec_neg (c : G → ℝ) (k : G) : P.spec c (-k) = P.spec c k := by
  unfold spec
  rw [P.dft_neg (by simp), Complex.conj_re]

/-- Amplitude: square root of the clipped spectrum. -/
noncomputable def amp (c : G → ℝ) (k : G) : ℝ := Real.sqrt (max (P.spec c k) 0)

theorem amp_sq (c : G → ℝ) (k : G) : P.amp c k * P.amp c k = max (P.spec c k) 0 :=
  Real.mul_self_sqrt (le_max_right _ _)

theorem amp_congr {c : G → ℝ} {k l : G} (h : P.per (k - l)) : P.amp c k = P.amp c l := by
  unfold amp; rw [P.spec_congr h]

theorem amp_neg (c : G → ℝ) (k : G) : P.amp c (-k) = P.amp c k := by
  unfold amp; rw [P.spec_neg]

/-- Convolution kernel: inverse transform of the amplitude. -/
noncomputable def ker (c : G → ℝ) (z : G) : ℝ := (P.idft (fun k => (P.amp c k : ℂ)) z).re / P.N

theorem ker_eq (c : G → ℝ) (z : G) :
    (P.ker c z : ℂ) = P.idft (fun k => (P.amp c k : ℂ)) z / P.N := by
  unfold ker
  rw [Complex.ofReal_div, P.idft_real]
  · rfl
  · intro k l h; rw [P.amp_congr h]
  · intro k; rw [P.amp_neg, Complex.conj_ofReal]

theorem ker_congr {c : G → ℝ} {x y : G} (h : P.per (x - y)) : P.ker c x = P.ker c y := by
  unfold ker idft
  congr 2
  exact Finset.sum_congr rfl fun k _ => by rw [P.e_congr' h]

/-- Filtering with the amplitude is convolution with the kernel. -/
theorem idft_amp_mul (c w : G → ℝ) (x : G) :
    P.idft (fun k => (P.amp c k : ℂ) * P.dft (fun y => (w y : ℂ)) k) x
      = ((P.N * ∑ y ∈ P.box, P.ker c (x - y) * w y : ℝ) : ℂ) := by
  push_cast
  rw [Finset.mul_sum]
  simp_rw [P.ker_eq]
  unfold idft
  have h1 : ∀ y ∈ P.box, (P.N : ℂ) * ((∑ k ∈ P.box, (P.amp c k : ℂ) * P.e k (x - y)) / P.N * w y)
      = ∑ k ∈ P.box, (P.amp c k : ℂ) * P.e k (x - y) * w y := by
    intro y _
    rw [Finset.sum_div, Finset.sum_mul, Finset.mul_sum]
    refine Finset.sum_congr rfl fun k _ => ?_
    have := P.N_ne
    field_simp
  rw [Finset.sum_congr rfl h1, Finset.sum_comm]
  refine Finset.sum_congr rfl fun k _ => ?_
  simp only [dft, Finset.mul_sum, Finset.sum_mul]
  refine Finset.sum_congr rfl fun y _ => ?_
  rw [sub_eq_add_neg, P.e_add]
  ring

open scoped Classical in
/-- Covariance of the convolution: the inverse transform of the squared amplitude. -/
theorem sum_ker_mul (c : G → ℝ) (x x' : G) :
    ((∑ y ∈ P.box, P.ker c (x - y) * P.ker c (x' - y) : ℝ) : ℂ)
      = P.idft (fun k => ((max (P.spec c k) 0 : ℝ) : ℂ)) (x - x') / P.N := by
  push_cast
  have hc : ∀ y, (P.ker c (x' - y) : ℂ) = P.idft (fun k => (P.amp c k : ℂ)) (y - x') / P.N := by
    intro y
    rw [← Complex.conj_ofReal, P.ker_eq, map_div₀, map_natCast]
    congr 1
    unfold idft
    rw [map_sum]
    refine Finset.sum_congr rfl fun k _ => ?_
    rw [map_mul, Complex.conj_ofReal, P.conj_e, neg_sub]
  simp_rw [hc]
  have h1 : ∀ y ∈ P.box, (P.ker c (x - y) : ℂ) *
      (P.idft (fun k => (P.amp c k : ℂ)) (y - x') / P.N)
      = ∑ k ∈ P.box, ∑ l ∈ P.box, ((P.amp c k : ℂ) * P.amp c l * P.e k x * P.e l (-x')
          / (P.N * P.N)) * P.e (l - k) y := by
    intro y _
    rw [P.ker_eq]
    unfold idft
    rw [div_mul_div_comm, Finset.sum_mul_sum, Finset.sum_div]
    refine Finset.sum_congr rfl fun k _ => ?_
    rw [Finset.sum_div]
    refine Finset.sum_congr rfl fun l _ => ?_
    rw [sub_eq_add_neg x, sub_eq_add_neg y, sub_eq_add_neg l, P.e_add, P.e_add, P.add_e, P.neg_e]
    ring
  rw [Finset.sum_congr rfl h1, Finset.sum_comm]
  have h2 : ∀ k ∈ P.box, ∑ y ∈ P.box, ∑ l ∈ P.box, ((P.amp c k : ℂ) * P.amp c l * P.e k x
      * P.e l (-x') / (P.N * P.N)) * P.e (l - k) y
      = (((max (P.spec c k) 0 : ℝ) : ℂ) * P.e k (x - x')) / P.N := by
    intro k hk
    rw [Finset.sum_comm]
    have h3 : ∀ l ∈ P.box, ∑ y ∈ P.box, ((P.amp c k : ℂ) * P.amp c l * P.e k x
      * P.e l (-x') / (P.N * P.N)) * P.e (l - k) y
      = if l = k then (((max (P.spec c k) 0 : ℝ) : ℂ) * P.e k (x - x')) / P.N else 0 := by
      intro l hl
      rw [← Finset.mul_sum, P.ortho]
      by_cases h : l = k
      · subst h
        rw [if_pos rfl, sub_self, if_pos P.per_zero, ← P.amp_sq, sub_eq_add_neg, P.e_add]
        have := P.N_ne
        push_cast
        field_simp
      · rw [if_neg h, if_neg, mul_zero]
        exact fun hp => h (P.uniq l hl k hk hp)
    rw [Finset.sum_congr rfl h3, Finset.sum_ite_eq' P.box k, if_pos hk]
  rw [Finset.sum_congr rfl h2, idft, Finset.sum_div]

/-- The inverse transform of the unclipped spectrum is the even part of the covariance. -/
theorem idft_spec (c : G → ℝ) (hc : ∀ x y, P.per (x - y) → c x = c y) (d : G) :
    P.idft (fun k => (P.spec c k : ℂ)) d = ((P.N * ((c d + c (-d)) / 2) : ℝ) : ℂ) := by
  have key : ∀ k, (P.spec c k : ℂ) =
      P.dft (fun x => (((c x + c (-x)) / 2 : ℝ) : ℂ)) k := by
    intro k
    have h1 : (P.spec c k : ℂ) = (P.dft (fun x => (c x : ℂ)) k
        + P.dft (fun x => (c x : ℂ)) (-k)) / 2 := by
      rw [P.dft_neg (by simp), Complex.add_conj]
      unfold spec
      push_cast
      ring
    have h2 : P.dft (fun x => (c x : ℂ)) (-k) = P.dft (fun x => (c (-x) : ℂ)) k := by
      unfold dft
      have := P.sum_neg (F := fun x => (c x : ℂ) * P.e (-k) (-x)) (by
        intro x y h
        rw [hc x y h, P.e_congr' (x := -x) (y := -y)]
        have := P.per_neg _ h
        rwa [neg_sub'] at this)
      rw [← this]
      refine Finset.sum_congr rfl fun x _ => ?_
      rw [P.neg_e, neg_neg]
    rw [h1, h2]
    unfold dft
    rw [← Finset.sum_add_distrib, Finset.sum_div]
    refine Finset.sum_congr rfl fun x _ => ?_
    push_cast
    ring
  obtain ⟨d', hd', hp⟩ := P.rep d
  have h3 : P.idft (fun k => (P.spec c k : ℂ)) d = P.idft (fun k => (P.spec c k : ℂ)) d' := by
    unfold idft
    exact Finset.sum_congr rfl fun k _ => by rw [P.e_congr' hp]
  have hp' : P.per (-d - -d') := by
    have := P.per_neg _ hp
    have e : -(d - d') = -d - -d' := by abel
    rwa [e] at this
  rw [h3, hc d d' hp, hc (-d) (-d') hp']
  simp_rw [key]
  rw [show (fun k => P.dft (fun x => (((c x + c (-x)) / 2 : ℝ) : ℂ)) k)
    = P.dft (fun x => (((c x + c (-x)) / 2 : ℝ) : ℂ)) from rfl, P.idft_dft _ hd']
  push_cast
  ring

/-- Covariance when nothing is clipped. -/
theorem sum_ker_mul_of_nonneg (c : G → ℝ) (hc : ∀ x y, P.per (x - y) → c x = c y)
    (hs : ∀ k ∈ P.box, 0 ≤ P.spec c k) (x x' : G) :
    ∑ y ∈ P.box, P.ker c (x - y) * P.ker c (x' - y) = (c (x - x') + c (x' - x)) / 2 := by
  have h := P.sum_ker_mul c x x'
  have h2 : P.idft (fun k => ((max (P.spec c k) 0 : ℝ) : ℂ)) (x - x')
      = P.idft (fun k => (P.spec c k : ℂ)) (x - x') := by
    unfold idft
    exact Finset.sum_congr rfl fun k hk => by simp only [max_eq_left (hs k hk)]
  rw [h2, P.idft_spec c hc, neg_sub] at h
  have h3 := congrArg Complex.re h
  rw [Complex.ofReal_re] at h3
  rw [h3, ← Complex.ofReal_natCast, ← Complex.ofReal_div, Complex.ofReal_re]
  have := P.N_posR
  field_simp

/-- Variance: the mean of the clipped spectrum. -/
theorem sum_ker_sq (c : G → ℝ) (x : G) :
    ∑ y ∈ P.box, P.ker c (x - y) * P.ker c (x - y)
      = (∑ k ∈ P.box, max (P.spec c k) 0) / P.N := by
  have h := P.sum_ker_mul c x x
  rw [sub_self] at h
  have h2 : P.idft (fun k => ((max (P.spec c k) 0 : ℝ) : ℂ)) 0
      = ((∑ k ∈ P.box, max (P.spec c k) 0 : ℝ) : ℂ) := by
    unfold idft
    rw [Complex.ofReal_sum]
    exact Finset.sum_congr rfl fun k _ => by rw [P.e_zero, mul_one]
  rw [h2] at h
  exact_mod_cast h

/-- The mean of the unclipped spectrum is the covariance at lag zero. -/
theorem sum_spec (c : G → ℝ) (hc : ∀ x y, P.per (x - y) → c x = c y) :
    (∑ k ∈ P.box, P.spec c k) = P.N * c 0 := by
  have h := P.idft_spec c hc 0
  have h2 : P.idft (fun k => (P.spec c k : ℂ)) 0 = ((∑ k ∈ P.box, P.spec c k : ℝ) : ℂ) := by
    unfold idft
    rw [Complex.ofReal_sum]
    exact Finset.sum_congr rfl fun k _ => by rw [P.e_zero, mul_one]
  rw [h2, neg_zero] at h
  have : ∑ k ∈ P.box, P.spec c k = P.N * ((c 0 + c 0) / 2) := by exact_mod_cast h
  rw [this]; ring

/-- Clipping does not lower the variance, and keeps it only if nothing is clipped. -/
theorem variance_ge (c : G → ℝ) (hc : ∀ x y, P.per (x - y) → c x = c y) (x : G) :
    c 0 ≤ ∑ y ∈ P.box, P.ker c (x - y) * P.ker c (x - y) ∧
    (∑ y ∈ P.box, P.ker c (x - y) * P.ker c (x - y) = c 0 ↔ ∀ k ∈ P.box, 0 ≤ P.spec c k) := by
  have hN := P.N_posR
  have h0 : c 0 = (∑ k ∈ P.box, P.spec c k) / P.N := by
    rw [P.sum_spec c hc]; field_simp
  have hle : ∑ k ∈ P.box, P.spec c k ≤ ∑ k ∈ P.box, max (P.spec c k) 0 :=
    Finset.sum_le_sum fun k _ => le_max_left _ _
  rw [P.sum_ker_sq, h0]
  refine ⟨by gcongr, ?_⟩
  rw [div_left_inj' hN.ne']
  constructor
  · intro h k hk
    have := (Finset.sum_eq_sum_iff_of_le (fun k _ => le_max_left (P.spec c k) 0)).1 h.symm k hk
    rw [this]
    exact le_max_right _ _
  · intro h
    exact Finset.sum_congr rfl fun k hk => max_eq_left (h k hk)

end Pairing

/-! ### Concrete boxes -/

/-- `exp(2 pi i k x / n)`. -/
noncomputable def root (n : ℕ) (k x : ℤ) : ℂ :=
  Complex.exp (2 * Real.pi * Complex.I * (k * x / n))

theorem root_add (n : ℕ) (k x y : ℤ) : root n k (x + y) = root n k x * root n k y := by
  unfold root
  rw [← Complex.exp_add]
  congr 1
  push_cast
  ring

theorem root_symm (n : ℕ) (k x : ℤ) : root n k x = root n x k := by
  unfold root
  congr 1
  ring

theorem root_neg (n : ℕ) (k x : ℤ) : root n (-k) x = root n k (-x) := by
  unfold root
  congr 1
  push_cast
  ring

theorem root_conj (n : ℕ) (k x : ℤ) : conj (root n k x) = root n k (-x) := by
  unfold root
  rw [← Complex.exp_conj]
  congr 1
  simp only [map_mul, map_div₀, Complex.conj_ofReal, Complex.conj_I, map_ofNat, map_intCast,
    map_natCast]
  push_cast
  ring

theorem root_per {n : ℕ} (hn : 0 < n) {k : ℤ} (h : (n : ℤ) ∣ k) (x : ℤ) : root n k x = 1 := by
  obtain ⟨m, rfl⟩ := h
  unfold root
  rw [Complex.exp_eq_one_iff]
  refine ⟨m * x, ?_⟩
  have : (n : ℂ) ≠ 0 := by exact_mod_cast hn.ne'
  push_cast
  field_simp

theorem root_eq_one {n : ℕ} (hn : 0 < n) {k : ℤ} (h : root n k 1 = 1) : (n : ℤ) ∣ k := by
  unfold root at h
  rw [Complex.exp_eq_one_iff] at h
  obtain ⟨m, hm⟩ := h
  have hn' : (n : ℂ) ≠ 0 := by exact_mod_cast hn.ne'
  refine ⟨m, ?_⟩
  have h2 := Complex.two_pi_I_ne_zero
  have : (k : ℂ) = n * m := by
    have h3 : (2 * Real.pi * Complex.I : ℂ) * (k / n) = (2 * Real.pi * Complex.I : ℂ) * m := by
      rw [mul_comm _ (m : ℂ), ← hm]; push_cast; ring
    have h4 := mul_left_cancel₀ h2 h3
    field_simp at h4
    linear_combination h4
  exact_mod_cast this

theorem root_pow (n : ℕ) (k : ℤ) (x : ℕ) : root n k x = root n k 1 ^ x := by
  unfold root
  rw [← Complex.exp_nat_mul]
  congr 1
  push_cast
  ring

open scoped Classical in
theorem root_sum {n : ℕ} (hn : 0 < n) (k : ℤ) :
    ∑ x ∈ range n, root n k (x : ℤ) = if (n : ℤ) ∣ k then (n : ℂ) else 0 := by
  by_cases h : (n : ℤ) ∣ k
  · rw [if_pos h, Finset.sum_congr rfl fun x _ => root_per hn h _]
    simp
  · rw [if_neg h]
    have h1 : root n k 1 ≠ 1 := fun e => h (root_eq_one hn e)
    simp_rw [root_pow n k]
    rw [geom_sum_eq h1]
    have : root n k 1 ^ n = 1 := by
      rw [← root_pow, root_symm, root_per hn (dvd_refl _)]
    rw [this, sub_self, zero_div]

/-- Embedding of natural into integer indices. -/
def natZ : ℕ ↪ ℤ := ⟨fun n => (n : ℤ), fun _ _ h => Int.ofNat.inj h⟩

/-- The cycle of `n` cells. -/
noncomputable def cyc (n : ℕ) (hn : 0 < n) : Pairing ℤ where
  box := (range n).map natZ
  N := n
  N_pos := hn
  e := root n
  per k := (n : ℤ) ∣ k
  e_add := root_add n
  add_e k l x := by rw [root_symm, root_add, root_symm n x k, root_symm n x l]
  conj_e := root_conj n
  neg_e := root_neg n
  symm := root_symm n
  per_e k x h := root_per hn h x
  ortho k := by
    rw [Finset.sum_map]
    refine (root_sum hn k).trans ?_
    congr
  zero_mem := by simp only [mem_map, mem_range]; exact ⟨0, hn, rfl⟩
  rep k := by
    have hn' : (0 : ℤ) < n := by exact_mod_cast hn
    refine ⟨k % n, ?_, ?_⟩
    · simp only [mem_map, mem_range]
      refine ⟨(k % n).toNat, ?_, ?_⟩
      · have := Int.emod_lt_of_pos k hn'
        omega
      · exact Int.toNat_of_nonneg (Int.emod_nonneg _ hn'.ne')
    · exact Int.dvd_self_sub_emod
  uniq a ha b hb h := by
    simp only [mem_map, mem_range] at ha hb
    obtain ⟨x, hx, rfl⟩ := ha
    obtain ⟨y, hy, rfl⟩ := hb
    change (n : ℤ) ∣ (x : ℤ) - (y : ℤ) at h
    change (x : ℤ) = (y : ℤ)
    have h1 := Int.eq_zero_of_abs_lt_dvd h (by rw [abs_lt]; constructor <;> omega)
    omega
  per_neg k h := (dvd_neg).2 h
  per_add k l h1 h2 := dvd_add h1 h2

/-- Product of two boxes. -/
noncomputable def Pairing.prod {G H : Type} [AddCommGroup G] [AddCommGroup H] (P : Pairing G)
    (Q : Pairing H) : Pairing (G × H) where
  box := P.box ×ˢ Q.box
  N := P.N * Q.N
  N_pos := Nat.mul_pos P.N_pos Q.N_pos
  e k x := P.e k.1 x.1 * Q.e k.2 x.2
  per k := P.per k.1 ∧ Q.per k.2
  e_add k x y := by simp only [Prod.fst_add, Prod.snd_add, P.e_add, Q.e_add]; ring
  add_e k l x := by simp only [Prod.fst_add, Prod.snd_add, P.add_e, Q.add_e]; ring
  conj_e k x := by simp only [map_mul, P.conj_e, Q.conj_e, Prod.fst_neg, Prod.snd_neg]
  neg_e k x := by simp only [Prod.fst_neg, Prod.snd_neg, P.neg_e, Q.neg_e]
  symm k x := by rw [P.symm, Q.symm]
  per_e k x h := by rw [P.per_e _ _ h.1, Q.per_e _ _ h.2, one_mul]
  ortho k := by
    classical
    rw [Finset.sum_product]
    simp_rw [← Finset.mul_sum, ← Finset.sum_mul]
    rw [P.ortho, Q.ortho]
    by_cases h1 : P.per k.1 <;> by_cases h2 : Q.per k.2 <;> simp [h1, h2]
  zero_mem := Finset.mem_product.2 ⟨P.zero_mem, Q.zero_mem⟩
  rep k := by
    obtain ⟨a, ha, hpa⟩ := P.rep k.1
    obtain ⟨b, hb, hpb⟩ := Q.rep k.2
    exact ⟨(a, b), Finset.mem_product.2 ⟨ha, hb⟩, hpa, hpb⟩
  uniq a ha b hb h := by
    rw [Finset.mem_product] at ha hb
    exact Prod.ext (P.uniq _ ha.1 _ hb.1 h.1) (Q.uniq _ ha.2 _ hb.2 h.2)
  per_neg k h := ⟨P.per_neg _ h.1, Q.per_neg _ h.2⟩
  per_add k l h1 h2 := ⟨P.per_add _ _ h1.1 h2.1, Q.per_add _ _ h1.2 h2.2⟩

theorem cyc_sum {n : ℕ} (hn : 0 < n) (F : ℤ → ℂ) :
    ∑ x ∈ (cyc n hn).box, F x = ∑ x ∈ range n, F (x : ℤ) := by
  simp only [cyc, Finset.sum_map]; rfl

end Verif
