import Verif.Lemmas.Wavelet
import Mathlib.Tactic.LinearCombination

/-!
# Properties of wavelets

C137.
-/

namespace Verif

open Wavelet

/-- Sample `i` of a Ricker wavelet, at the time of its distance from the middle. -/
theorem wavelet_ricker (peak : ℝ) (nw : ℕ) (dt factor : ℝ) : ∃ w, ricker peak nw dt factor = .ok w ∧
    w.dt = dt ∧ w.data.length = nw ∧ ∀ i < nw, ∃ t c, w.time i = t ∧ t = ((i : ℝ) - (nw / 2 : ℕ)) * dt ∧
      c = (Real.pi * peak * (t / 1000)) ^ 2 ∧ w.data[i]? = some (factor * (1 - 2 * c) * Real.exp (-c)) := by
  obtain ⟨r, e, hl, hr⟩ := fill (n := nw) (lo := 0) (hi := nw) (c := 0)
    (v := fun i => (1 - 2 * (Real.pi * peak * (((i : ℝ) - (nw / 2 : ℕ)) * dt / 1000)) ^ 2) *
      Real.exp (-(Real.pi * peak * (((i : ℝ) - (nw / 2 : ℕ)) * dt / 1000)) ^ 2))
    (body := rickerStep peak nw dt) (a := List.replicate nw 0) (by simp) (by omega) (by omega) (by
      intro i a _ _ hl
      unfold rickerStep
      simp only
      have ht : (Wavelet.mk a dt).time i = ((i : ℝ) - (nw / 2 : ℕ)) * dt := by
        rw [time_eq, hl]
      rw [ht]
      have e : Real.pi * Real.pi * peak * peak * (((i : ℝ) - (nw / 2 : ℕ)) * dt) * (((i : ℝ) - (nw / 2 : ℕ)) * dt) * 1e-6
          = (Real.pi * peak * (((i : ℝ) - (nw / 2 : ℕ)) * dt / 1000)) ^ 2 := by
        norm_num
        ring
      rw [e, Nat.add_zero])
  have hw : ∃ w, ricker peak nw dt factor = .ok w ∧ w.dt = dt ∧ w.data = r.map (· * factor) := by
    unfold ricker
    rw [Res.monad_bind_eq, e, Res.bind_ok]
    simp only
    by_cases hf : factor ≠ 1.0
    · rw [if_pos hf]
      exact ⟨_, rfl, rfl, rfl⟩
    · rw [if_neg hf]
      refine ⟨_, rfl, rfl, ?_⟩
      have : factor = 1 := by rw [not_not.1 hf]; norm_num
      rw [this]
      simp
  obtain ⟨w, e2, hdt, hd⟩ := hw
  refine ⟨w, e2, hdt, by rw [hd, List.length_map, hl], fun i hi => ⟨_, _, rfl, ?_, rfl, ?_⟩⟩
  · rw [time_eq, hd, hdt, List.length_map, hl]
  · have ht : w.time i = ((i : ℝ) - (nw / 2 : ℕ)) * dt := by
      rw [time_eq, hd, hdt, List.length_map, hl]
    rw [hd, List.getElem?_map, hr, if_pos (by omega), ht]
    simp only [Option.map_some, Nat.sub_zero, Option.some.injEq]
    ring

/-- It is symmetric, highest in the middle. -/
theorem wavelet_ricker_shape {peak : ℝ} {nw : ℕ} {dt factor : ℝ} {w : Wavelet}
    (hw : ricker peak nw dt factor = .ok w) (hf : 0 ≤ factor) :
    (∀ (i j : ℕ) (x y : ℝ), i + j = 2 * (nw / 2) → w.data[i]? = some x → w.data[j]? = some y → x = y) ∧
      ∀ (i : ℕ) (x : ℝ), w.data[i]? = some x → x ≤ factor ∧ -factor < x ∨ factor = 0 ∧ x = 0 := by
  obtain ⟨w', e, hdt, hl, h⟩ := wavelet_ricker peak nw dt factor
  rw [hw] at e
  obtain rfl := Res.ok.inj e
  have lt : ∀ {i : ℕ} {x : ℝ}, w.data[i]? = some x → i < nw := by
    intro i x hx
    rw [← hl]
    exact (List.getElem?_eq_some_iff.1 hx).1
  constructor
  · intro i j x y hij hx hy
    obtain ⟨t, c, -, ht, hc, e1⟩ := h i (lt hx)
    obtain ⟨t', c', -, ht', hc', e2⟩ := h j (lt hy)
    rw [hx] at e1
    rw [hy] at e2
    have h2 : t' = -t := by
      rw [ht, ht']
      have : (i : ℝ) + j = 2 * (nw / 2 : ℕ) := by exact_mod_cast hij
      linear_combination dt * this
    have h3 : c' = c := by rw [hc, hc', h2]; ring
    rw [Option.some.inj e1, Option.some.inj e2, h3]
  · intro i x hx
    obtain ⟨t, c, -, ht, hc, e1⟩ := h i (lt hx)
    rw [hx] at e1
    have hx := Option.some.inj e1
    have hc0 : 0 ≤ c := by rw [hc]; positivity
    rcases hf.eq_or_lt with h0 | h0
    · right
      exact ⟨h0.symm, by rw [hx, ← h0]; ring⟩
    left
    have hE : 0 < Real.exp (-c) := Real.exp_pos _
    have hE1 : Real.exp (-c) * (1 + c) ≤ 1 := by
      have := Real.add_one_le_exp c
      calc Real.exp (-c) * (1 + c) ≤ Real.exp (-c) * Real.exp c := by
            apply mul_le_mul_of_nonneg_left _ hE.le
            linarith
        _ = 1 := by rw [← Real.exp_add, neg_add_cancel, Real.exp_zero]
    have a1 : (1 - 2 * c) * Real.exp (-c) ≤ 1 := by nlinarith [mul_nonneg hc0 hE.le]
    have a2 : -1 < (1 - 2 * c) * Real.exp (-c) := by
      have h2 : 2 * c - 1 < Real.exp c := by
        have h3 := Real.quadratic_le_exp_of_nonneg hc0
        nlinarith [sq_nonneg (c - 1)]
      have h4 : (2 * c - 1) * Real.exp (-c) < Real.exp c * Real.exp (-c) := mul_lt_mul_of_pos_right h2 hE
      rw [← Real.exp_add, add_neg_cancel, Real.exp_zero] at h4
      linarith
    rw [hx]
    constructor <;> nlinarith

example : ∃ w, ricker 25 5 4 2 = .ok w ∧ w.data[2]? = some 2 := by
  obtain ⟨w, e, -, -, h⟩ := wavelet_ricker 25 5 4 2
  obtain ⟨t, c, -, ht, hc, h2⟩ := h 2 (by norm_num)
  refine ⟨w, e, ?_⟩
  norm_num at ht
  rw [h2, hc, ht]
  norm_num

/-- `Resample` to a multiple of the interval keeps the samples at the times that are multiples of the
new interval, each at its time. -/
theorem wavelet_resample {w : Wavelet} {m : ℕ} (hdt : 0 < w.dt) (hm : 2 ≤ m) (hm2 : m < 2 ^ 31)
    (hne : 1e-6 * max 1 (m * w.dt) < (m - 1) * w.dt) :
    ∃ r, w.resample (m * w.dt) = .ok r ∧ r.dt = m * w.dt ∧
      (∀ i, i < r.data.length → ∃ j, j < w.data.length ∧ r.data[i]? = w.data[j]? ∧ r.time i = w.time j) ∧
      (∀ j, j < w.data.length → ∀ k : ℤ, w.time j = k * (m * w.dt) →
        ∃ i, i < r.data.length ∧ r.data[i]? = w.data[j]? ∧ r.time i = w.time j) := by
  have hm0 : 0 < m := by omega
  have hmR : (2:ℝ) ≤ m := by exact_mod_cast hm
  have hq : (m : ℝ) * w.dt / w.dt = m := by field_simp
  have h1 : ¬ IsEqual (m * w.dt) w.dt := by
    unfold IsEqual
    have e : (m : ℝ) * w.dt - w.dt = (m - 1) * w.dt := by ring
    have hp : 0 < (m : ℝ) * w.dt := by positivity
    rw [e, abs_of_pos (mul_pos (by linarith) hdt), abs_of_pos hp, not_le]
    refine lt_of_le_of_lt ?_ hne
    split_ifs with h
    · rw [max_eq_left (by linarith)]
      norm_num
    · rw [max_eq_right (by norm_num at h; linarith)]
      norm_num
      linarith
  have h2 : ¬ (m * w.dt < w.dt ∨ w.dt = 0 ∨ ¬ IsZero (fmod (m * w.dt) w.dt)) := by
    push Not
    refine ⟨by nlinarith, hdt.ne', ?_⟩
    unfold fmod truncZ
    rw [hq, if_pos (by positivity), Int.floor_natCast]
    unfold IsZero IsEqual
    norm_num
  have h3 : ⌊(m : ℝ) * w.dt / w.dt + 0.5⌋ = (m : ℤ) := by
    rw [hq, Int.floor_eq_iff]
    push_cast
    norm_num
  set n := w.data.length with hn
  set c := n / 2 with hc
  set q := c / m with hqd
  set nw := if 0 < n then 1 + q + (n - c - 1) / m else 0 with hnw
  have hcen : nw / 2 = q := by
    rw [hnw]
    split_ifs with h
    · have d1 := Nat.div_add_mod c m
      have d2 := Nat.div_add_mod (n - c - 1) m
      have d3 := Nat.mod_lt c hm0
      have d4 := Nat.mod_lt (n - c - 1) hm0
      rw [← hqd] at d1
      generalize (n - c - 1) / m = p at *
      generalize c % m = r1 at *
      generalize (n - c - 1) % m = r2 at *
      have hp : p ≤ q := by
        by_contra hcon
        have : m * (q + 1) ≤ m * p := Nat.mul_le_mul_left m (by omega)
        rw [Nat.mul_add] at this
        omega
      have hp2 : q ≤ p + 1 := by
        by_contra hcon
        have : m * (p + 2) ≤ m * q := Nat.mul_le_mul_left m (by omega)
        rw [Nat.mul_add] at this
        omega
      omega
    · have : n = 0 := by omega
      rw [hqd, hc, this]
      simp
  have hidx : ∀ i, i < nw → i * m + c < n + q * m ∧ q * m ≤ i * m + c := by
    intro i hi
    rw [hnw] at hi
    split_ifs at hi with h
    · have d1 := Nat.div_mul_le_self c m
      have d2 := Nat.div_mul_le_self (n - c - 1) m
      rw [← hqd] at d1
      have : i * m ≤ (q + (n - c - 1) / m) * m := Nat.mul_le_mul_right m (by omega)
      rw [Nat.add_mul] at this
      omega
    · omega
  obtain ⟨r, e, hl, hr⟩ := fill (n := nw) (lo := 0) (hi := nw) (c := 0)
    (v := fun i => w.data.getD (i * m + c - q * m) 0)
    (body := resampleStep w.data q m c) (a := List.replicate nw 0) (by simp) (by omega) (by omega) (by
      intro i a _ hi _
      obtain ⟨b1, b2⟩ := hidx i hi
      unfold resampleStep
      have e1 : ((i : ℤ) - q) * m + c = ((i * m + c - q * m : ℕ) : ℤ) := by
        rw [Nat.cast_sub b2]; push_cast; ring
      simp only
      rw [e1, if_neg (by omega), Int.toNat_natCast, Res.monad_bind_eq, rd_ok (by omega), Res.bind_ok, Nat.add_zero,
        getD_lt (by omega)])
  have hres : w.resample (m * w.dt) = .ok ⟨r, m * w.dt⟩ := by
    unfold resample
    rw [if_neg h1, if_neg h2, h3]
    have t1 : toInt32 (m : ℤ) = .ok (m : ℤ) := by
      unfold toInt32
      rw [if_pos (by omega)]
    have t2 : (if (w.data.length : ℤ) > 0 then
        if (m : ℤ) = 0 then .ub "division by zero"
        else .ok (1 + (w.center : ℤ).tdiv m + ((w.data.length : ℤ) - w.center - 1).tdiv m)
      else .ok 0 : Res ℤ) = .ok (nw : ℤ) := by
      rw [hnw]
      by_cases h : 0 < n
      · rw [if_pos (by omega), if_neg (by omega), if_pos h]
        have e1 : ((w.data.length : ℤ) - w.center - 1) = ((n - c - 1 : ℕ) : ℤ) := by
          unfold center
          omega
        have e2 : w.center = c := rfl
        rw [e1, e2, ← Int.ofNat_tdiv, ← Int.ofNat_tdiv]
        push_cast
        rfl
      · rw [if_neg (by omega), if_neg h]
        rfl
    have t3 : (nw : ℤ).tdiv 2 = q := by
      rw [← hcen]
      exact (Int.ofNat_tdiv nw 2).symm
    simp only [Res.monad_bind_eq]
    rw [t1, Res.bind_ok, t2, Res.bind_ok, t3, Int.toNat_natCast]
    have e2 : w.center = c := rfl
    rw [e2, e, Res.bind_ok]
  have htime : ∀ i, i < nw → (Wavelet.mk r (m * w.dt)).time i = w.time (i * m + c - q * m) := by
    intro i hi
    obtain ⟨b1, b2⟩ := hidx i hi
    rw [time_eq, time_eq]
    simp only
    rw [hl, hcen, ← hn, ← hc, Nat.cast_sub b2]
    push_cast
    ring
  have hval : ∀ i, i < nw → r[i]? = w.data[i * m + c - q * m]? := by
    intro i hi
    obtain ⟨b1, b2⟩ := hidx i hi
    rw [hr, if_pos (by omega), Nat.sub_zero, List.getElem?_eq_getElem (by omega), getD_lt (by omega)]
  refine ⟨_, hres, rfl, fun i hi => ?_, fun j hj k hk => ?_⟩
  · simp only at hi
    rw [hl] at hi
    obtain ⟨b1, b2⟩ := hidx i hi
    exact ⟨i * m + c - q * m, by omega, hval i hi, htime i hi⟩
  · have hk2 : (j : ℤ) - c = k * m := by
      rw [time_eq, ← hn, ← hc] at hk
      have h5 := mul_right_cancel₀ hdt.ne' (hk.trans (by ring : (k : ℝ) * (m * w.dt) = (k * m) * w.dt))
      exact_mod_cast h5
    have hn0 : 0 < n := by omega
    have d1 := Nat.div_add_mod c m
    have d3 := Nat.mod_lt c hm0
    have d2 := Nat.div_add_mod (n - c - 1) m
    have d4 := Nat.mod_lt (n - c - 1) hm0
    rw [← hqd] at d1
    have hnw' : nw = 1 + q + (n - c - 1) / m := by rw [hnw, if_pos hn0]
    have k1 : -(q : ℤ) ≤ k := by
      by_contra hcon
      have : (k : ℤ) * m ≤ (-(q : ℤ) - 1) * m := by
        apply mul_le_mul_of_nonneg_right (by omega) (by omega)
      have e : (-(q : ℤ) - 1) * m = -((m * q : ℕ) : ℤ) - m := by push_cast; ring
      omega
    have k2 : k ≤ ((n - c - 1) / m : ℕ) := by
      by_contra hcon
      have : (((n - c - 1) / m : ℕ) + 1 : ℤ) * m ≤ k * m := by
        apply mul_le_mul_of_nonneg_right (by omega) (by omega)
      have e : (((n - c - 1) / m : ℕ) + 1 : ℤ) * m = ((m * ((n - c - 1) / m) : ℕ) : ℤ) + m := by push_cast; ring
      omega
    have hi : (k + q).toNat < nw := by omega
    have hj2 : (k + q).toNat * m + c - q * m = j := by
      obtain ⟨b1, b2⟩ := hidx _ hi
      have e1 : (((k + q).toNat * m + c - q * m : ℕ) : ℤ) = (k + q) * m + c - q * m := by
        rw [Nat.cast_sub b2]
        push_cast
        rw [Int.toNat_of_nonneg (by omega)]
      have e2 : (k + q) * (m : ℤ) + c - q * m = k * m + c := by ring
      omega
    refine ⟨(k + q).toNat, by simp only; omega, ?_, ?_⟩
    · rw [← hj2]; exact hval _ hi
    · rw [htime _ hi, hj2]

example : ∃ r, (Wavelet.mk [1, 2, 3, 4, 5] 1).resample ((2 : ℕ) * 1) = .ok r ∧ r.dt = (2 : ℕ) * 1 := by
  obtain ⟨r, h1, h2, -⟩ := wavelet_resample (w := ⟨[1, 2, 3, 4, 5], 1⟩) (m := 2) (by norm_num) (by norm_num)
    (by norm_num) (by norm_num)
  exact ⟨r, h1, h2⟩

/-- A multiple that was rounded down is refused: `Resample(0.3)` of a wavelet with interval 0.1, with
the doubles for these numbers, throws. -/
theorem wavelet_resample_violation {w : Wavelet} (hw : w.dt = 3602879701896397 / 2 ^ 55) :
    ∃ e, w.resample (5404319552844595 / 2 ^ 54) = .throws e := by
  have h1 : ¬ IsEqual (5404319552844595 / 2 ^ 54) w.dt := by
    unfold IsEqual
    rw [hw, not_le, abs_of_pos (by norm_num), abs_of_pos (by norm_num)]
    norm_num
  have h2 : ¬ IsZero (fmod (5404319552844595 / 2 ^ 54) w.dt) := by
    have e : fmod (5404319552844595 / 2 ^ 54) w.dt = 3602879701896396 / 2 ^ 55 := by
      unfold fmod truncZ
      have hf : ⌊(5404319552844595 / 2 ^ 54 / (3602879701896397 / 2 ^ 55) : ℝ)⌋ = 2 := by
        rw [Int.floor_eq_iff]
        norm_num
      rw [hw, if_pos (by norm_num), hf]
      norm_num
    rw [e]
    unfold IsZero IsEqual
    rw [not_le, abs_of_pos (by norm_num), abs_of_pos (by norm_num)]
    norm_num
  unfold resample
  rw [if_neg h1, if_pos (Or.inr (Or.inr h2))]
  exact ⟨_, rfl⟩

example : ∃ e, (Wavelet.mk [1] (3602879701896397 / 2 ^ 55)).resample (5404319552844595 / 2 ^ 54) = .throws e :=
  wavelet_resample_violation rfl

/-- `Resize` to a greater length keeps the samples at their times; the new ones are zero. -/
theorem wavelet_grow {w : Wavelet} {nw : ℕ} (h : w.data.length ≤ nw) : ∃ r, w.resize nw = .ok r ∧
    r.dt = w.dt ∧ r.data.length = nw ∧
      (∀ j, j < w.data.length → ∃ i, r.data[i]? = w.data[j]? ∧ r.time i = w.time j) ∧
      ∀ i, i < nw → (∀ j, j < w.data.length → r.time i ≠ w.time j) → r.data[i]? = some 0 := by
  by_cases hq : nw = w.data.length
  · subst hq
    refine ⟨w, by unfold resize; rw [if_pos rfl], rfl, rfl, fun j _ => ⟨j, rfl, rfl⟩, fun i hi hne => ?_⟩
    exact absurd rfl (hne i hi)
  obtain ⟨r, e, hl, hr⟩ := fill (n := nw) (lo := 0) (hi := w.data.length) (c := nw / 2 - w.data.length / 2)
    (v := fun i => w.data.getD i 0) (body := resizeStep w.data 0 (nw / 2 - w.data.length / 2))
    (a := List.replicate nw 0) (by simp) (by omega) (by omega) (by
      intro i a _ hi _
      unfold resizeStep
      rw [Nat.sub_zero, Res.monad_bind_eq, rd_ok hi, Res.bind_ok, getD_lt hi])
  have hres : w.resize nw = .ok ⟨r, w.dt⟩ := by
    unfold resize
    have hc : ¬ w.data.length / 2 > nw / 2 := by omega
    rw [if_neg hq]
    simp only [if_neg hc]
    rw [Res.monad_bind_eq, e, Res.bind_ok]
  have htime : ∀ j, (Wavelet.mk r w.dt).time (j + (nw / 2 - w.data.length / 2)) = w.time j := by
    intro j
    unfold time center
    simp only
    rw [hl]
    congr 2
    omega
  refine ⟨_, hres, rfl, hl, fun j hj => ⟨j + (nw / 2 - w.data.length / 2), ?_, htime j⟩, fun i hi hne => ?_⟩
  · simp only
    rw [hr, if_pos (by omega), Nat.add_sub_cancel, List.getElem?_eq_getElem hj, getD_lt hj]
  · simp only
    rw [hr, if_neg, List.getElem?_replicate, if_pos hi]
    intro hcon
    refine hne (i - (nw / 2 - w.data.length / 2)) (by omega) ?_
    rw [← htime, Nat.sub_add_cancel (by omega)]

example : ∃ r, (Wavelet.mk [1, 2, 3] 4).resize 6 = .ok r ∧ r.data.length = 6 := by
  obtain ⟨r, h1, -, h2, -⟩ := wavelet_grow (w := ⟨[1, 2, 3], 4⟩) (nw := 6) (by simp)
  exact ⟨r, h1, h2⟩

/-- `Resize` to a smaller length writes outside the memory, whatever the wavelet. -/
theorem wavelet_shrink_violation {w : Wavelet} {nw : ℕ} (h0 : 0 < nw) (h : nw < w.data.length) :
    ∃ e, w.resize nw = .ub e := by
  unfold resize
  rw [if_neg (by omega)]
  simp only
  by_cases hc : w.data.length / 2 > nw / 2
  · simp only [if_pos hc]
    obtain ⟨e, he⟩ := fill_ub (n := nw) (lo := w.data.length / 2 - nw / 2)
      (hi := nw + (w.data.length / 2 - nw / 2)) (c := 0) (i0 := nw + (w.data.length / 2 - nw / 2) - 1)
      (v := fun i => w.data.getD (i - (w.data.length / 2 - nw / 2)) 0)
      (body := resizeStep w.data (w.data.length / 2 - nw / 2) 0) (by omega) (by omega) (by omega) (by
        intro i a h1 h2 _
        unfold resizeStep
        rw [Res.monad_bind_eq, rd_ok (by omega), Res.bind_ok, getD_lt (by omega)])
      (List.replicate nw 0) (by simp)
    rw [Res.monad_bind_eq, he]
    exact ⟨_, rfl⟩
  · simp only [if_neg hc]
    obtain ⟨e, he⟩ := fill_ub (n := nw) (lo := 0) (hi := w.data.length) (c := nw / 2 - w.data.length / 2)
      (i0 := w.data.length - 1) (v := fun i => w.data.getD i 0)
      (body := resizeStep w.data 0 (nw / 2 - w.data.length / 2)) (by omega) (by omega) (by omega) (by
        intro i a h1 h2 _
        unfold resizeStep
        rw [Nat.sub_zero, Res.monad_bind_eq, rd_ok h2, Res.bind_ok, getD_lt h2])
      (List.replicate nw 0) (by simp)
    rw [Res.monad_bind_eq, he]
    exact ⟨_, rfl⟩

example : ∃ e, (Wavelet.mk [1, 2, 3] 4).resize 2 = .ub e := wavelet_shrink_violation (by norm_num) (by simp)

end Verif
