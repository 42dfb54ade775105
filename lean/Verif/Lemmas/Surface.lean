import Verif.Lemmas.Outcome
import Verif.Model.Surface
import Verif.Spec.Surface
import Mathlib.Algebra.BigOperators.Ring.Finset
import Mathlib.Tactic.Ring
import Mathlib.Tactic.FieldSimp
import Mathlib.Tactic.Linarith
import Mathlib.Tactic.LinearCombination

/-! Helper lemmas: interpolation in a surface. -/

namespace Verif

theorem hat_nonneg (t : ℝ) : 0 ≤ hat t := le_max_left _ _

theorem hat_zero : hat 0 = 1 := by simp [hat]

/-- Only the two neighbours of `q` have weight. -/
theorem hat_sub (q : ℝ) (k : ℤ) :
    hat (q - k) = (if k = ⌊q⌋ then 1 - Int.fract q else 0)
      + (if k = ⌊q⌋ + 1 then Int.fract q else 0) := by
  have h0 := Int.fract_nonneg q
  have h1 := Int.fract_lt_one q
  have hq : q = ⌊q⌋ + Int.fract q := (Int.floor_add_fract q).symm
  generalize hf : Int.fract q = f at *
  generalize ⌊q⌋ = m at *
  rcases lt_trichotomy k m with h | h | h
  · rw [if_neg (by omega), if_neg (by omega)]
    have h' : ((k + 1 : ℤ) : ℝ) ≤ m := by exact_mod_cast h
    push_cast at h'
    unfold hat
    rw [abs_of_nonneg (by linarith), max_eq_left (by linarith)]; simp
  · subst h
    rw [if_pos rfl, if_neg (by omega)]
    unfold hat
    rw [abs_of_nonneg (by linarith), max_eq_right (by linarith)]; linarith
  · by_cases h2 : k = m + 1
    · subst h2
      rw [if_neg (by omega), if_pos rfl]
      unfold hat
      push_cast
      rw [abs_of_nonpos (by linarith), max_eq_right (by linarith)]; linarith
    · rw [if_neg (by omega), if_neg h2]
      have h' : ((m + 2 : ℤ) : ℝ) ≤ k := by exact_mod_cast (by omega : m + 2 ≤ k)
      push_cast at h'
      unfold hat
      rw [abs_of_nonpos (by linarith), max_eq_left (by linarith)]; simp

theorem sum_ite_int (n : ℕ) (m : ℤ) (a : ℝ) (g : ℕ → ℝ) :
    ∑ k ∈ Finset.range n, (if (k : ℤ) = m then a else 0) * g k
      = if 0 ≤ m ∧ m < n then a * g m.toNat else 0 := by
  by_cases hm : 0 ≤ m
  · lift m to ℕ using hm
    have : ∀ k ∈ Finset.range n, (if (k : ℤ) = (m : ℤ) then a else 0) * g k
        = if m = k then a * g k else 0 := by
      intro k _
      by_cases h : k = m
      · subst h; simp
      · rw [if_neg (by exact_mod_cast h), if_neg (fun h' => h h'.symm)]; ring
    rw [Finset.sum_congr rfl this, Finset.sum_ite_eq]
    by_cases h : m < n
    · rw [if_pos (Finset.mem_range.mpr h), if_pos ⟨by omega, by exact_mod_cast h⟩]; simp
    · rw [if_neg (by simpa using h), if_neg (by omega)]
  · rw [if_neg (fun h => hm h.1)]
    refine Finset.sum_eq_zero fun k _ => ?_
    rw [if_neg (by omega)]; ring

theorem sum_hat (n : ℕ) (q : ℝ) (g : ℕ → ℝ) :
    ∑ k ∈ Finset.range n, hat (q - k) * g k
      = (if 0 ≤ ⌊q⌋ ∧ ⌊q⌋ < n then (1 - Int.fract q) * g ⌊q⌋.toNat else 0)
        + (if 0 ≤ ⌊q⌋ + 1 ∧ ⌊q⌋ + 1 < n then Int.fract q * g (⌊q⌋ + 1).toNat else 0) := by
  have : ∀ k ∈ Finset.range n, hat (q - k) * g k
      = (if (k : ℤ) = ⌊q⌋ then 1 - Int.fract q else 0) * g k
        + (if (k : ℤ) = ⌊q⌋ + 1 then Int.fract q else 0) * g k := by
    intro k _
    have := hat_sub q (k : ℤ)
    push_cast at this
    rw [this]; ring
  rw [Finset.sum_congr rfl this, Finset.sum_add_distrib, sum_ite_int, sum_ite_int]

open Classical in
/-- A double sum with hat weights has four terms. -/
theorem sum_hat2 (ni nj : ℕ) (q r : ℝ) (G : ℤ → ℤ → ℝ)
    (hG : ∀ a b : ℤ, ¬ (0 ≤ a ∧ a < ni ∧ 0 ≤ b ∧ b < nj) → G a b = 0) :
    ∑ i ∈ Finset.range ni, ∑ j ∈ Finset.range nj, hat (q - i) * hat (r - j) * G i j
      = (1 - Int.fract q) * (1 - Int.fract r) * G ⌊q⌋ ⌊r⌋
        + Int.fract q * (1 - Int.fract r) * G (⌊q⌋ + 1) ⌊r⌋
        + (1 - Int.fract q) * Int.fract r * G ⌊q⌋ (⌊r⌋ + 1)
        + Int.fract q * Int.fract r * G (⌊q⌋ + 1) (⌊r⌋ + 1) := by
  have key : ∀ (n : ℕ) (t : ℝ) (H : ℤ → ℝ), (∀ a : ℤ, ¬ (0 ≤ a ∧ a < n) → H a = 0) →
      ∑ k ∈ Finset.range n, hat (t - k) * H k
        = (1 - Int.fract t) * H ⌊t⌋ + Int.fract t * H (⌊t⌋ + 1) := by
    intro n t H hH
    rw [sum_hat n t (fun k => H k)]
    congr 1
    · by_cases h : 0 ≤ ⌊t⌋ ∧ ⌊t⌋ < n
      · rw [if_pos h, Int.toNat_of_nonneg h.1]
      · rw [if_neg h, hH _ h, mul_zero]
    · by_cases h : 0 ≤ ⌊t⌋ + 1 ∧ ⌊t⌋ + 1 < n
      · rw [if_pos h, Int.toNat_of_nonneg h.1]
      · rw [if_neg h, hH _ h, mul_zero]
  have h1 : ∀ i ∈ Finset.range ni, ∑ j ∈ Finset.range nj, hat (q - i) * hat (r - j) * G i j
      = hat (q - i) * ((1 - Int.fract r) * G i ⌊r⌋ + Int.fract r * G i (⌊r⌋ + 1)) := by
    intro i _
    rw [← key nj r (fun b => G i b) (fun b hb => hG _ _ (fun h => hb ⟨h.2.2.1, h.2.2.2⟩)),
      Finset.mul_sum]
    exact Finset.sum_congr rfl fun j _ => by ring
  rw [Finset.sum_congr rfl h1, key ni q
    (fun a => (1 - Int.fract r) * G a ⌊r⌋ + Int.fract r * G a (⌊r⌋ + 1))
    (fun a ha => by
      rw [hG a _ (fun h => ha ⟨h.1, h.2.1⟩), hG a _ (fun h => ha ⟨h.1, h.2.1⟩)]; ring)]
  ring

namespace RegSurf

/-- The value of a node, the missing value outside the grid. -/
noncomputable def cv (s : RegSurf) (z : ℕ → ℕ → ℝ) (a b : ℤ) : ℝ :=
  if 0 ≤ a ∧ a < s.grid.ni ∧ 0 ≤ b ∧ b < s.grid.nj then z a.toNat b.toNat else s.missing

theorem corner_eq (s : RegSurf) {z : ℕ → ℕ → ℝ}
    (hz : ∀ i j, i < s.grid.ni → j < s.grid.nj → s.grid.get i j = .ok (z i j))
    (c : Prop) [Decidable c] (a b : ℤ)
    (hc : c ↔ 0 ≤ a ∧ a < s.grid.ni ∧ 0 ≤ b ∧ b < s.grid.nj) :
    s.corner c a b = .ok (s.cv z a b) := by
  unfold corner cv
  by_cases h : c
  · have h' := hc.1 h
    rw [if_pos h, if_pos h', hz _ _ (by omega) (by omega)]
  · rw [if_neg h, if_neg (fun h' => h (hc.2 h'))]

theorem toInt32_ok {k : ℤ} (h0 : -2 ^ 31 ≤ k) (h1 : k < 2 ^ 31) : toInt32 k = .ok k := by
  rw [toInt32, if_pos ⟨h0, h1⟩]

theorem succInt32_ok {k : ℤ} (h1 : k + 1 < 2 ^ 31) : succInt32 k = .ok (k + 1) := by
  rw [succInt32, if_pos h1]

theorem divD_ok {a b : ℝ} (h : b ≠ 0) : divD a b = .ok (a / b) := by rw [divD, if_neg h]

/-- The relative position of a coordinate lies in the range of `int`. -/
def InInt (q : ℝ) : Prop := -2 ^ 31 ≤ ⌊q⌋ ∧ ⌊q⌋ + 1 < 2 ^ 31

theorem findGeneralIndex_eq (s : RegSurf) (hdx : s.dx ≠ 0) (hdy : s.dy ≠ 0) {x y : ℝ}
    (hx : InInt ((x - s.x_min) / s.dx)) (hy : InInt ((y - s.y_min) / s.dy)) :
    s.findGeneralIndex x y = .ok (⌊(x - s.x_min) / s.dx⌋, ⌊(y - s.y_min) / s.dy⌋) := by
  unfold findGeneralIndex
  simp only [Res.monad_bind_eq, divD_ok hdx, divD_ok hdy, Res.bind_ok]
  rw [toInt32_ok hx.1 (by linarith [hx.2]), Res.bind_ok, toInt32_ok hy.1 (by linarith [hy.2])]
  rfl

theorem getCorners_eq (s : RegSurf) {z : ℕ → ℕ → ℝ}
    (hz : ∀ i j, i < s.grid.ni → j < s.grid.nj → s.grid.get i j = .ok (z i j))
    (hni : s.grid.ni < 2 ^ 31) (hnj : s.grid.nj < 2 ^ 31)
    (hdx : s.dx ≠ 0) (hdy : s.dy ≠ 0) {x y : ℝ}
    (hx : InInt ((x - s.x_min) / s.dx)) (hy : InInt ((y - s.y_min) / s.dy)) :
    s.getCorners x y = .ok [
      s.cv z ⌊(x - s.x_min) / s.dx⌋ ⌊(y - s.y_min) / s.dy⌋,
      s.cv z (⌊(x - s.x_min) / s.dx⌋ + 1) ⌊(y - s.y_min) / s.dy⌋,
      s.cv z ⌊(x - s.x_min) / s.dx⌋ (⌊(y - s.y_min) / s.dy⌋ + 1),
      s.cv z (⌊(x - s.x_min) / s.dx⌋ + 1) (⌊(y - s.y_min) / s.dy⌋ + 1)] := by
  unfold getCorners
  simp only [Res.monad_bind_eq]
  rw [toInt32_ok (by omega) (by omega), Res.bind_ok, toInt32_ok (by omega) (by omega), Res.bind_ok,
    findGeneralIndex_eq s hdx hdy hx hy, Res.bind_ok]
  dsimp only
  rw [succInt32_ok hx.2, Res.bind_ok, succInt32_ok hy.2]
  simp only [Res.bind_ok]
  generalize ⌊(x - s.x_min) / s.dx⌋ = i at *
  generalize ⌊(y - s.y_min) / s.dy⌋ = j at *
  have hout : ∀ a b : ℤ, ¬ (0 ≤ a ∧ a < s.grid.ni ∧ 0 ≤ b ∧ b < s.grid.nj) →
      s.cv z a b = s.missing := fun a b h => by rw [cv, if_neg h]
  by_cases h1 : 0 ≤ i + 1 ∧ i < s.grid.ni
  · rw [if_pos h1]
    by_cases h2 : 0 ≤ j + 1 ∧ j < s.grid.nj
    · rw [if_pos h2, corner_eq s hz _ _ _ (by omega), Res.bind_ok, corner_eq s hz _ _ _ (by omega),
        Res.bind_ok, corner_eq s hz _ _ _ (by omega), Res.bind_ok,
        corner_eq s hz _ _ _ (by omega), Res.bind_ok]
    · rw [if_neg h2, hout _ _ (by omega), hout _ _ (by omega), hout _ _ (by omega),
        hout _ _ (by omega)]
  · rw [if_neg h1, hout _ _ (by omega), hout _ _ (by omega), hout _ _ (by omega),
      hout _ _ (by omega)]

/-- A weight counts only at a corner with a value. -/
noncomputable def wv (m c w : ℝ) : ℝ := if c = m then 0 else w

theorem missingLoop (s : RegSurf) (c0 c1 c2 c3 u v : ℝ) :
    s.getBilinearZMissingCorners [c0, c1, c2, c3] u v
      = .ok (if wv s.missing c0 ((1 - u) * (1 - v)) + wv s.missing c1 (u * (1 - v))
            + wv s.missing c2 ((1 - u) * v) + wv s.missing c3 (u * v) = 0 then s.missing
          else (wv s.missing c0 ((1 - u) * (1 - v) * c0) + wv s.missing c1 (u * (1 - v) * c1)
            + wv s.missing c2 ((1 - u) * v * c2) + wv s.missing c3 (u * v * c3))
            / (wv s.missing c0 ((1 - u) * (1 - v)) + wv s.missing c1 (u * (1 - v))
            + wv s.missing c2 ((1 - u) * v) + wv s.missing c3 (u * v))) := by
  have hstep : ∀ (c w : ℝ) (st : ℝ × ℝ),
      (if ¬ s.IsMissing c then Res.ok (st.1 + w * c, st.2 + w) else Res.ok st)
        = Res.ok (st.1 + wv s.missing c (w * c), st.2 + wv s.missing c w) := by
    intro c w st
    unfold IsMissing wv
    by_cases h : c = s.missing
    · rw [if_neg (not_not.mpr h), if_pos h, if_pos h]; simp
    · rw [if_pos h, if_neg h, if_neg h]
  unfold getBilinearZMissingCorners
  simp only [forRange, forN, rd, Res.monad_bind_eq, List.getElem?_cons_zero, List.getElem?_cons_succ,
    Res.bind_ok, hstep, Nat.sub_zero, Nat.zero_add, Nat.reduceAdd]
  have e1 : (1.0 : ℝ) = 1 := by norm_num
  have e0 : (0.0 : ℝ) = 0 := by norm_num
  simp only [e1, e0, zero_add]
  split
  · rfl
  · rename_i h
    rw [divD_ok h]

theorem bilinear_eq (c0 c1 c2 c3 u v : ℝ) : getBilinearZ [c0, c1, c2, c3] u v
    = .ok (c0 + (c1 - c0) * u + (c2 - c0) * v + (c3 - c0 - (c1 - c0) - (c2 - c0)) * u * v) := rfl

/-- The three branches of `GetZ` compute the same thing. -/
theorem getZ_corners (s : RegSurf) {x y c0 c1 c2 c3 : ℝ} (hdx : s.dx ≠ 0) (hdy : s.dy ≠ 0)
    (hc : s.getCorners x y = .ok [c0, c1, c2, c3]) (u v : ℝ)
    (hu : u = modfFrac ((x - s.x_min) / s.dx)) (hv : v = modfFrac ((y - s.y_min) / s.dy)) :
    s.getZ x y
      = .ok (if wv s.missing c0 ((1 - u) * (1 - v)) + wv s.missing c1 (u * (1 - v))
            + wv s.missing c2 ((1 - u) * v) + wv s.missing c3 (u * v) = 0 then s.missing
          else (wv s.missing c0 ((1 - u) * (1 - v) * c0) + wv s.missing c1 (u * (1 - v) * c1)
            + wv s.missing c2 ((1 - u) * v * c2) + wv s.missing c3 (u * v * c3))
            / (wv s.missing c0 ((1 - u) * (1 - v)) + wv s.missing c1 (u * (1 - v))
            + wv s.missing c2 ((1 - u) * v) + wv s.missing c3 (u * v))) := by
  unfold getZ
  have hx1 : s.cellRelX x = .ok u := by
    simp only [cellRelX, Res.monad_bind_eq, divD_ok hdx, Res.bind_ok, hu]
  have hy1 : s.cellRelY y = .ok v := by
    simp only [cellRelY, Res.monad_bind_eq, divD_ok hdy, Res.bind_ok, hv]
  simp only [Res.monad_bind_eq, hc, Res.bind_ok, hx1, hy1, missingLoop]
  have hcnt : ∀ (c : ℝ) (n : ℕ), (if s.IsMissing c then Res.ok (n + 1) else Res.ok n)
      = Res.ok (n + if c = s.missing then 1 else 0) := by
    intro c n
    by_cases h : c = s.missing
    · have h' : s.IsMissing c := h
      rw [if_pos h', if_pos h]
    · have h' : ¬ s.IsMissing c := h
      rw [if_neg h', if_neg h]; rfl
  simp only [forRange, forN, rd, List.getElem?_cons_zero, List.getElem?_cons_succ,
    Res.bind_ok, hcnt, Nat.sub_zero, Nat.zero_add, Nat.reduceAdd]
  by_cases hn : c0 ≠ s.missing ∧ c1 ≠ s.missing ∧ c2 ≠ s.missing ∧ c3 ≠ s.missing
  · obtain ⟨h0, h1, h2, h3⟩ := hn
    have hw : (1 - u) * (1 - v) + u * (1 - v) + (1 - u) * v + u * v = 1 := by ring
    simp only [wv, if_neg h0, if_neg h1, if_neg h2, if_neg h3, add_zero]
    rw [if_neg (by norm_num), if_pos trivial, hw, if_neg one_ne_zero, div_one]
    rw [bilinear_eq]
    exact congrArg Res.ok (by ring)
  · by_cases ha : c0 = s.missing ∧ c1 = s.missing ∧ c2 = s.missing ∧ c3 = s.missing
    · obtain ⟨h0, h1, h2, h3⟩ := ha
      simp only [wv, if_pos h0, if_pos h1, if_pos h2, if_pos h3, add_zero]
      rw [if_pos (by norm_num), if_pos trivial]
    · have hcount : ((((0 + if c0 = s.missing then 1 else 0) + if c1 = s.missing then 1 else 0)
          + if c2 = s.missing then 1 else 0) + if c3 = s.missing then 1 else 0) ≠ 0 ∧
          ((((0 + if c0 = s.missing then 1 else 0) + if c1 = s.missing then 1 else 0)
          + if c2 = s.missing then 1 else 0) + if c3 = s.missing then 1 else 0) ≠ 4 := by
        by_cases h0 : c0 = s.missing <;> by_cases h1 : c1 = s.missing <;>
          by_cases h2 : c2 = s.missing <;> by_cases h3 : c3 = s.missing <;>
          simp_all
      simp only [Nat.zero_add] at hcount
      rw [if_neg hcount.2, if_neg hcount.1]

/-- The relative position in the cell is the fractional part, except in the row of cells before the
grid. -/
theorem modfFrac_cases (q : ℝ) :
    modfFrac q = Int.fract q ∨ (⌊q⌋ < 0 ∧ modfFrac q ≠ 0 ∧ Int.fract q ≠ 0) := by
  unfold modfFrac truncZ
  by_cases h : 0 ≤ q
  · left; rw [if_pos h]; rfl
  · rw [if_neg h]
    push Not at h
    by_cases hf : Int.fract q = 0
    · left
      rw [hf]
      have : (⌊q⌋ : ℝ) = q := by have := Int.floor_add_fract q; rw [hf] at this; linarith
      have h2 : ⌈q⌉ = ⌊q⌋ := by rw [← this]; simp
      rw [h2]; linarith
    · right
      refine ⟨Int.floor_lt.mpr (by simpa using h), ?_, hf⟩
      intro h0
      apply hf
      have : q = (⌈q⌉ : ℝ) := by linarith
      rw [this]; simp

end RegSurf

end Verif

namespace Verif

namespace RegSurf

theorem wv_mul (m c w a : ℝ) : wv m c (w * a) = w * wv m c a := by
  unfold wv; split <;> ring

theorem wv_one (m c w : ℝ) : wv m c w = w * wv m c 1 := by
  unfold wv; split <;> ring

theorem cv_nat (s : RegSurf) (z : ℕ → ℕ → ℝ) {i j : ℕ} (hi : i < s.grid.ni) (hj : j < s.grid.nj) :
    s.cv z i j = z i j := by
  rw [cv, if_pos (by omega)]; rfl

theorem cv_out (s : RegSurf) (z : ℕ → ℕ → ℝ) {a b : ℤ}
    (h : ¬ (0 ≤ a ∧ a < s.grid.ni ∧ 0 ≤ b ∧ b < s.grid.nj)) : s.cv z a b = s.missing := by
  rw [cv, if_neg h]

theorem wv_missing (m a : ℝ) : wv m m a = 0 := by rw [wv, if_pos rfl]

/-- The four terms of a sum over all nodes. -/
noncomputable def four (s : RegSurf) (z : ℕ → ℕ → ℝ) (i j : ℤ) (u v : ℝ) (h : ℝ → ℝ) : ℝ :=
  (1 - u) * (1 - v) * wv s.missing (s.cv z i j) (h (s.cv z i j))
    + u * (1 - v) * wv s.missing (s.cv z (i + 1) j) (h (s.cv z (i + 1) j))
    + (1 - u) * v * wv s.missing (s.cv z i (j + 1)) (h (s.cv z i (j + 1)))
    + u * v * wv s.missing (s.cv z (i + 1) (j + 1)) (h (s.cv z (i + 1) (j + 1)))

theorem getZ_four (s : RegSurf) {z : ℕ → ℕ → ℝ}
    (hz : ∀ i j, i < s.grid.ni → j < s.grid.nj → s.grid.get i j = .ok (z i j))
    (hni : s.grid.ni < 2 ^ 31) (hnj : s.grid.nj < 2 ^ 31)
    (hdx : s.dx ≠ 0) (hdy : s.dy ≠ 0) {x y : ℝ}
    (hx : InInt ((x - s.x_min) / s.dx)) (hy : InInt ((y - s.y_min) / s.dy)) :
    s.getZ x y = .ok (
      if four s z ⌊(x - s.x_min) / s.dx⌋ ⌊(y - s.y_min) / s.dy⌋
        (modfFrac ((x - s.x_min) / s.dx)) (modfFrac ((y - s.y_min) / s.dy)) (fun _ => 1) = 0
      then s.missing
      else four s z ⌊(x - s.x_min) / s.dx⌋ ⌊(y - s.y_min) / s.dy⌋
          (modfFrac ((x - s.x_min) / s.dx)) (modfFrac ((y - s.y_min) / s.dy)) id
        / four s z ⌊(x - s.x_min) / s.dx⌋ ⌊(y - s.y_min) / s.dy⌋
          (modfFrac ((x - s.x_min) / s.dx)) (modfFrac ((y - s.y_min) / s.dy)) (fun _ => 1)) := by
  rw [getZ_corners s hdx hdy (getCorners_eq s hz hni hnj hdx hdy hx hy) _ _ rfl rfl]
  generalize modfFrac ((x - s.x_min) / s.dx) = u
  generalize modfFrac ((y - s.y_min) / s.dy) = v
  generalize ⌊(x - s.x_min) / s.dx⌋ = i
  generalize ⌊(y - s.y_min) / s.dy⌋ = j
  have e1 : wv s.missing (s.cv z i j) ((1 - u) * (1 - v))
      + wv s.missing (s.cv z (i + 1) j) (u * (1 - v))
      + wv s.missing (s.cv z i (j + 1)) ((1 - u) * v)
      + wv s.missing (s.cv z (i + 1) (j + 1)) (u * v) = four s z i j u v (fun _ => 1) := by
    rw [wv_one _ _ ((1 - u) * (1 - v)), wv_one _ _ (u * (1 - v)), wv_one _ _ ((1 - u) * v),
      wv_one _ _ (u * v)]
    rfl
  have e2 : wv s.missing (s.cv z i j) ((1 - u) * (1 - v) * s.cv z i j)
      + wv s.missing (s.cv z (i + 1) j) (u * (1 - v) * s.cv z (i + 1) j)
      + wv s.missing (s.cv z i (j + 1)) ((1 - u) * v * s.cv z i (j + 1))
      + wv s.missing (s.cv z (i + 1) (j + 1)) (u * v * s.cv z (i + 1) (j + 1))
      = four s z i j u v id := by
    rw [wv_mul _ _ ((1 - u) * (1 - v)), wv_mul _ _ (u * (1 - v)), wv_mul _ _ ((1 - u) * v),
      wv_mul _ _ (u * v)]
    rfl
  rw [e1, e2]

/-- Up to a common factor, the weights in the cells before the grid are right as well. -/
theorem four_scale (s : RegSurf) (z : ℕ → ℕ → ℝ) (q r : ℝ) :
    ∃ κ : ℝ, κ ≠ 0 ∧ ∀ h : ℝ → ℝ, four s z ⌊q⌋ ⌊r⌋ (modfFrac q) (modfFrac r) h
      = κ * four s z ⌊q⌋ ⌊r⌋ (Int.fract q) (Int.fract r) h := by
  have hl : ∀ (a b : ℤ) (t : ℝ), a < 0 ∨ b < 0 → wv s.missing (s.cv z a b) t = 0 := by
    intro a b t h
    rw [cv_out s z (by omega), wv_missing]
  rcases modfFrac_cases q with hq | ⟨hq, hq1, hq2⟩ <;>
    rcases modfFrac_cases r with hr | ⟨hr, hr1, hr2⟩
  · exact ⟨1, one_ne_zero, fun h => by rw [hq, hr, one_mul]⟩
  · refine ⟨modfFrac r / Int.fract r, div_ne_zero hr1 hr2, fun h => ?_⟩
    simp only [four, hq]
    rw [hl _ _ _ (Or.inr hr), hl _ _ _ (Or.inr hr)]
    field_simp
    ring
  · refine ⟨modfFrac q / Int.fract q, div_ne_zero hq1 hq2, fun h => ?_⟩
    simp only [four, hr]
    rw [hl _ _ _ (Or.inl hq), hl _ _ _ (Or.inl hq)]
    field_simp
    ring
  · refine ⟨modfFrac q / Int.fract q * (modfFrac r / Int.fract r),
      mul_ne_zero (div_ne_zero hq1 hq2) (div_ne_zero hr1 hr2), fun h => ?_⟩
    simp only [four]
    rw [hl _ _ _ (Or.inl hq), hl _ _ _ (Or.inl hq), hl _ _ _ (Or.inr hr)]
    field_simp
    ring

theorem rel_sub {x m d : ℝ} (hd : d ≠ 0) (i : ℕ) : (x - (m + i * d)) / d = (x - m) / d - i := by
  field_simp; ring

open Classical in
theorem four_eq_sum (s : RegSurf) (z : ℕ → ℕ → ℝ) (hdx : s.dx ≠ 0) (hdy : s.dy ≠ 0) (x y : ℝ)
    (h : ℝ → ℝ) :
    four s z ⌊(x - s.x_min) / s.dx⌋ ⌊(y - s.y_min) / s.dy⌋ (Int.fract ((x - s.x_min) / s.dx))
        (Int.fract ((y - s.y_min) / s.dy)) h
      = ∑ i ∈ Finset.range s.grid.ni, ∑ j ∈ Finset.range s.grid.nj,
        if z i j ≠ s.missing then nodeWeight s.dx s.dy x y (s.x_min + i * s.dx)
          (s.y_min + j * s.dy) * h (z i j) else 0 := by
  have := sum_hat2 s.grid.ni s.grid.nj ((x - s.x_min) / s.dx) ((y - s.y_min) / s.dy)
    (fun a b => wv s.missing (s.cv z a b) (h (s.cv z a b)))
    (fun a b hab => by rw [cv_out s z hab, wv_missing])
  rw [four, ← this]
  refine Finset.sum_congr rfl fun i hi => Finset.sum_congr rfl fun j hj => ?_
  rw [Finset.mem_range] at hi hj
  rw [cv_nat s z hi hj, nodeWeight, rel_sub hdx, rel_sub hdy, wv]
  by_cases hm : z i j = s.missing
  · rw [if_pos hm, if_neg (not_not.mpr hm), mul_zero]
  · rw [if_neg hm, if_pos hm]

end RegSurf

end Verif
