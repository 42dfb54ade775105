import Verif.Model.Trend
import Verif.Lemmas.TrendKit

/-!
# C153: values of trends
-/

namespace Verif

open Classical

namespace Trend

/-- The number at `q` between the numbers `f 0`, …, `f (n - 1)`: on straight lines between them, and constant outside. -/
noncomputable def between (f : ℕ → ℝ) (n : ℕ) (q : ℝ) : ℝ :=
  let c := max 0 (min q ((n : ℝ) - 1))
  (1 - (c - ⌊c⌋₊)) * f ⌊c⌋₊ + (c - ⌊c⌋₊) * f (min (⌊c⌋₊ + 1) (n - 1))

theorem between_low {n : ℕ} (hn : 0 < n) (f : ℕ → ℝ) {q : ℝ} (h : ⌊q⌋ < 0) : between f n q = f 0 := by
  have hq : q < 0 := by
    have := Int.floor_lt.1 h
    simpa using this
  have hn1 : (1 : ℝ) ≤ n := by exact_mod_cast hn
  have e : max 0 (min q ((n : ℝ) - 1)) = 0 := by
    rw [min_eq_left (by linarith), max_eq_left hq.le]
  unfold between
  simp only [e]
  simp

theorem between_high {n : ℕ} (hn : 0 < n) (f : ℕ → ℝ) {q : ℝ} (h : ⌊q⌋ + 1 > (n : ℤ) - 1) (h0 : 0 ≤ ⌊q⌋) : between f n q = f (n - 1) := by
  have hn1 : (1 : ℝ) ≤ n := by exact_mod_cast hn
  by_cases hq : (n : ℝ) - 1 ≤ q
  · have e : max 0 (min q ((n : ℝ) - 1)) = ((n - 1 : ℕ) : ℝ) := by
      rw [min_eq_right hq, max_eq_right (by linarith), Nat.cast_sub hn, Nat.cast_one]
    unfold between
    simp only [e, Nat.floor_natCast]
    simp
  · exfalso
    have h1 : (n : ℤ) - 1 ≤ ⌊q⌋ := by omega
    have h2 := Int.le_floor.1 h1
    push_cast at h2
    exact hq h2

theorem between_in {n : ℕ} (f : ℕ → ℝ) {q : ℝ} (h0 : 0 ≤ ⌊q⌋) (h : ¬ ⌊q⌋ + 1 > (n : ℤ) - 1) :
    between f n q = (q - ⌊q⌋) * f (⌊q⌋.toNat + 1) + (1 - (q - ⌊q⌋)) * f ⌊q⌋.toNat := by
  have hq0 : 0 ≤ q := by
    have := Int.le_floor.1 h0
    simpa using this
  have hq1 : q ≤ (n : ℝ) - 1 := by
    have h1 : ⌊q⌋ < (n : ℤ) - 1 := by omega
    have := Int.floor_lt.1 h1
    push_cast at this
    exact this.le
  have e : max 0 (min q ((n : ℝ) - 1)) = q := by rw [min_eq_left hq1, max_eq_right hq0]
  have ef : ⌊q⌋.toNat = ⌊q⌋₊ := rfl
  have ec : ((⌊q⌋₊ : ℕ) : ℝ) = (⌊q⌋ : ℝ) := by
    rw [← ef]
    exact_mod_cast Int.toNat_of_nonneg h0
  have hk : min (⌊q⌋₊ + 1) (n - 1) = ⌊q⌋₊ + 1 := by
    rw [← ef]
    omega
  unfold between
  simp only [e, hk, ec, ef]
  ring

theorem between_bounds {n : ℕ} (hn : 0 < n) {f : ℕ → ℝ} {lo hi : ℝ} (h : ∀ k, k < n → lo ≤ f k ∧ f k ≤ hi) (q : ℝ) :
    lo ≤ between f n q ∧ between f n q ≤ hi := by
  rcases lt_or_ge ⌊q⌋ 0 with h0 | h0
  · rw [between_low hn f h0]; exact h 0 hn
  · by_cases h1 : ⌊q⌋ + 1 > (n : ℤ) - 1
    · rw [between_high hn f h1 h0]; exact h _ (by omega)
    · rw [between_in f h0 h1]
      have a1 := Int.floor_le q
      have a2 := Int.lt_floor_add_one q
      have b1 := h ⌊q⌋.toNat (by omega)
      have b2 := h (⌊q⌋.toNat + 1) (by omega)
      constructor <;> nlinarith [mul_nonneg (sub_nonneg.2 a1) (sub_nonneg.2 b2.1), mul_nonneg (sub_nonneg.2 a1) (sub_nonneg.2 b2.2),
        mul_nonneg (show 0 ≤ 1 - (q - ⌊q⌋) by linarith) (sub_nonneg.2 b1.1),
        mul_nonneg (show 0 ≤ 1 - (q - ⌊q⌋) by linarith) (sub_nonneg.2 b1.2)]

theorem between_node {n k : ℕ} (hk : k < n) (f : ℕ → ℝ) : between f n k = f k := by
  by_cases h : ⌊(k : ℝ)⌋ + 1 > (n : ℤ) - 1
  · rw [between_high (by omega) f h (by simp)]
    simp only [Int.floor_natCast] at h
    congr 1
    omega
  · rw [between_in f (by simp) h]
    simp

theorem mix_ok {trend : List ℝ} {t : ℝ} {a b : ℕ} {u v : ℝ} (ha : trend[a]? = some u) (hb : trend[b]? = some v) :
    mix trend t a b = .ok (t * u + (1 - t) * v) := by
  unfold mix
  rw [rd_eq_ok.2 ha, Res.monad_bind_eq, Res.bind_ok, rd_eq_ok.2 hb]
  rfl

/-- The numbers that are far from the limits of `int`. -/
def InInt (q : ℝ) : Prop := -2147483648 ≤ q ∧ q < 2147483647

theorem floorInt_ok {q : ℝ} (h : InInt q) : floorInt q = .ok ⌊q⌋ := by
  unfold floorInt
  rw [if_pos]
  exact ⟨Int.le_floor.2 (by push_cast; exact h.1), Int.floor_lt.2 (by push_cast; exact h.2)⟩

theorem column_ok {trend : List ℝ} {f : ℕ → ℝ} {ns1 ns2 a : ℕ} (h2 : 0 < ns2) (hf : ∀ j, j < ns2 → trend[a + j * ns1]? = some (f j)) (q : ℝ) :
    column trend ns1 ns2 a ⌊q⌋ (q - ⌊q⌋) = .ok (between f ns2 q) := by
  unfold column
  rcases lt_or_ge ⌊q⌋ 0 with h0 | h0
  · rw [if_pos h0, between_low h2 f h0]
    exact rd_eq_ok.2 (by simpa using hf 0 h2)
  · rw [if_neg (not_lt.2 h0)]
    by_cases h1 : ⌊q⌋ + 1 > (ns2 : ℤ) - 1
    · rw [if_pos h1, between_high h2 f h1 h0]
      exact rd_eq_ok.2 (hf _ (by omega))
    · rw [if_neg h1, between_in f h0 h1]
      exact mix_ok (hf _ (by omega)) (hf _ (by omega))

end Trend

open Trend

/-- **C153 (one dimension).** The value of a trend with one or more numbers is on the straight lines between them, and constant outside. -/
theorem trend_value_1d {trend : List ℝ} {f : ℕ → ℝ} (hn : 0 < trend.length) (hf : ∀ k, k < trend.length → trend[k]? = some (f k))
    {inv s1 s2 s3 : ℝ} {reference : ℕ} (hr : reference = 1 ∨ reference = 2 ∨ reference = 3)
    (hs : InInt ((if reference = 1 then s1 else if reference = 2 then s2 else s3) * inv)) :
    getValue1D trend reference inv s1 s2 s3 =
      .ok (between f trend.length ((if reference = 1 then s1 else if reference = 2 then s2 else s3) * inv)) := by
  have e : (if reference = 1 then s1 * inv else if reference = 2 then s2 * inv else if reference = 3 then s3 * inv else 0) =
      (if reference = 1 then s1 else if reference = 2 then s2 else s3) * inv := by
    rcases hr with rfl | rfl | rfl <;> simp
  unfold getValue1D
  rw [e]
  generalize (if reference = 1 then s1 else if reference = 2 then s2 else s3) * inv = q at hs ⊢
  unfold value1D
  rw [floorInt_ok hs, Res.monad_bind_eq, Res.bind_ok]
  rcases lt_or_ge ⌊q⌋ 0 with h0 | h0
  · rw [if_pos h0, between_low hn f h0]
    exact rd_eq_ok.2 (hf 0 hn)
  · rw [if_neg (not_lt.2 h0)]
    by_cases h1 : ⌊q⌋ + 1 > (trend.length : ℤ) - 1
    · rw [if_pos h1, between_high hn f h1 h0]
      exact rd_eq_ok.2 (hf _ (by omega))
    · rw [if_neg h1, between_in f h0 h1]
      exact mix_ok (hf _ (by omega)) (hf _ (by omega))

/-- **C153 (two dimensions).** The value is found on straight lines between the numbers in the first direction, and then on straight
lines between the results in the second. -/
theorem trend_value_2d {trend : List ℝ} {f : ℕ → ℕ → ℝ} {ns1 ns2 start : ℕ} (h1 : 0 < ns1) (h2 : 0 < ns2)
    (hf : ∀ i j, i < ns1 → j < ns2 → trend[start + i + j * ns1]? = some (f i j)) {p q : ℝ} (hp : InInt p) (hq : InInt q) :
    value2D trend ns1 ns2 start p q = .ok (between (fun j => between (fun i => f i j) ns1 p) ns2 q) := by
  unfold value2D
  rw [floorInt_ok hp, Res.monad_bind_eq, Res.bind_ok, floorInt_ok hq, Res.monad_bind_eq, Res.bind_ok]
  rcases lt_or_ge ⌊p⌋ 0 with i0 | i0
  · rw [if_pos i0, column_ok (f := f 0) h2 (fun j hj => by simpa using hf 0 j h1 hj)]
    simp only [between_low h1 _ i0]
  · rw [if_neg (not_lt.2 i0)]
    by_cases i1 : ⌊p⌋ + 1 > (ns1 : ℤ) - 1
    · rw [if_pos i1, column_ok (f := f (ns1 - 1)) h2 (fun j hj => by
        rw [show start + ns1 - 1 + j * ns1 = start + (ns1 - 1) + j * ns1 by omega]
        exact hf (ns1 - 1) j (by omega) hj)]
      simp only [between_high h1 _ i1 i0]
    · rw [if_neg i1]
      simp only [between_in _ i0 i1]
      rcases lt_or_ge ⌊q⌋ 0 with j0 | j0
      · rw [if_pos j0, between_low h2 _ j0]
        exact mix_ok (by simpa using hf (⌊p⌋.toNat + 1) 0 (by omega) h2) (by simpa using hf ⌊p⌋.toNat 0 (by omega) h2)
      · rw [if_neg (not_lt.2 j0)]
        by_cases j1 : ⌊q⌋ + 1 > (ns2 : ℤ) - 1
        · rw [if_pos j1, between_high h2 _ j1 j0]
          exact mix_ok (hf _ _ (by omega) (by omega)) (hf _ _ (by omega) (by omega))
        · rw [if_neg j1, between_in _ j0 j1, mix_ok (hf _ _ (by omega) (by omega)) (hf _ _ (by omega) (by omega)), Res.monad_bind_eq,
            Res.bind_ok, mix_ok (hf _ _ (by omega) (by omega)) (hf _ _ (by omega) (by omega))]
          rfl

/-- **C153 (two dimensions, API).** The same with the increments of a trend. -/
theorem trend_get_value_2d {trend : List ℝ} {f : ℕ → ℕ → ℝ} {ns1 ns2 : ℕ} (h1 : 0 < ns1) (h2 : 0 < ns2)
    (hf : ∀ i j, i < ns1 → j < ns2 → trend[i + j * ns1]? = some (f i j)) {inv1 inv2 s1 s2 : ℝ} (hp : InInt (s1 * inv1))
    (hq : InInt (s2 * inv2)) :
    getValue2D trend ns1 ns2 inv1 inv2 s1 s2 = .ok (between (fun j => between (fun i => f i j) ns1 (s1 * inv1)) ns2 (s2 * inv2)) :=
  trend_value_2d h1 h2 (fun i j hi hj => by simpa using hf i j hi hj) hp hq

/-- **C153 (bounds).** A value in one or two dimensions is between the least and the greatest number, and at a node it is the number
there. -/
theorem trend_value_bounds {f : ℕ → ℕ → ℝ} {n m : ℕ} (hn : 0 < n) (hm : 0 < m) {lo hi : ℝ}
    (h : ∀ i j, i < n → j < m → lo ≤ f i j ∧ f i j ≤ hi) (p q : ℝ) :
    (lo ≤ between (fun j => between (fun i => f i j) n p) m q ∧ between (fun j => between (fun i => f i j) n p) m q ≤ hi) ∧
    ∀ i j, i < n → j < m → between (fun j => between (fun i => f i j) n i) m j = f i j := by
  refine ⟨between_bounds hm (fun j hj => between_bounds hn (fun i hi => h i j hi hj) p) q, fun i j hi hj => ?_⟩
  rw [between_node hj, between_node hi]

namespace Trend

theorem small_unit {n : ℕ} (hn : 0 < n) (hn' : n < 2 ^ 31) {s : ℝ} (h0 : 0 ≤ s) (h1 : s ≤ 1) : InInt (s * ((n : ℝ) - 1)) := by
  have a : (1 : ℝ) ≤ n := by exact_mod_cast hn
  have b : (n : ℝ) ≤ 2147483647 := by
    have : n ≤ 2147483647 := by omega
    exact_mod_cast this
  constructor <;> nlinarith

/-- The weights of the two layers are exchanged. -/
theorem value_3d {trend : List ℝ} {f : ℕ → ℕ → ℕ → ℝ} {ni nj nk : ℕ} (hi : 0 < ni) (hj : 0 < nj) (hi' : ni < 2 ^ 31) (hj' : nj < 2 ^ 31)
    (hf : ∀ i j k, i < ni → j < nj → k < nk → trend[k * ni * nj + i + j * ni]? = some (f i j k)) {s1 s2 s3 : ℝ} (a1 : 0 ≤ s1) (b1 : s1 ≤ 1)
    (a2 : 0 ≤ s2) (b2 : s2 ≤ 1) {k : ℕ} (hk : k < nk) (hk' : nk ≤ 2 ^ 64) (c1 : (k : ℝ) ≤ s3 * ((nk : ℝ) - 1)) (c2 : s3 * ((nk : ℝ) - 1) < k + 1) :
    getValue3D trend ni nj nk s1 s2 s3 = .ok (
      (s3 * ((nk : ℝ) - 1) - k) * between (fun j => between (fun i => f i j k) ni (s1 * ((ni : ℝ) - 1))) nj (s2 * ((nj : ℝ) - 1)) +
      (1 - (s3 * ((nk : ℝ) - 1) - k)) * between (fun j => between (fun i => f i j (min (k + 1) (nk - 1))) ni (s1 * ((ni : ℝ) - 1))) nj
        (s2 * ((nj : ℝ) - 1))) := by
  have ef : ⌊s3 * ((nk : ℝ) - 1)⌋ = (k : ℤ) := by
    rw [Int.floor_eq_iff]
    exact ⟨by exact_mod_cast c1, by exact_mod_cast c2⟩
  have e : TrendKit.floorSize (s3 * ((nk : ℝ) - 1)) = .ok k := by
    unfold TrendKit.floorSize
    rw [ef, if_pos ⟨by omega, by omega⟩]
    rfl
  have lay : ∀ k, k < nk → value2D trend ni nj (k * ni * nj) (s1 * ((ni : ℝ) - 1)) (s2 * ((nj : ℝ) - 1)) =
      .ok (between (fun j => between (fun i => f i j k) ni (s1 * ((ni : ℝ) - 1))) nj (s2 * ((nj : ℝ) - 1))) := fun k hk =>
    trend_value_2d hi hj (fun i j hi hj => hf i j k hi hj hk) (small_unit hi hi' a1 b1) (small_unit hj hj' a2 b2)
  unfold getValue3D
  simp only
  rw [e, Res.monad_bind_eq, Res.bind_ok, lay k hk, Res.monad_bind_eq, Res.bind_ok]
  by_cases h : k + 1 = nk
  · rw [if_pos h, Res.monad_bind_eq, Res.bind_ok, show min (k + 1) (nk - 1) = k by omega]
  · rw [if_neg h, lay (k + 1) (by omega), Res.monad_bind_eq, Res.bind_ok, show min (k + 1) (nk - 1) = k + 1 by omega]

end Trend

/-- **C153 (three dimensions, partial).** The value is between the least and the greatest number. In a trend of one layer, and at the
last layer, it is the value of the layer in two dimensions. -/
theorem trend_value_3d_partial {trend : List ℝ} {f : ℕ → ℕ → ℕ → ℝ} {ni nj nk : ℕ} (hi : 0 < ni) (hj : 0 < nj) (hk : 0 < nk)
    (hi' : ni < 2 ^ 31) (hj' : nj < 2 ^ 31) (hk' : nk ≤ 2 ^ 64)
    (hf : ∀ i j k, i < ni → j < nj → k < nk → trend[k * ni * nj + i + j * ni]? = some (f i j k)) {s1 s2 s3 : ℝ} (a1 : 0 ≤ s1) (b1 : s1 ≤ 1)
    (a2 : 0 ≤ s2) (b2 : s2 ≤ 1) (a3 : 0 ≤ s3) (b3 : s3 ≤ 1) :
    ∃ v, getValue3D trend ni nj nk s1 s2 s3 = .ok v ∧
      (∀ lo up : ℝ, (∀ i j k, i < ni → j < nj → k < nk → lo ≤ f i j k ∧ f i j k ≤ up) → lo ≤ v ∧ v ≤ up) ∧
      (s3 = 1 ∨ nk = 1 → v = between (fun j => between (fun i => f i j (nk - 1)) ni (s1 * ((ni : ℝ) - 1))) nj (s2 * ((nj : ℝ) - 1))) := by
  have n1 : (1 : ℝ) ≤ nk := by exact_mod_cast hk
  have q0 : 0 ≤ s3 * ((nk : ℝ) - 1) := mul_nonneg a3 (by linarith)
  have q1 : s3 * ((nk : ℝ) - 1) ≤ (nk : ℝ) - 1 := by nlinarith
  have c1 := Nat.floor_le q0
  have c2 := Nat.lt_floor_add_one (s3 * ((nk : ℝ) - 1))
  have hlt : ⌊s3 * ((nk : ℝ) - 1)⌋₊ < nk := by
    rw [Nat.floor_lt q0]
    linarith
  refine ⟨_, value_3d hi hj hi' hj' hf a1 b1 a2 b2 hlt hk' c1 c2, fun lo up h => ?_, fun h => ?_⟩
  · have w1 := between_bounds hj (fun j hj => between_bounds hi (fun i hi => h i j _ hi hj hlt) (s1 * ((ni : ℝ) - 1))) (s2 * ((nj : ℝ) - 1))
    have w2 := between_bounds hj (fun j hj => between_bounds hi (fun i hi => h i j (min (⌊s3 * ((nk : ℝ) - 1)⌋₊ + 1) (nk - 1)) hi hj (by omega))
      (s1 * ((ni : ℝ) - 1))) (s2 * ((nj : ℝ) - 1))
    constructor <;> nlinarith [mul_nonneg (sub_nonneg.2 c1) (sub_nonneg.2 w1.1), mul_nonneg (sub_nonneg.2 c1) (sub_nonneg.2 w1.2),
      mul_nonneg (show 0 ≤ 1 - (s3 * ((nk : ℝ) - 1) - ⌊s3 * ((nk : ℝ) - 1)⌋₊) by linarith) (sub_nonneg.2 w2.1),
      mul_nonneg (show 0 ≤ 1 - (s3 * ((nk : ℝ) - 1) - ⌊s3 * ((nk : ℝ) - 1)⌋₊) by linarith) (sub_nonneg.2 w2.2)]
  · have e : s3 * ((nk : ℝ) - 1) = ((nk - 1 : ℕ) : ℝ) := by
      rcases h with rfl | rfl
      · rw [Nat.cast_sub hk]; simp
      · simp
    rw [e, Nat.floor_natCast, show min (nk - 1 + 1) (nk - 1) = nk - 1 by omega]
    ring

/-- **C153 (violation, three dimensions).** At the place of a layer before the last the value is the one of the next layer: the weights
of the two layers are exchanged. -/
theorem trend_value_3d_violation {trend : List ℝ} {f : ℕ → ℕ → ℕ → ℝ} {ni nj nk : ℕ} (hi : 0 < ni) (hj : 0 < nj) (hi' : ni < 2 ^ 31)
    (hj' : nj < 2 ^ 31) (hk' : nk ≤ 2 ^ 64)
    (hf : ∀ i j k, i < ni → j < nj → k < nk → trend[k * ni * nj + i + j * ni]? = some (f i j k)) {s1 s2 : ℝ} (a1 : 0 ≤ s1) (b1 : s1 ≤ 1)
    (a2 : 0 ≤ s2) (b2 : s2 ≤ 1) {k : ℕ} (hk : k + 1 < nk) :
    getValue3D trend ni nj nk s1 s2 (k / ((nk : ℝ) - 1)) =
      .ok (between (fun j => between (fun i => f i j (k + 1)) ni (s1 * ((ni : ℝ) - 1))) nj (s2 * ((nj : ℝ) - 1))) := by
  have n1 : (k : ℝ) + 1 < nk := by exact_mod_cast hk
  have k0 : (0 : ℝ) ≤ k := Nat.cast_nonneg k
  have n0 : (nk : ℝ) - 1 ≠ 0 := by linarith
  have e : (k : ℝ) / ((nk : ℝ) - 1) * ((nk : ℝ) - 1) = k := div_mul_cancel₀ _ n0
  rw [value_3d hi hj hi' hj' hf a1 b1 a2 b2 (show k < nk by omega) hk' (by rw [e]) (by rw [e]; linarith), e,
    show min (k + 1) (nk - 1) = k + 1 by omega]
  congr 1
  ring

/-- **C153 (volumes).** In a volume every place has a value between the least and the greatest number. -/
theorem trend_value_3d_in {trend : List ℝ} {f : ℕ → ℕ → ℕ → ℝ} {ni nj nk : ℕ} (hi : 0 < ni) (hj : 0 < nj) (hk : 0 < nk)
    (hi' : ni < 2 ^ 31) (hj' : nj < 2 ^ 31) (hk' : nk ≤ 2 ^ 64)
    (hf : ∀ i j k, i < ni → j < nj → k < nk → trend[k * ni * nj + i + j * ni]? = some (f i j k)) {lx ly lz : ℝ} (hx : lx ≠ 0) (hy : ly ≠ 0)
    (hz : lz ≠ 0) (s1 s2 s3 : ℝ) : ∃ v, getValue3DIn trend ni nj nk lx ly lz s1 s2 s3 = .ok v ∧
      ∀ lo up : ℝ, (∀ i j k, i < ni → j < nj → k < nk → lo ≤ f i j k ∧ f i j k ≤ up) → lo ≤ v ∧ v ≤ up := by
  have u : ∀ s : ℝ, 0 ≤ unit s ∧ unit s ≤ 1 := by
    intro s
    unfold unit
    simp only
    constructor <;> split_ifs <;> linarith
  unfold getValue3DIn
  rw [TrendKit.fdiv_ok hx, Res.monad_bind_eq, Res.bind_ok, TrendKit.fdiv_ok hy, Res.monad_bind_eq, Res.bind_ok, TrendKit.fdiv_ok hz,
    Res.monad_bind_eq, Res.bind_ok]
  obtain ⟨v, e, h, -⟩ := trend_value_3d_partial hi hj hk hi' hj' hk' hf (u (s1 / lx)).1 (u (s1 / lx)).2 (u (s2 / ly)).1 (u (s2 / ly)).2
    (u (s3 / lz)).1 (u (s3 / lz)).2
  exact ⟨v, e, h⟩

/-- **C153 (volumes, outside).** A place outside of a volume has the value of the closest place in it. -/
theorem trend_value_3d_outside (trend : List ℝ) (ni nj nk : ℕ) {lx ly lz : ℝ} (hx : 0 < lx) (hy : 0 < ly) (hz : 0 < lz) (s1 s2 s3 : ℝ) :
    getValue3DIn trend ni nj nk lx ly lz s1 s2 s3 =
      getValue3DIn trend ni nj nk lx ly lz (max 0 (min s1 lx)) (max 0 (min s2 ly)) (max 0 (min s3 lz)) := by
  have u : ∀ s l : ℝ, 0 < l → unit (s / l) = unit (max 0 (min s l) / l) := by
    intro s l hl
    by_cases h1 : s < 0
    · rw [min_eq_left (by linarith), max_eq_left h1.le, zero_div]
      unfold unit
      simp only
      rw [if_pos (div_neg_of_neg_of_pos h1 hl)]
      norm_num
    · by_cases h2 : l < s
      · rw [min_eq_right h2.le, max_eq_right hl.le, div_self hl.ne']
        have h3 : 1 < s / l := by rw [lt_div_iff₀ hl]; linarith
        unfold unit
        simp only
        rw [if_neg (show ¬ s / l < 0 by linarith), if_pos h3]
        norm_num
      · rw [min_eq_left (by linarith), max_eq_right (by linarith)]
  unfold getValue3DIn
  rw [TrendKit.fdiv_ok hx.ne', TrendKit.fdiv_ok hy.ne', TrendKit.fdiv_ok hz.ne', TrendKit.fdiv_ok hx.ne', TrendKit.fdiv_ok hy.ne',
    TrendKit.fdiv_ok hz.ne']
  simp only [Res.monad_bind_eq, Res.bind_ok]
  rw [← u s1 lx hx, ← u s2 ly hy, ← u s3 lz hz]

/-- A trend of two layers of one number each: the values at its ends are the same. -/
theorem trend_value_3d_example : getValue3D [5, 7] 1 1 2 0 0 0 = .ok 7 ∧ getValue3D [5, 7] 1 1 2 0 0 1 = .ok 7 := by
  have hf : ∀ i j k, i < 1 → j < 1 → k < 2 → ([5, 7] : List ℝ)[k * 1 * 1 + i + j * 1]? = some (if k = 0 then 5 else 7) := by
    intro i j k hi hj hk
    have h1 : k = 0 ∨ k = 1 := by omega
    obtain rfl : i = 0 := by omega
    obtain rfl : j = 0 := by omega
    rcases h1 with rfl | rfl <;> simp
  constructor
  · have := trend_value_3d_violation (f := fun _ _ k => if k = 0 then 5 else 7) one_pos one_pos (by norm_num) (by norm_num) (by norm_num) hf
      (le_refl (0 : ℝ)) zero_le_one (le_refl (0 : ℝ)) zero_le_one (k := 0) (by omega)
    simp only [Nat.cast_zero, zero_div] at this
    rw [this]
    norm_num [between]
  · obtain ⟨v, e, -, hv⟩ := trend_value_3d_partial (f := fun _ _ k => if k = 0 then 5 else 7) one_pos one_pos two_pos (by norm_num)
      (by norm_num) (by norm_num) hf (le_refl (0 : ℝ)) zero_le_one (le_refl (0 : ℝ)) zero_le_one zero_le_one (le_refl (1 : ℝ))
    rw [e, hv (.inl rfl)]
    norm_num [between]

/-- A trend of three numbers and one of two by one meet the hypotheses. -/
theorem trend_value_example : getValue1D [1, 3, 4] 2 2 9 (1 / 4) 9 = .ok 2 ∧ getValue2D [1, 3] 2 1 1 0 (1 / 2) 7 = .ok 2 := by
  constructor
  · have hf : ∀ k, k < ([1, 3, 4] : List ℝ).length → ([1, 3, 4] : List ℝ)[k]? = some (if k = 0 then 1 else if k = 1 then 3 else 4) := by
      intro k hk
      simp only [List.length_cons, List.length_nil] at hk
      have : k = 0 ∨ k = 1 ∨ k = 2 := by omega
      rcases this with rfl | rfl | rfl <;> simp
    rw [trend_value_1d (by simp) hf (.inr (.inl rfl)) (by norm_num [InInt])]
    have e0 : ((if (2 : ℕ) = 1 then (9 : ℝ) else if (2 : ℕ) = 2 then 1 / 4 else 9) * 2) = 1 / 2 := by norm_num
    have e : ⌊(1 / 2 : ℝ)⌋ = 0 := by norm_num
    rw [e0, between_in _ (by rw [e]) (by rw [e]; norm_num), e]
    norm_num
  · have hf : ∀ i j, i < 2 → j < 1 → ([1, 3] : List ℝ)[i + j * 2]? = some (if i = 0 then 1 else 3) := by
      intro i j hi hj
      have : i = 0 ∨ i = 1 := by omega
      obtain rfl : j = 0 := by omega
      rcases this with rfl | rfl <;> simp
    rw [trend_get_value_2d (f := fun i _ => if i = 0 then 1 else 3) two_pos one_pos hf (by norm_num [InInt]) (by norm_num [InInt])]
    have e : ⌊(1 / 2 * 1 : ℝ)⌋ = 0 := by norm_num
    have e1 : between (fun i => if i = 0 then (1 : ℝ) else 3) 2 (1 / 2 * 1) = 2 := by
      rw [between_in _ (by rw [e]) (by rw [e]; norm_num), e]
      norm_num
    simp only [e1]
    norm_num [between]

end Verif
