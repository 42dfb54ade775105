import Verif.Model.SegyValues
import Verif.Props.SegySamples
import Mathlib.Tactic.FieldSimp
import Mathlib.Tactic.IntervalCases
import Mathlib.Algebra.Order.Floor.Semiring

/-!
# C156: values between the samples of a cube
-/

namespace Verif

open Classical

namespace SegyValues

namespace Cube

theorem neighbour_eq {c : Cube} {index k : ℕ} {t : Trace} {v : ℝ} (h : c.traces[index]? = some (some t)) (hv : t.value k = .ok v) :
    c.neighbour index k = .ok v := by
  unfold neighbour
  rw [Res.monad_bind_eq, rd_eq_ok.2 h, Res.bind_ok]
  exact hv

theorem value_whole {t : Trace} (h : t.Whole) (k : ℕ) : ∃ v, t.value k = .ok v := by
  unfold Trace.value
  split_ifs with h1
  · exact ⟨_, rfl⟩
  · exact ⟨_, rd_ok (by have := h.1; omega)⟩

theorem neighbour_whole {c : Cube} (h : ∀ t, some t ∈ c.traces → t.Whole) {index : ℕ} (hi : index < c.traces.length) (k : ℕ) :
    ∃ v, c.neighbour index k = .ok v := by
  unfold neighbour
  rw [Res.monad_bind_eq, rd_ok hi, Res.bind_ok]
  rcases e : c.traces[index] with _ | t
  · exact ⟨_, rfl⟩
  · exact value_whole (h t (e ▸ List.getElem_mem hi)) k

theorem fdiv_ok {x y : ℝ} (h : y ≠ 0) : fdiv x y = .ok (x / y) := if_neg h

/-- The interpolation once its samples are known. -/
theorem interpolate_eq {c : Cube} {t : Trace} {index k : ℕ} {x0 x2 y0 y2 w0 w2 v1 ux uy z : ℝ} {mode : Mode} (hd : 0 < c.dz)
    (hv : v1 ≠ missing)
    (hx0 : (if 1 ≤ index then c.neighbour (index - 1) k else .ok missing : Res ℝ) = .ok x0)
    (hx2 : (if index + 1 ≤ c.nx * c.ny - 1 then c.neighbour (index + 1) k else .ok missing : Res ℝ) = .ok x2)
    (hy0 : (if c.nx ≤ index ∧ index - c.nx ≤ c.nx * c.ny - 1 then c.neighbour (index - c.nx) k else .ok missing : Res ℝ) = .ok y0)
    (hy2 : (if index + c.nx ≤ c.nx * c.ny - 1 then c.neighbour (index + c.nx) k else .ok missing : Res ℝ) = .ok y2)
    (hw0 : t.valueBefore k = .ok w0) (hw2 : t.value (k + 1) = .ok w2) :
    c.interpolate t index k v1 ux uy z mode =
      .ok ((coef x0 v1 x2).1 * ux * ux + (coef y0 v1 y2).1 * uy * uy +
        (coef w0 v1 w2).1 * ((z - c.z0) / c.dz - (⌊(z - c.z0) / c.dz⌋ + 1 / 2)) *
          ((z - c.z0) / c.dz - (⌊(z - c.z0) / c.dz⌋ + 1 / 2)) + (coef x0 v1 x2).2 * ux + (coef y0 v1 y2).2 * uy +
        (coef w0 v1 w2).2 * ((z - c.z0) / c.dz - (⌊(z - c.z0) / c.dz⌋ + 1 / 2)) + v1) := by
  unfold interpolate
  rw [if_neg hv]
  simp only [Res.monad_bind_eq]
  rw [hx0, Res.bind_ok, hx2, Res.bind_ok, hy0, Res.bind_ok, hy2, Res.bind_ok, hw0, Res.bind_ok, hw2, Res.bind_ok,
    fdiv_ok hd.ne', Res.bind_ok]

theorem cell_floor {c : Cube} {k : ℕ} {z : ℝ} (hd : 0 < c.dz) (h1 : c.z0 + k * c.dz ≤ z) (h2 : z < c.z0 + (k + 1) * c.dz) :
    ⌊(z - c.z0) / c.dz⌋ = (k : ℤ) ∧ ⌊(z - c.z0) / c.dz⌋₊ = k := by
  have a1 : (k : ℝ) ≤ (z - c.z0) / c.dz := by rw [le_div_iff₀ hd]; linarith
  have a2 : (z - c.z0) / c.dz < k + 1 := by rw [div_lt_iff₀ hd]; linarith
  exact ⟨Int.floor_eq_iff.2 ⟨by exact_mod_cast a1, by exact_mod_cast a2⟩,
    (Nat.floor_eq_iff (le_trans (Nat.cast_nonneg k) a1)).2 ⟨a1, a2⟩⟩

/-- The value at a point in the cell of a sample that is not missing. -/
theorem value_at {c : Cube} {i j k : ℕ} {t : Trace} {v z ux uy : ℝ} {mode : Mode} (hd : 0 < c.dz)
    (ht : c.traces[j * c.nx + i]? = some (some t)) (hk : k < c.nz) (h1 : c.z0 + k * c.dz ≤ z) (h2 : z < c.z0 + (k + 1) * c.dz)
    (hv : t.value k = .ok v) (hm : v ≠ missing) :
    c.value (some (i, j)) ux uy z mode = c.interpolate t (j * c.nx + i) k v ux uy z mode := by
  unfold value
  simp only
  rw [Res.monad_bind_eq, rd_eq_ok.2 ht, Res.bind_ok]
  simp only
  have hkz : (k : ℝ) + 1 ≤ c.nz := by exact_mod_cast hk
  have hk0 : (0 : ℝ) ≤ k := Nat.cast_nonneg k
  rw [if_pos ⟨by nlinarith, by nlinarith⟩]
  unfold inTrace
  rw [Res.monad_bind_eq, fdiv_ok hd.ne', Res.bind_ok]
  simp only [(cell_floor hd h1 h2).2]
  rw [Res.monad_bind_eq, hv, Res.bind_ok, if_neg (fun h => hm h.1)]

end Cube

theorem coef_both {v0 v1 v2 : ℝ} (h0 : v0 ≠ missing) (h2 : v2 ≠ missing) : coef v0 v1 v2 = ((v2 + v0 - 2 * v1) / 2, (v2 - v0) / 2) := by
  simp [coef, h0, h2]

theorem coef_low {v1 v2 : ℝ} (h2 : v2 ≠ missing) : coef missing v1 v2 = (0, v2 - v1) := by
  simp [coef, h2]

theorem coef_high {v0 v1 : ℝ} (h0 : v0 ≠ missing) : coef v0 v1 missing = (0, v1 - v0) := by
  simp [coef, h0]

/-- A cube holds the numbers `F i j k`, none of them the missing value, and no samples beyond `nz`. -/
def Holds (c : Cube) (F : ℝ → ℝ → ℝ → ℝ) : Prop :=
  (∀ i j : ℕ, i < c.nx → j < c.ny → ∃ t, c.traces[j * c.nx + i]? = some (some t) ∧
    (∀ k : ℕ, k < c.nz → t.value k = .ok (F i j k)) ∧ ∀ k, c.nz ≤ k → t.value k = .ok missing) ∧
  ∀ i j k : ℕ, i < c.nx → j < c.ny → k < c.nz → F i j k ≠ missing

theorem index_bound {nx ny i j : ℕ} (hi : i < nx) (hj : j < ny) : j * nx + i < nx * ny := by
  have : (j + 1) * nx ≤ ny * nx := Nat.mul_le_mul_right _ hj
  nlinarith

/-- Away from the sides, samples that are sums of quadratic functions of each direction are interpolated exactly. -/
theorem segy_value_quadratic (c : Cube) (p0 p1 p2 q1 q2 r1 r2 : ℝ)
    (hF : Holds c (fun x y z => p0 + p1 * x + p2 * x ^ 2 + q1 * y + q2 * y ^ 2 + r1 * z + r2 * z ^ 2)) (hd : 0 < c.dz)
    {i j k : ℕ} (hi : 0 < i) (hi' : i + 1 < c.nx) (hj : 0 < j) (hj' : j + 1 < c.ny) (hk : 0 < k) (hk' : k + 1 < c.nz)
    {z : ℝ} (h1 : c.z0 + k * c.dz ≤ z) (h2 : z < c.z0 + (k + 1) * c.dz) (ux uy : ℝ) (mode : Mode) :
    c.value (some (i, j)) ux uy z mode =
      .ok (p0 + p1 * (i + ux) + p2 * (i + ux) ^ 2 + q1 * (j + uy) + q2 * (j + uy) ^ 2 +
        r1 * ((z - c.z0) / c.dz - 1 / 2) + r2 * ((z - c.z0) / c.dz - 1 / 2) ^ 2) := by
  obtain ⟨hT, hN⟩ := hF
  obtain ⟨t, ht, hv, -⟩ := hT i j (by omega) (by omega)
  obtain ⟨tx0, htx0, hvx0, -⟩ := hT (i - 1) j (by omega) (by omega)
  obtain ⟨tx2, htx2, hvx2, -⟩ := hT (i + 1) j (by omega) (by omega)
  obtain ⟨ty0, hty0, hvy0, -⟩ := hT i (j - 1) (by omega) (by omega)
  obtain ⟨ty2, hty2, hvy2, -⟩ := hT i (j + 1) (by omega) (by omega)
  have b1 := index_bound (show i + 1 < c.nx by omega) (show j < c.ny by omega)
  have b2 := index_bound (show i < c.nx by omega) (show j + 1 < c.ny by omega)
  have e1 : (j + 1) * c.nx = j * c.nx + c.nx := by ring
  have e2 : (j - 1) * c.nx + c.nx = j * c.nx := by
    obtain ⟨m, rfl⟩ : ∃ m, j = m + 1 := ⟨j - 1, by omega⟩
    simp; ring
  rw [Cube.value_at hd ht (by omega) h1 h2 (hv k (by omega)) (hN i j k (by omega) (by omega) (by omega)),
    Cube.interpolate_eq (x0 := _) (x2 := _) (y0 := _) (y2 := _) (w0 := _) (w2 := _) hd (hN i j k (by omega) (by omega) (by omega))
      (by rw [if_pos (by omega)]
          exact Cube.neighbour_eq (by rwa [show j * c.nx + i - 1 = j * c.nx + (i - 1) by omega]) (hvx0 k (by omega)))
      (by rw [if_pos (by omega)]
          exact Cube.neighbour_eq (by rwa [show j * c.nx + i + 1 = j * c.nx + (i + 1) by omega]) (hvx2 k (by omega)))
      (by rw [if_pos (by omega)]
          exact Cube.neighbour_eq (by rwa [show j * c.nx + i - c.nx = (j - 1) * c.nx + i by omega]) (hvy0 k (by omega)))
      (by rw [if_pos (by omega)]
          exact Cube.neighbour_eq (by rwa [show j * c.nx + i + c.nx = (j + 1) * c.nx + i by omega]) (hvy2 k (by omega)))
      (by unfold Trace.valueBefore
          rw [if_neg (by omega)]
          exact hv (k - 1) (by omega))
      (hv (k + 1) (by omega)),
    coef_both (hN (i - 1) j k (by omega) (by omega) (by omega)) (hN (i + 1) j k (by omega) (by omega) (by omega)),
    coef_both (hN i (j - 1) k (by omega) (by omega) (by omega)) (hN i (j + 1) k (by omega) (by omega) (by omega)),
    coef_both (hN i j (k - 1) (by omega) (by omega) (by omega)) (hN i j (k + 1) (by omega) (by omega) (by omega)),
    (Cube.cell_floor hd h1 h2).1]
  congr 1
  rw [Nat.cast_sub (show 1 ≤ i by omega), Nat.cast_sub (show 1 ≤ j by omega), Nat.cast_sub (show 1 ≤ k by omega)]
  push_cast
  ring

/-- Away from the first and the last column, linear samples are interpolated exactly, also at the sides in the other directions. -/
theorem segy_value_linear_partial (c : Cube) (p0 p1 q1 r1 : ℝ) (hF : Holds c (fun x y z => p0 + p1 * x + q1 * y + r1 * z))
    (hd : 0 < c.dz) (hy : 2 ≤ c.ny) (hz : 2 ≤ c.nz) {i j k : ℕ} (hi : 0 < i) (hi' : i + 1 < c.nx) (hj' : j < c.ny) (hk' : k < c.nz)
    {z : ℝ} (h1 : c.z0 + k * c.dz ≤ z) (h2 : z < c.z0 + (k + 1) * c.dz) (ux uy : ℝ) (mode : Mode) :
    c.value (some (i, j)) ux uy z mode =
      .ok (p0 + p1 * (i + ux) + q1 * (j + uy) + r1 * ((z - c.z0) / c.dz - 1 / 2)) := by
  obtain ⟨hT, hN⟩ := hF
  obtain ⟨t, ht, hv, hv'⟩ := hT i j (by omega) (by omega)
  obtain ⟨tx0, htx0, hvx0, -⟩ := hT (i - 1) j (by omega) (by omega)
  obtain ⟨tx2, htx2, hvx2, -⟩ := hT (i + 1) j (by omega) (by omega)
  have b1 := index_bound (show i + 1 < c.nx by omega) (show j < c.ny by omega)
  have Y : ∃ y0 y2,
      (if c.nx ≤ j * c.nx + i ∧ j * c.nx + i - c.nx ≤ c.nx * c.ny - 1 then c.neighbour (j * c.nx + i - c.nx) k
        else .ok missing : Res ℝ) = .ok y0 ∧
      (if j * c.nx + i + c.nx ≤ c.nx * c.ny - 1 then c.neighbour (j * c.nx + i + c.nx) k else .ok missing : Res ℝ) = .ok y2 ∧
      coef y0 (p0 + p1 * (i : ℝ) + q1 * (j : ℝ) + r1 * (k : ℝ)) y2 = (0, q1) := by
    have low : 0 < j → (if c.nx ≤ j * c.nx + i ∧ j * c.nx + i - c.nx ≤ c.nx * c.ny - 1 then c.neighbour (j * c.nx + i - c.nx) k
        else .ok missing : Res ℝ) = .ok (p0 + p1 * (i : ℝ) + q1 * ((j - 1 : ℕ) : ℝ) + r1 * (k : ℝ)) := by
      intro hj
      obtain ⟨ty0, hty0, hvy0, -⟩ := hT i (j - 1) (by omega) (by omega)
      have e2 : (j - 1) * c.nx + c.nx = j * c.nx := by
        obtain ⟨m, rfl⟩ : ∃ m, j = m + 1 := ⟨j - 1, by omega⟩
        simp; ring
      rw [if_pos (by omega)]
      exact Cube.neighbour_eq (by rwa [show j * c.nx + i - c.nx = (j - 1) * c.nx + i by omega]) (hvy0 k (by omega))
    have high : j + 1 < c.ny → (if j * c.nx + i + c.nx ≤ c.nx * c.ny - 1 then c.neighbour (j * c.nx + i + c.nx) k
        else .ok missing : Res ℝ) = .ok (p0 + p1 * (i : ℝ) + q1 * ((j + 1 : ℕ) : ℝ) + r1 * (k : ℝ)) := by
      intro hj
      obtain ⟨ty2, hty2, hvy2, -⟩ := hT i (j + 1) (by omega) (by omega)
      have b2 := index_bound (show i < c.nx by omega) (show j + 1 < c.ny by omega)
      have e1 : (j + 1) * c.nx = j * c.nx + c.nx := by ring
      rw [if_pos (by omega)]
      exact Cube.neighbour_eq (by rwa [show j * c.nx + i + c.nx = (j + 1) * c.nx + i by omega]) (hvy2 k (by omega))
    by_cases hj0 : j = 0
    · refine ⟨missing, _, ?_, high (by omega), ?_⟩
      · subst hj0
        rw [if_neg (by omega)]
      · rw [coef_low (hN i (j + 1) k (by omega) (by omega) (by omega))]
        push_cast
        congr 1; ring
    · by_cases hj1 : j + 1 < c.ny
      · refine ⟨_, _, low (by omega), high hj1, ?_⟩
        rw [coef_both (hN i (j - 1) k (by omega) (by omega) (by omega)) (hN i (j + 1) k (by omega) (by omega) (by omega)),
          Nat.cast_sub (show 1 ≤ j by omega)]
        push_cast
        congr 1 <;> ring
      · refine ⟨_, missing, low (by omega), ?_, ?_⟩
        · have e1 : (j + 1) * c.nx = c.nx * c.ny := by rw [show j + 1 = c.ny by omega]; ring
          have e2 : (j + 1) * c.nx = j * c.nx + c.nx := by ring
          rw [if_neg (by omega)]
        · rw [coef_high (hN i (j - 1) k (by omega) (by omega) (by omega)), Nat.cast_sub (show 1 ≤ j by omega)]
          push_cast
          congr 1; ring
  have Z : ∃ w0 w2, t.valueBefore k = .ok w0 ∧ t.value (k + 1) = .ok w2 ∧
      coef w0 (p0 + p1 * (i : ℝ) + q1 * (j : ℝ) + r1 * (k : ℝ)) w2 = (0, r1) := by
    by_cases hk0 : k = 0
    · refine ⟨missing, _, by simp [Trace.valueBefore, hk0], hv (k + 1) (by omega), ?_⟩
      rw [coef_low (hN i j (k + 1) (by omega) (by omega) (by omega))]
      push_cast
      congr 1; ring
    · have low : t.valueBefore k = .ok (p0 + p1 * (i : ℝ) + q1 * (j : ℝ) + r1 * ((k - 1 : ℕ) : ℝ)) := by
        unfold Trace.valueBefore
        rw [if_neg hk0]
        exact hv (k - 1) (by omega)
      by_cases hk1 : k + 1 < c.nz
      · refine ⟨_, _, low, hv (k + 1) hk1, ?_⟩
        rw [coef_both (hN i j (k - 1) (by omega) (by omega) (by omega)) (hN i j (k + 1) (by omega) (by omega) (by omega)),
          Nat.cast_sub (show 1 ≤ k by omega)]
        push_cast
        congr 1 <;> ring
      · refine ⟨_, missing, low, hv' (k + 1) (by omega), ?_⟩
        rw [coef_high (hN i j (k - 1) (by omega) (by omega) (by omega)), Nat.cast_sub (show 1 ≤ k by omega)]
        push_cast
        congr 1; ring
  obtain ⟨y0, y2, hy0, hy2, ey⟩ := Y
  obtain ⟨w0, w2, hw0, hw2, ew⟩ := Z
  rw [Cube.value_at hd ht (by omega) h1 h2 (hv k (by omega)) (hN i j k (by omega) (by omega) (by omega)),
    Cube.interpolate_eq (x0 := _) (x2 := _) hd (hN i j k (by omega) (by omega) (by omega))
      (by rw [if_pos (by omega)]
          exact Cube.neighbour_eq (by rwa [show j * c.nx + i - 1 = j * c.nx + (i - 1) by omega]) (hvx0 k (by omega)))
      (by rw [if_pos (by omega)]
          exact Cube.neighbour_eq (by rwa [show j * c.nx + i + 1 = j * c.nx + (i + 1) by omega]) (hvx2 k (by omega)))
      hy0 hy2 hw0 hw2, ey, ew,
    coef_both (hN (i - 1) j k (by omega) (by omega) (by omega)) (hN (i + 1) j k (by omega) (by omega) (by omega)),
    (Cube.cell_floor hd h1 h2).1]
  congr 1
  rw [Nat.cast_sub (show 1 ≤ i by omega)]
  push_cast
  ring

/-- In the first column, the trace before in the table is the last one of the row before, and it is taken for the neighbour: samples
`s * i` give a parabola that bends with the length of the rows. -/
theorem segy_value_first_column_violation (c : Cube) (s : ℝ) (hF : Holds c (fun x _ _ => s * x)) (hd : 0 < c.dz) (hx : 2 ≤ c.nx)
    {j k : ℕ} (hj : 0 < j) (hj' : j < c.ny) (hk' : k < c.nz) (ux : ℝ) (mode : Mode) :
    c.value (some (0, j)) ux 0 (c.z0 + (k + 1 / 2) * c.dz) mode =
      .ok (s * (c.nx / 2 * ux ^ 2 - (c.nx - 2) / 2 * ux)) := by
  obtain ⟨hT, hN⟩ := hF
  obtain ⟨t, ht, hv, hv'⟩ := hT 0 j (by omega) (by omega)
  obtain ⟨tx0, htx0, hvx0, -⟩ := hT (c.nx - 1) (j - 1) (by omega) (by omega)
  obtain ⟨tx2, htx2, hvx2, -⟩ := hT 1 j (by omega) (by omega)
  have b1 := index_bound (show 1 < c.nx by omega) (show j < c.ny by omega)
  have e2 : (j - 1) * c.nx + c.nx = j * c.nx := by
    obtain ⟨m, rfl⟩ : ∃ m, j = m + 1 := ⟨j - 1, by omega⟩
    simp; ring
  have hlen : ∀ m, m ≤ c.nx * c.ny - 1 → ∃ v, c.neighbour m k = .ok v := by
    intro m hm
    have hy : m / c.nx < c.ny := by
      apply Nat.div_lt_of_lt_mul
      omega
    obtain ⟨t', ht', hv'', -⟩ := hT (m % c.nx) (m / c.nx) (Nat.mod_lt _ (by omega)) hy
    refine ⟨_, Cube.neighbour_eq ?_ (hv'' k hk')⟩
    rwa [Nat.mul_comm, Nat.div_add_mod] at ht'
  have Y0 : ∃ v, (if c.nx ≤ j * c.nx + 0 ∧ j * c.nx + 0 - c.nx ≤ c.nx * c.ny - 1 then c.neighbour (j * c.nx + 0 - c.nx) k
        else .ok missing : Res ℝ) = .ok v := by
    split_ifs with h
    · exact hlen _ h.2
    · exact ⟨_, rfl⟩
  have Y2 : ∃ v, (if j * c.nx + 0 + c.nx ≤ c.nx * c.ny - 1 then c.neighbour (j * c.nx + 0 + c.nx) k else .ok missing : Res ℝ) =
      .ok v := by
    split_ifs with h
    · exact hlen _ h
    · exact ⟨_, rfl⟩
  have W0 : ∃ v, t.valueBefore k = .ok v := by
    unfold Trace.valueBefore
    split_ifs with h
    · exact ⟨_, rfl⟩
    · exact ⟨_, hv (k - 1) (by omega)⟩
  have W2 : ∃ v, t.value (k + 1) = .ok v := by
    by_cases h : k + 1 < c.nz
    · exact ⟨_, hv _ h⟩
    · exact ⟨_, hv' _ (by omega)⟩
  obtain ⟨y0, hy0⟩ := Y0
  obtain ⟨y2, hy2⟩ := Y2
  obtain ⟨w0, hw0⟩ := W0
  obtain ⟨w2, hw2⟩ := W2
  have h1 : c.z0 + k * c.dz ≤ c.z0 + ((k : ℝ) + 1 / 2) * c.dz := by nlinarith
  have h2 : c.z0 + ((k : ℝ) + 1 / 2) * c.dz < c.z0 + (k + 1) * c.dz := by nlinarith
  have hq : (c.z0 + ((k : ℝ) + 1 / 2) * c.dz - c.z0) / c.dz = k + 1 / 2 := by
    rw [add_sub_cancel_left, mul_div_assoc, div_self hd.ne', mul_one]
  rw [Cube.value_at hd ht (by omega) h1 h2 (hv k (by omega)) (hN 0 j k (by omega) (by omega) (by omega)),
    Cube.interpolate_eq (x0 := _) (x2 := _) hd (hN 0 j k (by omega) (by omega) (by omega))
      (by rw [if_pos (by omega)]
          exact Cube.neighbour_eq (by rwa [show j * c.nx + 0 - 1 = (j - 1) * c.nx + (c.nx - 1) by omega]) (hvx0 k (by omega)))
      (by rw [if_pos (by omega)]
          exact Cube.neighbour_eq (by rwa [show j * c.nx + 0 + 1 = j * c.nx + 1 by omega]) (hvx2 k (by omega)))
      hy0 hy2 hw0 hw2,
    coef_both (hN (c.nx - 1) (j - 1) k (by omega) (by omega) (by omega)) (hN 1 j k (by omega) (by omega) (by omega)),
    (Cube.cell_floor hd h1 h2).1, hq]
  congr 1
  rw [Nat.cast_sub (show 1 ≤ c.nx by omega)]
  push_cast
  ring

/-- The value at the centre of a sample is the sample, whatever is around it. -/
theorem segy_value_centre (c : Cube) (hw : ∀ t, some t ∈ c.traces → t.Whole) (hl : c.traces.length = c.nx * c.ny) (hd : 0 < c.dz)
    {i j k : ℕ} {t : Trace} {v : ℝ} (hi : i < c.nx) (hj : j < c.ny) (hk : k < c.nz)
    (ht : c.traces[j * c.nx + i]? = some (some t)) (hv : t.value k = .ok v) (hm : v ≠ -99999) (mode : Mode) :
    c.value (some (i, j)) 0 0 (c.z0 + (k + 1 / 2) * c.dz) mode = .ok v := by
  have h1 : c.z0 + k * c.dz ≤ c.z0 + ((k : ℝ) + 1 / 2) * c.dz := by nlinarith
  have h2 : c.z0 + ((k : ℝ) + 1 / 2) * c.dz < c.z0 + (k + 1) * c.dz := by nlinarith
  have hq : (c.z0 + ((k : ℝ) + 1 / 2) * c.dz - c.z0) / c.dz = k + 1 / 2 := by
    rw [add_sub_cancel_left, mul_div_assoc, div_self hd.ne', mul_one]
  have hb := index_bound hi hj
  have N : ∀ (p : Prop) [Decidable p] (m : ℕ), (p → m < c.nx * c.ny) → ∃ v, (if p then c.neighbour m k else .ok missing : Res ℝ) = .ok v := by
    intro p _ m h
    split_ifs with hp
    · exact Cube.neighbour_whole hw (by rw [hl]; exact h hp) k
    · exact ⟨_, rfl⟩
  have ht' : t.Whole := hw t (List.mem_of_getElem? ht)
  obtain ⟨x0, hx0⟩ := N (1 ≤ j * c.nx + i) (j * c.nx + i - 1) (by omega)
  obtain ⟨x2, hx2⟩ := N (j * c.nx + i + 1 ≤ c.nx * c.ny - 1) (j * c.nx + i + 1) (by omega)
  obtain ⟨y0, hy0⟩ := N (c.nx ≤ j * c.nx + i ∧ j * c.nx + i - c.nx ≤ c.nx * c.ny - 1) (j * c.nx + i - c.nx) (by omega)
  obtain ⟨y2, hy2⟩ := N (j * c.nx + i + c.nx ≤ c.nx * c.ny - 1) (j * c.nx + i + c.nx) (by omega)
  obtain ⟨w2, hw2⟩ := Cube.value_whole ht' (k + 1)
  have W0 : ∃ v, t.valueBefore k = .ok v := by
    unfold Trace.valueBefore
    split_ifs with h
    · exact ⟨_, rfl⟩
    · exact Cube.value_whole ht' _
  obtain ⟨w0, hw0⟩ := W0
  rw [Cube.value_at hd ht hk h1 h2 hv hm, Cube.interpolate_eq hd hm hx0 hx2 hy0 hy2 hw0 hw2, (Cube.cell_floor hd h1 h2).1, hq]
  congr 1
  push_cast
  ring

/-- Below the last sample of a trace, the closest value continues the line through its last two samples to the end of the last one,
all but a hundredth. -/
theorem segy_value_closest (c : Cube) (hw : ∀ t, some t ∈ c.traces → t.Whole) (hl : c.traces.length = c.nx * c.ny) (hd : 0 < c.dz)
    {i j : ℕ} {t : Trace} {v p z : ℝ} (hi : i < c.nx) (hj : j < c.ny)
    (ht : c.traces[j * c.nx + i]? = some (some t)) (hs : t.start < t.stop) (hv : t.value t.stop = .ok v) (hm : v ≠ -99999)
    (hp : t.value (t.stop - 1) = .ok p) (hpm : p ≠ -99999) (h1 : c.z0 + (t.stop + 1) * c.dz ≤ z) (h2 : z ≤ c.z0 + c.nz * c.dz) :
    c.value (some (i, j)) 0 0 z .closest = .ok (v + 49 / 100 * (v - p)) := by
  have hb := index_bound hi hj
  have ht' : t.Whole := hw t (List.mem_of_getElem? ht)
  have N : ∀ (q : Prop) [Decidable q] (m : ℕ), (q → m < c.nx * c.ny) → ∃ v, (if q then c.neighbour m t.stop else .ok missing : Res ℝ) = .ok v := by
    intro q _ m h
    split_ifs with hq
    · exact Cube.neighbour_whole hw (by rw [hl]; exact h hq) _
    · exact ⟨_, rfl⟩
  obtain ⟨x0, hx0⟩ := N (1 ≤ j * c.nx + i) (j * c.nx + i - 1) (by omega)
  obtain ⟨x2, hx2⟩ := N (j * c.nx + i + 1 ≤ c.nx * c.ny - 1) (j * c.nx + i + 1) (by omega)
  obtain ⟨y0, hy0⟩ := N (c.nx ≤ j * c.nx + i ∧ j * c.nx + i - c.nx ≤ c.nx * c.ny - 1) (j * c.nx + i - c.nx) (by omega)
  obtain ⟨y2, hy2⟩ := N (j * c.nx + i + c.nx ≤ c.nx * c.ny - 1) (j * c.nx + i + c.nx) (by omega)
  have hn : ((t.stop + 1 : ℕ) : ℝ) ≤ (z - c.z0) / c.dz := by
    rw [le_div_iff₀ hd]; push_cast; linarith
  have hfl : t.stop + 1 ≤ ⌊(z - c.z0) / c.dz⌋₊ := Nat.le_floor hn
  have hw0 : t.valueBefore t.stop = .ok p := by
    unfold Trace.valueBefore
    rw [if_neg (by omega), hp]
  have hw2 : t.value (t.stop + 1) = .ok missing := by
    unfold Trace.value
    rw [if_pos (by omega)]
  unfold Cube.value
  simp only
  rw [Res.monad_bind_eq, rd_eq_ok.2 ht, Res.bind_ok]
  simp only
  have hs0 : (0 : ℝ) ≤ t.stop := Nat.cast_nonneg _
  rw [if_pos ⟨by nlinarith, h2⟩]
  unfold Cube.inTrace
  rw [Res.monad_bind_eq, Cube.fdiv_ok hd.ne', Res.bind_ok]
  simp only
  have hmiss : t.value ⌊(z - c.z0) / c.dz⌋₊ = .ok missing := by
    unfold Trace.value
    rw [if_pos (by omega)]
  have hleg : t.legalIndex ⌊(z - c.z0) / c.dz⌋₊ = t.stop := by
    unfold Trace.legalIndex
    rw [if_neg (by omega), if_pos (by omega)]
  rw [Res.monad_bind_eq, hmiss, Res.bind_ok, if_pos ⟨rfl, trivial⟩, hleg, Res.monad_bind_eq, hv, Res.bind_ok, Res.monad_bind_eq, hw0,
    Res.bind_ok, if_neg (show ¬ p = missing from hpm)]
  have hq : (c.z0 + ((t.stop : ℝ) + 99 / 100) * c.dz - c.z0) / c.dz = t.stop + 99 / 100 := by
    rw [add_sub_cancel_left, mul_div_assoc, div_self hd.ne', mul_one]
  have hf : ⌊(t.stop : ℝ) + 99 / 100⌋ = (t.stop : ℤ) := by
    rw [Int.floor_eq_iff]
    push_cast
    constructor <;> linarith
  rw [Cube.interpolate_eq hd hm hx0 hx2 hy0 hy2 hw0 hw2, hq, hf, coef_high hpm]
  congr 1
  push_cast
  ring

/-- Outside the cube, and at places without a trace, the value is zero if zero is asked for, and missing otherwise. -/
theorem segy_value_outside (c : Cube) (ux uy z : ℝ) (mode : Mode) :
    c.value none ux uy z mode = .ok (if mode = .zero then 0 else -99999) ∧
    (∀ i j : ℕ, c.traces[j * c.nx + i]? = some none → c.value (some (i, j)) ux uy z mode = .ok (if mode = .zero then 0 else -99999)) ∧
    ∀ i j : ℕ, j * c.nx + i < c.traces.length → (z < c.z0 ∨ c.z0 + c.nz * c.dz < z) →
      c.value (some (i, j)) ux uy z mode = .ok (if mode = .zero then 0 else -99999) := by
  have e : outside mode = if mode = .zero then 0 else -99999 := by
    cases mode <;> simp [outside, missing]
  refine ⟨by rw [← e]; rfl, ?_, ?_⟩
  · intro i j h
    unfold Cube.value
    simp only
    rw [Res.monad_bind_eq, rd_eq_ok.2 h, Res.bind_ok, ← e]
  · intro i j h hz
    unfold Cube.value
    simp only
    rw [Res.monad_bind_eq, rd_ok h, Res.bind_ok, ← e]
    rcases c.traces[j * c.nx + i] with _ | t
    · rfl
    · simp only
      rw [if_neg (by rintro ⟨h1, h2⟩; rcases hz with h | h <;> linarith)]

/-- A case: three columns, two rows and one sample, with the number of the column. -/
noncomputable def steps : Cube :=
  ⟨3, 2, 1, 0, 1, [some ⟨0, 0, [0], false⟩, some ⟨0, 0, [1], false⟩, some ⟨0, 0, [2], false⟩,
    some ⟨0, 0, [0], false⟩, some ⟨0, 0, [1], false⟩, some ⟨0, 0, [2], false⟩]⟩

/-- Half a cell from the first column towards the second one, between the samples 0 and 1, the value is 1 / 8. -/
theorem segy_value_example : Holds steps (fun x _ _ => 1 * x) ∧ steps.value (some (0, 1)) (1 / 2) 0 (1 / 2) .missing = .ok (1 / 8) := by
  have h : Holds steps (fun x _ _ => 1 * x) := by
    constructor
    · intro i j hi hj
      simp only [steps] at hi hj ⊢
      interval_cases i <;> interval_cases j <;> refine ⟨_, rfl, ?_, ?_⟩ <;> intro k hk
      all_goals first
        | (have : k = 0 := by omega
           subst this; simp [Trace.value, rd])
        | (unfold Trace.value; rw [if_pos (by simp only; omega)])
    · intro i j k _ _ _
      have : (0 : ℝ) ≤ i := Nat.cast_nonneg i
      simp only [missing]
      intro h
      linarith
  refine ⟨h, ?_⟩
  have := segy_value_first_column_violation steps 1 h (by norm_num [steps]) (by norm_num [steps]) (j := 1) (k := 0) (by norm_num)
    (by norm_num [steps]) (by norm_num [steps]) (1 / 2) .missing
  simp only [steps] at this ⊢
  norm_num at this ⊢
  exact this

/-- A case: three by three traces with the squares of the number of the sample. -/
noncomputable def squares : Cube := ⟨3, 3, 3, 0, 1, List.replicate 9 (some ⟨0, 2, [0, 1, 4], false⟩)⟩

/-- A quarter below the centre of the second sample: the square of 5 / 4. -/
theorem segy_value_quadratic_example (ux uy : ℝ) : squares.value (some (1, 1)) ux uy (7 / 4) .missing = .ok (25 / 16) := by
  have h : Holds squares (fun x y z => 0 + 0 * x + 0 * x ^ 2 + 0 * y + 0 * y ^ 2 + 0 * z + 1 * z ^ 2) := by
    constructor
    · intro i j hi hj
      simp only [squares] at hi hj ⊢
      refine ⟨⟨0, 2, [0, 1, 4], false⟩, by rw [List.getElem?_replicate, if_pos (by omega)], ?_, ?_⟩
      · intro k hk
        interval_cases k <;> simp [Trace.value, rd] <;> norm_num
      · intro k hk
        unfold Trace.value
        rw [if_pos (by simp only; omega)]
    · intro i j k _ _ _ h
      have := sq_nonneg (k : ℝ)
      simp only [missing] at h
      linarith
  have := segy_value_quadratic squares 0 0 0 0 0 0 1 h (by norm_num [squares]) (i := 1) (j := 1) (k := 1) (z := 7 / 4) (by norm_num)
    (by norm_num [squares]) (by norm_num) (by norm_num [squares]) (by norm_num) (by norm_num [squares])
    (by norm_num [squares]) (by norm_num [squares]) ux uy .missing
  rw [this]
  norm_num [squares]

end SegyValues

end Verif
