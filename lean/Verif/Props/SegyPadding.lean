import Verif.Model.SegyValues
import Verif.Lemmas.Outcome
import Mathlib.Algebra.Order.Floor.Semiring
import Mathlib.Tactic.Linarith
import Mathlib.Tactic.IntervalCases

/-!
# C158: samples stored and read between surfaces
-/

namespace Verif

open Classical

namespace SegyValues

theorem fills (v : ℝ) (lo hi : ℕ) (tr : List ℝ) (h : hi ≤ tr.length) (hle : lo ≤ hi) :
    (forRange lo hi (fun k tr => wr tr k v) tr).Sat (fun r => r.length = tr.length ∧
      ∀ k, r[k]? = if lo ≤ k ∧ k < hi then some v else tr[k]?) := by
  refine forRange_sat (fun i (r : List ℝ) => r.length = tr.length ∧ ∀ k, r[k]? = if lo ≤ k ∧ k < i then some v else tr[k]?) hle
    ⟨rfl, by intro k; rw [if_neg (by omega)]⟩ ?_
  rintro i r h1 h2 ⟨hl, hr⟩
  rw [wr_ok (by omega), Res.sat_ok]
  refine ⟨by simpa using hl, ?_⟩
  intro k
  rw [List.getElem?_set]
  by_cases e : i = k
  · subst e
    rw [if_pos rfl, if_pos (by omega), if_pos (by omega)]
  · rw [if_neg e, hr k]
    by_cases h3 : lo ≤ k ∧ k < i
    · rw [if_pos h3, if_pos (by omega)]
    · rw [if_neg h3, if_neg (by omega)]

theorem puts (data : List ℝ) (first : ℕ) (tr : List ℝ) (h : first + data.length ≤ tr.length) :
    (forRange first (first + data.length) (putData data first) tr).Sat (fun r => r.length = tr.length ∧
      ∀ k, r[k]? = if first ≤ k ∧ k < first + data.length then data[k - first]? else tr[k]?) := by
  refine forRange_sat (fun i (r : List ℝ) => r.length = tr.length ∧
    ∀ k, r[k]? = if first ≤ k ∧ k < i then data[k - first]? else tr[k]?) (by omega)
    ⟨rfl, by intro k; rw [if_neg (by omega)]⟩ ?_
  rintro i r h1 h2 ⟨hl, hr⟩
  unfold putData
  rw [Res.monad_bind_eq, rd_ok (by omega), Res.bind_ok, wr_ok (by omega), Res.sat_ok]
  refine ⟨by simpa using hl, ?_⟩
  intro k
  rw [List.getElem?_set]
  by_cases e : i = k
  · subst e
    rw [if_pos rfl, if_pos (by omega), if_pos (by omega), List.getElem?_eq_getElem]
  · rw [if_neg e, hr k]
    by_cases h3 : first ≤ k ∧ k < i
    · rw [if_pos h3, if_pos (by omega)]
    · rw [if_neg h3, if_neg (by omega)]

/-- A stored trace has the top value above the surface, the data from the sample of the surface on, and the base value below them. -/
theorem segy_stored_trace_partial (nz : ℕ) {z0 dz ztop : ℝ} (topVal baseVal : ℝ) (data : List ℝ) {first : ℕ} (hd : 0 < dz)
    (h1 : z0 + first * dz ≤ ztop) (h2 : ztop < z0 + (first + 1) * dz) (hn : first + data.length ≤ nz) (hb : nz < 2 ^ 64) :
    ∃ tr, padded nz z0 dz ztop topVal baseVal data = .ok tr ∧ tr.length = nz ∧
      ∀ k : ℕ, k < nz → tr[k]? = if k < first then some topVal else if k < first + data.length then data[k - first]? else some baseVal := by
  have a1 : (first : ℝ) ≤ (ztop - z0) / dz := by rw [le_div_iff₀ hd]; linarith
  have a2 : (ztop - z0) / dz < first + 1 := by rw [div_lt_iff₀ hd]; linarith
  have hf : ⌊(ztop - z0) / dz⌋₊ = first := (Nat.floor_eq_iff (le_trans (Nat.cast_nonneg _) a1)).2 ⟨a1, a2⟩
  have hf0 : (0 : ℝ) ≤ first := Nat.cast_nonneg _
  have hf1 : ((first + 1 : ℕ) : ℝ) ≤ ((2 ^ 64 : ℕ) : ℝ) := by exact_mod_cast (by omega)
  unfold padded
  rw [Res.monad_bind_eq, show fdiv (ztop - z0) dz = .ok ((ztop - z0) / dz) from if_neg hd.ne', Res.bind_ok]
  rw [if_neg (by
    push_cast at hf1
    rintro (h | h)
    · linarith
    · norm_num at hf1 h; linarith)]
  simp only [hf]
  obtain ⟨t1, e1, l1, g1⟩ := fills topVal 0 first (List.replicate nz 0) (by simp; omega) (by omega)
  simp only [List.length_replicate] at l1
  rw [Res.monad_bind_eq, e1, Res.bind_ok]
  obtain ⟨t2, e2, l2, g2⟩ := puts data first t1 (by omega)
  rw [Res.monad_bind_eq, e2, Res.bind_ok]
  obtain ⟨t3, e3, l3, g3⟩ := fills baseVal (first + data.length) nz t2 (by omega) hn
  refine ⟨t3, e3, by omega, ?_⟩
  intro k hk
  rw [g3, g2, g1]
  split_ifs <;> first | rfl | omega

/-- More data than samples below the surface: written beyond the trace. -/
theorem segy_stored_trace_violation (nz : ℕ) {z0 dz ztop : ℝ} (topVal baseVal : ℝ) (data : List ℝ) {first : ℕ} (hd : 0 < dz)
    (h1 : z0 + first * dz ≤ ztop) (h2 : ztop < z0 + (first + 1) * dz) (hf : first ≤ nz) (hn : nz < first + data.length)
    (hb : nz < 2 ^ 63) : padded nz z0 dz ztop topVal baseVal data = .ub "write out of range" := by
  have a1 : (first : ℝ) ≤ (ztop - z0) / dz := by rw [le_div_iff₀ hd]; linarith
  have a2 : (ztop - z0) / dz < first + 1 := by rw [div_lt_iff₀ hd]; linarith
  have hf' : ⌊(ztop - z0) / dz⌋₊ = first := (Nat.floor_eq_iff (le_trans (Nat.cast_nonneg _) a1)).2 ⟨a1, a2⟩
  have hf0 : (0 : ℝ) ≤ first := Nat.cast_nonneg _
  have hf1 : ((first + 1 : ℕ) : ℝ) ≤ ((2 ^ 64 : ℕ) : ℝ) := by exact_mod_cast (by omega)
  unfold padded
  rw [Res.monad_bind_eq, show fdiv (ztop - z0) dz = .ok ((ztop - z0) / dz) from if_neg hd.ne', Res.bind_ok]
  rw [if_neg (by
    push_cast at hf1
    rintro (h | h)
    · linarith
    · norm_num at hf1 h; linarith)]
  simp only [hf']
  obtain ⟨t1, e1, l1, g1⟩ := fills topVal 0 first (List.replicate nz 0) (by simp; omega) (by omega)
  simp only [List.length_replicate] at l1
  rw [Res.monad_bind_eq, e1, Res.bind_ok, Res.monad_bind_eq]
  have key : ∀ n lo (r : List ℝ), r.length = nz → first ≤ lo → lo ≤ nz → lo + n = first + data.length →
      forN n lo (putData data first) r = .ub "write out of range" := by
    intro n
    induction n with
    | zero => intro lo r _ _ _ h; omega
    | succ n ih =>
      intro lo r hr h3 h4 h5
      unfold forN putData
      rw [Res.monad_bind_eq, rd_ok (by omega), Res.bind_ok]
      by_cases hlo : lo < nz
      · rw [wr_ok (by omega), Res.bind_ok]
        exact ih (lo + 1) _ (by simpa using hr) (by omega) (by omega) (by omega)
      · unfold wr
        rw [if_neg (by omega)]
        rfl
  unfold forRange
  rw [key _ first t1 l1 le_rfl hf (by omega)]
  rfl

/-- A surface at least one sample above the start of the trace: the number of samples above it is negative, which is undefined. -/
theorem segy_stored_trace_above_violation (nz : ℕ) {z0 dz ztop : ℝ} (topVal baseVal : ℝ) (data : List ℝ) (hd : 0 < dz)
    (h : ztop ≤ z0 - dz) : padded nz z0 dz ztop topVal baseVal data = .ub "conversion to size_t" := by
  have a1 : (ztop - z0) / dz ≤ -1 := by rw [div_le_iff₀ hd]; linarith
  unfold padded
  rw [Res.monad_bind_eq, show fdiv (ztop - z0) dz = .ok ((ztop - z0) / dz) from if_neg hd.ne', Res.bind_ok, if_pos (Or.inl a1)]

theorem sampleOf_spec {z z0 dz : ℝ} {d : ℕ} (hd : 0 < dz) (h : z > z0) (hb : z < z0 + 2 ^ 64 * dz) :
    ∃ j : ℕ, sampleOf z z0 dz d = .ok j ∧ z0 + j * dz ≤ z ∧ z < z0 + (j + 1) * dz := by
  have a0 : 0 ≤ (z - z0) / dz := div_nonneg (by linarith) hd.le
  have a1 : (z - z0) / dz < 2 ^ 64 := by rw [div_lt_iff₀ hd]; linarith
  refine ⟨⌊(z - z0) / dz⌋₊, ?_, ?_, ?_⟩
  · unfold sampleOf
    rw [if_pos h, Res.monad_bind_eq, show fdiv (z - z0) dz = .ok ((z - z0) / dz) from if_neg hd.ne', Res.bind_ok,
      if_neg (by rintro (h | h) <;> linarith)]
  · have := Nat.floor_le a0
    rw [le_div_iff₀ hd] at this
    linarith
  · have := Nat.lt_floor_add_one ((z - z0) / dz)
    rw [div_lt_iff₀ hd] at this
    linarith

/-- With a lower surface below the start, the samples read are those from the last one not below the upper surface to the last one not
below the lower surface; without any there is an error. -/
theorem segy_samples_partial {nz : ℕ} {z0 dz ztop zbot : ℝ} (hn : 0 < nz) (hd : 0 < dz) (hb : z0 < zbot)
    (r1 : ztop < z0 + 2 ^ 64 * dz) (r2 : zbot < z0 + 2 ^ 64 * dz) :
    (∃ j0 j1, samples nz z0 dz ztop zbot = .ok (j0, j1) ∧
      (∀ j : ℕ, (j0 ≤ j ∧ j ≤ j1) ↔ (j < nz ∧ z0 + j * dz ≤ zbot ∧ ztop < z0 + (j + 1) * dz ))) ∨
    ((∃ m, samples nz z0 dz ztop zbot = .throws m) ∧
      ∀ j : ℕ, ¬ (j < nz ∧ z0 + j * dz ≤ zbot ∧ ztop < z0 + (j + 1) * dz)) := by
  obtain ⟨b, eb, b1, b2⟩ := sampleOf_spec (d := nz - 1) hd hb r2
  have T : ∃ a : ℕ, sampleOf ztop z0 dz 0 = .ok a ∧ ∀ j : ℕ, a ≤ j ↔ ztop < z0 + (j + 1) * dz := by
    by_cases ht : ztop > z0
    · obtain ⟨a, ea, a1, a2⟩ := sampleOf_spec (d := 0) hd ht r1
      refine ⟨a, ea, fun j => ⟨fun h => ?_, fun h => ?_⟩⟩
      · have : (a : ℝ) ≤ j := by exact_mod_cast h
        nlinarith
      · have h3 : (a : ℝ) * dz < (j + 1) * dz := by linarith
        have h4 : (a : ℝ) < ((j + 1 : ℕ) : ℝ) := by push_cast; exact lt_of_mul_lt_mul_right h3 hd.le
        have : a < j + 1 := by exact_mod_cast h4
        omega
    · refine ⟨0, by simp [sampleOf, ht], fun j => ⟨fun _ => ?_, fun _ => Nat.zero_le _⟩⟩
      have : (0 : ℝ) ≤ j := Nat.cast_nonneg j
      push Not at ht
      nlinarith
  obtain ⟨a, ea, ha⟩ := T
  have hbb : ∀ j : ℕ, j ≤ b ↔ z0 + j * dz ≤ zbot := by
    intro j
    constructor
    · intro h
      have : (j : ℝ) ≤ b := by exact_mod_cast h
      nlinarith
    · intro h
      have h3 : (j : ℝ) * dz < (b + 1) * dz := by linarith
      have h4 : (j : ℝ) < ((b + 1 : ℕ) : ℝ) := by push_cast; exact lt_of_mul_lt_mul_right h3 hd.le
      have : j < b + 1 := by exact_mod_cast h4
      omega
  have hmin : (if b > nz - 1 then nz - 1 else b) = min b (nz - 1) := by
    split_ifs <;> omega
  unfold samples
  rw [Res.monad_bind_eq, ea, Res.bind_ok, Res.monad_bind_eq, eb, Res.bind_ok]
  simp only [hmin]
  by_cases hab : a > min b (nz - 1)
  · right
    rw [if_pos hab]
    refine ⟨⟨_, rfl⟩, ?_⟩
    intro j ⟨h1, h2, h3⟩
    have h4 := (hbb j).2 h2
    have h5 := (ha j).2 h3
    omega
  · left
    rw [if_neg hab]
    refine ⟨a, min b (nz - 1), rfl, ?_⟩
    intro j
    rw [← hbb, ← ha]
    omega

/-- With both surfaces above the start of the trace, there is no error; the whole trace is read. -/
theorem segy_samples_violation (nz : ℕ) {z0 dz ztop zbot : ℝ} (ht : ztop < zbot) (hb : zbot ≤ z0) :
    samples nz z0 dz ztop zbot = .ok (0, nz - 1) := by
  unfold samples sampleOf
  rw [if_neg (by linarith), if_neg (by linarith), Res.monad_bind_eq, Res.bind_ok, Res.monad_bind_eq, Res.bind_ok]
  simp

/-- A case: two samples stored from the second one of four. -/
theorem segy_padding_example : padded 4 100 4 105 (-1) (-2) [7, 8] = .ok [-1, 7, 8, -2] := by
  obtain ⟨tr, e, hl, h⟩ := segy_stored_trace_partial 4 (z0 := 100) (dz := 4) (ztop := 105) (-1) (-2) [7, 8] (first := 1) (by norm_num)
    (by norm_num) (by norm_num) (by norm_num) (by norm_num)
  rw [e]
  congr 1
  apply List.ext_getElem?
  intro k
  by_cases hk : k < 4
  · rw [h k hk]
    interval_cases k <;> simp
  · rw [List.getElem?_eq_none (by omega), List.getElem?_eq_none (by simp; omega)]

/-- A case: between 105 and 109, the second and the third of four samples from 100 on. -/
example : ∃ j0 j1, samples 4 100 4 105 109 = .ok (j0, j1) ∧ ∀ j : ℕ, (j0 ≤ j ∧ j ≤ j1) ↔ (j = 1 ∨ j = 2) := by
  rcases segy_samples_partial (nz := 4) (z0 := 100) (dz := 4) (ztop := 105) (zbot := 109) (by norm_num) (by norm_num) (by norm_num)
    (by norm_num) (by norm_num) with ⟨j0, j1, e, h⟩ | ⟨-, h⟩
  · refine ⟨j0, j1, e, fun j => (h j).trans ⟨?_, ?_⟩⟩
    · rintro ⟨h1, h2, h3⟩
      have a : (j : ℝ) < ((3 : ℕ) : ℝ) := by push_cast; linarith
      have b : ((0 : ℕ) : ℝ) < j := by push_cast; linarith
      have a' : j < 3 := by exact_mod_cast a
      have b' : 0 < j := by exact_mod_cast b
      omega
    · rintro (rfl | rfl) <;> norm_num
  · exact absurd ⟨by norm_num, by norm_num, by norm_num⟩ (h 1)

end SegyValues

end Verif
