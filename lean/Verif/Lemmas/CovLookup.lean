import Verif.Model.CovLookup
import Verif.Lemmas.Outcome
import Mathlib.Tactic.Ring
import Mathlib.Tactic.NormNum
import Mathlib.Tactic.Linarith

/-! Helper lemmas about the precomputed covariance table. -/

namespace Verif.CovTable

theorem int32_ok {z : ℤ} (h1 : -2 ^ 31 ≤ z) (h2 : z < 2 ^ 31) : int32 z = .ok z := by
  simp only [int32]; rw [if_pos ⟨h1, h2⟩]

theorem rdInt_nat (a : List ℝ) (n : ℕ) : rdInt a (n : ℤ) = rd a n := by
  simp [rdInt]

theorem wrInt_nat (a : List ℝ) (n : ℕ) (x : ℝ) : wrInt a (n : ℤ) x = wr a n x := by
  simp [wrInt]

theorem cell_lt {N M i k : ℕ} (hi : i < N) (hk : k < 2 * M) : i * (2 * M) + k < N * (2 * M) := by
  have : (i + 1) * (2 * M) ≤ N * (2 * M) := Nat.mul_le_mul_right _ hi
  have e : (i + 1) * (2 * M) = i * (2 * M) + 2 * M := by ring
  omega

theorem cell_inj {m i k i' k' : ℕ} (hk : k < m) (hk' : k' < m) (h : i * m + k = i' * m + k') :
    i = i' ∧ k = k' := by
  have h1 : i = i' := by
    have a : (i * m + k) / m = i := by
      rw [Nat.add_comm, Nat.add_mul_div_right _ _ (by omega), Nat.div_eq_of_lt hk, Nat.zero_add]
    have b : (i' * m + k') / m = i' := by
      rw [Nat.add_comm, Nat.add_mul_div_right _ _ (by omega), Nat.div_eq_of_lt hk', Nat.zero_add]
    rw [← a, ← b, h]
  subst h1
  exact ⟨rfl, by omega⟩

theorem index_ok {N M i k : ℕ} (hi : i < N) (hk : k < 2 * M) (hb : N * (2 * M) < 2 ^ 31) :
    index M i (k - M) = .ok ((i * (2 * M) + k : ℕ) : ℤ) := by
  have h := cell_lt hi hk
  have h2 := cell_lt (k := M) hi (by omega : M < 2 * M)
  have e1 : (i : ℤ) * 2 * M = ((i * (2 * M) : ℕ) : ℤ) := by push_cast; ring
  have hi2 : i * 2 ≤ i * (2 * M) := Nat.mul_le_mul_left _ (by omega)
  unfold index
  simp only [Res.monad_bind_eq]
  rw [int32_ok (by omega) (by omega), Res.bind_ok, e1, int32_ok (by omega) (by omega), Res.bind_ok,
    int32_ok (by omega) (by omega), Res.bind_ok,
    int32_ok (by omega) (by omega)]
  congr 1
  omega

/-- The table holds the correlations of the lags `i`, `k - M` for `i < N`, `k < 2*M`. -/
structure Holds (v : Variogram) (N M : ℕ) (dx dy : ℝ) (cov : List ℝ) : Prop where
  len : cov.length = N * (2 * M)
  val : ∀ i k, i < N → k < 2 * M →
    cov[i * (2 * M) + k]? = some (v.corr2 (i * dx) (((k : ℤ) - M : ℤ) * dy))

theorem create_ok (v : Variogram) {N M : ℕ} (dx dy : ℝ) (hM : 0 < M) (hb : N * (2 * M) < 2 ^ 31) :
    (create v N M dx dy).Sat fun g =>
      g.nx = N ∧ g.ny = M ∧ g.dx = dx ∧ g.dy = dy ∧ Holds v N M dx dy g.cov := by
  have e0 : 2 * (N : ℤ) * M = ((N * (2 * M) : ℕ) : ℤ) := by push_cast; ring
  have h2N : N * 2 ≤ N * (2 * M) := Nat.mul_le_mul_left _ (by omega)
  unfold create
  simp only [Res.monad_bind_eq]
  rw [int32_ok (by omega) (by omega), Res.bind_ok, e0, int32_ok (by omega) (by omega), Res.bind_ok,
    if_neg (by omega)]
  rw [show (2 * (M : ℤ)).toNat = 2 * M by omega, Int.toNat_natCast, Int.toNat_natCast]
  let I : ℕ → List ℝ → Prop := fun i cov => cov.length = N * (2 * M) ∧
    ∀ i' k', i' < i → k' < 2 * M →
      cov[i' * (2 * M) + k']? = some (v.corr2 (i' * dx) (((k' : ℤ) - M : ℤ) * dy))
  refine Res.Sat.bind (P := I N) (forRange_sat I (Nat.zero_le _) ⟨by simp, by omega⟩ ?_) ?_
  · rintro i cov - hi ⟨hl, hv⟩
    let J : ℕ → List ℝ → Prop := fun k cov => cov.length = N * (2 * M) ∧
      ∀ i' k', (i' < i ∨ (i' = i ∧ k' < k)) → k' < 2 * M →
        cov[i' * (2 * M) + k']? = some (v.corr2 (i' * dx) (((k' : ℤ) - M : ℤ) * dy))
    refine (forRange_sat J (Nat.zero_le _) ⟨hl, fun i' k' h => hv i' k' (by omega)⟩ ?_).mono ?_
    · rintro k cov - hk ⟨hl, hv⟩
      unfold fillCell
      rw [index_ok hi hk hb]
      simp only [Res.monad_bind_eq, Res.bind_ok]
      have hlt := cell_lt hi hk
      rw [wrInt_nat, wr_ok (by omega), Res.sat_ok]
      refine ⟨by simp [hl], fun i' k' h hk' => ?_⟩
      by_cases he : i' = i ∧ k' = k
      · obtain ⟨rfl, rfl⟩ := he
        rw [List.getElem?_set_self (by omega)]
        push_cast
        rfl
      · rw [List.getElem?_set_ne, hv i' k' (by omega) hk']
        intro h
        have := cell_inj hk hk' h
        omega
    · exact fun cov h => ⟨h.1, fun i' k' hi' hk' => h.2 i' k' (by omega) hk'⟩
  · exact fun cov h => by
      rw [Res.sat_ok]
      exact ⟨rfl, rfl, rfl, rfl, h.1, h.2⟩

theorem lookup_ok {g : CovTable} {M a : ℕ} {b : ℤ} (hM : 0 < M) (hny : g.ny = M)
    (hb : g.cov.length < 2 ^ 31) (h0 : 0 ≤ (a * (2 * M) : ℕ) + b + M)
    (h1 : (a * (2 * M) : ℕ) + b + M < g.cov.length) (h2 : -(2 ^ 31) ≤ (a * (2 * M) : ℕ) + b)
    (h3 : a * (2 * M) < 2 ^ 31) :
    g.lookup a b = rd g.cov ((a * (2 * M) : ℕ) + b + M).toNat := by
  have e1 : (a : ℤ) * 2 * M = ((a * (2 * M) : ℕ) : ℤ) := by push_cast; ring
  have ha : a * 2 ≤ a * (2 * M) := Nat.mul_le_mul_left _ (by omega)
  unfold lookup
  simp only [Res.monad_bind_eq]
  rw [int32_ok (by omega) (by omega), Res.bind_ok, hny, e1, int32_ok (by omega) (by omega),
    Res.bind_ok, int32_ok (by omega) (by omega), Res.bind_ok, int32_ok (by omega) (by omega),
    Res.bind_ok]
  simp only [rdInt]
  rw [if_neg (by omega)]

end Verif.CovTable

namespace Verif.CovTable

/-- A double loop that keeps the largest `f i k` over the cells that satisfy `P`. -/
theorem largest_sat (N m : ℕ) (P : ℕ → ℕ → Prop) (f : ℕ → ℕ → ℝ) (body : ℕ → ℕ → ℝ → Res ℝ)
    (hbody : ∀ i k r, i < N → k < m →
      ∃ r', body i k r = .ok r' ∧ ((P i k ∧ f i k > r ∧ r' = f i k) ∨
        (¬(P i k ∧ f i k > r) ∧ r' = r))) :
    (forRange 0 N (fun i r => forRange 0 m (fun k r => body i k r) r) 0).Sat fun r =>
      IsGreatest ({0} ∪ {x | ∃ i k, i < N ∧ k < m ∧ P i k ∧ x = f i k}) r := by
  let S : Set ℝ := {0} ∪ {x | ∃ i k, i < N ∧ k < m ∧ P i k ∧ x = f i k}
  let I : ℕ → ℝ → Prop := fun i r => r ∈ S ∧ 0 ≤ r ∧
    ∀ i' k', i' < i → k' < m → P i' k' → f i' k' ≤ r
  refine (forRange_sat I (Nat.zero_le _) ⟨.inl rfl, le_refl _, by omega⟩ ?_).mono ?_
  · rintro i r - hi ⟨h1, h2, h3⟩
    let J : ℕ → ℝ → Prop := fun k r => r ∈ S ∧ 0 ≤ r ∧
      ∀ i' k', (i' < i ∨ (i' = i ∧ k' < k)) → k' < m → P i' k' → f i' k' ≤ r
    refine (forRange_sat J (Nat.zero_le _) ⟨h1, h2, fun i' k' h => h3 i' k' (by omega)⟩ ?_).mono ?_
    · rintro k r - hk ⟨h1, h2, h3⟩
      obtain ⟨r', hr, h | h⟩ := hbody i k r hi hk
      · obtain ⟨hP, hgt, rfl⟩ := h
        rw [hr, Res.sat_ok]
        refine ⟨.inr ⟨i, k, hi, hk, hP, rfl⟩, by linarith, fun i' k' h hk' hP' => ?_⟩
        by_cases he : i' = i ∧ k' = k
        · obtain ⟨rfl, rfl⟩ := he; exact le_refl _
        · exact (h3 i' k' (by omega) hk' hP').trans hgt.le
      · obtain ⟨hn, rfl⟩ := h
        rw [hr, Res.sat_ok]
        refine ⟨h1, h2, fun i' k' h hk' hP' => ?_⟩
        by_cases he : i' = i ∧ k' = k
        · obtain ⟨rfl, rfl⟩ := he
          by_contra hc
          exact hn ⟨hP', not_le.1 hc⟩
        · exact h3 i' k' (by omega) hk' hP'
    · exact fun r h => ⟨h.1, h.2.1, fun i' k' hi' hk' => h.2.2 i' k' (by omega) hk'⟩
  · rintro r ⟨h1, h2, h3⟩
    refine ⟨h1, ?_⟩
    rintro x (rfl | ⟨i, k, hi, hk, hP, rfl⟩)
    · exact h2
    · exact h3 i k hi hk hP

theorem keep_cases (c a r : ℝ) :
    ((c ≥ 0.05) ∧ a > r ∧ (if c ≥ 0.05 then (if a > r then a else r) else r) = a) ∨
      (¬(c ≥ 0.05 ∧ a > r) ∧ (if c ≥ 0.05 then (if a > r then a else r) else r) = r) := by
  by_cases h1 : c ≥ 0.05 <;> by_cases h2 : a > r <;> simp only [h1, h2, if_true, if_false] <;> simp

/-- A double loop that appends a value per step. -/
theorem append_sat (L m : ℕ) (F : ℕ → ℕ → ℝ) (body : ℕ → ℕ → List ℝ → Res (List ℝ))
    (hbody : ∀ l k out, l < L → k < m → body l k out = .ok (out ++ [F l k])) :
    (forRange 0 L (fun l out => forRange 0 m (fun k out => body l k out) out) []).Sat fun out =>
      out = (List.range L).flatMap fun l => (List.range m).map fun k => F l k := by
  let I : ℕ → List ℝ → Prop := fun l out =>
    out = (List.range l).flatMap fun l => (List.range m).map fun k => F l k
  refine forRange_sat I (Nat.zero_le _) rfl ?_
  rintro l out - hl h
  let J : ℕ → List ℝ → Prop := fun k o => o = out ++ (List.range k).map fun k => F l k
  refine (forRange_sat J (Nat.zero_le _) (by simp [J]) ?_).mono ?_
  · rintro k o - hk hJ
    rw [hbody l k o hl hk, Res.sat_ok]
    simp only [J] at hJ ⊢
    rw [hJ, List.range_succ, List.map_append, List.append_assoc]
    rfl
  · intro o hJ
    simp only [I, J] at h hJ ⊢
    rw [hJ, h, List.range_succ, List.flatMap_append]
    simp

end Verif.CovTable
