import Verif.Lemmas.FftFlat

/-!
# A transform that satisfies the FFTW laws

`Fftw.Laws` is not contradictory: the textbook sums satisfy it.
-/

namespace Verif

open Finset Spec ComplexConjugate

/-- The Hermitian array with the given half. -/
noncomputable def unhalf1 (n : ℕ) (z : List ℂ) (k : ℕ) : ℂ :=
  if k < n / 2 + 1 then z.getD k 0 else conj (z.getD (opp n k) 0)

/-- The Hermitian array with the given half. -/
noncomputable def unhalf2 (n0 n1 : ℕ) (z : List ℂ) (k0 k1 : ℕ) : ℂ :=
  if k1 < n1 / 2 + 1 then z.getD (k0 * (n1 / 2 + 1) + k1) 0
  else conj (z.getD (opp n0 k0 * (n1 / 2 + 1) + opp n1 k1) 0)

/-- The Hermitian array with the given half. -/
noncomputable def unhalf3 (n0 n1 n2 : ℕ) (z : List ℂ) (k0 k1 k2 : ℕ) : ℂ :=
  if k2 < n2 / 2 + 1 then z.getD ((k0 * n1 + k1) * (n2 / 2 + 1) + k2) 0
  else conj (z.getD ((opp n0 k0 * n1 + opp n1 k1) * (n2 / 2 + 1) + opp n2 k2) 0)

/-- Textbook sums in place of FFTW. The input of a complex-to-real transform is overwritten
by zeros. -/
noncomputable def refFftw : Fftw where
  r2c1 n a := (List.range (n / 2 + 1)).map fun k => dft1 n (fun x => (a.getD x 0 : ℂ)) k
  c2r1 n z := ((List.range n).map fun x => (idft1 n (unhalf1 n z) x).re,
    List.replicate z.length 0)
  r2c2 n0 n1 a := (List.range (n0 * (n1 / 2 + 1))).map fun m =>
    dft2 n0 n1 (fun x0 x1 => (a.getD (x0 * n1 + x1) 0 : ℂ)) (m / (n1 / 2 + 1)) (m % (n1 / 2 + 1))
  c2r2 n0 n1 z := ((List.range (n0 * n1)).map fun m =>
    (idft2 n0 n1 (unhalf2 n0 n1 z) (m / n1) (m % n1)).re, List.replicate z.length 0)
  r2c3 n0 n1 n2 a := (List.range (n0 * n1 * (n2 / 2 + 1))).map fun m =>
    dft3 n0 n1 n2 (fun x0 x1 x2 => (a.getD ((x0 * n1 + x1) * n2 + x2) 0 : ℂ))
      (m / (n2 / 2 + 1) / n1) (m / (n2 / 2 + 1) % n1) (m % (n2 / 2 + 1))
  c2r3 n0 n1 n2 z := ((List.range (n0 * n1 * n2)).map fun m =>
    (idft3 n0 n1 n2 (unhalf3 n0 n1 n2 z) (m / n2 / n1) (m / n2 % n1) (m % n2)).re,
    List.replicate z.length 0)

/-- Periodic extension of an index. -/
def red (n : ℕ) (k : ℤ) : ℕ := (k % n).toNat

theorem red_lt {n : ℕ} (hn : 0 < n) (k : ℤ) : red n k < n := by
  have := Int.emod_lt_of_pos k (show (0 : ℤ) < n by omega)
  have := Int.emod_nonneg k (show (n : ℤ) ≠ 0 by omega)
  unfold red; omega

theorem red_nat {n k : ℕ} (hk : k < n) : red n (k : ℤ) = k := by
  unfold red
  rw [Int.emod_eq_of_lt (by omega) (by omega)]
  rfl

theorem red_congr {n : ℕ} {k l : ℤ} (h : (n : ℤ) ∣ k - l) : red n k = red n l := by
  unfold red
  rw [Int.emod_emod_of_dvd _ (dvd_refl _) |>.symm, Int.emod_emod_of_dvd _ (dvd_refl _)]
  congr 1
  exact Int.emod_eq_emod_iff_emod_sub_eq_zero.2 (Int.emod_eq_zero_of_dvd h)

theorem red_cast {n : ℕ} (hn : 0 < n) (k : ℤ) : (n : ℤ) ∣ k - (red n k : ℤ) := by
  have := Int.emod_nonneg k (show (n : ℤ) ≠ 0 by omega)
  unfold red
  rw [Int.toNat_of_nonneg this]
  exact Int.dvd_self_sub_emod

theorem red_neg {n : ℕ} (hn : 0 < n) (k : ℤ) : red n (-k) = opp n (red n k) := by
  have h1 := opp_cast hn (red n k) (red_lt hn k)
  have h2 := red_cast hn k
  have h3 : (n : ℤ) ∣ -k - (opp n (red n k) : ℤ) := by
    have : -k - (opp n (red n k) : ℤ) = -((opp n (red n k) : ℤ) - -(red n k : ℤ)) - (k - (red n k : ℤ)) := by
      ring
    rw [this]
    exact Int.dvd_sub ((dvd_neg).2 h1) h2
  rw [red_congr h3, red_nat]
  exact Nat.mod_lt _ hn

theorem idft1_real {n : ℕ} (hn : 0 < n) {Z : ℕ → ℂ}
    (h : ∀ k < n, Z (opp n k) = conj (Z k)) (x : ℕ) : ((idft1 n Z x).re : ℂ) = idft1 n Z x := by
  have e : idft1 n Z x = (cyc n hn).idft (fun k => Z (red n k)) x := by
    rw [cyc_idft]
    unfold idft1
    exact Finset.sum_congr rfl fun k hk => by simp only [red_nat (mem_range.1 hk)]
  rw [e]
  refine (cyc n hn).idft_real ?_ ?_ _
  · intro k l hkl; rw [red_congr hkl]
  · intro k; rw [red_neg hn, h _ (red_lt hn k)]

theorem idft2_real {n0 n1 : ℕ} (h0 : 0 < n0) (h1 : 0 < n1) {Z : ℕ → ℕ → ℂ}
    (h : ∀ k0 < n0, ∀ k1 < n1, Z (opp n0 k0) (opp n1 k1) = conj (Z k0 k1)) (x0 x1 : ℕ) :
    ((idft2 n0 n1 Z x0 x1).re : ℂ) = idft2 n0 n1 Z x0 x1 := by
  have e : idft2 n0 n1 Z x0 x1 =
      (box2 n0 n1 h0 h1).idft (fun k => Z (red n0 k.1) (red n1 k.2)) (x0, x1) := by
    rw [box2_idft]
    unfold idft2
    exact Finset.sum_congr rfl fun a ha => Finset.sum_congr rfl fun b hb => by
      simp only [red_nat (mem_range.1 ha), red_nat (mem_range.1 hb)]
  rw [e]
  refine (box2 n0 n1 h0 h1).idft_real ?_ ?_ _
  · rintro ⟨k, k'⟩ ⟨l, l'⟩ ⟨e1, e2⟩
    exact congrArg₂ Z (red_congr e1) (red_congr e2)
  · rintro ⟨k, k'⟩
    exact (congrArg₂ Z (red_neg h0 k) (red_neg h1 k')).trans (h _ (red_lt h0 k) _ (red_lt h1 k'))

theorem idft3_real {n0 n1 n2 : ℕ} (h0 : 0 < n0) (h1 : 0 < n1) (h2 : 0 < n2) {Z : ℕ → ℕ → ℕ → ℂ}
    (h : ∀ k0 < n0, ∀ k1 < n1, ∀ k2 < n2,
      Z (opp n0 k0) (opp n1 k1) (opp n2 k2) = conj (Z k0 k1 k2)) (x0 x1 x2 : ℕ) :
    ((idft3 n0 n1 n2 Z x0 x1 x2).re : ℂ) = idft3 n0 n1 n2 Z x0 x1 x2 := by
  have e : idft3 n0 n1 n2 Z x0 x1 x2 =
      (box3 n0 n1 n2 h0 h1 h2).idft (fun k => Z (red n0 k.1) (red n1 k.2.1) (red n2 k.2.2))
        (x0, x1, x2) := by
    rw [box3_idft]
    unfold idft3
    exact Finset.sum_congr rfl fun a ha => Finset.sum_congr rfl fun b hb =>
      Finset.sum_congr rfl fun c hc => by
        simp only [red_nat (mem_range.1 ha), red_nat (mem_range.1 hb), red_nat (mem_range.1 hc)]
  rw [e]
  refine (box3 n0 n1 n2 h0 h1 h2).idft_real ?_ ?_ _
  · rintro ⟨k, k', k''⟩ ⟨l, l', l''⟩ ⟨e1, e2, e3⟩
    rw [red_congr e1, red_congr e2, red_congr e3]
  · rintro ⟨k, k', k''⟩
    change Z (red n0 (-k)) (red n1 (-k')) (red n2 (-k'')) = _
    rw [red_neg h0, red_neg h1, red_neg h2]
    exact h _ (red_lt h0 k) _ (red_lt h1 k') _ (red_lt h2 k'')

theorem opp_lt {n k : ℕ} (hk : k < n) : opp n k < n := Nat.mod_lt _ (by omega)

theorem opp_half {n k : ℕ} (hk : k < n) (h : ¬ k < n / 2 + 1) : opp n k < n / 2 + 1 := by
  unfold opp
  rw [Nat.mod_eq_of_lt (by omega)]
  omega

theorem getElem?_map_range {α : Type} (f : ℕ → α) {n m : ℕ} (h : m < n) :
    ((List.range n).map f)[m]? = some (f m) := by
  simp [h]

theorem divMod_row {n a b : ℕ} (hb : b < n) : (a * n + b) / n = a ∧ (a * n + b) % n = b := by
  constructor
  · rw [Nat.mul_comm, Nat.mul_add_div (by omega), Nat.div_eq_of_lt hb, Nat.add_zero]
  · rw [Nat.mul_comm, Nat.mul_add_mod, Nat.mod_eq_of_lt hb]

theorem refFftw_laws : refFftw.Laws where
  r2c1_length n a _ _ := by simp [refFftw]
  r2c1_value n a _ _ k hk := by exact getElem?_map_range _ hk
  c2r1_length n z _ _ := by simp [refFftw]
  c2r1_value n z Z hn _ hherm hval x hx := by
    refine ⟨_, getElem?_map_range _ hx, ?_⟩
    have e : idft1 n (unhalf1 n z) x = idft1 n Z x := by
      unfold idft1
      refine Finset.sum_congr rfl fun k hk => ?_
      rw [mem_range] at hk
      congr 1
      unfold unhalf1
      split
      · rename_i h
        simp [List.getD_eq_getElem?_getD, hval k h]
      · rename_i h
        rw [List.getD_eq_getElem?_getD, hval _ (opp_half hk h), Option.getD_some, hherm k hk,
          Complex.conj_conj]
    rw [e, idft1_real hn hherm]
  r2c2_length n0 n1 a _ _ _ := by simp [refFftw]
  r2c2_value n0 n1 a _ _ _ k0 hk0 k1 hk1 := by
    refine (getElem?_map_range _ (rowMajor_lt hk0 hk1)).trans ?_
    rw [(divMod_row hk1).1, (divMod_row hk1).2]
  c2r2_length n0 n1 z _ _ _ := by simp [refFftw]
  c2r2_value n0 n1 z Z h0 h1 _ hherm hval x0 hx0 x1 hx1 := by
    refine ⟨_, getElem?_map_range _ (rowMajor_lt hx0 hx1), ?_⟩
    rw [(divMod_row hx1).1, (divMod_row hx1).2]
    have e : idft2 n0 n1 (unhalf2 n0 n1 z) x0 x1 = idft2 n0 n1 Z x0 x1 := by
      unfold idft2
      refine Finset.sum_congr rfl fun k0 hk0 => Finset.sum_congr rfl fun k1 hk1 => ?_
      rw [mem_range] at hk0 hk1
      congr 1
      unfold unhalf2
      split
      · rename_i h
        simp [List.getD_eq_getElem?_getD, hval k0 hk0 k1 h]
      · rename_i h
        rw [List.getD_eq_getElem?_getD, hval _ (opp_lt hk0) _ (opp_half hk1 h), Option.getD_some,
          hherm k0 hk0 k1 hk1, Complex.conj_conj]
    rw [e, idft2_real h0 h1 hherm]
  r2c3_length n0 n1 n2 a _ _ _ _ := by simp [refFftw]
  r2c3_value n0 n1 n2 a _ _ _ _ k0 hk0 k1 hk1 k2 hk2 := by
    refine (getElem?_map_range _ (rowMajor_lt (rowMajor_lt hk0 hk1) hk2)).trans ?_
    rw [(divMod_row hk2).1, (divMod_row hk2).2, (divMod_row hk1).1, (divMod_row hk1).2]
  c2r3_length n0 n1 n2 z _ _ _ _ := by simp [refFftw]
  c2r3_value n0 n1 n2 z Z h0 h1 h2 _ hherm hval x0 hx0 x1 hx1 x2 hx2 := by
    refine ⟨_, getElem?_map_range _ (rowMajor_lt (rowMajor_lt hx0 hx1) hx2), ?_⟩
    rw [(divMod_row hx2).1, (divMod_row hx2).2, (divMod_row hx1).1, (divMod_row hx1).2]
    have e : idft3 n0 n1 n2 (unhalf3 n0 n1 n2 z) x0 x1 x2 = idft3 n0 n1 n2 Z x0 x1 x2 := by
      unfold idft3
      refine Finset.sum_congr rfl fun k0 hk0 => Finset.sum_congr rfl fun k1 hk1 =>
        Finset.sum_congr rfl fun k2 hk2 => ?_
      rw [mem_range] at hk0 hk1 hk2
      congr 1
      unfold unhalf3
      split
      · rename_i h
        simp [List.getD_eq_getElem?_getD, hval k0 hk0 k1 hk1 k2 h]
      · rename_i h
        rw [List.getD_eq_getElem?_getD, hval _ (opp_lt hk0) _ (opp_lt hk1) _ (opp_half hk2 h),
          Option.getD_some, hherm k0 hk0 k1 hk1 k2 hk2, Complex.conj_conj]
    rw [e, idft3_real h0 h1 h2 hherm]

end Verif
