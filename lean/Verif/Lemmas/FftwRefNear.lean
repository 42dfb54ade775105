import Verif.Lemmas.FftNear

/-! The textbook sums meet the contract of a transform library with errors. -/

namespace Verif

open Finset Spec ComplexConjugate

theorem c2r_ref_bound {A B ε R Z t : ℝ} (h : A ≤ R * B) (hε : 0 ≤ ε) (hR : 0 ≤ R) (hZ : 0 ≤ Z) {D : ℝ}
    (hB : B ≤ 2 * D) (ht : 0 ≤ t) : A ≤ 2 * R * D + ε * R * Z + t := by
  have h1 := mul_le_mul_of_nonneg_left hB hR
  have h2 : 0 ≤ ε * R * Z := by positivity
  linarith

theorem ref_c2r1 {n : ℕ} (hn : 0 < n) (z : List ℂ) {Z : ℕ → ℂ} (hZ : ∀ k < n, Z (opp n k) = conj (Z k)) :
    l2 (range n) (fun x => (((refFftw.c2r1 n z).1.getD x 0 : ℝ) : ℂ) - idft1 n Z x)
      ≤ √(n : ℝ) * l2 (range n) (fun k => unhalf1 n z k - Z k) := by
  rw [← l2_idft1 hn]
  refine l2_mono fun x hx => ?_
  have e : (refFftw.c2r1 n z).1.getD x 0 = (idft1 n (unhalf1 n z) x).re :=
    getD_range_map _ (mem_range.1 hx) _
  rw [e]
  exact norm_re_sub_le (idft1_real hn hZ x)

theorem ref_half1 {n : ℕ} (z : List ℂ) {Z : ℕ → ℂ} (hZ : ∀ k < n, Z (opp n k) = conj (Z k)) :
    l2 (range n) (fun k => unhalf1 n z k - Z k) ≤ 2 * l2 (range (n / 2 + 1)) (fun k => z.getD k 0 - Z k) := by
  rcases Nat.eq_zero_or_pos n with rfl | hn
  · rw [l2_zero (by simp)]; exact mul_nonneg (by norm_num) l2_nonneg
  have e : l2 (range (n / 2 + 1)) (fun k => z.getD k 0 - Z k)
      = l2 (range (n / 2 + 1)) (fun k => unhalf1 n z k - Z k) :=
    l2_congr fun k hk => by unfold unhalf1; rw [if_pos (mem_range.1 hk)]
  rw [e]
  refine l2_refl_le (fun k hk => ?_) (opp n) ?_ fun k hk l hl h => opp_inj (mem_range.1 hk) (mem_range.1 hl) h
  · rw [mem_range] at hk ⊢; omega
  · intro k hk hk'
    rw [mem_range] at hk hk'
    have h := opp_half hk hk'
    refine ⟨mem_range.2 h, ?_⟩
    have e1 : unhalf1 n z k = conj (z.getD (opp n k) 0) := by unfold unhalf1; rw [if_neg hk']
    have e2 : unhalf1 n z (opp n k) = z.getD (opp n k) 0 := by unfold unhalf1; rw [if_pos h]
    rw [e1, e2, hZ k hk, ← Complex.norm_conj, map_sub, Complex.conj_conj]

theorem ref_c2r2 {n0 n1 : ℕ} (h0 : 0 < n0) (h1 : 0 < n1) (z : List ℂ) {Z : ℕ → ℕ → ℂ}
    (hZ : ∀ k0 < n0, ∀ k1 < n1, Z (opp n0 k0) (opp n1 k1) = conj (Z k0 k1)) :
    l2 (range n0 ×ˢ range n1)
        (fun x => (((refFftw.c2r2 n0 n1 z).1.getD (x.1 * n1 + x.2) 0 : ℝ) : ℂ) - idft2 n0 n1 Z x.1 x.2)
      ≤ √((n0 * n1 : ℕ) : ℝ) * l2 (range n0 ×ˢ range n1) (fun k => unhalf2 n0 n1 z k.1 k.2 - Z k.1 k.2) := by
  rw [← l2_idft2 h0 h1]
  refine l2_mono fun x hx => ?_
  rw [mem_product, mem_range, mem_range] at hx
  have e : (refFftw.c2r2 n0 n1 z).1.getD (x.1 * n1 + x.2) 0 = (idft2 n0 n1 (unhalf2 n0 n1 z) x.1 x.2).re := by
    refine (getD_range_map _ (rowMajor_lt hx.1 hx.2) _).trans ?_
    rw [(divMod_row hx.2).1, (divMod_row hx.2).2]
  rw [e]
  exact norm_re_sub_le (idft2_real h0 h1 hZ x.1 x.2)

theorem ref_half2 {n0 n1 : ℕ} (h1 : 0 < n1) (z : List ℂ) {Z : ℕ → ℕ → ℂ}
    (hZ : ∀ k0 < n0, ∀ k1 < n1, Z (opp n0 k0) (opp n1 k1) = conj (Z k0 k1)) :
    l2 (range n0 ×ˢ range n1) (fun k => unhalf2 n0 n1 z k.1 k.2 - Z k.1 k.2)
      ≤ 2 * l2 (range n0 ×ˢ range (n1 / 2 + 1)) (fun k => z.getD (k.1 * (n1 / 2 + 1) + k.2) 0 - Z k.1 k.2) := by
  have e : l2 (range n0 ×ˢ range (n1 / 2 + 1)) (fun k => z.getD (k.1 * (n1 / 2 + 1) + k.2) 0 - Z k.1 k.2)
      = l2 (range n0 ×ˢ range (n1 / 2 + 1)) (fun k => unhalf2 n0 n1 z k.1 k.2 - Z k.1 k.2) :=
    l2_congr fun k hk => by
      rw [mem_product, mem_range, mem_range] at hk
      unfold unhalf2; rw [if_pos hk.2]
  rw [e]
  refine l2_refl_le (fun k hk => ?_) (fun k => (opp n0 k.1, opp n1 k.2)) ?_ ?_
  · rw [mem_product, mem_range, mem_range] at hk ⊢
    exact ⟨hk.1, by omega⟩
  · intro k hk hk'
    rw [mem_product, mem_range, mem_range] at hk hk'
    have hk'' : ¬ k.2 < n1 / 2 + 1 := fun h => hk' ⟨hk.1, h⟩
    have h := opp_half hk.2 hk''
    refine ⟨mem_product.2 ⟨mem_range.2 (opp_lt hk.1), mem_range.2 h⟩, ?_⟩
    have e1 : unhalf2 n0 n1 z k.1 k.2 = conj (z.getD (opp n0 k.1 * (n1 / 2 + 1) + opp n1 k.2) 0) := by
      unfold unhalf2; rw [if_neg hk'']
    have e2 : unhalf2 n0 n1 z (opp n0 k.1) (opp n1 k.2) = z.getD (opp n0 k.1 * (n1 / 2 + 1) + opp n1 k.2) 0 := by
      unfold unhalf2; rw [if_pos h]
    simp only
    rw [e1, e2, hZ k.1 hk.1 k.2 hk.2, ← Complex.norm_conj, map_sub, Complex.conj_conj]
  · intro k hk l hl h
    rw [mem_product, mem_range, mem_range] at hk hl
    simp only [Prod.mk.injEq] at h
    exact Prod.ext (opp_inj hk.1 hl.1 h.1) (opp_inj hk.2 hl.2 h.2)

theorem ref_c2r3 {n0 n1 n2 : ℕ} (h0 : 0 < n0) (h1 : 0 < n1) (h2 : 0 < n2) (z : List ℂ) {Z : ℕ → ℕ → ℕ → ℂ}
    (hZ : ∀ k0 < n0, ∀ k1 < n1, ∀ k2 < n2, Z (opp n0 k0) (opp n1 k1) (opp n2 k2) = conj (Z k0 k1 k2)) :
    l2 (range n0 ×ˢ range n1 ×ˢ range n2)
        (fun x => (((refFftw.c2r3 n0 n1 n2 z).1.getD ((x.1 * n1 + x.2.1) * n2 + x.2.2) 0 : ℝ) : ℂ)
          - idft3 n0 n1 n2 Z x.1 x.2.1 x.2.2)
      ≤ √((n0 * (n1 * n2) : ℕ) : ℝ)
        * l2 (range n0 ×ˢ range n1 ×ˢ range n2) (fun k => unhalf3 n0 n1 n2 z k.1 k.2.1 k.2.2 - Z k.1 k.2.1 k.2.2) := by
  rw [← l2_idft3 h0 h1 h2]
  refine l2_mono fun x hx => ?_
  rw [mem_product, mem_product, mem_range, mem_range, mem_range] at hx
  have e : (refFftw.c2r3 n0 n1 n2 z).1.getD ((x.1 * n1 + x.2.1) * n2 + x.2.2) 0
      = (idft3 n0 n1 n2 (unhalf3 n0 n1 n2 z) x.1 x.2.1 x.2.2).re := by
    refine (getD_range_map _ (rowMajor_lt (rowMajor_lt hx.1 hx.2.1) hx.2.2) _).trans ?_
    rw [(divMod_row hx.2.2).1, (divMod_row hx.2.2).2, (divMod_row hx.2.1).1, (divMod_row hx.2.1).2]
  rw [e]
  exact norm_re_sub_le (idft3_real h0 h1 h2 hZ x.1 x.2.1 x.2.2)

theorem ref_half3 {n0 n1 n2 : ℕ} (h2 : 0 < n2) (z : List ℂ) {Z : ℕ → ℕ → ℕ → ℂ}
    (hZ : ∀ k0 < n0, ∀ k1 < n1, ∀ k2 < n2, Z (opp n0 k0) (opp n1 k1) (opp n2 k2) = conj (Z k0 k1 k2)) :
    l2 (range n0 ×ˢ range n1 ×ˢ range n2) (fun k => unhalf3 n0 n1 n2 z k.1 k.2.1 k.2.2 - Z k.1 k.2.1 k.2.2)
      ≤ 2 * l2 (range n0 ×ˢ range n1 ×ˢ range (n2 / 2 + 1))
        (fun k => z.getD ((k.1 * n1 + k.2.1) * (n2 / 2 + 1) + k.2.2) 0 - Z k.1 k.2.1 k.2.2) := by
  have e : l2 (range n0 ×ˢ range n1 ×ˢ range (n2 / 2 + 1))
        (fun k => z.getD ((k.1 * n1 + k.2.1) * (n2 / 2 + 1) + k.2.2) 0 - Z k.1 k.2.1 k.2.2)
      = l2 (range n0 ×ˢ range n1 ×ˢ range (n2 / 2 + 1))
        (fun k => unhalf3 n0 n1 n2 z k.1 k.2.1 k.2.2 - Z k.1 k.2.1 k.2.2) :=
    l2_congr fun k hk => by
      rw [mem_product, mem_product, mem_range, mem_range, mem_range] at hk
      unfold unhalf3; rw [if_pos hk.2.2]
  rw [e]
  refine l2_refl_le (fun k hk => ?_) (fun k => (opp n0 k.1, opp n1 k.2.1, opp n2 k.2.2)) ?_ ?_
  · rw [mem_product, mem_product, mem_range, mem_range, mem_range] at hk ⊢
    exact ⟨hk.1, hk.2.1, by omega⟩
  · intro k hk hk'
    rw [mem_product, mem_product, mem_range, mem_range, mem_range] at hk hk'
    have hk'' : ¬ k.2.2 < n2 / 2 + 1 := fun h => hk' ⟨hk.1, hk.2.1, h⟩
    have h := opp_half hk.2.2 hk''
    refine ⟨mem_product.2 ⟨mem_range.2 (opp_lt hk.1), mem_product.2 ⟨mem_range.2 (opp_lt hk.2.1), mem_range.2 h⟩⟩, ?_⟩
    have e1 : unhalf3 n0 n1 n2 z k.1 k.2.1 k.2.2
        = conj (z.getD ((opp n0 k.1 * n1 + opp n1 k.2.1) * (n2 / 2 + 1) + opp n2 k.2.2) 0) := by
      unfold unhalf3; rw [if_neg hk'']
    have e2 : unhalf3 n0 n1 n2 z (opp n0 k.1) (opp n1 k.2.1) (opp n2 k.2.2)
        = z.getD ((opp n0 k.1 * n1 + opp n1 k.2.1) * (n2 / 2 + 1) + opp n2 k.2.2) 0 := by
      unfold unhalf3; rw [if_pos h]
    simp only
    rw [e1, e2, hZ k.1 hk.1 k.2.1 hk.2.1 k.2.2 hk.2.2, ← Complex.norm_conj, map_sub, Complex.conj_conj]
  · intro k hk l hl h
    rw [mem_product, mem_product, mem_range, mem_range, mem_range] at hk hl
    simp only [Prod.mk.injEq] at h
    exact Prod.ext (opp_inj hk.1 hl.1 h.1)
      (Prod.ext (opp_inj hk.2.1 hl.2.1 h.2.1) (opp_inj hk.2.2 hl.2.2 h.2.2))

theorem near_of_zero {A ε R a t : ℝ} (h : A = 0) (hε : 0 ≤ ε) (hR : 0 ≤ R) (ha : 0 ≤ a) (ht : 0 ≤ t) :
    A ≤ ε * R * a + t := by
  rw [h]; positivity

/-- **Non-vacuity.** The textbook sums have any error bound. -/
theorem refFftw_near {ε : ℝ} (hε : 0 ≤ ε) : refFftw.Near ε where
  r2c1_length := refFftw_laws.r2c1_length
  r2c1_near n a hn ha := by
    refine near_of_zero (l2_zero fun k hk => ?_) hε (Real.sqrt_nonneg _) l2_nonneg tiny_pos.le
    rw [List.getD_eq_getElem?_getD, refFftw_laws.r2c1_value n a hn ha k (mem_range.1 hk), Option.getD_some, sub_self]
  c2r1_length := refFftw_laws.c2r1_length
  c2r1_near n z Z hn hz hZ := c2r_ref_bound (ref_c2r1 hn z hZ) hε (Real.sqrt_nonneg _) l2_nonneg
    (ref_half1 z hZ) tiny_pos.le
  r2c2_length := refFftw_laws.r2c2_length
  r2c2_near n0 n1 a h0 h1 ha := by
    refine near_of_zero (l2_zero fun k hk => ?_) hε (Real.sqrt_nonneg _) l2_nonneg tiny_pos.le
    rw [mem_product, mem_range, mem_range] at hk
    rw [List.getD_eq_getElem?_getD, refFftw_laws.r2c2_value n0 n1 a h0 h1 ha k.1 hk.1 k.2 hk.2, Option.getD_some,
      sub_self]
  c2r2_length := refFftw_laws.c2r2_length
  c2r2_near n0 n1 z Z h0 h1 hz hZ := c2r_ref_bound (ref_c2r2 h0 h1 z hZ) hε (Real.sqrt_nonneg _) l2_nonneg
    (ref_half2 h1 z hZ) tiny_pos.le
  r2c3_length := refFftw_laws.r2c3_length
  r2c3_near n0 n1 n2 a h0 h1 h2 ha := by
    refine near_of_zero (l2_zero fun k hk => ?_) hε (Real.sqrt_nonneg _) l2_nonneg tiny_pos.le
    rw [mem_product, mem_product, mem_range, mem_range, mem_range] at hk
    rw [List.getD_eq_getElem?_getD, refFftw_laws.r2c3_value n0 n1 n2 a h0 h1 h2 ha k.1 hk.1 k.2.1 hk.2.1 k.2.2 hk.2.2,
      Option.getD_some, sub_self]
  c2r3_length := refFftw_laws.c2r3_length
  c2r3_near n0 n1 n2 z Z h0 h1 h2 hz hZ := c2r_ref_bound (ref_c2r3 h0 h1 h2 z hZ) hε (Real.sqrt_nonneg _)
    l2_nonneg (ref_half3 h2 z hZ) tiny_pos.le

end Verif
