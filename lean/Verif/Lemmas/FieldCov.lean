import Verif.Lemmas.FieldBase

/-! Helper lemmas: the covariance of the clipped spectrum. -/

namespace Verif

open Finset Spec Pairing

/-! ### One dimension -/

section dim1
variable {n : ℕ} (hn : 0 < n) (c : ℕ → ℝ)

theorem clipped1_pair (d : ℤ) : clippedCov1 n c d
    = ∑ y ∈ (cyc n hn).box, (cyc n hn).ker (ext1 n c) (d - y) * (cyc n hn).ker (ext1 n c) (0 - y) := by
  rw [cyc_sum_real hn fun y => (cyc n hn).ker (ext1 n c) (d - y) * (cyc n hn).ker (ext1 n c) (0 - y)]
  simp only [ker1_eq]
  rw [cov1_eq hn, sub_zero]

include hn

theorem clipped1_of_nonneg (h : ∀ k < n, 0 ≤ spectrum1 n c k) (d : ℤ) :
    clippedCov1 n c d = (c (red n d) + c (red n (-d))) / 2 := by
  rw [clipped1_pair hn, (cyc n hn).sum_ker_mul_of_nonneg (ext1 n c) (fun x y => ext1_congr c)]
  · rw [sub_zero, zero_sub]; rfl
  · intro k hk
    obtain ⟨a, ha, rfl⟩ := (mem_cyc (hn := hn)).1 hk
    rw [spec1_eq]
    exact h a ha

theorem clipped1_ge : c 0 ≤ clippedCov1 n c 0 ∧
    (clippedCov1 n c 0 = c 0 ↔ ∀ k < n, 0 ≤ spectrum1 n c k) := by
  have h := (cyc n hn).variance_ge (ext1 n c) (fun x y => ext1_congr c) 0
  have e : ∑ y ∈ (cyc n hn).box, (cyc n hn).ker (ext1 n c) (0 - y) * (cyc n hn).ker (ext1 n c) (0 - y) = clippedCov1 n c 0 := by
    rw [clipped1_pair hn]
  have e0 : ext1 n c 0 = c 0 := by
    have := ext1_nat c hn
    exact_mod_cast this
  rw [e, e0] at h
  refine ⟨h.1, h.2.trans ⟨fun H k hk => ?_, fun H k hk => ?_⟩⟩
  · rw [← spec1_eq hn]
    exact H _ ((mem_cyc).2 ⟨k, hk, rfl⟩)
  · obtain ⟨a, ha, rfl⟩ := (mem_cyc (hn := hn)).1 hk
    rw [spec1_eq]
    exact H a ha

end dim1

/-! ### Two dimensions -/

section dim2
variable {n m : ℕ} (hn : 0 < n) (hm : 0 < m) (c : ℕ → ℕ → ℝ)

theorem clipped2_pair (d e : ℤ) : clippedCov2 n m c d e
    = ∑ y ∈ (box2 m n hm hn).box, (box2 m n hm hn).ker (ext2 n m c) ((e, d) - y)
      * (box2 m n hm hn).ker (ext2 n m c) (0 - y) := by
  have h0 : (0 : ℤ × ℤ) = ((0 : ℤ), (0 : ℤ)) := rfl
  rw [box2_sum_real hm hn fun y => (box2 m n hm hn).ker (ext2 n m c) ((e, d) - y)
      * (box2 m n hm hn).ker (ext2 n m c) (0 - y), Finset.sum_comm]
  simp only [ker2_eq, h0, Prod.mk_sub_mk]
  rw [cov2_eq hn hm, sub_zero, sub_zero]

include hn hm

theorem clipped2_of_nonneg (h : ∀ k l, k < n → l < m → 0 ≤ spectrum2 n m c k l) (d e : ℤ) :
    clippedCov2 n m c d e = (c (red n d) (red m e) + c (red n (-d)) (red m (-e))) / 2 := by
  rw [clipped2_pair hn hm, (box2 m n hm hn).sum_ker_mul_of_nonneg (ext2 n m c)
    (fun x y => ext2_congr hn hm c)]
  · rw [sub_zero, zero_sub]; rfl
  · intro k hk
    obtain ⟨a, b, ha, hb, rfl⟩ := (mem_box2 (h0 := hm) (h1 := hn)).1 hk
    rw [spec2_eq]
    exact h b a hb ha

theorem clipped2_ge : c 0 0 ≤ clippedCov2 n m c 0 0 ∧
    (clippedCov2 n m c 0 0 = c 0 0 ↔ ∀ k l, k < n → l < m → 0 ≤ spectrum2 n m c k l) := by
  have h := (box2 m n hm hn).variance_ge (ext2 n m c) (fun x y => ext2_congr hn hm c) 0
  have e : ∑ y ∈ (box2 m n hm hn).box, (box2 m n hm hn).ker (ext2 n m c) (0 - y)
      * (box2 m n hm hn).ker (ext2 n m c) (0 - y)
      = clippedCov2 n m c 0 0 := by
    rw [clipped2_pair hn hm]; rfl
  have e0 : ext2 n m c 0 = c 0 0 := by
    have := ext2_nat c hn hm
    exact_mod_cast this
  rw [e, e0] at h
  refine ⟨h.1, h.2.trans ⟨fun H k l hk hl => ?_, fun H k hk => ?_⟩⟩
  · rw [← spec2_eq hn hm]
    exact H _ ((mem_box2).2 ⟨l, k, hl, hk, rfl⟩)
  · obtain ⟨a, b, ha, hb, rfl⟩ := (mem_box2 (h0 := hm) (h1 := hn)).1 hk
    rw [spec2_eq]
    exact H b a hb ha

end dim2

/-! ### Three dimensions -/

section dim3
variable {n m q : ℕ} (hn : 0 < n) (hm : 0 < m) (hq : 0 < q) (c : ℕ → ℕ → ℕ → ℝ)

theorem clipped3_pair (d e f : ℤ) : clippedCov3 n m q c d e f
    = ∑ y ∈ (box3 q m n hq hm hn).box, (box3 q m n hq hm hn).ker (ext3 n m q c) ((f, e, d) - y)
      * (box3 q m n hq hm hn).ker (ext3 n m q c) (0 - y) := by
  have h0 : (0 : ℤ × ℤ × ℤ) = ((0 : ℤ), (0 : ℤ), (0 : ℤ)) := rfl
  rw [box3_sum_real hq hm hn fun y => (box3 q m n hq hm hn).ker (ext3 n m q c) ((f, e, d) - y)
      * (box3 q m n hq hm hn).ker (ext3 n m q c) (0 - y),
    sum_rev3 n m q fun x y z => (box3 q m n hq hm hn).ker (ext3 n m q c)
      ((f, e, d) - ((z : ℤ), (y : ℤ), (x : ℤ)))
      * (box3 q m n hq hm hn).ker (ext3 n m q c) (0 - ((z : ℤ), (y : ℤ), (x : ℤ)))]
  simp only [ker3_eq, h0, Prod.mk_sub_mk]
  rw [cov3_eq hn hm hq, sub_zero, sub_zero, sub_zero]

include hn hm hq

theorem clipped3_of_nonneg
    (h : ∀ k l o, k < n → l < m → o < q → 0 ≤ spectrum3 n m q c k l o) (d e f : ℤ) :
    clippedCov3 n m q c d e f = (c (red n d) (red m e) (red q f)
      + c (red n (-d)) (red m (-e)) (red q (-f))) / 2 := by
  rw [clipped3_pair hn hm hq, (box3 q m n hq hm hn).sum_ker_mul_of_nonneg (ext3 n m q c)
    (fun x y => ext3_congr hn hm hq c)]
  · rw [sub_zero, zero_sub]; rfl
  · intro k hk
    obtain ⟨a, b, o, ha, hb, ho, rfl⟩ := (mem_box3 (h0 := hq) (h1 := hm) (h2 := hn)).1 hk
    rw [spec3_eq]
    exact h o b a ho hb ha

theorem clipped3_ge : c 0 0 0 ≤ clippedCov3 n m q c 0 0 0 ∧
    (clippedCov3 n m q c 0 0 0 = c 0 0 0 ↔
      ∀ k l o, k < n → l < m → o < q → 0 ≤ spectrum3 n m q c k l o) := by
  have h := (box3 q m n hq hm hn).variance_ge (ext3 n m q c) (fun x y => ext3_congr hn hm hq c) 0
  have e : ∑ y ∈ (box3 q m n hq hm hn).box, (box3 q m n hq hm hn).ker (ext3 n m q c) (0 - y)
      * (box3 q m n hq hm hn).ker (ext3 n m q c) (0 - y)
      = clippedCov3 n m q c 0 0 0 := by
    rw [clipped3_pair hn hm hq]; rfl
  have e0 : ext3 n m q c 0 = c 0 0 0 := by
    have := ext3_nat c hn hm hq
    exact_mod_cast this
  rw [e, e0] at h
  refine ⟨h.1, h.2.trans ⟨fun H k l o hk hl ho => ?_, fun H k hk => ?_⟩⟩
  · rw [← spec3_eq hn hm hq]
    exact H _ ((mem_box3).2 ⟨o, l, k, ho, hl, hk, rfl⟩)
  · obtain ⟨a, b, o, ha, hb, ho, rfl⟩ := (mem_box3 (h0 := hq) (h1 := hm) (h2 := hn)).1 hk
    rw [spec3_eq]
    exact H o b a ho hb ha

end dim3

end Verif
