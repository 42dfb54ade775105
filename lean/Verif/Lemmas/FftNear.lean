import Verif.Lemmas.L2
import Verif.Lemmas.FftwRef
import Mathlib.Data.List.GetD

/-! Helper lemmas: transforms with errors on flat arrays. -/

namespace Verif

open Finset Spec ComplexConjugate

theorem l2_bij {α β : Type} {s : Finset α} {t : Finset β} {f : α → ℂ} {g : β → ℂ} (i : α → β) (j : β → α)
    (hi : ∀ a ∈ s, i a ∈ t) (hj : ∀ b ∈ t, j b ∈ s) (h1 : ∀ a ∈ s, j (i a) = a) (h2 : ∀ b ∈ t, i (j b) = b)
    (h : ∀ a ∈ s, f a = g (i a)) : l2 s f = l2 t g := by
  unfold l2
  congr 1
  exact Finset.sum_nbij' i j hi hj h1 h2 fun a ha => by rw [h a ha]

/-- The stored half of a cycle. -/
noncomputable def half1 (n : ℕ) (hn : 0 < n) : Finset ℤ := (cyc n hn).box.filter (fun k => k.toNat < n / 2 + 1)

theorem l2_cyc {n : ℕ} (hn : 0 < n) (f : ℤ → ℂ) : l2 (cyc n hn).box f = l2 (range n) (fun k => f k) := by
  refine l2_bij (fun k => k.toNat) (fun k => (k : ℤ)) ?_ ?_ ?_ ?_ ?_
  · intro a ha
    obtain ⟨m, hm, rfl⟩ := mem_cyc.1 ha
    simpa using hm
  · intro b hb
    exact mem_cyc_nat.2 (mem_range.1 hb)
  · intro a ha
    obtain ⟨m, hm, rfl⟩ := mem_cyc.1 ha
    simp
  · intro b _; simp
  · intro a ha
    obtain ⟨m, hm, rfl⟩ := mem_cyc.1 ha
    simp

theorem l2_half1 {n : ℕ} (hn : 0 < n) (f : ℤ → ℂ) :
    l2 (half1 n hn) f = l2 (range (n / 2 + 1)) (fun k => f k) := by
  refine l2_bij (fun k => k.toNat) (fun k => (k : ℤ)) ?_ ?_ ?_ ?_ ?_
  · intro a ha
    exact mem_range.2 (mem_filter.1 ha).2
  · intro b hb
    rw [mem_range] at hb
    exact mem_filter.2 ⟨mem_cyc_nat.2 (by omega), by simpa using hb⟩
  · intro a ha
    obtain ⟨m, hm, rfl⟩ := mem_cyc.1 (mem_filter.1 ha).1
    simp
  · intro b _; simp
  · intro a ha
    obtain ⟨m, hm, rfl⟩ := mem_cyc.1 (mem_filter.1 ha).1
    simp

theorem l2_box2 {n0 n1 : ℕ} (h0 : 0 < n0) (h1 : 0 < n1) (f : ℤ × ℤ → ℂ) :
    l2 (box2 n0 n1 h0 h1).box f = l2 (range n0 ×ˢ range n1) (fun k => f (k.1, k.2)) := by
  refine l2_bij (fun k => (k.1.toNat, k.2.toNat)) (fun k => ((k.1 : ℤ), (k.2 : ℤ))) ?_ ?_ ?_ ?_ ?_
  · intro x hx
    obtain ⟨a, b, ha, hb, rfl⟩ := mem_box2.1 hx
    simpa using ⟨ha, hb⟩
  · intro k hk
    obtain ⟨a, b⟩ := k
    rw [mem_product, mem_range, mem_range] at hk
    exact mem_box2.2 ⟨a, b, hk.1, hk.2, rfl⟩
  · intro x hx
    obtain ⟨a, b, ha, hb, rfl⟩ := mem_box2.1 hx
    simp
  · intro b _; simp
  · intro x hx
    obtain ⟨a, b, ha, hb, rfl⟩ := mem_box2.1 hx
    simp

theorem l2_half2 {n0 n1 : ℕ} (h0 : 0 < n0) (h1 : 0 < n1) (f : ℤ × ℤ → ℂ) :
    l2 ((box2 n0 n1 h0 h1).box.filter (fun k => k.2.toNat < n1 / 2 + 1)) f
      = l2 (range n0 ×ˢ range (n1 / 2 + 1)) (fun k => f (k.1, k.2)) := by
  refine l2_bij (fun k => (k.1.toNat, k.2.toNat)) (fun k => ((k.1 : ℤ), (k.2 : ℤ))) ?_ ?_ ?_ ?_ ?_
  · intro x hx
    obtain ⟨hx, h⟩ := mem_filter.1 hx
    obtain ⟨a, b, ha, hb, rfl⟩ := mem_box2.1 hx
    exact mem_product.2 ⟨mem_range.2 ha, mem_range.2 h⟩
  · intro k hk
    obtain ⟨a, b⟩ := k
    rw [mem_product, mem_range, mem_range] at hk
    obtain ⟨hka, hkb⟩ := hk
    simp only at hka hkb
    exact mem_filter.2 ⟨mem_box2.2 ⟨a, b, hka, by omega, rfl⟩, by simpa using hkb⟩
  · intro x hx
    obtain ⟨a, b, ha, hb, rfl⟩ := mem_box2.1 (mem_filter.1 hx).1
    simp
  · intro b _; simp
  · intro x hx
    obtain ⟨a, b, ha, hb, rfl⟩ := mem_box2.1 (mem_filter.1 hx).1
    simp

theorem l2_box3 {n0 n1 n2 : ℕ} (h0 : 0 < n0) (h1 : 0 < n1) (h2 : 0 < n2) (f : ℤ × ℤ × ℤ → ℂ) :
    l2 (box3 n0 n1 n2 h0 h1 h2).box f
      = l2 (range n0 ×ˢ range n1 ×ˢ range n2) (fun k => f (k.1, k.2.1, k.2.2)) := by
  refine l2_bij (fun k => (k.1.toNat, k.2.1.toNat, k.2.2.toNat))
    (fun k => ((k.1 : ℤ), (k.2.1 : ℤ), (k.2.2 : ℤ))) ?_ ?_ ?_ ?_ ?_
  · intro x hx
    obtain ⟨a, b, c, ha, hb, hc, rfl⟩ := mem_box3.1 hx
    simpa using ⟨ha, hb, hc⟩
  · intro k hk
    obtain ⟨a, b, c⟩ := k
    rw [mem_product, mem_product, mem_range, mem_range, mem_range] at hk
    exact mem_box3.2 ⟨a, b, c, hk.1, hk.2.1, hk.2.2, rfl⟩
  · intro x hx
    obtain ⟨a, b, c, ha, hb, hc, rfl⟩ := mem_box3.1 hx
    simp
  · intro b _; simp
  · intro x hx
    obtain ⟨a, b, c, ha, hb, hc, rfl⟩ := mem_box3.1 hx
    simp

theorem l2_half3 {n0 n1 n2 : ℕ} (h0 : 0 < n0) (h1 : 0 < n1) (h2 : 0 < n2) (f : ℤ × ℤ × ℤ → ℂ) :
    l2 ((box3 n0 n1 n2 h0 h1 h2).box.filter (fun k => k.2.2.toNat < n2 / 2 + 1)) f
      = l2 (range n0 ×ˢ range n1 ×ˢ range (n2 / 2 + 1)) (fun k => f (k.1, k.2.1, k.2.2)) := by
  refine l2_bij (fun k => (k.1.toNat, k.2.1.toNat, k.2.2.toNat))
    (fun k => ((k.1 : ℤ), (k.2.1 : ℤ), (k.2.2 : ℤ))) ?_ ?_ ?_ ?_ ?_
  · intro x hx
    obtain ⟨hx, h⟩ := mem_filter.1 hx
    obtain ⟨a, b, c, ha, hb, hc, rfl⟩ := mem_box3.1 hx
    exact mem_product.2 ⟨mem_range.2 ha, mem_product.2 ⟨mem_range.2 hb, mem_range.2 h⟩⟩
  · intro k hk
    obtain ⟨a, b, c⟩ := k
    rw [mem_product, mem_product, mem_range, mem_range, mem_range] at hk
    obtain ⟨hka, hkb, hkc⟩ := hk
    simp only at hka hkb hkc
    exact mem_filter.2 ⟨mem_box3.2 ⟨a, b, c, hka, hkb, by omega, rfl⟩, by simpa using hkc⟩
  · intro x hx
    obtain ⟨a, b, c, ha, hb, hc, rfl⟩ := mem_box3.1 (mem_filter.1 hx).1
    simp
  · intro b _; simp
  · intro x hx
    obtain ⟨a, b, c, ha, hb, hc, rfl⟩ := mem_box3.1 (mem_filter.1 hx).1
    simp

/-- Transforms with errors, in the layout `L`. -/
structure Flat.Near {G : Type} [AddCommGroup G] {P : Pairing G} (L : Flat P) (ε : ℝ) (r2c : List ℝ → List ℂ)
    (c2r : List ℂ → List ℝ × List ℂ) : Prop where
  r2c_length : ∀ a, a.length = P.N → (r2c a).length = L.M
  r2c_near : ∀ a, a.length = P.N →
    l2 L.half (fun k => (r2c a).getD (L.cpos k) 0 - P.dft (fun x => (a.getD (L.pos x) 0 : ℂ)) k)
      ≤ ε * √(P.N : ℝ) * l2 P.box (fun x => (a.getD (L.pos x) 0 : ℂ)) + 2⁻¹ ^ 960
  c2r_length : ∀ z, z.length = L.M → (c2r z).1.length = P.N ∧ (c2r z).2.length = L.M
  c2r_near : ∀ z (Z : G → ℂ), z.length = L.M → (∀ k l, P.per (k - l) → Z k = Z l) →
    (∀ k, Z (-k) = conj (Z k)) →
    l2 P.box (fun x => ((c2r z).1.getD (L.pos x) 0 : ℂ) - P.idft Z x)
      ≤ 2 * √(P.N : ℝ) * l2 L.half (fun k => z.getD (L.cpos k) 0 - Z k)
        + ε * √(P.N : ℝ) * l2 P.box Z + 2⁻¹ ^ 960

theorem flat2_near {F F' : Fftw} {ε : ℝ} (hF : F.Near ε) (hF' : F'.Laws) (n0 n1 : ℕ) (h0 : 0 < n0) (h1 : 0 < n1) :
    (flat2 F' hF' n0 n1 h0 h1).Near ε (F.r2c2 n0 n1) (F.c2r2 n0 n1) where
  r2c_length a ha := hF.r2c2_length n0 n1 a h0 h1 ha
  r2c_near a ha := by
    have := hF.r2c2_near n0 n1 a h0 h1 ha
    rw [show (flat2 F' hF' n0 n1 h0 h1).half = (box2 n0 n1 h0 h1).box.filter (fun k => k.2.toNat < n1 / 2 + 1) from rfl,
      l2_half2, l2_box2]
    simp only [box2_dft]
    exact this
  c2r_length z hz := by
    have := hF.c2r2_length n0 n1 z h0 h1 hz
    exact ⟨this.1, this.2.trans hz⟩
  c2r_near z Z hz hper hherm := by
    have := hF.c2r2_near n0 n1 z (fun a b => Z (a, b)) h0 h1 hz (by
      intro k0 hk0 k1 hk1
      rw [← hherm]
      exact hper _ _ ⟨opp_cast h0 k0 hk0, opp_cast h1 k1 hk1⟩)
    rw [show (flat2 F' hF' n0 n1 h0 h1).half = (box2 n0 n1 h0 h1).box.filter (fun k => k.2.toNat < n1 / 2 + 1) from rfl,
      l2_half2, l2_box2, l2_box2]
    simp only [box2_idft]
    exact this

theorem flat3_near {F F' : Fftw} {ε : ℝ} (hF : F.Near ε) (hF' : F'.Laws) (n0 n1 n2 : ℕ) (h0 : 0 < n0) (h1 : 0 < n1)
    (h2 : 0 < n2) :
    (flat3 F' hF' n0 n1 n2 h0 h1 h2).Near ε (F.r2c3 n0 n1 n2) (F.c2r3 n0 n1 n2) where
  r2c_length a ha := hF.r2c3_length n0 n1 n2 a h0 h1 h2 (ha.trans (Nat.mul_assoc _ _ _).symm)
  r2c_near a ha := by
    have := hF.r2c3_near n0 n1 n2 a h0 h1 h2 (ha.trans (Nat.mul_assoc _ _ _).symm)
    rw [show (flat3 F' hF' n0 n1 n2 h0 h1 h2).half
      = (box3 n0 n1 n2 h0 h1 h2).box.filter (fun k => k.2.2.toNat < n2 / 2 + 1) from rfl,
      l2_half3, l2_box3]
    simp only [box3_dft]
    exact this
  c2r_length z hz := by
    have := hF.c2r3_length n0 n1 n2 z h0 h1 h2 hz
    exact ⟨this.1.trans (Nat.mul_assoc _ _ _), this.2.trans hz⟩
  c2r_near z Z hz hper hherm := by
    have := hF.c2r3_near n0 n1 n2 z (fun a b c => Z (a, b, c)) h0 h1 h2 hz (by
      intro k0 hk0 k1 hk1 k2 hk2
      rw [← hherm]
      exact hper _ _ ⟨opp_cast h0 k0 hk0, opp_cast h1 k1 hk1, opp_cast h2 k2 hk2⟩)
    rw [show (flat3 F' hF' n0 n1 n2 h0 h1 h2).half
      = (box3 n0 n1 n2 h0 h1 h2).box.filter (fun k => k.2.2.toNat < n2 / 2 + 1) from rfl,
      l2_half3, l2_box3, l2_box3]
    simp only [box3_idft]
    exact this

/-! ### The textbook sums are such a library -/

theorem l2_refl_le {α : Type} [DecidableEq α] {s t : Finset α} {f : α → ℂ} (hts : t ⊆ s) (o : α → α)
    (ho : ∀ k ∈ s, k ∉ t → o k ∈ t ∧ ‖f k‖ = ‖f (o k)‖)
    (hinj : ∀ k ∈ s, ∀ l ∈ s, o k = o l → k = l) : l2 s f ≤ 2 * l2 t f := by
  have h1 : ∑ k ∈ s, ‖f k‖ ^ 2 = ∑ k ∈ s \ t, ‖f k‖ ^ 2 + ∑ k ∈ t, ‖f k‖ ^ 2 :=
    (Finset.sum_sdiff hts).symm
  have h2 : ∑ k ∈ s \ t, ‖f k‖ ^ 2 ≤ ∑ k ∈ t, ‖f k‖ ^ 2 := by
    have e : ∑ k ∈ s \ t, ‖f k‖ ^ 2 = ∑ k ∈ (s \ t).image o, ‖f k‖ ^ 2 := by
      rw [Finset.sum_image (fun a ha b hb h => hinj a (mem_sdiff.1 ha).1 b (mem_sdiff.1 hb).1 h)]
      exact Finset.sum_congr rfl fun k hk => by
        rw [mem_sdiff] at hk
        rw [(ho k hk.1 hk.2).2]
    rw [e]
    refine Finset.sum_le_sum_of_subset_of_nonneg ?_ fun _ _ _ => by positivity
    intro k hk
    obtain ⟨l, hl, rfl⟩ := mem_image.1 hk
    rw [mem_sdiff] at hl
    exact (ho l hl.1 hl.2).1
  have h3 : 0 ≤ ∑ k ∈ t, ‖f k‖ ^ 2 := Finset.sum_nonneg fun _ _ => by positivity
  unfold l2
  rw [Real.sqrt_le_iff]
  refine ⟨by positivity, ?_⟩
  rw [mul_pow, Real.sq_sqrt h3]
  linarith

theorem norm_re_sub_le {a b : ℂ} (hb : (b.re : ℂ) = b) : ‖(a.re : ℂ) - b‖ ≤ ‖a - b‖ := by
  rw [← hb, ← Complex.ofReal_sub, Complex.norm_real, hb, ← Complex.sub_re]
  exact Complex.abs_re_le_norm _

theorem getD_range_map {α : Type} (f : ℕ → α) {n m : ℕ} (h : m < n) (d : α) :
    ((List.range n).map f).getD m d = f m := by
  simp [List.getD_eq_getElem?_getD, h]

theorem opp_inj {n k l : ℕ} (hk : k < n) (hl : l < n) (h : opp n k = opp n l) : k = l := by
  unfold opp at h
  rcases Nat.eq_zero_or_pos k with rfl | hk0
  · rcases Nat.eq_zero_or_pos l with rfl | hl0
    · rfl
    · rw [Nat.sub_zero, Nat.mod_self, Nat.mod_eq_of_lt (show n - l < n by omega)] at h
      omega
  · rcases Nat.eq_zero_or_pos l with rfl | hl0
    · rw [Nat.sub_zero, Nat.mod_self, Nat.mod_eq_of_lt (show n - k < n by omega)] at h
      omega
    · rw [Nat.mod_eq_of_lt (show n - l < n by omega), Nat.mod_eq_of_lt (show n - k < n by omega)] at h
      omega

theorem l2_idft1 {n : ℕ} (hn : 0 < n) (U Z : ℕ → ℂ) :
    l2 (range n) (fun x => idft1 n U x - idft1 n Z x) = √(n : ℝ) * l2 (range n) (fun k => U k - Z k) := by
  have h := (cyc n hn).l2_idft (fun k => U k.toNat - Z k.toNat)
  rw [l2_cyc, l2_cyc] at h
  simp only [Int.toNat_natCast] at h
  rw [show (cyc n hn).N = n from rfl] at h
  rw [← h]
  refine l2_congr fun x _ => ?_
  rw [(cyc n hn).idft_sub, cyc_idft, cyc_idft]
  rfl

theorem l2_idft2 {n0 n1 : ℕ} (h0 : 0 < n0) (h1 : 0 < n1) (U Z : ℕ → ℕ → ℂ) :
    l2 (range n0 ×ˢ range n1) (fun x => idft2 n0 n1 U x.1 x.2 - idft2 n0 n1 Z x.1 x.2)
      = √((n0 * n1 : ℕ) : ℝ) * l2 (range n0 ×ˢ range n1) (fun k => U k.1 k.2 - Z k.1 k.2) := by
  have h := (box2 n0 n1 h0 h1).l2_idft (fun k => U k.1.toNat k.2.toNat - Z k.1.toNat k.2.toNat)
  rw [l2_box2, l2_box2] at h
  simp only [Int.toNat_natCast] at h
  rw [show (box2 n0 n1 h0 h1).N = n0 * n1 from rfl] at h
  rw [← h]
  refine l2_congr fun x _ => ?_
  rw [(box2 n0 n1 h0 h1).idft_sub, box2_idft, box2_idft]
  rfl

theorem l2_idft3 {n0 n1 n2 : ℕ} (h0 : 0 < n0) (h1 : 0 < n1) (h2 : 0 < n2) (U Z : ℕ → ℕ → ℕ → ℂ) :
    l2 (range n0 ×ˢ range n1 ×ˢ range n2)
        (fun x => idft3 n0 n1 n2 U x.1 x.2.1 x.2.2 - idft3 n0 n1 n2 Z x.1 x.2.1 x.2.2)
      = √((n0 * (n1 * n2) : ℕ) : ℝ)
        * l2 (range n0 ×ˢ range n1 ×ˢ range n2) (fun k => U k.1 k.2.1 k.2.2 - Z k.1 k.2.1 k.2.2) := by
  have h := (box3 n0 n1 n2 h0 h1 h2).l2_idft
    (fun k => U k.1.toNat k.2.1.toNat k.2.2.toNat - Z k.1.toNat k.2.1.toNat k.2.2.toNat)
  rw [l2_box3, l2_box3] at h
  simp only [Int.toNat_natCast] at h
  rw [show (box3 n0 n1 n2 h0 h1 h2).N = n0 * (n1 * n2) from rfl] at h
  rw [← h]
  refine l2_congr fun x _ => ?_
  rw [(box3 n0 n1 n2 h0 h1 h2).idft_sub, box3_idft, box3_idft]
  rfl

theorem l2_zero {α : Type} {s : Finset α} {f : α → ℂ} (h : ∀ k ∈ s, f k = 0) : l2 s f = 0 := by
  unfold l2
  rw [Finset.sum_eq_zero fun k hk => by rw [h k hk]; simp, Real.sqrt_zero]

theorem tiny_pos : (0 : ℝ) < 2⁻¹ ^ 960 := by positivity

end Verif
