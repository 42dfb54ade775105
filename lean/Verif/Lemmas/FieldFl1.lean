import Verif.Lemmas.FieldFl2

/-! Helper lemmas: the one-dimensional simulation in double arithmetic. -/

namespace Verif

open Finset Spec ComplexConjugate Fl

attribute [local irreducible] rnd64

theorem wr_sat_fill {f : ℕ → ℝ} {n i : ℕ} {cov : List ℝ} (hl : cov.length = n) (hi : i < n)
    (hold : ∀ a < i, cov[a]? = some (f a)) :
    (wr cov i (f i)).Sat fun cov => cov.length = n ∧ ∀ a < i + 1, cov[a]? = some (f a) := by
  rw [wr_ok (by omega), Res.sat_ok]
  refine ⟨by simpa using hl, fun a ha => ?_⟩
  rw [List.getElem?_set]
  split
  · rename_i h'; subst h'; simp; omega
  · exact hold a (by omega)

/-- The value of one cell of the one-dimensional covariance grid. -/
noncomputable def covVal1Fl (lm : Libm) (v : Variogram) (s dd : ℝ) : Res ℝ :=
  (v.cov1Fl lm dd).bind fun c => smoothFl lm s (findVariogramRangesFl lm v).1 dd c

theorem fftCovGrid1DFl_sat {lm : Libm} {v : Variogram} {n : ℕ} (hn : n + 1 < 2 ^ 31) {dx s : ℝ}
    (hs : rnd64 1e-12 < s) {f : ℕ → ℝ}
    (hv : ∀ a < n, covVal1Fl lm v s (rnd64 (|(lag n a : ℝ)| * dx)) = .ok (f a)) :
    (fftCovGrid1DFl lm v n dx s).Sat fun cov => cov.length = n ∧ ∀ i < n, cov[i]? = some (f i) := by
  unfold fftCovGrid1DFl
  rw [intSize_ok hn, assertScaling_ok hs]
  simp only [Res.monad_bind_eq, Res.bind_ok]
  refine Res.Sat.bind (P := fun cov => cov.length = n ∧
    ∀ a < (n + 1) / 2, cov[a]? = some (f a)) ?_ ?_
  · refine forRange_sat (fun i (cov : List ℝ) => cov.length = n ∧ ∀ a < i, cov[a]? = some (f a))
      (Nat.zero_le _) ⟨by simp, by simp⟩ ?_
    rintro i cov - hi ⟨hl, hold⟩
    have h := hv i (by omega)
    have e : |(lag n i : ℝ)| = i := by
      have := lag_lo (n := n) hi 1
      rw [mul_one, mul_one] at this
      rw [this, abs_of_nonneg (Nat.cast_nonneg _)]
    rw [e] at h
    unfold covVal1Fl at h
    have h' : ∀ g : ℝ → Res (List ℝ), ((v.cov1Fl lm ((i : ℝ) *ᶠ dx)).bind fun c =>
        (smoothFl lm s (findVariogramRangesFl lm v).1 ((i : ℝ) *ᶠ dx) c).bind g) = g (f i) := by
      intro g
      rw [Res.bind_eq_ok] at h
      obtain ⟨c, h1, h2⟩ := h
      unfold Fl.mul
      rw [h1, Res.bind_ok, h2, Res.bind_ok]
    rw [h']
    exact wr_sat_fill hl (by omega) hold
  · rintro cov ⟨hl, hold⟩
    refine forRange_sat (fun i (cov : List ℝ) => cov.length = n ∧ ∀ a < i, cov[a]? = some (f a))
      (by omega) ⟨hl, hold⟩ ?_
    rintro i cov hlo hi ⟨hl, hold⟩
    have h := hv i hi
    have e : |(lag n i : ℝ)| = (n : ℝ) - i := by
      have := lag_hi (n := n) hlo 1
      rw [mul_one, mul_one] at this
      have h0 : (i : ℝ) ≤ n := by exact_mod_cast hi.le
      rw [this, abs_sub_comm, abs_of_nonneg (by linarith)]
    rw [e] at h
    unfold covVal1Fl at h
    have h' : ∀ g : ℝ → Res (List ℝ), ((v.cov1Fl lm (dx *ᶠ ((n : ℝ) - i))).bind fun c =>
        (smoothFl lm s (findVariogramRangesFl lm v).1 (dx *ᶠ ((n : ℝ) - i)) c).bind g) = g (f i) := by
      intro g
      rw [Res.bind_eq_ok] at h
      obtain ⟨c, h1, h2⟩ := h
      unfold Fl.mul
      rw [mul_comm dx, h1, Res.bind_ok, h2, Res.bind_ok]
    rw [h']
    exact wr_sat_fill hl hi hold

/-- The values are doubles. -/
theorem covVal1Fl_double {lm : Libm} {v : Variogram} {s dd c : ℝ} (h : covVal1Fl lm v s dd = .ok c) : rnd64 c = c := by
  unfold covVal1Fl Variogram.cov1Fl at h
  simp only [Res.monad_bind_eq, Res.bind_eq_ok] at h
  obtain ⟨c1, ⟨c2, -, h2⟩, h3⟩ := h
  unfold smoothFl at h3
  split at h3
  · simp only [Res.monad_bind_eq, Res.bind_eq_ok] at h3
    obtain ⟨q, -, h4⟩ := h3
    rw [← Res.ok.inj h4]
    unfold Fl.mul
    exact rnd64_idem _
  · rw [← Res.ok.inj h3, ← Res.ok.inj h2]
    unfold Fl.mul
    exact rnd64_idem _

theorem computeFFT1DFl_sat {F : Fftw} {ε : ℝ} (hF : F.Near ε) (vin : List ℝ) (sf : Bool) (hv : 0 < vin.length)
    (htot : vin.length < 2 ^ 31) :
    ∃ r, r.length = vin.length ∧ (∀ x, x < vin.length → r.getD x 0 =
        (if sf then scaleFl vin.length else 1.0) *ᶠ vin.getD x 0) ∧
      (computeFFT1DFl F vin sf).Sat fun z => z.length = vin.length ∧
        ∀ k, k < vin.length / 2 + 1 → z.getD k 0 = (F.r2c1 vin.length r).getD k 0 := by
  set n := vin.length with hn
  set s : ℝ := if sf then scaleFl n else 1.0 with hs
  refine ⟨(List.range n).map fun i => s *ᶠ vin.getD i 0, by simp, fun x hx => getD_range_map _ hx _, ?_⟩
  unfold computeFFT1DFl
  simp only [Res.monad_bind_eq]
  rw [← hn, ← hs]
  have h1 := fill_sat (fun i => some (s *ᶠ vin.getD i 0)) 0 n (uninit n)
    (by simp [uninit])
    (fun i a => (rd vin i).bind fun x => wr a i (some (s *ᶠ x))) (by
      intro i b hi
      simp only [rd_getD (show i < vin.length by omega), Res.bind_ok, zero_add])
  refine h1.bind ?_
  rintro a ⟨ha1, ha2, -⟩
  rw [rd_getD (show 0 < vin.length by omega), Res.bind_ok, planSize_ok htot, Res.bind_ok]
  have ea := eq_map_some (a := a) (n := n) (fun i => s *ᶠ vin.getD i 0) (by rw [ha1]; simp [uninit])
    (fun i hi => by simpa using ha2 i hi)
  rw [ea, initialised_map, Res.bind_ok]
  set r := (List.range n).map fun i => s *ᶠ vin.getD i 0 with hr
  have hrl : r.length = n := by simp [hr]
  have hcl := hF.r2c1_length n r hv hrl
  generalize F.r2c1 n r = c at hcl
  have hcv : ∀ k, k < n / 2 + 1 → rd c k = .ok (c.getD k 0) := by
    intro k hk
    rw [rd_ok (by omega)]; simp [List.getD_eq_getElem?_getD, show k < c.length by omega]
  rw [hcv 0 (by omega), Res.bind_ok, wr_ok (by simp; omega), Res.bind_ok]
  have main := forRange_sat (lo := 1) (hi := n / 2 + 1)
    (s := (List.replicate n (0 : ℂ)).set 0 (c.getD 0 0))
    (body := fun i vout => (rd c i).bind fun c => (wr vout i c).bind fun vout => wr vout (n - i) c)
    (fun i (z : List ℂ) => z.length = n ∧ ∀ k, k < i → z.getD k 0 = c.getD k 0) (by omega)
    ⟨by simp, fun k hk => by
      obtain rfl : k = 0 := by omega
      rw [List.getD_eq_getElem?_getD, List.getElem?_set, if_pos rfl, if_pos (by simp; omega)]; rfl⟩ ?_
  · exact main
  · rintro i z hi1 hi2 ⟨h1, h2⟩
    have hik : i ≤ n / 2 := by omega
    rw [hcv i hi2, Res.bind_ok, wr_ok (by omega), Res.bind_ok,
      wr_ok (by rw [List.length_set]; omega), Res.sat_ok]
    refine ⟨by simpa using h1, fun k hk => ?_⟩
    rw [List.getD_eq_getElem?_getD, List.getElem?_set, List.getElem?_set, List.length_set]
    by_cases hki : k = i
    · subst hki
      by_cases h : n - k = k
      · rw [if_pos h, if_pos (by omega)]; rfl
      · rw [if_neg h, if_pos rfl, if_pos (by omega)]; rfl
    · rw [if_neg (by omega), if_neg (by omega), ← List.getD_eq_getElem?_getD]
      exact h2 k (by omega)

theorem computeFFTInv1DFl_sat {F : Fftw} {ε : ℝ} (hF : F.Near ε) (z : List ℂ) (m : ℕ) (hz : 0 < z.length)
    (hz' : z.length < 2 ^ 31) (ho : m ≤ z.length) :
    (computeFFTInv1DFl F z (List.replicate m 0)).Sat fun b => b.length = m ∧
      ∀ i : ℕ, i < m → b.getD i 0 = (F.c2r1 z.length z).1.getD i 0 *ᶠ scaleFl z.length := by
  unfold computeFFTInv1DFl
  simp only [Res.monad_bind_eq, List.length_replicate]
  rw [planSize_ok hz', Res.bind_ok]
  have hl := hF.c2r1_length z.length z hz (by omega)
  have := fill_sat (fun i => (F.c2r1 z.length z).1.getD i 0 *ᶠ scaleFl z.length) 0 m (List.replicate m 0) (by simp)
    (fun i vout => (rd (F.c2r1 z.length z).1 i).bind fun x => wr vout i (x *ᶠ scaleFl z.length)) (by
      intro i b hi
      rw [rd_getD (by omega), Res.bind_ok, zero_add])
  refine this.mono ?_
  rintro b ⟨h1, h2, -⟩
  refine ⟨by simpa using h1, fun i hi => ?_⟩
  have := h2 i hi
  rw [zero_add] at this
  exact getD_of_some this

/-- The bound for one field: `g` is the error of the filter, `W` the noise. -/
noncomputable def bound1 (n : ℕ) (hn : 0 < n) (ε : ℝ) (g : ℤ → ℝ) (W : ℕ → ℝ) : ℝ :=
  errBound (cyc n hn) (half1 n hn) ε g (fun x => W x.toNat)

/-- From a run on the cycle to the specification. -/
theorem near1_of_run {nx n : ℕ} (hn : 0 < n) (hnx : nx ≤ n)
    {C : ℕ → ℝ} {ε : ℝ} {g : ℤ → ℝ} {w X data : List ℝ} (hX : ∀ i, i < nx → data.getD i 0 = X.getD i 0)
    (h : l2 (cyc n hn).box (fun x => ((X.getD x.toNat 0 : ℝ) : ℂ)
          - ((∑ y ∈ (cyc n hn).box, (cyc n hn).ker (ext1 n C) (x - y) * w.getD y.toNat 0 : ℝ) : ℂ))
        ≤ bound1 n hn ε g fun a => w.getD a 0) :
    √(sqErr1 nx n C (fun a => w.getD a 0) data) ≤ bound1 n hn ε g fun a => w.getD a 0 := by
  unfold sqErr1
  refine le_trans ?_ h
  have e : (fun x : ℤ => ((X.getD x.toNat 0 : ℝ) : ℂ)
          - ((∑ y ∈ (cyc n hn).box, (cyc n hn).ker (ext1 n C) (x - y) * w.getD y.toNat 0 : ℝ) : ℂ))
      = fun x => ((X.getD x.toNat 0
          - ∑ y ∈ (cyc n hn).box, (cyc n hn).ker (ext1 n C) (x - y) * w.getD y.toNat 0 : ℝ) : ℂ) := by
    funext x; push_cast; rfl
  rw [e, l2_real]
  apply Real.sqrt_le_sqrt
  rw [cyc_sum_real hn fun x => (X.getD x.toNat 0
          - ∑ y ∈ (cyc n hn).box, (cyc n hn).ker (ext1 n C) (x - y) * w.getD y.toNat 0) ^ 2]
  refine le_trans (le_of_eq (Finset.sum_congr rfl fun i hi => by rw [hX i (mem_range.1 hi)])) ?_
  refine le_trans (Finset.sum_le_sum_of_subset_of_nonneg (range_subset_range.2 hnx) fun i _ _ => sq_nonneg _) ?_
  refine le_of_eq (Finset.sum_congr rfl fun i _ => ?_)
  rw [field1_eq]
  simp

/-- The part of `Simulate1DGaussianField` after the noise is drawn. -/
theorem tail1Fl_sat {F : Fftw} {ε δ : ℝ} (hF : F.Near ε) (hu : u ≤ ε) (hε : ε ≤ 2⁻¹ ^ 20) (hδ : 0 ≤ δ)
    (hδ' : δ ≤ 2⁻¹) {n : ℕ} (hn : 0 < n) (hn' : n < 2 ^ 31) (cov : List ℝ)
    (hc : cov.length = n) {C : ℕ → ℝ} (hC : ∀ a < n, |C a| ≤ 1)
    (hd : ∀ a < n, |cov.getD a 0 - C a| ≤ δ) (hr : ∀ a < n, rnd64 (cov.getD a 0) = cov.getD a 0)
    (out_size : ℕ) (ho : out_size ≤ n) :
    ∃ c' z' f', ErrFilter (cyc n hn) (half1 n hn) ε δ (ext1 n C) c' z' f' ∧ ∀ w : List ℝ, w.length = n →
    ((computeFFT1DFl F cov false).bind fun cov_fft =>
      (computeFFT1DFl F w true).bind fun noise_fft =>
      (clipSqrtLoopFl cov_fft.length cov_fft).bind fun cov_fft' =>
      (forRange 0 cov_fft'.length (fun i convolve => (rd cov_fft' i).bind fun x =>
        (rd noise_fft i).bind fun y => wr convolve i (cmulFl x y))
        (List.replicate cov_fft.length (0 : ℂ))).bind fun convolve =>
      (computeFFTInv1DFl F convolve (List.replicate n 0)).bind fun tmp =>
      forRange 0 out_size (fun i out => (rd tmp i).bind fun x => wr out i x)
        (List.replicate out_size 0)).Sat
      fun out => out.length = out_size ∧ √(sqErr1 out_size n C (fun a => w.getD a 0) out)
        ≤ bound1 n hn ε (fun k => f' k - (cyc n hn).amp (ext1 n C) k) fun a => w.getD a 0 := by
  obtain ⟨r1, lr1, vr1, cf, e1, hl1, hv1⟩ := computeFFT1DFl_sat hF cov false (by omega) (by omega)
  rw [hc] at lr1 vr1 hl1 hv1
  simp only [Bool.false_eq_true, if_false] at vr1
  have vr1' : ∀ x < n, r1.getD x 0 = cov.getD x 0 := by
    intro x hx
    rw [vr1 x hx]
    unfold Fl.mul
    rw [show (1.0 : ℝ) = 1 by norm_num, one_mul, hr x hx]
  set f' : ℤ → ℝ := fun k => rnd64 √(max ((F.r2c1 n r1).getD k.toNat 0).re 0) with hf'
  have mem : ∀ k ∈ half1 n hn, k.toNat < n / 2 + 1 := fun k hk => (mem_filter.1 hk).2
  have hbox : ∀ x ∈ (cyc n hn).box, x.toNat < n := by
    intro x hx
    obtain ⟨m, hm, rfl⟩ := mem_cyc.1 hx
    simpa using hm
  have hsub : half1 n hn ⊆ (cyc n hn).box := filter_subset _ _
  have hdft : ∀ (r : List ℝ) (k : ℕ), (cyc n hn).dft (fun x => ((r.getD x.toNat 0 : ℝ) : ℂ)) (k : ℤ)
      = dft1 n (fun x => (r.getD x 0 : ℂ)) k := by
    intro r k
    rw [cyc_dft]
    simp
  have K : ErrFilter (cyc n hn) (half1 n hn) ε δ (ext1 n C) (fun x => r1.getD x.toNat 0)
      (fun k => (F.r2c1 n r1).getD k.toNat 0) f' := by
    refine ⟨hsub, hu, hε, hδ, hδ', ?_, ?_, ?_, fun k _ => rfl⟩
    · intro x hx
      obtain ⟨m, hm, rfl⟩ := mem_cyc.1 hx
      rw [ext1_nat C hm]
      exact hC m hm
    · intro x hx
      obtain ⟨m, hm, rfl⟩ := mem_cyc.1 hx
      rw [ext1_nat C hm, Int.toNat_natCast, vr1' m hm]
      exact hd m hm
    · have := hF.r2c1_near n r1 hn lr1
      rw [l2_half1, l2_cyc]
      simp only [hdft, Int.toNat_natCast]
      unfold tau
      exact this
  refine ⟨_, _, f', K, fun w hw => ?_⟩
  obtain ⟨r2, lr2, vr2, nf, e2, hl2, hv2⟩ := computeFFT1DFl_sat hF w true (by omega) (by omega)
  rw [hw] at lr2 vr2 hl2 hv2
  simp only [if_true] at vr2
  rw [e1, Res.bind_ok, e2, Res.bind_ok]
  refine (clipSqrtLoopFl_sat cf).bind ?_
  rintro cf' ⟨hl3, hv3⟩
  have hprod := fill_sat (fun i => cmulFl (cf'.getD i 0) (nf.getD i 0)) 0 cf'.length
    (List.replicate cf.length (0 : ℂ)) (by simp; omega)
    (fun i convolve => (rd cf' i).bind fun x =>
        (rd nf i).bind fun y => wr convolve i (cmulFl x y)) (by
      intro i b hi
      have a1 : rd cf' i = .ok (cf'.getD i 0) := by
        rw [rd_ok hi]; simp [List.getD_eq_getElem?_getD, hi]
      have a2 : rd nf i = .ok (nf.getD i 0) := by
        rw [rd_ok (by omega)]; simp [List.getD_eq_getElem?_getD, show i < nf.length by omega]
      rw [a1, Res.bind_ok, a2, Res.bind_ok, zero_add])
  refine hprod.bind ?_
  rintro z ⟨hlz, hvz, -⟩
  have hlz' : z.length = n := by rw [hlz]; simp [hl1]
  have hvz' : ∀ k : ℕ, k < n → z.getD k 0 = cmulFl (cf'.getD k 0) (nf.getD k 0) := by
    intro k hk
    have := hvz k (by omega)
    rw [zero_add] at this
    exact getD_of_some this
  obtain ⟨tmp, e5, hl5, hv5⟩ := computeFFTInv1DFl_sat hF z n (by omega) (by omega) (by omega)
  rw [hlz'] at hv5
  rw [e5, Res.bind_ok]
  have hcopy := fill_sat (fun i => tmp.getD i 0) 0 out_size (List.replicate out_size (0 : ℝ))
    (by simp) (fun i out => (rd tmp i).bind fun x => wr out i x) (by
      intro i b hi
      rw [rd_getD (by omega), Res.bind_ok, zero_add])
  refine hcopy.mono ?_
  rintro out ⟨ho1, ho2, -⟩
  refine ⟨by simpa using ho1, ?_⟩
  have hoX : ∀ i, i < out_size → out.getD i 0 = tmp.getD i 0 := by
    intro i hi
    have := ho2 i hi
    rw [zero_add] at this
    exact getD_of_some this
  refine near1_of_run hn ho (X := tmp) hoX ?_
  have hNle : ((cyc n hn).N : ℝ) ≤ 2 ^ 100 := by
    have : n ≤ 2 ^ 100 := hn'.le.trans (by norm_num)
    have h2 : ((cyc n hn).N : ℝ) = n := rfl
    rw [h2]
    exact_mod_cast this
  have R : ErrRun (cyc n hn) (half1 n hn) ε ((cyc n hn).amp (ext1 n C)) (fun x => w.getD x.toNat 0) (scaleFl n)
      (fun x => r2.getD x.toNat 0) (fun k => (F.r2c1 n r2).getD k.toNat 0) f' (fun k => z.getD k.toNat 0)
      (fun x => (F.c2r1 n z).1.getD x.toNat 0) (fun x => tmp.getD x.toNat 0) := by
    refine ⟨hsub, hu, hε, hNle, fun k l h => (cyc n hn).amp_congr h, fun k => (cyc n hn).amp_neg _ k, K.amp_le,
      scaleFl_err (cyc n hn).N_pos hNle, ?_, ?_, fun k hk => K.f'_le hk, ?_, ?_, ?_⟩
    · intro x hx
      rw [vr2 _ (hbox x hx)]
      unfold Fl.mul
      rw [mul_comm]; exact rnd_err _
    · have := hF.r2c1_near n r2 hn lr2
      rw [l2_half1, l2_cyc]
      simp only [hdft, Int.toNat_natCast]
      unfold tau
      exact this
    · intro k hk
      have hk1 := mem k hk
      have hk2 := hbox k (hsub hk)
      rw [hvz' _ hk2, hv3 _ (by omega), hv1 _ hk1, hv2 _ hk1]
      have : ((rnd64 √(max ((F.r2c1 n r1).getD k.toNat 0).re 0) : ℝ) : ℂ) = ((f' k : ℝ) : ℂ) := rfl
      rw [this, cmulFl_real']
      exact cmul_err _ _
    · intro Z hper hherm
      have := hF.c2r1_near n z (fun k => Z k) hn (by omega) (by
        intro k hk
        rw [← hherm]
        exact hper _ _ (opp_cast hn k hk))
      rw [l2_half1, l2_cyc, l2_cyc]
      simp only [cyc_idft, Int.toNat_natCast]
      unfold tau
      exact this
    · intro x hx
      rw [hv5 _ (hbox x hx)]; exact rnd_err _
  have := R.field_err_bound
  refine le_trans (le_of_eq (l2_congr fun x _ => ?_)) this
  rw [(cyc n hn).idft_amp_mul (ext1 n C) (fun x => w.getD x.toNat 0)]
  have n0 : ((cyc n hn).N : ℂ) ≠ 0 := by exact_mod_cast (cyc n hn).N_pos.ne'
  push_cast
  rw [mul_div_cancel_left₀ _ n0]

end Verif
