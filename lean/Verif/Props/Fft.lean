import Verif.Lemmas.FieldBase
import Verif.Props.FftSize
import Verif.Props.Padding

/-!
# C35, C36: the FFT grids

All theorems hold for every `Fftw` with the documented behaviour `Fftw.Laws`; `refFftw_laws` shows
that there is one.
-/

namespace Verif

open Finset Spec

/-- There is a transform with the documented behaviour of FFTW. -/
theorem fftw_laws_inhabited : ∃ F : Fftw, F.Laws := ⟨refFftw, refFftw_laws⟩

/-! ## C35: round trip -/

/-- **C35, two dimensions.** `DoFFT` then `DoInverseFFT` gives back the data, for both settings
of the scaling flag. -/
theorem fftGrid2D_roundtrip {F : Fftw} (hF : F.Laws) (g : FFTGrid2D)
    (hi : 0 < g.ni_tot ∧ g.ni_tot < 2 ^ 31) (hj : 0 < g.nj_tot ∧ g.nj_tot < 2 ^ 31)
    (hr : g.real_data.length = g.ni_tot * g.nj_tot)
    (hc : g.complex_data.length = (g.ni_tot / 2 + 1) * g.nj_tot) :
    ∃ g1 g2, g.doFFT F = .ok g1 ∧ g1.doInverseFFT F = .ok g2 ∧
      g2 = { g with complex_data := g2.complex_data } := by
  have hg : g.WF := ⟨hi.1, hj.1, hi.2, hj.2, hr, hc⟩
  have hf := (g.layout hF hg).holds_self g.real_data (hr.trans (FFTGrid2D.box_N hj.1 hi.1).symm)
  obtain ⟨g1, e1, d, c, rfl, hg1, hd, hc1⟩ := g.doFFT_sat hF hg hf
  obtain ⟨g2, e2, d2, c2, rfl, hg2, hd2⟩ := FFTGrid2D.doInverseFFT_sat hF _ hg1 hc1
    (fun k l h => (box2 _ _ _ _).dft_congr h) (fun k => Flat.dft_real_herm _ k)
  refine ⟨_, _, e1, e2, ?_⟩
  have := (g.layout hF hg).roundtrip g.scale_forward hf (b := d2) (by
    rw [FFTGrid2D.box_N]; exact hd2)
  simp only [this]

/-- **C35, three dimensions.** -/
theorem fftGrid3D_roundtrip {F : Fftw} (hF : F.Laws) (g : FFTGrid3D)
    (hi : 0 < g.ni_tot ∧ g.ni_tot < 2 ^ 31) (hj : 0 < g.nj_tot ∧ g.nj_tot < 2 ^ 31)
    (hk : 0 < g.nk_tot ∧ g.nk_tot < 2 ^ 31)
    (hr : g.real_data.length = g.ni_tot * g.nj_tot * g.nk_tot)
    (hc : g.complex_data.length = (g.ni_tot / 2 + 1) * g.nj_tot * g.nk_tot) :
    ∃ g1 g2, g.doFFT F = .ok g1 ∧ g1.doInverseFFT F = .ok g2 ∧
      g2 = { g with complex_data := g2.complex_data } := by
  have hg : g.WF := ⟨hi.1, hj.1, hk.1, hi.2, hj.2, hk.2, hr, hc⟩
  have hf := (g.layout hF hg).holds_self g.real_data (hr.trans (FFTGrid3D.box_N g hg).symm)
  obtain ⟨g1, e1, d, c, rfl, hg1, hd, hc1⟩ := g.doFFT_sat hF hg hf
  obtain ⟨g2, e2, d2, c2, rfl, hg2, hd2⟩ := FFTGrid3D.doInverseFFT_sat hF _ hg1 hc1
    (fun k l h => (box3 _ _ _ _ _ _).dft_congr h) (fun k => Flat.dft_real_herm _ k)
  refine ⟨_, _, e1, e2, ?_⟩
  have := (g.layout hF hg).roundtrip g.scale_forward hf (b := d2) (by
    rw [FFTGrid3D.box_N]; exact hd2)
  simp only [this]

/-- The padding requested by `minPadSize` in `ComputeFFT1D`: as much as there is data if it is
negative. -/
def requested (n : ℕ) (minPad : ℤ) : ℕ := if minPad < 0 then n else minPad.toNat

/-- **C35, one dimension.** `ComputeFFT1D` with any padding, then `ComputeFFTInv1D` with the same
flag into a vector that is not longer than the data, gives back the data. The previous contents of
the two output vectors make no difference. -/
theorem fft1D_roundtrip {F : Fftw} (hF : F.Laws) (p : Platform) (vin : List ℝ) (vout : List ℂ)
    (out : List ℝ) (sf : Bool) (minPad : ℤ) (hv : 0 < vin.length) (ho : out.length ≤ vin.length)
    (hsize : minPad ≠ 0 → SizeOk p (requested vin.length minPad + vin.length))
    (hfit : 2 * (requested vin.length minPad + vin.length) ≤ 2 ^ 31) :
    ∃ z, computeFFT1D F p vin vout sf minPad = .ok z ∧
      computeFFTInv1D F z out sf = .ok (vin.take out.length) := by
  have hpad : ∃ pad, padSize1D p vin.length minPad = .ok pad ∧ vin.length + pad < 2 ^ 31 := by
    by_cases h0 : minPad = 0
    · subst h0
      refine ⟨0, padSize1D_zero _ _, ?_⟩
      omega
    · have hr : requested vin.length minPad ≠ 0 := by
        unfold requested
        split <;> omega
      obtain ⟨r, hr1, hr2, hr3⟩ := findNewSize_lt_two_mul p _ false (hsize h0) (by simp)
      refine ⟨r - vin.length, ?_, by omega⟩
      unfold padSize1D
      simp only [Res.monad_bind_eq]
      rw [← requested, if_pos hr]
      have e : wrap64 ((requested vin.length minPad : ℤ) + (vin.length : ℤ))
          = requested vin.length minPad + vin.length := by
        rw [← Nat.cast_add]
        exact wrap64_natCast (by omega)
      rw [e, hr1, Res.bind_ok]
      congr 1
      have : ((r : ℤ) - (vin.length : ℤ)) = ((r - vin.length : ℕ) : ℤ) := by omega
      rw [this]
      exact wrap64_natCast (by omega)
  obtain ⟨pad, hpad, htot⟩ := hpad
  obtain ⟨z, e1, hl, hz, -⟩ := computeFFT1D_sat hF p vin vout sf minPad pad hv hpad htot
  refine ⟨z, e1, ?_⟩
  have hz0 : 0 < z.length := by omega
  obtain ⟨b, e2, hb1, hb2⟩ := computeFFTInv1D_sat hF z out sf hz0 (by omega) (by omega)
    (fun k => (cyc z.length hz0).dft (fun x =>
      ((fwdScale1 sf z.length * padded vin pad x.toNat : ℝ) : ℂ)) k)
    (fun k l h => (cyc z.length hz0).dft_congr h) (fun k => Flat.dft_real_herm _ k) (by
      intro k hk
      rw [hl] at hk
      rw [hz k hk, cyc_dft, hl]
      rfl)
  rw [e2]
  congr 1
  apply List.ext_getElem?
  intro i
  by_cases hi : i < out.length
  · rw [hb2 i hi]
    have hx : (i : ℤ) ∈ (cyc z.length hz0).box := mem_cyc_nat.2 (by omega)
    have := (cyc z.length hz0).idft_dft
      (fun x => ((fwdScale1 sf z.length * padded vin pad x.toNat : ℝ) : ℂ)) hx
    change some (((cyc z.length hz0).idft ((cyc z.length hz0).dft _) _).re * _) = _
    rw [this]
    have hN : (cyc z.length hz0).N = z.length := rfl
    rw [hN, ← Complex.ofReal_natCast, ← Complex.ofReal_mul, Complex.ofReal_re]
    have hs := scales1_mul sf hz0
    rw [List.getElem?_take, if_pos hi, List.getElem?_eq_getElem (by omega)]
    congr 1
    have hp : padded vin pad (i : ℤ).toNat = vin[i] := by
      simp only [Int.toNat_natCast, padded]
      rw [if_pos (by omega)]
      simp [List.getD_eq_getElem?_getD, show i < vin.length by omega]
    rw [hp]
    linear_combination vin[i] * hs
  · rw [List.getElem?_eq_none (by omega), List.getElem?_eq_none (by simp; omega)]

/-- An instance with padding: five values, default padding. -/
example : ∃ z, computeFFT1D refFftw exactPlatform [1, 2, 3, 5, 8] [] true (-1) = .ok z ∧
    computeFFTInv1D refFftw z [0, 0, 0, 0] true = .ok [1, 2, 3, 5] :=
  fft1D_roundtrip refFftw_laws exactPlatform _ _ [0, 0, 0, 0] true (-1) (by simp) (by simp)
    (fun _ => sizeOk_exact (by simp [requested]) (by simp [requested])) (by simp [requested])

/-- A 3 x 2 grid meets the hypotheses. -/
example : ∃ g1 g2, (⟨true, 3, 2, 3, 2, [1, 2, 3, 4, 5, 6], [0, 0, 0, 0]⟩ : FFTGrid2D).doFFT refFftw
      = .ok g1 ∧ g1.doInverseFFT refFftw = .ok g2 ∧ g2.real_data = [1, 2, 3, 4, 5, 6] := by
  obtain ⟨g1, g2, h1, h2, h3⟩ := fftGrid2D_roundtrip refFftw_laws
    ⟨true, 3, 2, 3, 2, [1, 2, 3, 4, 5, 6], [0, 0, 0, 0]⟩ (by simp) (by simp) (by simp) (by simp)
  exact ⟨g1, g2, h1, h2, by rw [h3]⟩

/-- A 2 x 1 x 2 grid meets the hypotheses. -/
example : ∃ g1 g2, (⟨false, 2, 1, 2, 2, 1, 2, [1, 2, 3, 4], [0, 0, 0, 0]⟩ : FFTGrid3D).doFFT refFftw
      = .ok g1 ∧ g1.doInverseFFT refFftw = .ok g2 ∧ g2.real_data = [1, 2, 3, 4] := by
  obtain ⟨g1, g2, h1, h2, h3⟩ := fftGrid3D_roundtrip refFftw_laws
    ⟨false, 2, 1, 2, 2, 1, 2, [1, 2, 3, 4], [0, 0, 0, 0]⟩
    (by simp) (by simp) (by simp) (by simp) (by simp)
  exact ⟨g1, g2, h1, h2, by rw [h3]⟩

/-! ## C36: convolution -/

/-- The position reached from `i` by going back `a` cells on a cycle of `n`. -/
def backward (n i a : ℕ) : ℕ := (i + n - a) % n

theorem red_sub {n i a : ℕ} (_hi : i < n) (ha : a < n) : red n ((i : ℤ) - (a : ℤ)) = backward n i a := by
  unfold backward
  have h : (n : ℤ) ∣ ((i : ℤ) - a) - (((i + n - a) % n : ℕ) : ℤ) := by
    have h1 : ((i + n - a : ℕ) : ℤ) = (i : ℤ) + n - a := by omega
    have h2 : (n : ℤ) ∣ ((i + n - a : ℕ) : ℤ) - (((i + n - a) % n : ℕ) : ℤ) := by
      rw [Int.natCast_emod]
      exact Int.dvd_self_sub_emod
    rw [h1] at h2
    have : ((i : ℤ) - a) - (((i + n - a) % n : ℕ) : ℤ)
        = ((i : ℤ) + n - a) - (((i + n - a) % n : ℕ) : ℤ) - n := by ring
    rw [this]
    exact Int.dvd_sub h2 (dvd_refl _)
  rw [red_congr h, red_nat (Nat.mod_lt _ (by omega))]

/-- **C36, two dimensions.** `Convolve` leaves the circular convolution of the two data arrays in
the grid, divided by the square root of the number of cells if the filter was built with
`scale_forward`. -/
theorem fftGrid2D_convolve {F : Fftw} (hF : F.Laws) (g h : FFTGrid2D)
    (hi : 0 < g.ni_tot ∧ g.ni_tot < 2 ^ 31) (hj : 0 < g.nj_tot ∧ g.nj_tot < 2 ^ 31)
    (hr : g.real_data.length = g.ni_tot * g.nj_tot)
    (hc : g.complex_data.length = (g.ni_tot / 2 + 1) * g.nj_tot)
    (ei : h.ni_tot = g.ni_tot) (ej : h.nj_tot = g.nj_tot)
    (hr' : h.real_data.length = g.ni_tot * g.nj_tot)
    (hc' : h.complex_data.length = (g.ni_tot / 2 + 1) * g.nj_tot) :
    ∃ g' h', g.convolve F h = .ok (g', h') ∧ g'.real_data.length = g.ni_tot * g.nj_tot ∧
      ∀ i j, i < g.ni_tot → j < g.nj_tot → g'.real_data[i + g.ni_tot * j]? = some (
        (if h.scale_forward then 1 / Real.sqrt (g.ni_tot * g.nj_tot) else 1) *
        ∑ b ∈ range g.nj_tot, ∑ a ∈ range g.ni_tot,
          g.real_data.getD (a + g.ni_tot * b) 0 *
          h.real_data.getD (backward g.ni_tot i a + g.ni_tot * backward g.nj_tot j b) 0) := by
  obtain ⟨hsf, hni, hnj, hnit, hnjt, hrd, hcd⟩ := h
  simp only at ei ej hr' hc'
  subst ei ej
  have hg : g.WF := ⟨hi.1, hj.1, hi.2, hj.2, hr, hc⟩
  set h : FFTGrid2D := ⟨hsf, hni, hnj, g.ni_tot, g.nj_tot, hrd, hcd⟩ with hdef
  have hh : h.WF := ⟨hi.1, hj.1, hi.2, hj.2, hr', hc'⟩
  have hN := FFTGrid2D.box_N hj.1 hi.1
  have hf := (g.layout hF hg).holds_self g.real_data (hr.trans hN.symm)
  -- periodic extension of the filter data
  let w : ℤ × ℤ → ℝ := fun x => hrd.getD (red g.nj_tot x.1 * g.ni_tot + red g.ni_tot x.2) 0
  have hw : (h.layout hF hh).Holds h.real_data w := by
    have := (h.layout hF hh).holds_self h.real_data (hr'.trans hN.symm)
    refine ⟨this.1, fun x hx => ?_⟩
    rw [this.2 x hx]
    obtain ⟨a, b, ha, hb, rfl⟩ := mem_box2.1 hx
    have ha' : a < g.nj_tot := ha
    have hb' : b < g.ni_tot := hb
    simp only [w, red_nat ha', red_nat hb']
    rfl
  have hwper : ∀ x y, (box2 g.nj_tot g.ni_tot hj.1 hi.1).per (x - y) → w x = w y := by
    rintro ⟨x, x'⟩ ⟨y, y'⟩ ⟨e1, e2⟩
    simp only [w]
    rw [red_congr e1, red_congr e2]
  obtain ⟨g1, e1, d1, c1, rfl, hg1, hd1, hc1⟩ := g.doFFT_sat hF hg hf
  obtain ⟨h1, e2, d2, c2, rfl, hh1, hd2, hc2⟩ := h.doFFT_sat hF hh hw
  obtain ⟨c3, e3, hc3⟩ := (g.layout hF hg).mul_holds hc1 hc2
  have hM : (g.layout hF hg).M = g.complexSize := Nat.mul_comm _ _
  have hg3 : FFTGrid2D.WF { g with real_data := d1, complex_data := c3 } :=
    ⟨hi.1, hj.1, hi.2, hj.2, hg1.hr, hc3.1.trans hM⟩
  obtain ⟨g4, e4, d4, c4, rfl, hg4, hd4⟩ := FFTGrid2D.doInverseFFT_sat hF _ hg3 hc3
    (fun k l hkl => by
      rw [(box2 g.nj_tot g.ni_tot hj.1 hi.1).dft_congr hkl,
        (box2 g.nj_tot g.ni_tot hj.1 hi.1).dft_congr hkl])
    (fun k => by rw [map_mul, ← Flat.dft_real_herm, ← Flat.dft_real_herm])
  rw [hM] at e3
  refine ⟨_, { h with real_data := d2, complex_data := c2 }, ?_, hg4.hr, ?_⟩
  · simp only [FFTGrid2D.convolve, Res.monad_bind_eq, e1, e2, Res.bind_ok]
    rw [show FFTGrid2D.complexSize { g with real_data := d1, complex_data := c1 } = g.complexSize
      from rfl, e3, Res.bind_ok, e4, Res.bind_ok]
  · intro i j hi' hj'
    have hx : (((j : ℤ), (i : ℤ)) : ℤ × ℤ) ∈ (box2 g.nj_tot g.ni_tot hj.1 hi.1).box :=
      mem_box2.2 ⟨j, i, hj', hi', rfl⟩
    have hval := hd4.2 _ hx
    have hs := scales_mul g.scale_forward (box2 g.nj_tot g.ni_tot hj.1 hi.1).N_pos
    rw [hN] at hs
    have hp := Flat.prod_value (P := box2 g.nj_tot g.ni_tot hj.1 hi.1)
      (fun x => g.real_data.getD ((g.layout hF hg).pos x) 0) w hwper
      (fwdScale g.scale_forward (g.ni_tot * g.nj_tot)) (fwdScale h.scale_forward (g.ni_tot * g.nj_tot))
      (invScale g.scale_forward (g.ni_tot * g.nj_tot)) (by rw [hN]; exact hs) ((j : ℤ), (i : ℤ))
    have e : i + g.ni_tot * j = j * g.ni_tot + i := by ring
    rw [e]
    refine hval.trans (congrArg some (hp.trans ?_))
    rw [box2_sum_real]
    congr 1
    · simp only [fwdScale, hdef]
      cases hsf
      · rfl
      · simp only [if_true]; norm_num
    · refine Finset.sum_congr rfl fun b hb => Finset.sum_congr rfl fun a ha => ?_
      rw [mem_range] at hb ha
      have e1 : (g.layout hF hg).pos ((b : ℤ), (a : ℤ)) = a + g.ni_tot * b := by
        change b * g.ni_tot + a = _
        ring
      simp only [e1, w]
      congr 2
      change red g.nj_tot ((j : ℤ) - (b : ℤ)) * g.ni_tot + red g.ni_tot ((i : ℤ) - (a : ℤ)) = _
      rw [red_sub hj' hb, red_sub hi' ha]
      ring

/-- **C36, three dimensions.** -/
theorem fftGrid3D_convolve {F : Fftw} (hF : F.Laws) (g h : FFTGrid3D)
    (hi : 0 < g.ni_tot ∧ g.ni_tot < 2 ^ 31) (hj : 0 < g.nj_tot ∧ g.nj_tot < 2 ^ 31)
    (hk : 0 < g.nk_tot ∧ g.nk_tot < 2 ^ 31)
    (hr : g.real_data.length = g.ni_tot * g.nj_tot * g.nk_tot)
    (hc : g.complex_data.length = (g.ni_tot / 2 + 1) * g.nj_tot * g.nk_tot)
    (ei : h.ni_tot = g.ni_tot) (ej : h.nj_tot = g.nj_tot) (ek : h.nk_tot = g.nk_tot)
    (hr' : h.real_data.length = g.ni_tot * g.nj_tot * g.nk_tot)
    (hc' : h.complex_data.length = (g.ni_tot / 2 + 1) * g.nj_tot * g.nk_tot) :
    ∃ g' h', g.convolve F h = .ok (g', h') ∧
      g'.real_data.length = g.ni_tot * g.nj_tot * g.nk_tot ∧
      ∀ i j k, i < g.ni_tot → j < g.nj_tot → k < g.nk_tot →
        g'.real_data[i + g.ni_tot * j + g.ni_tot * g.nj_tot * k]? = some (
        (if h.scale_forward then 1 / Real.sqrt (g.ni_tot * g.nj_tot * g.nk_tot) else 1) *
        ∑ c ∈ range g.nk_tot, ∑ b ∈ range g.nj_tot, ∑ a ∈ range g.ni_tot,
          g.real_data.getD (a + g.ni_tot * b + g.ni_tot * g.nj_tot * c) 0 *
          h.real_data.getD (backward g.ni_tot i a + g.ni_tot * backward g.nj_tot j b
            + g.ni_tot * g.nj_tot * backward g.nk_tot k c) 0) := by
  obtain ⟨hsf, hni, hnj, hnk, hnit, hnjt, hnkt, hrd, hcd⟩ := h
  simp only at ei ej ek hr' hc'
  subst ei ej ek
  have hg : g.WF := ⟨hi.1, hj.1, hk.1, hi.2, hj.2, hk.2, hr, hc⟩
  set h : FFTGrid3D := ⟨hsf, hni, hnj, hnk, g.ni_tot, g.nj_tot, g.nk_tot, hrd, hcd⟩ with hdef
  have hh : h.WF := ⟨hi.1, hj.1, hk.1, hi.2, hj.2, hk.2, hr', hc'⟩
  have hN := FFTGrid3D.box_N g hg
  have hf := (g.layout hF hg).holds_self g.real_data (hr.trans hN.symm)
  let w : ℤ × ℤ × ℤ → ℝ := fun x =>
    hrd.getD ((red g.nk_tot x.1 * g.nj_tot + red g.nj_tot x.2.1) * g.ni_tot + red g.ni_tot x.2.2) 0
  have hw : (h.layout hF hh).Holds h.real_data w := by
    have := (h.layout hF hh).holds_self h.real_data (hr'.trans hN.symm)
    refine ⟨this.1, fun x hx => ?_⟩
    rw [this.2 x hx]
    obtain ⟨a, b, c, ha, hb, hc, rfl⟩ := mem_box3.1 hx
    have ha' : a < g.nk_tot := ha
    have hb' : b < g.nj_tot := hb
    have hc' : c < g.ni_tot := hc
    simp only [w, red_nat ha', red_nat hb', red_nat hc']
    rfl
  have hwper : ∀ x y, (g.pbox hg).per (x - y) → w x = w y := by
    rintro ⟨x, x', x''⟩ ⟨y, y', y''⟩ ⟨e1, e2, e3⟩
    simp only [w]
    rw [red_congr e1, red_congr e2, red_congr e3]
  obtain ⟨g1, e1, d1, c1, rfl, hg1, hd1, hc1⟩ := g.doFFT_sat hF hg hf
  obtain ⟨h1, e2, d2, c2, rfl, hh1, hd2, hc2⟩ := h.doFFT_sat hF hh hw
  obtain ⟨c3, e3, hc3⟩ := (g.layout hF hg).mul_holds hc1 hc2
  have hM := FFTGrid3D.complexSize_eq hF g hg
  have hg3 : FFTGrid3D.WF { g with real_data := d1, complex_data := c3 } :=
    ⟨hi.1, hj.1, hk.1, hi.2, hj.2, hk.2, hg1.hr, hc3.1.trans hM⟩
  obtain ⟨g4, e4, d4, c4, rfl, hg4, hd4⟩ := FFTGrid3D.doInverseFFT_sat hF _ hg3 hc3
    (fun k l hkl => by
      rw [(g.pbox hg).dft_congr hkl]
      congr 1
      exact (g.pbox hg).dft_congr hkl)
    (fun k => by rw [map_mul, ← Flat.dft_real_herm, ← Flat.dft_real_herm])
  rw [hM] at e3
  refine ⟨_, { h with real_data := d2, complex_data := c2 }, ?_, hg4.hr, ?_⟩
  · simp only [FFTGrid3D.convolve, Res.monad_bind_eq, e1, e2, Res.bind_ok]
    rw [show FFTGrid3D.complexSize { g with real_data := d1, complex_data := c1 } = g.complexSize
      from rfl, e3, Res.bind_ok, e4, Res.bind_ok]
  · intro i j k hi' hj' hk'
    have hx : (((k : ℤ), (j : ℤ), (i : ℤ)) : ℤ × ℤ × ℤ) ∈ (g.pbox hg).box :=
      mem_box3.2 ⟨k, j, i, hk', hj', hi', rfl⟩
    have hval := hd4.2 _ hx
    have hs := scales_mul g.scale_forward (g.pbox hg).N_pos
    rw [hN] at hs
    have hp := Flat.prod_value (P := g.pbox hg)
      (fun x => g.real_data.getD ((g.layout hF hg).pos x) 0) w hwper
      (fwdScale g.scale_forward (g.ni_tot * g.nj_tot * g.nk_tot))
      (fwdScale h.scale_forward (g.ni_tot * g.nj_tot * g.nk_tot))
      (invScale g.scale_forward (g.ni_tot * g.nj_tot * g.nk_tot)) (by rw [hN]; exact hs)
      ((k : ℤ), (j : ℤ), (i : ℤ))
    have e : i + g.ni_tot * j + g.ni_tot * g.nj_tot * k
        = (k * g.nj_tot + j) * g.ni_tot + i := by ring
    rw [e]
    refine hval.trans (congrArg some (hp.trans ?_))
    unfold FFTGrid3D.pbox
    rw [box3_sum_real]
    congr 1
    · simp only [fwdScale, hdef]
      cases hsf
      · rfl
      · simp only [if_true]; norm_num
    · refine Finset.sum_congr rfl fun c hc => Finset.sum_congr rfl fun b hb =>
        Finset.sum_congr rfl fun a ha => ?_
      rw [mem_range] at hb ha hc
      have e1 : (g.layout hF hg).pos ((c : ℤ), (b : ℤ), (a : ℤ))
          = a + g.ni_tot * b + g.ni_tot * g.nj_tot * c := by
        change (c * g.nj_tot + b) * g.ni_tot + a = _
        ring
      simp only [e1, w]
      congr 2
      change (red g.nk_tot ((k : ℤ) - (c : ℤ)) * g.nj_tot + red g.nj_tot ((j : ℤ) - (b : ℤ)))
        * g.ni_tot + red g.ni_tot ((i : ℤ) - (a : ℤ)) = _
      rw [red_sub hj' hb, red_sub hi' ha, red_sub hk' hc]
      ring

/-- Two 2 x 1 grids meet the hypotheses; the convolution of `(3, 5)` with `(7, 11)`. -/
example : ∃ g' h', (⟨true, 2, 1, 2, 1, [3, 5], [0, 0]⟩ : FFTGrid2D).convolve refFftw
      ⟨false, 2, 1, 2, 1, [7, 11], [0, 0]⟩ = .ok (g', h') ∧ g'.real_data = [76, 68] := by
  obtain ⟨g', h', e, hl, hv⟩ := fftGrid2D_convolve refFftw_laws
    ⟨true, 2, 1, 2, 1, [3, 5], [0, 0]⟩ ⟨false, 2, 1, 2, 1, [7, 11], [0, 0]⟩
    (by simp) (by simp) (by simp) (by simp) rfl rfl (by simp) (by simp)
  refine ⟨g', h', e, ?_⟩
  have h0 := hv 0 0 (by simp) (by simp)
  have h1 := hv 1 0 (by simp) (by simp)
  apply List.ext_getElem?
  intro i
  match i with
  | 0 =>
    refine h0.trans ?_
    simp [Finset.sum_range_succ, backward]
    norm_num
  | 1 =>
    refine h1.trans ?_
    simp [Finset.sum_range_succ, backward]
    norm_num
  | i + 2 =>
    rw [List.getElem?_eq_none (by rw [hl]; simp)]
    simp

end Verif
