import Verif.Lemmas.FieldBase

/-! Helper lemmas: the simulation programs compute the specified fields. -/

namespace Verif

open Finset Spec ComplexConjugate

variable {F : Fftw} (hF : F.Laws)

/-! ### Two dimensions -/

/-- Covariance values on the periodic grid. -/
noncomputable def covOn2 (v : Variogram) (r : ℝ × ℝ × ℝ) (tx : ℕ) (dx : ℝ) (ty : ℕ) (dy sx sy : ℝ)
    (a b : ℕ) : ℝ :=
  v.cov2 (lag tx a * dx) (lag ty b * dy) * kernel sx r.1 (lag tx a * dx)
    * kernel sy r.2.1 (lag ty b * dy)

/-- Invariant of the FFT grid across the loop over fields. -/
structure Ready2 (nx ny tx ty : ℕ) (g : FFTGrid2D) : Prop where
  sf : g.scale_forward = true
  ni : g.ni = nx
  nj : g.nj = ny
  nit : g.ni_tot = tx
  njt : g.nj_tot = ty
  hr : g.real_data.length = tx * ty
  hc : g.complex_data.length = (tx / 2 + 1) * ty

theorem makeFilter2_sat {p : Platform} {v : Variogram} (h1 : v.rangeX ≠ 0) (h2 : v.rangeY ≠ 0)
    (h3 : v.rangeZ ≠ 0) {nx ny px py tx ty : ℕ} (htx : 0 < tx) (hty : 0 < ty)
    (htx' : tx + 1 < 2 ^ 31) (hty' : ty + 1 < 2 ^ 31)
    (ex : findNewSize p (wrap64 (nx + px)) true = .ok tx)
    (ey : findNewSize p (wrap64 (ny + py)) false = .ok ty) (dx dy sx sy : ℝ)
    (hsx : 1e-12 < sx) (hsy : 1e-12 < sy) :
    (makeFilter2 F p v nx dx ny dy px py tx ty sx sy).Sat fun f =>
      f.complexSize = (flat2 F hF ty tx hty htx).M ∧
      (flat2 F hF ty tx hty htx).CHolds f.complex_data (fun k =>
        ((box2 ty tx hty htx).amp
          (ext2 tx ty (covOn2 v (findVariogramRanges v) tx dx ty dy sx sy)) k : ℂ)) := by
  obtain ⟨cov, ecov, hcov⟩ := fftCovGrid2D_filled v h1 h2 h3 tx ty htx' hty' dx dy sx sy hsx hsy
  unfold makeFilter2 FFTGrid2D.create
  simp only [Res.monad_bind_eq, ecov, ex, ey, Res.bind_ok]
  set C := covOn2 v (findVariogramRanges v) tx dx ty dy sx sy with hC
  refine (FFTGrid2D.init_sat _ (by simp) (f := C) hcov).bind ?_
  rintro f ⟨d, rfl, hd1, hd2⟩
  simp only at hd1 hd2
  set g : FFTGrid2D := ⟨false, nx, ny, tx, ty, d, List.replicate ((tx / 2 + 1) * ty) 0⟩ with hg
  have hgwf : g.WF := ⟨htx, hty, by simp only [hg]; omega, by simp only [hg]; omega, hd1, by
    simp [hg, FFTGrid2D.complexSize]⟩
  have hh : (g.layout hF hgwf).Holds g.real_data (ext2 tx ty C) := by
    refine ⟨hd1.trans (FFTGrid2D.box_N hty htx).symm, fun x hx => ?_⟩
    obtain ⟨b, a, hb, ha, rfl⟩ := mem_box2.1 hx
    rw [ext2_nat C ha hb]
    exact hd2 a b ha hb
  refine (g.doFFT_sat hF hgwf hh).bind ?_
  rintro g' ⟨d', c', rfl, hwf', -, hc'⟩
  have hM : (flat2 F hF ty tx hty htx).M = (tx / 2 + 1) * ty := Nat.mul_comm _ _
  have hc2 : (flat2 F hF ty tx hty htx).CHolds c' (fun k => (box2 ty tx hty htx).dft
      (fun x => ((ext2 tx ty C x : ℝ) : ℂ)) k) := by
    have e : fwdScale g.scale_forward (g.ni_tot * g.nj_tot) = 1 := by simp [fwdScale, hg]
    rw [e] at hc'
    simp only [mul_one] at hc'
    exact hc'
  obtain ⟨b, eb, hb⟩ := Flat.clip_holds _ hc2
  have e2 : FFTGrid2D.complexSize { g with real_data := d', complex_data := c' }
      = (flat2 F hF ty tx hty htx).M := hM.symm
  rw [e2]
  simp only [eb, Res.bind_ok, Res.sat_ok]
  exact ⟨hM.symm, hb⟩

theorem fieldStep2_sat {σ : Type} {norm01 : σ → Res (ℝ × σ)} {nx ny tx ty : ℕ} (htx : 0 < tx)
    (hty : 0 < ty) (htx' : tx < 2 ^ 31) (hty' : ty < 2 ^ 31) (hnx : nx ≤ tx) (hny : ny ≤ ty)
    (C : ℕ → ℕ → ℝ) (filter : FFTGrid2D)
    (hf1 : filter.complexSize = (flat2 F hF ty tx hty htx).M)
    (hf2 : (flat2 F hF ty tx hty htx).CHolds filter.complex_data (fun k =>
        ((box2 ty tx hty htx).amp (ext2 tx ty C) k : ℂ)))
    (g : FFTGrid2D) (hg : Ready2 nx ny tx ty g) (noise : Grid2D ℝ)
    (hn : noise.ni = tx ∧ noise.nj = ty ∧ noise.WF) (s s' : σ) (w : List ℝ)
    (hw : draws norm01 (tx * ty) s = .ok (w, s')) (out : List (Grid2D ℝ)) :
    (fieldStep2 F norm01 filter tx ty (g, noise, s, out)).Sat fun st =>
      Ready2 nx ny tx ty st.1 ∧ (st.2.1.ni = tx ∧ st.2.1.nj = ty ∧ st.2.1.WF) ∧ st.2.2.1 = s' ∧
      ∃ grid, st.2.2.2 = out ++ [grid] ∧ Grid2D.Filled nx ny (fun _ _ => True)
        (field2 tx ty C (fun a b => w.getD (a * ty + b) 0)) grid := by
  obtain ⟨sf, ni, nj, nit, njt, d0, c0⟩ := g
  obtain ⟨r1, r2, r3, r4, r5, r6, r7⟩ := hg
  simp only at r1 r2 r3 r4 r5 r6 r7
  subst r1 r2 r3 r4 r5
  unfold fieldStep2
  simp only [Res.monad_bind_eq]
  refine (drawNoise2_sat noise hn hw).bind ?_
  rintro ⟨noise', s1⟩ ⟨rfl, hnoise⟩
  simp only
  set W : ℕ → ℕ → ℝ := fun a b => w.getD (a * njt + b) 0 with hW
  refine (FFTGrid2D.init_sat _ r6 (f := W) hnoise).bind ?_
  rintro f ⟨d, rfl, hd1, hd2⟩
  simp only at hd1 hd2
  set g : FFTGrid2D := ⟨true, ni, nj, nit, njt, d, c0⟩ with hg
  have hgwf : g.WF := ⟨htx, hty, htx', hty', hd1, r7⟩
  have hh : (g.layout hF hgwf).Holds g.real_data (ext2 nit njt W) := by
    refine ⟨hd1.trans (FFTGrid2D.box_N hty htx).symm, fun x hx => ?_⟩
    obtain ⟨b, a, hb, ha, rfl⟩ := mem_box2.1 hx
    rw [ext2_nat W ha hb]
    exact hd2 a b ha hb
  refine (g.doFFT_sat hF hgwf hh).bind ?_
  rintro g' ⟨d', c', rfl, hwf', -, hc'⟩
  have hM : (flat2 F hF njt nit hty htx).M = (nit / 2 + 1) * njt := Nat.mul_comm _ _
  obtain ⟨c3, e3, hc3⟩ := (g.layout hF hgwf).mul_holds hc' hf2
  have e3' : mulLoop filter.complexSize c' filter.complex_data = .ok c3 := by rw [hf1]; exact e3
  simp only [e3', Res.bind_ok]
  have hwf3 : FFTGrid2D.WF { g with real_data := d', complex_data := c3 } :=
    ⟨htx, hty, htx', hty', hwf'.hr, hc3.1.trans hM⟩
  obtain ⟨g4, e4, d4, c4, rfl, hg4, hd4⟩ := FFTGrid2D.doInverseFFT_sat hF _ hwf3 hc3
    (fun k l hkl => Flat.noise_per (P := box2 njt nit hty htx) (ext2 nit njt C)
      (fun x => ext2 nit njt W x * fwdScale true (nit * njt)) k l hkl)
    (fun k => Flat.noise_herm (P := box2 njt nit hty htx) (ext2 nit njt C)
      (fun x => ext2 nit njt W x * fwdScale true (nit * njt)) k)
  refine Res.Sat.bind (P := fun x => x = { g with real_data := d4, complex_data := c4 })
    ⟨_, e4, rfl⟩ ?_
  rintro _ rfl
  have hval : ∀ i j, i < ni → j < nj →
      d4[j * nit + i]? = some (field2 nit njt C W i j) := by
    intro i j hi hj
    have hx : (((j : ℤ), (i : ℤ)) : ℤ × ℤ) ∈ (box2 njt nit hty htx).box :=
      mem_box2.2 ⟨j, i, by omega, by omega, rfl⟩
    have h := hd4.2 _ hx
    refine h.trans (congrArg some ?_)
    have hs := scales_mul true (n := nit * njt) (Nat.mul_pos htx hty)
    have hfv := Flat.field_value (P := box2 njt nit hty htx) (ext2 nit njt C) (ext2 nit njt W)
      (fwdScale true (nit * njt)) (invScale true (nit * njt))
      (by rw [FFTGrid2D.box_N]; exact hs) ((j : ℤ), (i : ℤ))
    refine hfv.trans ?_
    rw [field2_eq]
    unfold field2
    refine Finset.sum_congr rfl fun a ha => Finset.sum_congr rfl fun b hb => ?_
    rw [mem_range] at ha hb
    exact congrArg _ (ext2_nat W ha hb)
  refine (FFTGrid2D.getRealGrid_sat { g with real_data := d4, complex_data := c4 }
    (f := field2 nit njt C W) hval).bind ?_
  intro grid hgrid
  rw [Res.sat_ok]
  exact ⟨⟨rfl, rfl, rfl, rfl, rfl, hg4.hr, hg4.hc⟩, ⟨hnoise.1, hnoise.2.1, hnoise.2.2.1⟩, rfl,
    grid, rfl, hgrid⟩

/-- The loop over fields. -/
theorem fields2_sat {σ : Type} {norm01 : σ → Res (ℝ × σ)} {nx ny tx ty : ℕ} (htx : 0 < tx)
    (hty : 0 < ty) (htx' : tx < 2 ^ 31) (hty' : ty < 2 ^ 31) (hnx : nx ≤ tx) (hny : ny ≤ ty)
    (C : ℕ → ℕ → ℝ) (filter : FFTGrid2D)
    (hf1 : filter.complexSize = (flat2 F hF ty tx hty htx).M)
    (hf2 : (flat2 F hF ty tx hty htx).CHolds filter.complex_data (fun k =>
        ((box2 ty tx hty htx).amp (ext2 tx ty C) k : ℂ)))
    (g : FFTGrid2D) (hg : Ready2 nx ny tx ty g) (noise : Grid2D ℝ)
    (hn : noise.ni = tx ∧ noise.nj = ty ∧ noise.WF) (K : ℕ) (s s' : σ) (w : List ℝ)
    (hw : draws norm01 (K * (tx * ty)) s = .ok (w, s')) (out : List (Grid2D ℝ)) :
    (forRange 0 K (fun _ st => fieldStep2 F norm01 filter tx ty st) (g, noise, s, out)).Sat
      fun st => st.2.2.1 = s' ∧ ∃ gs : List (Grid2D ℝ), st.2.2.2 = out ++ gs ∧ gs.length = K ∧
        ∀ k < K, ∃ grid, gs[k]? = some grid ∧ Grid2D.Filled nx ny (fun _ _ => True)
          (field2 tx ty C (fun a b => w.getD (k * (tx * ty) + (a * ty + b)) 0)) grid := by
  have := forRange_sat (lo := 0) (hi := K) (s := (g, noise, s, out))
    (body := fun _ st => fieldStep2 F norm01 filter tx ty st)
    (fun k st => Ready2 nx ny tx ty st.1 ∧ (st.2.1.ni = tx ∧ st.2.1.nj = ty ∧ st.2.1.WF) ∧
      draws norm01 (k * (tx * ty)) s = .ok (w.take (k * (tx * ty)), st.2.2.1) ∧
      ∃ gs : List (Grid2D ℝ), st.2.2.2 = out ++ gs ∧ gs.length = k ∧
        ∀ k' < k, ∃ grid, gs[k']? = some grid ∧ Grid2D.Filled nx ny (fun _ _ => True)
          (field2 tx ty C (fun a b => w.getD (k' * (tx * ty) + (a * ty + b)) 0)) grid)
    (Nat.zero_le _)
    ⟨hg, hn, by simp [draws], [], by simp, rfl, by intros; omega⟩ ?_
  · refine this.mono ?_
    rintro ⟨g, n, t, o⟩ ⟨-, -, h1, h2⟩
    exact ⟨draws_full hw h1, h2⟩
  · rintro k ⟨g, noise, t, o⟩ - hk ⟨hg, hn, hd, gs, rfl, hgl, hgs⟩
    have hle : (k + 1) * (tx * ty) ≤ K * (tx * ty) := Nat.mul_le_mul_right _ hk
    obtain ⟨t', ht'⟩ := draws_prefix hw hle
    have hs : draws norm01 (k * (tx * ty) + tx * ty) s = .ok (w.take ((k + 1) * (tx * ty)), t') := by
      rw [← Nat.succ_mul]; exact ht'
    obtain ⟨t1, e1, e2⟩ := draws_split hs
    rw [List.take_take, Nat.min_eq_left (by rw [Nat.succ_mul]; omega)] at e1
    rw [e1] at hd
    simp only [Res.ok.injEq, Prod.mk.injEq, true_and] at hd
    subst hd
    refine (fieldStep2_sat hF htx hty htx' hty' hnx hny C filter hf1 hf2 g hg noise hn _ _ _ e2
      (out ++ gs)).mono ?_
    rintro ⟨g', n', t2, o'⟩ ⟨a1, a2, a3, grid, a4, a5⟩
    simp only at a1 a2 a3 a4
    subst a3 a4
    refine ⟨a1, a2, ht', gs ++ [grid], by simp, by simp [hgl], ?_⟩
    intro k' hk'
    by_cases h : k' < k
    · obtain ⟨gr, h1, h2⟩ := hgs k' h
      refine ⟨gr, ?_, h2⟩
      rw [List.getElem?_append_left (by omega)]; exact h1
    · obtain rfl : k' = k := by omega
      refine ⟨grid, by rw [List.getElem?_append_right (by omega)]; simp [hgl], ?_⟩
      convert a5 using 1
      funext i j
      unfold field2
      refine Finset.sum_congr rfl fun a ha => Finset.sum_congr rfl fun b hb => ?_
      rw [mem_range] at ha hb
      have := rowMajor_lt ha hb
      congr 1
      simp only [List.getD_eq_getElem?_getD, List.getElem?_drop, List.getElem?_take]
      rw [if_pos (by rw [Nat.succ_mul]; omega)]

/-! ### Three dimensions -/

/-- Covariance values on the periodic grid. -/
noncomputable def covOn3 (v : Variogram) (r : ℝ × ℝ × ℝ) (tx : ℕ) (dx : ℝ) (ty : ℕ) (dy : ℝ)
    (tz : ℕ) (dz sx sy sz : ℝ) (a b c : ℕ) : ℝ :=
  v.cov3 (lag tx a * dx) (lag ty b * dy) (lag tz c * dz) * kernel sx r.1 (lag tx a * dx)
    * kernel sy r.2.1 (lag ty b * dy) * kernel sz r.2.2 (lag tz c * dz)

/-- Invariant of the FFT grid across the loop over fields. -/
structure Ready3 (nx ny nz tx ty tz : ℕ) (g : FFTGrid3D) : Prop where
  sf : g.scale_forward = true
  ni : g.ni = nx
  nj : g.nj = ny
  nk : g.nk = nz
  nit : g.ni_tot = tx
  njt : g.nj_tot = ty
  nkt : g.nk_tot = tz
  hr : g.real_data.length = tx * ty * tz
  hc : g.complex_data.length = (tx / 2 + 1) * ty * tz

theorem flat3_M (tx ty tz : ℕ) (htx : 0 < tx) (hty : 0 < ty) (htz : 0 < tz) :
    (flat3 F hF tz ty tx htz hty htx).M = (tx / 2 + 1) * ty * tz := by
  have : (flat3 F hF tz ty tx htz hty htx).M = tz * ty * (tx / 2 + 1) := rfl
  rw [this]; ring

theorem box3_N' (tx ty tz : ℕ) (htx : 0 < tx) (hty : 0 < ty) (htz : 0 < tz) :
    (box3 tz ty tx htz hty htx).N = tx * ty * tz := by
  have : (box3 tz ty tx htz hty htx).N = tz * (ty * tx) := rfl
  rw [this]; ring

theorem makeFilter3_sat {p : Platform} {v : Variogram} (h1 : v.rangeX ≠ 0) (h2 : v.rangeY ≠ 0)
    (h3 : v.rangeZ ≠ 0) {nx ny nz px py pz tx ty tz : ℕ} (htx : 0 < tx) (hty : 0 < ty)
    (htz : 0 < tz) (htx' : tx + 1 < 2 ^ 31) (hty' : ty + 1 < 2 ^ 31) (htz' : tz + 1 < 2 ^ 31)
    (ex : findNewSize p (wrap64 (nx + px)) true = .ok tx)
    (ey : findNewSize p (wrap64 (ny + py)) false = .ok ty)
    (ez : findNewSize p (wrap64 (nz + pz)) false = .ok tz) (dx dy dz sx sy sz : ℝ)
    (hsx : 1e-12 < sx) (hsy : 1e-12 < sy) (hsz : 1e-12 < sz) :
    (makeFilter3 F p v nx dx ny dy nz dz px py pz tx ty tz sx sy sz).Sat fun f =>
      f.complexSize = (flat3 F hF tz ty tx htz hty htx).M ∧
      (flat3 F hF tz ty tx htz hty htx).CHolds f.complex_data (fun k =>
        ((box3 tz ty tx htz hty htx).amp
          (ext3 tx ty tz (covOn3 v (findVariogramRanges v) tx dx ty dy tz dz sx sy sz)) k : ℂ)) := by
  obtain ⟨cov, ecov, hcov⟩ := fftCovGrid3D_filled v h1 h2 h3 tx ty tz htx' hty' htz' dx dy dz
    sx sy sz hsx hsy hsz
  unfold makeFilter3 FFTGrid3D.create
  simp only [Res.monad_bind_eq, ecov, ex, ey, ez, Res.bind_ok]
  set C := covOn3 v (findVariogramRanges v) tx dx ty dy tz dz sx sy sz with hC
  refine (FFTGrid3D.init_sat _ (by simp) (f := C) hcov).bind ?_
  rintro f ⟨d, rfl, hd1, hd2⟩
  simp only at hd1 hd2
  set g : FFTGrid3D := ⟨false, nx, ny, nz, tx, ty, tz, d,
    List.replicate ((tx / 2 + 1) * ty * tz) 0⟩ with hg
  have hgwf : g.WF := ⟨htx, hty, htz, by simp only [hg]; omega, by simp only [hg]; omega,
    by simp only [hg]; omega, hd1, by simp [hg, FFTGrid3D.complexSize]⟩
  have hh : (g.layout hF hgwf).Holds g.real_data (ext3 tx ty tz C) := by
    refine ⟨hd1.trans (FFTGrid3D.box_N g hgwf).symm, fun x hx => ?_⟩
    obtain ⟨k, b, a, hk, hb, ha, rfl⟩ := mem_box3.1 hx
    rw [ext3_nat C ha hb hk]
    exact hd2 a b k ha hb hk
  refine (g.doFFT_sat hF hgwf hh).bind ?_
  rintro g' ⟨d', c', rfl, hwf', -, hc'⟩
  have hM := flat3_M hF tx ty tz htx hty htz
  have hc2 : (flat3 F hF tz ty tx htz hty htx).CHolds c' (fun k => (box3 tz ty tx htz hty htx).dft
      (fun x => ((ext3 tx ty tz C x : ℝ) : ℂ)) k) := by
    have e : fwdScale g.scale_forward (g.ni_tot * g.nj_tot * g.nk_tot) = 1 := by simp [fwdScale, hg]
    rw [e] at hc'
    simp only [mul_one] at hc'
    exact hc'
  obtain ⟨b, eb, hb⟩ := Flat.clip_holds _ hc2
  have e2 : FFTGrid3D.complexSize { g with real_data := d', complex_data := c' }
      = (flat3 F hF tz ty tx htz hty htx).M := hM.symm
  rw [e2]
  simp only [eb, Res.bind_ok, Res.sat_ok]
  exact ⟨hM.symm, hb⟩

theorem fieldStep3_sat {σ : Type} {norm01 : σ → Res (ℝ × σ)} {nx ny nz tx ty tz : ℕ}
    (htx : 0 < tx) (hty : 0 < ty) (htz : 0 < tz) (htx' : tx < 2 ^ 31) (hty' : ty < 2 ^ 31)
    (htz' : tz < 2 ^ 31) (hnx : nx ≤ tx) (hny : ny ≤ ty) (hnz : nz ≤ tz)
    (C : ℕ → ℕ → ℕ → ℝ) (filter : FFTGrid3D)
    (hf1 : filter.complexSize = (flat3 F hF tz ty tx htz hty htx).M)
    (hf2 : (flat3 F hF tz ty tx htz hty htx).CHolds filter.complex_data (fun k =>
        ((box3 tz ty tx htz hty htx).amp (ext3 tx ty tz C) k : ℂ)))
    (g : FFTGrid3D) (hg : Ready3 nx ny nz tx ty tz g) (noise : Grid3D ℝ)
    (hn : noise.ni = tx ∧ noise.nj = ty ∧ noise.nk = tz ∧ noise.WF) (s s' : σ) (w : List ℝ)
    (hw : draws norm01 (tx * ty * tz) s = .ok (w, s')) (out : List (Grid3D ℝ)) :
    (fieldStep3 F norm01 filter tx ty tz (g, noise, s, out)).Sat fun st =>
      Ready3 nx ny nz tx ty tz st.1 ∧
      (st.2.1.ni = tx ∧ st.2.1.nj = ty ∧ st.2.1.nk = tz ∧ st.2.1.WF) ∧ st.2.2.1 = s' ∧
      ∃ grid, st.2.2.2 = out ++ [grid] ∧ Grid3D.Filled nx ny nz (fun _ _ _ => True)
        (field3 tx ty tz C (fun a b c => w.getD ((a * ty + b) * tz + c) 0)) grid := by
  obtain ⟨sf, ni, nj, nk, nit, njt, nkt, d0, c0⟩ := g
  obtain ⟨r1, r2, r3, r8, r4, r5, r9, r6, r7⟩ := hg
  simp only at r1 r2 r3 r4 r5 r6 r7 r8 r9
  subst r1 r2 r3 r4 r5 r8 r9
  unfold fieldStep3
  simp only [Res.monad_bind_eq]
  refine (drawNoise3_sat noise hn hw).bind ?_
  rintro ⟨noise', s1⟩ ⟨rfl, hnoise⟩
  simp only
  set W : ℕ → ℕ → ℕ → ℝ := fun a b c => w.getD ((a * njt + b) * nkt + c) 0 with hW
  refine (FFTGrid3D.init_sat _ r6 (f := W) hnoise).bind ?_
  rintro f ⟨d, rfl, hd1, hd2⟩
  simp only at hd1 hd2
  set g : FFTGrid3D := ⟨true, ni, nj, nk, nit, njt, nkt, d, c0⟩ with hg
  have hgwf : g.WF := ⟨htx, hty, htz, htx', hty', htz', hd1, r7⟩
  have hh : (g.layout hF hgwf).Holds g.real_data (ext3 nit njt nkt W) := by
    refine ⟨hd1.trans (FFTGrid3D.box_N g hgwf).symm, fun x hx => ?_⟩
    obtain ⟨k, b, a, hk, hb, ha, rfl⟩ := mem_box3.1 hx
    rw [ext3_nat W ha hb hk]
    exact hd2 a b k ha hb hk
  refine (g.doFFT_sat hF hgwf hh).bind ?_
  rintro g' ⟨d', c', rfl, hwf', -, hc'⟩
  have hM := flat3_M hF nit njt nkt htx hty htz
  obtain ⟨c3, e3, hc3⟩ := (g.layout hF hgwf).mul_holds hc' hf2
  have e3' : mulLoop filter.complexSize c' filter.complex_data = .ok c3 := by rw [hf1]; exact e3
  simp only [e3', Res.bind_ok]
  have hwf3 : FFTGrid3D.WF { g with real_data := d', complex_data := c3 } :=
    ⟨htx, hty, htz, htx', hty', htz', hwf'.hr, hc3.1.trans hM⟩
  obtain ⟨g4, e4, d4, c4, rfl, hg4, hd4⟩ := FFTGrid3D.doInverseFFT_sat hF _ hwf3 hc3
    (fun k l hkl => Flat.noise_per (P := box3 nkt njt nit htz hty htx) (ext3 nit njt nkt C)
      (fun x => ext3 nit njt nkt W x * fwdScale true (nit * njt * nkt)) k l hkl)
    (fun k => Flat.noise_herm (P := box3 nkt njt nit htz hty htx) (ext3 nit njt nkt C)
      (fun x => ext3 nit njt nkt W x * fwdScale true (nit * njt * nkt)) k)
  refine Res.Sat.bind (P := fun x => x = { g with real_data := d4, complex_data := c4 })
    ⟨_, e4, rfl⟩ ?_
  rintro _ rfl
  have hval : ∀ i j k, i < ni → j < nj → k < nk →
      d4[(k * njt + j) * nit + i]? = some (field3 nit njt nkt C W i j k) := by
    intro i j k hi hj hk
    have hx : (((k : ℤ), (j : ℤ), (i : ℤ)) : ℤ × ℤ × ℤ) ∈ (box3 nkt njt nit htz hty htx).box :=
      mem_box3.2 ⟨k, j, i, by omega, by omega, by omega, rfl⟩
    have h := hd4.2 _ hx
    refine h.trans (congrArg some ?_)
    have hs := scales_mul true (n := nit * njt * nkt) (Nat.mul_pos (Nat.mul_pos htx hty) htz)
    have hfv := Flat.field_value (P := box3 nkt njt nit htz hty htx) (ext3 nit njt nkt C)
      (ext3 nit njt nkt W) (fwdScale true (nit * njt * nkt)) (invScale true (nit * njt * nkt))
      (by rw [box3_N']; exact hs) ((k : ℤ), (j : ℤ), (i : ℤ))
    refine hfv.trans ?_
    rw [field3_eq]
    unfold field3
    refine Finset.sum_congr rfl fun a ha => Finset.sum_congr rfl fun b hb =>
      Finset.sum_congr rfl fun c hc => ?_
    rw [mem_range] at ha hb hc
    exact congrArg _ (ext3_nat W ha hb hc)
  refine (FFTGrid3D.getRealGrid_sat { g with real_data := d4, complex_data := c4 }
    (f := field3 nit njt nkt C W) hval).bind ?_
  intro grid hgrid
  rw [Res.sat_ok]
  exact ⟨⟨rfl, rfl, rfl, rfl, rfl, rfl, rfl, hg4.hr, hg4.hc⟩,
    ⟨hnoise.1, hnoise.2.1, hnoise.2.2.1, hnoise.2.2.2.1⟩, rfl, grid, rfl, hgrid⟩

/-- The loop over fields. -/
theorem fields3_sat {σ : Type} {norm01 : σ → Res (ℝ × σ)} {nx ny nz tx ty tz : ℕ}
    (htx : 0 < tx) (hty : 0 < ty) (htz : 0 < tz) (htx' : tx < 2 ^ 31) (hty' : ty < 2 ^ 31)
    (htz' : tz < 2 ^ 31) (hnx : nx ≤ tx) (hny : ny ≤ ty) (hnz : nz ≤ tz)
    (C : ℕ → ℕ → ℕ → ℝ) (filter : FFTGrid3D)
    (hf1 : filter.complexSize = (flat3 F hF tz ty tx htz hty htx).M)
    (hf2 : (flat3 F hF tz ty tx htz hty htx).CHolds filter.complex_data (fun k =>
        ((box3 tz ty tx htz hty htx).amp (ext3 tx ty tz C) k : ℂ)))
    (g : FFTGrid3D) (hg : Ready3 nx ny nz tx ty tz g) (noise : Grid3D ℝ)
    (hn : noise.ni = tx ∧ noise.nj = ty ∧ noise.nk = tz ∧ noise.WF) (K : ℕ) (s s' : σ) (w : List ℝ)
    (hw : draws norm01 (K * (tx * ty * tz)) s = .ok (w, s')) (out : List (Grid3D ℝ)) :
    (forRange 0 K (fun _ st => fieldStep3 F norm01 filter tx ty tz st) (g, noise, s, out)).Sat
      fun st => st.2.2.1 = s' ∧ ∃ gs : List (Grid3D ℝ), st.2.2.2 = out ++ gs ∧ gs.length = K ∧
        ∀ k < K, ∃ grid, gs[k]? = some grid ∧ Grid3D.Filled nx ny nz (fun _ _ _ => True)
          (field3 tx ty tz C (fun a b c =>
            w.getD (k * (tx * ty * tz) + ((a * ty + b) * tz + c)) 0)) grid := by
  have := forRange_sat (lo := 0) (hi := K) (s := (g, noise, s, out))
    (body := fun _ st => fieldStep3 F norm01 filter tx ty tz st)
    (fun k st => Ready3 nx ny nz tx ty tz st.1 ∧
      (st.2.1.ni = tx ∧ st.2.1.nj = ty ∧ st.2.1.nk = tz ∧ st.2.1.WF) ∧
      draws norm01 (k * (tx * ty * tz)) s = .ok (w.take (k * (tx * ty * tz)), st.2.2.1) ∧
      ∃ gs : List (Grid3D ℝ), st.2.2.2 = out ++ gs ∧ gs.length = k ∧
        ∀ k' < k, ∃ grid, gs[k']? = some grid ∧ Grid3D.Filled nx ny nz (fun _ _ _ => True)
          (field3 tx ty tz C (fun a b c =>
            w.getD (k' * (tx * ty * tz) + ((a * ty + b) * tz + c)) 0)) grid)
    (Nat.zero_le _)
    ⟨hg, hn, by simp [draws], [], by simp, rfl, by intros; omega⟩ ?_
  · refine this.mono ?_
    rintro ⟨g, n, t, o⟩ ⟨-, -, h1, h2⟩
    exact ⟨draws_full hw h1, h2⟩
  · rintro k ⟨g, noise, t, o⟩ - hk ⟨hg, hn, hd, gs, rfl, hgl, hgs⟩
    have hle : (k + 1) * (tx * ty * tz) ≤ K * (tx * ty * tz) := Nat.mul_le_mul_right _ hk
    obtain ⟨t', ht'⟩ := draws_prefix hw hle
    have hs : draws norm01 (k * (tx * ty * tz) + tx * ty * tz) s
        = .ok (w.take ((k + 1) * (tx * ty * tz)), t') := by
      rw [← Nat.succ_mul]; exact ht'
    obtain ⟨t1, e1, e2⟩ := draws_split hs
    rw [List.take_take, Nat.min_eq_left (by rw [Nat.succ_mul]; omega)] at e1
    rw [e1] at hd
    simp only [Res.ok.injEq, Prod.mk.injEq, true_and] at hd
    subst hd
    refine (fieldStep3_sat hF htx hty htz htx' hty' htz' hnx hny hnz C filter hf1 hf2 g hg noise hn
      _ _ _ e2 (out ++ gs)).mono ?_
    rintro ⟨g', n', t2, o'⟩ ⟨a1, a2, a3, grid, a4, a5⟩
    simp only at a1 a2 a3 a4
    subst a3 a4
    refine ⟨a1, a2, ht', gs ++ [grid], by simp, by simp [hgl], ?_⟩
    intro k' hk'
    by_cases h : k' < k
    · obtain ⟨gr, h1, h2⟩ := hgs k' h
      refine ⟨gr, ?_, h2⟩
      rw [List.getElem?_append_left (by omega)]; exact h1
    · obtain rfl : k' = k := by omega
      refine ⟨grid, by rw [List.getElem?_append_right (by omega)]; simp [hgl], ?_⟩
      convert a5 using 1
      funext i j k
      unfold field3
      refine Finset.sum_congr rfl fun a ha => Finset.sum_congr rfl fun b hb =>
        Finset.sum_congr rfl fun c hc => ?_
      rw [mem_range] at ha hb hc
      have := rowMajor_lt (rowMajor_lt ha hb) hc
      congr 1
      simp only [List.getD_eq_getElem?_getD, List.getElem?_drop, List.getElem?_take]
      rw [if_pos (by rw [Nat.succ_mul]; omega)]

/-! ### One dimension -/

/-- Covariance values on the periodic grid. -/
noncomputable def covOn1 (v : Variogram) (r : ℝ × ℝ × ℝ) (tx : ℕ) (dx sx : ℝ) (a : ℕ) : ℝ :=
  v.cov1 (lag tx a * dx) * kernel sx r.1 (lag tx a * dx)

theorem padded_zero (vin : List ℝ) {x : ℕ} (hx : x < vin.length) :
    padded vin 0 x = vin.getD x 0 := by
  unfold padded; rw [if_pos hx]

include hF in
/-- The part of `Simulate1DGaussianField` after the noise is drawn. -/
theorem tail1_sat (p : Platform) {n : ℕ} (hn : 0 < n) (hn' : n < 2 ^ 31) (cov w : List ℝ)
    (hc : cov.length = n) (hw : w.length = n) (out_size : ℕ) (ho : out_size ≤ n) :
    ((computeFFT1D F p cov [] false 0).bind fun cov_fft =>
      (computeFFT1D F p w [] true 0).bind fun noise_fft =>
      (clipSqrtLoop cov_fft.length cov_fft).bind fun cov_fft' =>
      (forRange 0 cov_fft'.length (fun i convolve => (rd cov_fft' i).bind fun x =>
        (rd noise_fft i).bind fun y => wr convolve i (x * y))
        (List.replicate cov_fft.length (0 : ℂ))).bind fun convolve =>
      (computeFFTInv1D F convolve (List.replicate n 0) true).bind fun tmp =>
      forRange 0 out_size (fun i out => (rd tmp i).bind fun x => wr out i x)
        (List.replicate out_size 0)).Sat
      fun out => out.length = out_size ∧ ∀ i < out_size,
        out[i]? = some (field1 n (fun a => cov.getD a 0) (fun a => w.getD a 0) i) := by
  obtain ⟨cf, e1, hl1, hv1, -⟩ := computeFFT1D_sat hF p cov [] false 0 0 (by omega)
    (padSize1D_zero p _) (by omega)
  obtain ⟨nf, e2, hl2, hv2, -⟩ := computeFFT1D_sat hF p w [] true 0 0 (by omega)
    (padSize1D_zero p _) (by omega)
  simp only [Nat.add_zero, hc] at hl1 hv1
  simp only [Nat.add_zero, hw] at hl2 hv2
  set C : ℕ → ℝ := fun a => cov.getD a 0 with hC
  set W : ℕ → ℝ := fun a => w.getD a 0 with hW
  have hv1' : ∀ k, k < n / 2 + 1 → cf[k]? = some ((cyc n hn).dft (fun x => (ext1 n C x : ℂ)) k) := by
    intro k hk
    rw [hv1 k hk, cyc_dft]
    congr 1
    refine Finset.sum_congr rfl fun x hx => ?_
    rw [mem_range] at hx
    have e : ext1 n C (x : ℤ) = cov.getD x 0 := ext1_nat C hx
    simp only [e, padded_zero cov (show x < cov.length by omega), fwdScale1]
    norm_num
  have hv2' : ∀ k, k < n / 2 + 1 → nf[k]? = some ((cyc n hn).dft
      (fun x => ((ext1 n W x * fwdScale1 true n : ℝ) : ℂ)) k) := by
    intro k hk
    rw [hv2 k hk, cyc_dft]
    congr 1
    refine Finset.sum_congr rfl fun x hx => ?_
    rw [mem_range] at hx
    have e : ext1 n W (x : ℤ) = w.getD x 0 := ext1_nat W hx
    simp only [e, padded_zero w (show x < w.length by omega)]
    congr 2
    ring
  rw [e1, Res.bind_ok, e2, Res.bind_ok]
  refine (clipSqrtLoop_sat cf).bind ?_
  rintro cf' ⟨hl3, hv3⟩
  have hv3' : ∀ k, k < n / 2 + 1 → cf'[k]? = some ((cyc n hn).amp (ext1 n C) k : ℂ) := by
    intro k hk
    rw [hv3, hv1' k hk]; rfl
  have hprod := fill_sat (fun i => cf'.getD i 0 * nf.getD i 0) 0 cf'.length
    (List.replicate cf.length (0 : ℂ)) (by simp; omega)
    (fun i convolve => (rd cf' i).bind fun x =>
        (rd nf i).bind fun y => wr convolve i (x * y)) (by
      intro i b hi
      have a1 : rd cf' i = .ok (cf'.getD i 0) := by
        rw [rd_ok hi]; simp [List.getD_eq_getElem?_getD, hi]
      have a2 : rd nf i = .ok (nf.getD i 0) := by
        rw [rd_ok (by omega)]; simp [List.getD_eq_getElem?_getD, show i < nf.length by omega]
      rw [a1, Res.bind_ok, a2, Res.bind_ok, zero_add])
  refine hprod.bind ?_
  rintro z ⟨hlz, hvz, -⟩
  have hlz' : z.length = n := by rw [hlz]; simp [hl1]
  subst hlz'
  have hvz' : ∀ k : ℕ, k < z.length / 2 + 1 → z[k]? = some ((cyc z.length hn).dft
      (fun x => ((ext1 z.length W x * fwdScale1 true z.length : ℝ) : ℂ)) k
        * ((cyc z.length hn).amp (ext1 z.length C) k : ℂ)) := by
    intro k hk
    have := hvz k (by omega)
    rw [zero_add] at this
    rw [this]
    simp only [List.getD_eq_getElem?_getD, hv3' k hk, hv2' k hk, Option.getD_some]
    rw [mul_comm]
  obtain ⟨tmp, e5, hl5, hv5⟩ := computeFFTInv1D_sat hF z (List.replicate z.length 0) true hn hn'
    (by simp) (fun k => (cyc z.length hn).dft
      (fun x => ((ext1 z.length W x * fwdScale1 true z.length : ℝ) : ℂ)) k
        * ((cyc z.length hn).amp (ext1 z.length C) k : ℂ))
    (fun k l hkl => Flat.noise_per (P := cyc z.length hn) (ext1 z.length C)
      (fun x => ext1 z.length W x * fwdScale1 true z.length) k l hkl)
    (fun k => Flat.noise_herm (P := cyc z.length hn) (ext1 z.length C)
      (fun x => ext1 z.length W x * fwdScale1 true z.length) k) hvz'
  rw [List.length_replicate] at hl5 hv5
  rw [e5, Res.bind_ok]
  have hval : ∀ i, i < z.length → tmp[i]? = some (field1 z.length C W i) := by
    intro i hi
    rw [hv5 i hi]
    congr 1
    have hs := scales1_mul true (n := z.length) hn
    have hfv := Flat.field_value (P := cyc z.length hn) (ext1 z.length C) (ext1 z.length W)
      (fwdScale1 true z.length) (invScale1 true z.length) hs (i : ℤ)
    refine hfv.trans ?_
    rw [field1_eq]
    unfold field1
    refine Finset.sum_congr rfl fun a ha => ?_
    rw [mem_range] at ha
    change weight1 z.length C ((i : ℤ) - a) * ext1 z.length W a = _
    rw [ext1_nat W ha]
  refine (fill_sat (fun i => field1 z.length C W i) 0 out_size (List.replicate out_size (0 : ℝ))
    (by simp) _ (by
      intro i b hi
      rw [rd_eq_ok.2 (hval i (by omega)), Res.bind_ok, zero_add])).mono ?_
  rintro b ⟨h1, h2, -⟩
  exact ⟨by simpa using h1, fun i hi => by simpa using h2 i hi⟩

end Verif
