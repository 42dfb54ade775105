import Verif.Lemmas.FieldFl2

/-! Helper lemmas: the three-dimensional simulation in double arithmetic. -/

namespace Verif

open Finset Spec ComplexConjugate Fl

attribute [local irreducible] rnd64

theorem sqErr3_congr {nx ny nz tx ty tz : ℕ} {C W W' : ℕ → ℕ → ℕ → ℝ} {data : List ℝ}
    (hW : ∀ a < tx, ∀ b < ty, ∀ c < tz, W a b c = W' a b c) :
    sqErr3 nx ny nz tx ty tz C W data = sqErr3 nx ny nz tx ty tz C W' data := by
  unfold sqErr3 field3
  have e2 : ∀ i j k : ℕ, ∑ a ∈ range tx, ∑ b ∈ range ty, ∑ c ∈ range tz,
        weight3 tx ty tz C ((i : ℤ) - a) ((j : ℤ) - b) ((k : ℤ) - c) * W a b c
      = ∑ a ∈ range tx, ∑ b ∈ range ty, ∑ c ∈ range tz,
        weight3 tx ty tz C ((i : ℤ) - a) ((j : ℤ) - b) ((k : ℤ) - c) * W' a b c := fun i j k =>
    Finset.sum_congr rfl fun a ha => Finset.sum_congr rfl fun b hb => Finset.sum_congr rfl fun c hc => by
      rw [hW a (mem_range.1 ha) b (mem_range.1 hb) c (mem_range.1 hc)]
  simp only [e2]

/-- The bound for one field: `g` is the error of the filter, `W` the noise. -/
noncomputable def bound3 (tx ty tz : ℕ) (htz : 0 < tz) (hty : 0 < ty) (htx : 0 < tx) (ε : ℝ) (g : ℤ × ℤ × ℤ → ℝ)
    (W : ℕ → ℕ → ℕ → ℝ) : ℝ :=
  errBound (box3 tz ty tx htz hty htx) (flat3 refFftw refFftw_laws tz ty tx htz hty htx).half ε g
    (fun x => W x.2.2.toNat x.2.1.toNat x.1.toNat)

theorem bound3_congr {tx ty tz : ℕ} {htz : 0 < tz} {hty : 0 < ty} {htx : 0 < tx} {ε : ℝ} {g : ℤ × ℤ × ℤ → ℝ}
    {W W' : ℕ → ℕ → ℕ → ℝ} (hW : ∀ a < tx, ∀ b < ty, ∀ c < tz, W a b c = W' a b c) :
    bound3 tx ty tz htz hty htx ε g W = bound3 tx ty tz htz hty htx ε g W' := by
  unfold bound3
  refine errBound_congr fun x hx => ?_
  obtain ⟨c, b, a, hc, hb, ha, rfl⟩ := mem_box3.1 hx
  simpa using hW a ha b hb c hc

theorem fftCovGrid3DFl_filled {lm : Libm} {v : Variogram} {tx ty tz : ℕ} (htx : tx + 1 < 2 ^ 31)
    (hty : ty + 1 < 2 ^ 31) (htz : tz + 1 < 2 ^ 31)
    {dx dy dz sx sy sz : ℝ} (hsx : rnd64 1e-12 < sx) (hsy : rnd64 1e-12 < sy) (hsz : rnd64 1e-12 < sz)
    {f : ℕ → ℕ → ℕ → ℝ}
    (hv : ∀ a b c, a < tx → b < ty → c < tz →
      covVal3Fl lm v sx sy sz (rnd64 (lag tx a * dx)) (rnd64 (lag ty b * dy)) (rnd64 (lag tz c * dz)) = .ok (f a b c)) :
    (fftCovGrid3DFl lm v tx dx ty dy tz dz sx sy sz).Sat (Grid3D.Filled tx ty tz (fun _ _ _ => True) f) := by
  unfold fftCovGrid3DFl
  rw [intSize_ok htx, intSize_ok hty, intSize_ok htz, assertScaling_ok hsx, assertScaling_ok hsy, assertScaling_ok hsz]
  simp only [Res.monad_bind_eq, Res.bind_ok]
  refine covLoops3_filled ?_
  intro S g i j k hi hj hk hg
  rw [hv i j k hi hj hk, Res.bind_ok]
  exact Grid3D.Filled.set hg hi hj hk rfl

theorem N3_le {tx ty tz : ℕ} (htx : 0 < tx) (hty : 0 < ty) (htz : 0 < tz) (htx' : tx < 2 ^ 31) (hty' : ty < 2 ^ 31)
    (htz' : tz < 2 ^ 31) : ((box3 tz ty tx htz hty htx).N : ℝ) ≤ 2 ^ 100 := by
  rw [box3_N']
  have : tx * ty * tz ≤ 2 ^ 100 :=
    (Nat.mul_le_mul (Nat.mul_le_mul htx'.le hty'.le) htz'.le).trans (by norm_num)
  exact_mod_cast this

theorem makeFilter3Fl_sat {lm : Libm} {F : Fftw} {ε δ : ℝ} (hF : F.Near ε) (hu : u ≤ ε) (hε : ε ≤ 2⁻¹ ^ 20) (hδ : 0 ≤ δ)
    (hδ' : δ ≤ 2⁻¹) {p : Platform} {v : Variogram} {nx ny nz px py pz tx ty tz : ℕ} (htx : 0 < tx) (hty : 0 < ty)
    (htz : 0 < tz) (htx' : tx + 1 < 2 ^ 31) (hty' : ty + 1 < 2 ^ 31) (htz' : tz + 1 < 2 ^ 31)
    (ex : findNewSize p (wrap64 (nx + px)) true = .ok tx)
    (ey : findNewSize p (wrap64 (ny + py)) false = .ok ty)
    (ez : findNewSize p (wrap64 (nz + pz)) false = .ok tz) {dx dy dz sx sy sz : ℝ}
    (hsx : rnd64 1e-12 < sx) (hsy : rnd64 1e-12 < sy) (hsz : rnd64 1e-12 < sz) {C C' : ℕ → ℕ → ℕ → ℝ}
    (hC : ∀ a b c, a < tx → b < ty → c < tz → |C a b c| ≤ 1)
    (hv : ∀ a b c, a < tx → b < ty → c < tz →
      covVal3Fl lm v sx sy sz (rnd64 (lag tx a * dx)) (rnd64 (lag ty b * dy)) (rnd64 (lag tz c * dz)) = .ok (C' a b c))
    (hd : ∀ a b c, a < tx → b < ty → c < tz → |C' a b c - C a b c| ≤ δ) :
    (makeFilter3Fl lm F p v nx dx ny dy nz dz px py pz tx ty tz sx sy sz).Sat fun f =>
      f.complexSize = (flat3 refFftw refFftw_laws tz ty tx htz hty htx).M ∧
      f.complex_data.length = (flat3 refFftw refFftw_laws tz ty tx htz hty htx).M ∧
      ∃ c' z' f', (∀ k ∈ (flat3 refFftw refFftw_laws tz ty tx htz hty htx).half,
          f.complex_data.getD ((flat3 refFftw refFftw_laws tz ty tx htz hty htx).cpos k) 0 = ((f' k : ℝ) : ℂ)) ∧
        ErrFilter (box3 tz ty tx htz hty htx) (flat3 refFftw refFftw_laws tz ty tx htz hty htx).half ε δ
          (ext3 tx ty tz C) c' z' f' := by
  obtain ⟨cov, ecov, hcov⟩ := fftCovGrid3DFl_filled htx' hty' htz' hsx hsy hsz hv
  unfold makeFilter3Fl FFTGrid3D.create
  simp only [Res.monad_bind_eq, ecov, ex, ey, ez, Res.bind_ok]
  refine (FFTGrid3D.init_sat _ (by simp) (f := C') hcov).bind ?_
  rintro f ⟨d, rfl, hd1, hd2⟩
  simp only at hd1 hd2
  have hM := flat3_M refFftw_laws tx ty tz htx hty htz
  have hdN : d.length = (box3 tz ty tx htz hty htx).N := hd1.trans (box3_N' tx ty tz htx hty htz).symm
  have hc1 : ∀ x ∈ (box3 tz ty tx htz hty htx).box, |ext3 tx ty tz C x| ≤ 1 := by
    intro x hx
    obtain ⟨c, b, a, hc, hb, ha, rfl⟩ := mem_box3.1 hx
    rw [ext3_nat C ha hb hc]
    exact hC a b c ha hb hc
  have hc2 : ∀ x ∈ (box3 tz ty tx htz hty htx).box,
      |d.getD ((flat3 refFftw refFftw_laws tz ty tx htz hty htx).pos x) 0 - ext3 tx ty tz C x| ≤ δ := by
    intro x hx
    obtain ⟨c, b, a, hc, hb, ha, rfl⟩ := mem_box3.1 hx
    rw [ext3_nat C ha hb hc]
    have := getD_of_some (d := 0) (hd2 a b c ha hb hc)
    rw [show (flat3 refFftw refFftw_laws tz ty tx htz hty htx).pos ((c : ℤ), (b : ℤ), (a : ℤ))
      = (c * ty + b) * tx + a from rfl, this]
    exact hd a b c ha hb hc
  obtain ⟨fl, f', e1, e2, e3, e4⟩ := Flat.filter_run (flat3 refFftw refFftw_laws tz ty tx htz hty htx)
    (flat3_near hF refFftw_laws tz ty tx htz hty htx) hu hε hδ hδ' hc1 d hdN hc2
  have e5 : clipSqrtLoopFl ((tx / 2 + 1) * ty * tz) (F.r2c3 tz ty tx d) = .ok fl := by rw [← hM]; exact e1
  unfold FFTGrid3D.doFFTFl
  simp only [Res.monad_bind_eq, Bool.false_eq_true, if_false, Res.bind_ok, planSize_ok (show ty < 2 ^ 31 by omega),
    planSize_ok (show tx < 2 ^ 31 by omega), planSize_ok (show tz < 2 ^ 31 by omega), FFTGrid3D.complexSize, e5,
    Res.sat_ok]
  exact ⟨hM.symm, e2, _, _, f', e3, e4⟩

/-- From a run on the flat layout to the specification. -/
theorem near3_of_run {nx ny nz tx ty tz : ℕ} (htx : 0 < tx) (hty : 0 < ty) (htz : 0 < tz) (hnx : nx ≤ tx)
    (hny : ny ≤ ty) (hnz : nz ≤ tz)
    {C W : ℕ → ℕ → ℕ → ℝ} {ε : ℝ} {g : ℤ × ℤ × ℤ → ℝ} {d X data : List ℝ}
    (hd : ∀ a b c, a < tx → b < ty → c < tz → d.getD ((c * ty + b) * tx + a) 0 = W a b c)
    (hX : ∀ i j k, i < nx → j < ny → k < nz →
      data.getD (i + nx * (j + ny * k)) 0 = X.getD ((k * ty + j) * tx + i) 0)
    (h : l2 (box3 tz ty tx htz hty htx).box (fun x =>
        ((X.getD ((flat3 refFftw refFftw_laws tz ty tx htz hty htx).pos x) 0 : ℝ) : ℂ)
          - ((∑ y ∈ (box3 tz ty tx htz hty htx).box, (box3 tz ty tx htz hty htx).ker (ext3 tx ty tz C) (x - y)
            * d.getD ((flat3 refFftw refFftw_laws tz ty tx htz hty htx).pos y) 0 : ℝ) : ℂ))
        ≤ errBound (box3 tz ty tx htz hty htx) (flat3 refFftw refFftw_laws tz ty tx htz hty htx).half ε g
            (fun x => d.getD ((flat3 refFftw refFftw_laws tz ty tx htz hty htx).pos x) 0)) :
    √(sqErr3 nx ny nz tx ty tz C W data) ≤ bound3 tx ty tz htz hty htx ε g W := by
  have hpos : ∀ a b c : ℕ, (flat3 refFftw refFftw_laws tz ty tx htz hty htx).pos ((c : ℤ), (b : ℤ), (a : ℤ))
    = (c * ty + b) * tx + a := fun _ _ _ => rfl
  have hB : errBound (box3 tz ty tx htz hty htx) (flat3 refFftw refFftw_laws tz ty tx htz hty htx).half ε g
            (fun x => d.getD ((flat3 refFftw refFftw_laws tz ty tx htz hty htx).pos x) 0)
          = bound3 tx ty tz htz hty htx ε g W := by
    refine errBound_congr fun x hx => ?_
    obtain ⟨c, b, a, hc, hb, ha, rfl⟩ := mem_box3.1 hx
    rw [hpos, hd a b c ha hb hc]
    simp
  rw [hB] at h
  unfold sqErr3
  refine le_trans ?_ h
  have e : (fun x : ℤ × ℤ × ℤ => ((X.getD ((flat3 refFftw refFftw_laws tz ty tx htz hty htx).pos x) 0 : ℝ) : ℂ)
          - ((∑ y ∈ (box3 tz ty tx htz hty htx).box, (box3 tz ty tx htz hty htx).ker (ext3 tx ty tz C) (x - y)
            * d.getD ((flat3 refFftw refFftw_laws tz ty tx htz hty htx).pos y) 0 : ℝ) : ℂ))
      = fun x => ((X.getD ((flat3 refFftw refFftw_laws tz ty tx htz hty htx).pos x) 0
          - ∑ y ∈ (box3 tz ty tx htz hty htx).box, (box3 tz ty tx htz hty htx).ker (ext3 tx ty tz C) (x - y)
            * d.getD ((flat3 refFftw refFftw_laws tz ty tx htz hty htx).pos y) 0 : ℝ) : ℂ) := by
    funext x; push_cast; rfl
  rw [e, l2_real]
  apply Real.sqrt_le_sqrt
  rw [box3_sum_real htz hty htx fun x => (X.getD ((flat3 refFftw refFftw_laws tz ty tx htz hty htx).pos x) 0
          - ∑ y ∈ (box3 tz ty tx htz hty htx).box, (box3 tz ty tx htz hty htx).ker (ext3 tx ty tz C) (x - y)
            * d.getD ((flat3 refFftw refFftw_laws tz ty tx htz hty htx).pos y) 0) ^ 2]
  have s1 : ∑ i ∈ range nx, ∑ j ∈ range ny, ∑ k ∈ range nz,
        (data.getD (i + nx * (j + ny * k)) 0 - field3 tx ty tz C W i j k) ^ 2
      = ∑ i ∈ range nx, ∑ j ∈ range ny, ∑ k ∈ range nz,
        (X.getD ((k * ty + j) * tx + i) 0 - field3 tx ty tz C W i j k) ^ 2 :=
    Finset.sum_congr rfl fun i hi => Finset.sum_congr rfl fun j hj => Finset.sum_congr rfl fun k hk => by
      rw [hX i j k (mem_range.1 hi) (mem_range.1 hj) (mem_range.1 hk)]
  have s2 : ∑ i ∈ range nx, ∑ j ∈ range ny, ∑ k ∈ range nz,
        (X.getD ((k * ty + j) * tx + i) 0 - field3 tx ty tz C W i j k) ^ 2
      ≤ ∑ i ∈ range tx, ∑ j ∈ range ty, ∑ k ∈ range tz,
        (X.getD ((k * ty + j) * tx + i) 0 - field3 tx ty tz C W i j k) ^ 2 := by
    refine le_trans (Finset.sum_le_sum fun i _ => Finset.sum_le_sum fun j _ =>
      Finset.sum_le_sum_of_subset_of_nonneg (range_subset_range.2 hnz) fun k _ _ => sq_nonneg _) ?_
    refine le_trans (Finset.sum_le_sum fun i _ => Finset.sum_le_sum_of_subset_of_nonneg
      (range_subset_range.2 hny) fun j _ _ => Finset.sum_nonneg fun k _ => sq_nonneg _) ?_
    exact Finset.sum_le_sum_of_subset_of_nonneg (range_subset_range.2 hnx) fun i _ _ =>
      Finset.sum_nonneg fun j _ => Finset.sum_nonneg fun k _ => sq_nonneg _
  rw [s1]
  rw [← sum_rev3 tx ty tz fun i j k => (X.getD ((k * ty + j) * tx + i) 0 - field3 tx ty tz C W i j k) ^ 2] at s2
  refine s2.trans (le_of_eq (Finset.sum_congr rfl fun k _ => Finset.sum_congr rfl fun j _ =>
    Finset.sum_congr rfl fun i _ => ?_))
  rw [hpos, field3_eq]
  congr 2
  unfold field3
  refine Finset.sum_congr rfl fun a ha => Finset.sum_congr rfl fun b hb => Finset.sum_congr rfl fun c hc => ?_
  rw [mem_range] at ha hb hc
  refine congrArg _ ?_
  change W a b c = d.getD ((c * ty + b) * tx + a) 0
  rw [hd a b c ha hb hc]

theorem fieldStep3Fl_sat {F : Fftw} {ε δ : ℝ} (hF : F.Near ε) {σ : Type} {norm01 : σ → Res (ℝ × σ)}
    {nx ny nz tx ty tz : ℕ} (htx : 0 < tx) (hty : 0 < ty) (htz : 0 < tz) (htx' : tx < 2 ^ 31) (hty' : ty < 2 ^ 31)
    (htz' : tz < 2 ^ 31) (hnx : nx ≤ tx) (hny : ny ≤ ty) (hnz : nz ≤ tz)
    (C : ℕ → ℕ → ℕ → ℝ) (filter : FFTGrid3D)
    (hf1 : filter.complexSize = (flat3 refFftw refFftw_laws tz ty tx htz hty htx).M)
    (hf2 : filter.complex_data.length = (flat3 refFftw refFftw_laws tz ty tx htz hty htx).M)
    {c' : ℤ × ℤ × ℤ → ℝ} {z' : ℤ × ℤ × ℤ → ℂ} {f' : ℤ × ℤ × ℤ → ℝ}
    (hf3 : ∀ k ∈ (flat3 refFftw refFftw_laws tz ty tx htz hty htx).half,
      filter.complex_data.getD ((flat3 refFftw refFftw_laws tz ty tx htz hty htx).cpos k) 0 = ((f' k : ℝ) : ℂ))
    (K : ErrFilter (box3 tz ty tx htz hty htx) (flat3 refFftw refFftw_laws tz ty tx htz hty htx).half ε δ
      (ext3 tx ty tz C) c' z' f')
    (g : FFTGrid3D) (hg : Ready3 nx ny nz tx ty tz g) (noise : Grid3D ℝ)
    (hn : noise.ni = tx ∧ noise.nj = ty ∧ noise.nk = tz ∧ noise.WF) (s s' : σ) (w : List ℝ)
    (hw : draws norm01 (tx * ty * tz) s = .ok (w, s')) (out : List (Grid3D ℝ)) :
    (fieldStep3Fl F norm01 filter tx ty tz (g, noise, s, out)).Sat fun st =>
      Ready3 nx ny nz tx ty tz st.1 ∧ (st.2.1.ni = tx ∧ st.2.1.nj = ty ∧ st.2.1.nk = tz ∧ st.2.1.WF) ∧
      st.2.2.1 = s' ∧
      ∃ grid : Grid3D ℝ, st.2.2.2 = out ++ [grid] ∧ grid.ni = nx ∧ grid.nj = ny ∧ grid.nk = nz ∧
        grid.data.length = nx * ny * nz ∧
        √(sqErr3 nx ny nz tx ty tz C (fun a b c => w.getD ((a * ty + b) * tz + c) 0) grid.data)
            ≤ bound3 tx ty tz htz hty htx ε (fun k => f' k - (box3 tz ty tx htz hty htx).amp (ext3 tx ty tz C) k)
              (fun a b c => w.getD ((a * ty + b) * tz + c) 0) := by
  obtain ⟨sf, ni, nj, nk, nit, njt, nkt, d0, c0⟩ := g
  obtain ⟨r1, r2, r3, r8, r4, r5, r9, r6, r7⟩ := hg
  simp only at r1 r2 r3 r4 r5 r6 r7 r8 r9
  subst r1 r2 r3 r4 r5 r8 r9
  unfold fieldStep3Fl
  simp only [Res.monad_bind_eq]
  refine (drawNoise3_sat noise hn hw).bind ?_
  rintro ⟨noise', s1⟩ ⟨rfl, hnoise⟩
  simp only
  set W : ℕ → ℕ → ℕ → ℝ := fun a b c => w.getD ((a * njt + b) * nkt + c) 0 with hW
  refine (FFTGrid3D.init_sat _ r6 (f := W) hnoise).bind ?_
  rintro f ⟨d, rfl, hd1, hd2⟩
  simp only at hd1 hd2
  have hN := box3_N' nit njt nkt htx hty htz
  have hM := flat3_M refFftw_laws nit njt nkt htx hty htz
  obtain ⟨a, b, X, ea, la, eb, lb, eX, lX, hX⟩ := Flat.field_run (flat3 refFftw refFftw_laws nkt njt nit htz hty htx)
    (flat3_near hF refFftw_laws nkt njt nit htz hty htx) (N3_le htx hty htz htx' hty' htz') K filter.complex_data hf2
    hf3 d (hd1.trans hN.symm)
  have ea' : scaleLoopFl (nit * njt * nkt) (scaleFl (nit * njt * nkt)) d = .ok a := by rw [← hN]; exact ea
  have eb' : mulLoopFl filter.complexSize (F.r2c3 nkt njt nit a) filter.complex_data = .ok b := by rw [hf1]; exact eb
  have eX' : scaleLoopFl (nit * njt * nkt) (scaleFl (nit * njt * nkt)) (F.c2r3 nkt njt nit b).1 = .ok X := by
    rw [← hN]; exact eX
  have lc : (F.c2r3 nkt njt nit b).2.length = (nit / 2 + 1) * njt * nkt := by
    rw [((flat3_near hF refFftw_laws nkt njt nit htz hty htx).c2r_length b lb).2, hM]
  unfold FFTGrid3D.doFFTFl FFTGrid3D.doInverseFFTFl
  simp only [Res.monad_bind_eq, if_true, ea', eb', eX', invScaleFl_true, Res.bind_ok, planSize_ok hty',
    planSize_ok htx', planSize_ok htz']
  have hlX : X.length = nit * njt * nkt := lX.trans hN
  refine (FFTGrid3D.getRealGrid_sat ⟨true, ni, nj, nk, nit, njt, nkt, X, (F.c2r3 nkt njt nit b).2⟩
    (f := fun i j k => X.getD ((k * njt + j) * nit + i) 0) (by
      intro i j k hi hj hk
      simp only at hi hj hk ⊢
      have : (k * njt + j) * nit + i < X.length := by
        rw [hlX, show nit * njt * nkt = nkt * njt * nit by ring]
        exact rowMajor_lt (rowMajor_lt (by omega) (by omega)) (by omega)
      rw [List.getD_eq_getElem _ _ this, List.getElem?_eq_getElem this])).bind ?_
  intro grid hgrid
  rw [Res.sat_ok]
  obtain ⟨h2, h3, h6, h4, h5⟩ := hgrid
  refine ⟨⟨rfl, rfl, rfl, rfl, rfl, rfl, rfl, hlX, lc⟩,
    ⟨hnoise.1, hnoise.2.1, hnoise.2.2.1, hnoise.2.2.2.1⟩, rfl,
    grid, rfl, h2, h3, h6, by rw [h4, h2, h3, h6], ?_⟩
  refine near3_of_run htx hty htz hnx hny hnz (fun a b c ha hb hc => getD_of_some (hd2 a b c ha hb hc))
    (fun i j k hi hj hk => ?_) hX
  have := h5 i j k hi hj hk trivial
  rw [grid.get_eq (h2 ▸ hi) (h3 ▸ hj) (h6 ▸ hk), rd_eq_ok, h2, h3] at this
  rw [show i + ni * (j + nj * k) = i + j * ni + k * ni * nj by ring]
  exact getD_of_some (d := 0) this

/-- The loop over fields. -/
theorem fields3Fl_sat {F : Fftw} {ε δ : ℝ} (hF : F.Near ε) {σ : Type} {norm01 : σ → Res (ℝ × σ)}
    {nx ny nz tx ty tz : ℕ} (htx : 0 < tx) (hty : 0 < ty) (htz : 0 < tz) (htx' : tx < 2 ^ 31) (hty' : ty < 2 ^ 31)
    (htz' : tz < 2 ^ 31) (hnx : nx ≤ tx) (hny : ny ≤ ty) (hnz : nz ≤ tz)
    (C : ℕ → ℕ → ℕ → ℝ) (filter : FFTGrid3D)
    (hf1 : filter.complexSize = (flat3 refFftw refFftw_laws tz ty tx htz hty htx).M)
    (hf2 : filter.complex_data.length = (flat3 refFftw refFftw_laws tz ty tx htz hty htx).M)
    {c' : ℤ × ℤ × ℤ → ℝ} {z' : ℤ × ℤ × ℤ → ℂ} {f' : ℤ × ℤ × ℤ → ℝ}
    (hf3 : ∀ k ∈ (flat3 refFftw refFftw_laws tz ty tx htz hty htx).half,
      filter.complex_data.getD ((flat3 refFftw refFftw_laws tz ty tx htz hty htx).cpos k) 0 = ((f' k : ℝ) : ℂ))
    (E : ErrFilter (box3 tz ty tx htz hty htx) (flat3 refFftw refFftw_laws tz ty tx htz hty htx).half ε δ
      (ext3 tx ty tz C) c' z' f')
    (g : FFTGrid3D) (hg : Ready3 nx ny nz tx ty tz g) (noise : Grid3D ℝ)
    (hn : noise.ni = tx ∧ noise.nj = ty ∧ noise.nk = tz ∧ noise.WF) (K : ℕ) (s s' : σ) (w : List ℝ)
    (hw : draws norm01 (K * (tx * ty * tz)) s = .ok (w, s')) (out : List (Grid3D ℝ)) :
    (forRange 0 K (fun _ st => fieldStep3Fl F norm01 filter tx ty tz st) (g, noise, s, out)).Sat
      fun st => st.2.2.1 = s' ∧ ∃ gs : List (Grid3D ℝ), st.2.2.2 = out ++ gs ∧ gs.length = K ∧
        ∀ k < K, ∃ grid : Grid3D ℝ, gs[k]? = some grid ∧ grid.ni = nx ∧ grid.nj = ny ∧ grid.nk = nz ∧
          grid.data.length = nx * ny * nz ∧
          √(sqErr3 nx ny nz tx ty tz C (fun a b c => w.getD (k * (tx * ty * tz) + ((a * ty + b) * tz + c)) 0) grid.data)
            ≤ bound3 tx ty tz htz hty htx ε (fun k => f' k - (box3 tz ty tx htz hty htx).amp (ext3 tx ty tz C) k)
              (fun a b c => w.getD (k * (tx * ty * tz) + ((a * ty + b) * tz + c)) 0) := by
  have := forRange_sat (lo := 0) (hi := K) (s := (g, noise, s, out))
    (body := fun _ st => fieldStep3Fl F norm01 filter tx ty tz st)
    (fun k st => Ready3 nx ny nz tx ty tz st.1 ∧
      (st.2.1.ni = tx ∧ st.2.1.nj = ty ∧ st.2.1.nk = tz ∧ st.2.1.WF) ∧
      draws norm01 (k * (tx * ty * tz)) s = .ok (w.take (k * (tx * ty * tz)), st.2.2.1) ∧
      ∃ gs : List (Grid3D ℝ), st.2.2.2 = out ++ gs ∧ gs.length = k ∧
        ∀ k' < k, ∃ grid : Grid3D ℝ, gs[k']? = some grid ∧ grid.ni = nx ∧ grid.nj = ny ∧ grid.nk = nz ∧
          grid.data.length = nx * ny * nz ∧
          √(sqErr3 nx ny nz tx ty tz C (fun a b c => w.getD (k' * (tx * ty * tz) + ((a * ty + b) * tz + c)) 0) grid.data)
            ≤ bound3 tx ty tz htz hty htx ε (fun k => f' k - (box3 tz ty tx htz hty htx).amp (ext3 tx ty tz C) k)
              (fun a b c => w.getD (k' * (tx * ty * tz) + ((a * ty + b) * tz + c)) 0))
    (Nat.zero_le _)
    ⟨hg, hn, by simp [draws], [], by simp, rfl, by intros; omega⟩ ?_
  · refine this.mono ?_
    rintro ⟨g, n, t, o⟩ ⟨-, -, h1, h2⟩
    exact ⟨draws_full hw h1, h2⟩
  · rintro k ⟨g, noise, t, o⟩ - hk ⟨hg, hn, hd, gs, rfl, hgl, hgs⟩
    have hle : (k + 1) * (tx * ty * tz) ≤ K * (tx * ty * tz) := Nat.mul_le_mul_right _ hk
    obtain ⟨t', ht'⟩ := draws_prefix hw hle
    have hs : draws norm01 (k * (tx * ty * tz) + tx * ty * tz) s
        = .ok (w.take ((k + 1) * (tx * ty * tz)), t') := by
      rw [← Nat.succ_mul]; exact ht'
    obtain ⟨t1, e1, e2⟩ := draws_split hs
    rw [List.take_take, Nat.min_eq_left (by rw [Nat.succ_mul]; omega)] at e1
    rw [e1] at hd
    simp only [Res.ok.injEq, Prod.mk.injEq, true_and] at hd
    subst hd
    refine (fieldStep3Fl_sat hF htx hty htz htx' hty' htz' hnx hny hnz C filter hf1 hf2 hf3 E g hg noise hn _ _ _ e2
      (out ++ gs)).mono ?_
    rintro ⟨g', n', t2, o'⟩ ⟨a1, a2, a3, grid, a4, a5, a6, a9, a7, a8⟩
    simp only at a1 a2 a3 a4
    subst a3 a4
    refine ⟨a1, a2, ht', gs ++ [grid], by simp, by simp [hgl], ?_⟩
    intro k' hk'
    by_cases h : k' < k
    · obtain ⟨gr, h1, h2⟩ := hgs k' h
      refine ⟨gr, ?_, h2⟩
      rw [List.getElem?_append_left (by omega)]; exact h1
    · obtain rfl : k' = k := by omega
      refine ⟨grid, by rw [List.getElem?_append_right (by omega)]; simp [hgl], a5, a6, a9, a7, ?_⟩
      have hWW : ∀ a < tx, ∀ b < ty, ∀ c < tz,
          ((w.take ((k' + 1) * (tx * ty * tz))).drop (k' * (tx * ty * tz))).getD ((a * ty + b) * tz + c) 0
          = w.getD (k' * (tx * ty * tz) + ((a * ty + b) * tz + c)) 0 := by
        intro a ha b hb c hc
        have := rowMajor_lt (rowMajor_lt ha hb) hc
        simp only [List.getD_eq_getElem?_getD, List.getElem?_drop, List.getElem?_take]
        rw [if_pos (by rw [Nat.succ_mul]; omega)]
      rw [← sqErr3_congr hWW, ← bound3_congr hWW]
      exact a8

end Verif
