import Verif.Lemmas.FieldFl
import Verif.Spec.FieldNear

/-! Helper lemmas: the two-dimensional simulation in double arithmetic. -/

namespace Verif

open Finset Spec ComplexConjugate Fl

attribute [local irreducible] rnd64

theorem sqErr2_congr {nx ny tx ty : ℕ} {C W W' : ℕ → ℕ → ℝ} {data : List ℝ}
    (hW : ∀ a < tx, ∀ b < ty, W a b = W' a b) : sqErr2 nx ny tx ty C W data = sqErr2 nx ny tx ty C W' data := by
  unfold sqErr2 field2
  have e2 : ∀ i j : ℕ, ∑ a ∈ range tx, ∑ b ∈ range ty, weight2 tx ty C ((i : ℤ) - a) ((j : ℤ) - b) * W a b
      = ∑ a ∈ range tx, ∑ b ∈ range ty, weight2 tx ty C ((i : ℤ) - a) ((j : ℤ) - b) * W' a b := fun i j =>
    Finset.sum_congr rfl fun a ha => Finset.sum_congr rfl fun b hb => by
      rw [hW a (mem_range.1 ha) b (mem_range.1 hb)]
  simp only [e2]

/-- The bound for one field: `g` is the error of the filter, `W` the noise. -/
noncomputable def bound2 (tx ty : ℕ) (hty : 0 < ty) (htx : 0 < tx) (ε : ℝ) (g : ℤ × ℤ → ℝ) (W : ℕ → ℕ → ℝ) : ℝ :=
  errBound (box2 ty tx hty htx) (flat2 refFftw refFftw_laws ty tx hty htx).half ε g
    (fun x => W x.2.toNat x.1.toNat)

theorem bound2_congr {tx ty : ℕ} {hty : 0 < ty} {htx : 0 < tx} {ε : ℝ} {g : ℤ × ℤ → ℝ} {W W' : ℕ → ℕ → ℝ}
    (hW : ∀ a < tx, ∀ b < ty, W a b = W' a b) : bound2 tx ty hty htx ε g W = bound2 tx ty hty htx ε g W' := by
  unfold bound2
  refine errBound_congr fun x hx => ?_
  obtain ⟨b, a, hb, ha, rfl⟩ := mem_box2.1 hx
  simpa using hW a ha b hb

theorem assertScaling_ok {s : ℝ} (h : rnd64 1e-12 < s) : assertScaling s = .ok () := by
  unfold assertScaling; rw [if_pos h]

theorem fftCovGrid2DFl_filled {lm : Libm} {v : Variogram} {tx ty : ℕ} (htx : tx + 1 < 2 ^ 31) (hty : ty + 1 < 2 ^ 31)
    {dx dy sx sy : ℝ} (hsx : rnd64 1e-12 < sx) (hsy : rnd64 1e-12 < sy) {f : ℕ → ℕ → ℝ}
    (hv : ∀ a b, a < tx → b < ty →
      covVal2Fl lm v sx sy (rnd64 (lag tx a * dx)) (rnd64 (lag ty b * dy)) = .ok (f a b)) :
    (fftCovGrid2DFl lm v tx dx ty dy sx sy).Sat (Grid2D.Filled tx ty (fun _ _ => True) f) := by
  unfold fftCovGrid2DFl
  rw [intSize_ok htx, intSize_ok hty, assertScaling_ok hsx, assertScaling_ok hsy]
  simp only [Res.monad_bind_eq, Res.bind_ok]
  refine covLoops2_filled ?_
  intro S g i j hi hj hg
  rw [hv i j hi hj, Res.bind_ok]
  exact Grid2D.Filled.set hg hi hj rfl

theorem invScaleFl_true (n : ℕ) : invScaleFl true n = scaleFl n := rfl

theorem N2_le {tx ty : ℕ} (htx : 0 < tx) (hty : 0 < ty) (htx' : tx < 2 ^ 31) (hty' : ty < 2 ^ 31) :
    ((box2 ty tx hty htx).N : ℝ) ≤ 2 ^ 100 := by
  rw [FFTGrid2D.box_N]
  have : tx * ty ≤ 2 ^ 100 := (Nat.mul_le_mul htx'.le hty'.le).trans (by norm_num)
  exact_mod_cast this

theorem getD_of_some {α : Type} {l : List α} {i : ℕ} {x d : α} (h : l[i]? = some x) : l.getD i d = x := by
  rw [List.getD_eq_getElem?_getD, h, Option.getD_some]

theorem makeFilter2Fl_sat {lm : Libm} {F : Fftw} {ε δ : ℝ} (hF : F.Near ε) (hu : u ≤ ε) (hε : ε ≤ 2⁻¹ ^ 20) (hδ : 0 ≤ δ)
    (hδ' : δ ≤ 2⁻¹) {p : Platform} {v : Variogram} {nx ny px py tx ty : ℕ} (htx : 0 < tx) (hty : 0 < ty)
    (htx' : tx + 1 < 2 ^ 31) (hty' : ty + 1 < 2 ^ 31)
    (ex : findNewSize p (wrap64 (nx + px)) true = .ok tx)
    (ey : findNewSize p (wrap64 (ny + py)) false = .ok ty) {dx dy sx sy : ℝ}
    (hsx : rnd64 1e-12 < sx) (hsy : rnd64 1e-12 < sy) {C C' : ℕ → ℕ → ℝ}
    (hC : ∀ a b, a < tx → b < ty → |C a b| ≤ 1)
    (hv : ∀ a b, a < tx → b < ty →
      covVal2Fl lm v sx sy (rnd64 (lag tx a * dx)) (rnd64 (lag ty b * dy)) = .ok (C' a b))
    (hd : ∀ a b, a < tx → b < ty → |C' a b - C a b| ≤ δ) :
    (makeFilter2Fl lm F p v nx dx ny dy px py tx ty sx sy).Sat fun f =>
      f.complexSize = (flat2 refFftw refFftw_laws ty tx hty htx).M ∧
      f.complex_data.length = (flat2 refFftw refFftw_laws ty tx hty htx).M ∧
      ∃ c' z' f', (∀ k ∈ (flat2 refFftw refFftw_laws ty tx hty htx).half,
          f.complex_data.getD ((flat2 refFftw refFftw_laws ty tx hty htx).cpos k) 0 = ((f' k : ℝ) : ℂ)) ∧
        ErrFilter (box2 ty tx hty htx) (flat2 refFftw refFftw_laws ty tx hty htx).half ε δ (ext2 tx ty C) c' z' f' := by
  obtain ⟨cov, ecov, hcov⟩ := fftCovGrid2DFl_filled htx' hty' hsx hsy hv
  unfold makeFilter2Fl FFTGrid2D.create
  simp only [Res.monad_bind_eq, ecov, ex, ey, Res.bind_ok]
  refine (FFTGrid2D.init_sat _ (by simp) (f := C') hcov).bind ?_
  rintro f ⟨d, rfl, hd1, hd2⟩
  simp only at hd1 hd2
  have hM : (flat2 refFftw refFftw_laws ty tx hty htx).M = (tx / 2 + 1) * ty := Nat.mul_comm _ _
  have hdN : d.length = (box2 ty tx hty htx).N := hd1.trans (FFTGrid2D.box_N hty htx).symm
  have hc1 : ∀ x ∈ (box2 ty tx hty htx).box, |ext2 tx ty C x| ≤ 1 := by
    intro x hx
    obtain ⟨b, a, hb, ha, rfl⟩ := mem_box2.1 hx
    rw [ext2_nat C ha hb]
    exact hC a b ha hb
  have hc2 : ∀ x ∈ (box2 ty tx hty htx).box,
      |d.getD ((flat2 refFftw refFftw_laws ty tx hty htx).pos x) 0 - ext2 tx ty C x| ≤ δ := by
    intro x hx
    obtain ⟨b, a, hb, ha, rfl⟩ := mem_box2.1 hx
    rw [ext2_nat C ha hb]
    have := getD_of_some (d := 0) (hd2 a b ha hb)
    rw [show (flat2 refFftw refFftw_laws ty tx hty htx).pos ((b : ℤ), (a : ℤ)) = b * tx + a from rfl, this]
    exact hd a b ha hb
  obtain ⟨fl, f', e1, e2, e3, e4⟩ := Flat.filter_run (flat2 refFftw refFftw_laws ty tx hty htx)
    (flat2_near hF refFftw_laws ty tx hty htx) hu hε hδ hδ' hc1 d hdN hc2
  have e5 : clipSqrtLoopFl ((tx / 2 + 1) * ty) (F.r2c2 ty tx d) = .ok fl := by rw [← hM]; exact e1
  unfold FFTGrid2D.doFFTFl
  simp only [Res.monad_bind_eq, Bool.false_eq_true, if_false, Res.bind_ok, planSize_ok (show ty < 2 ^ 31 by omega),
    planSize_ok (show tx < 2 ^ 31 by omega), FFTGrid2D.complexSize, e5, Res.sat_ok]
  exact ⟨hM.symm, e2, _, _, f', e3, e4⟩

/-- From a run on the flat layout to the specification. -/
theorem near2_of_run {nx ny tx ty : ℕ} (htx : 0 < tx) (hty : 0 < ty) (hnx : nx ≤ tx) (hny : ny ≤ ty)
    {C W : ℕ → ℕ → ℝ} {ε : ℝ} {g : ℤ × ℤ → ℝ} {d X data : List ℝ}
    (hd : ∀ a b, a < tx → b < ty → d.getD (b * tx + a) 0 = W a b)
    (hX : ∀ i j, i < nx → j < ny → data.getD (i + nx * j) 0 = X.getD (j * tx + i) 0)
    (h : l2 (box2 ty tx hty htx).box (fun x =>
        ((X.getD ((flat2 refFftw refFftw_laws ty tx hty htx).pos x) 0 : ℝ) : ℂ)
          - ((∑ y ∈ (box2 ty tx hty htx).box, (box2 ty tx hty htx).ker (ext2 tx ty C) (x - y)
            * d.getD ((flat2 refFftw refFftw_laws ty tx hty htx).pos y) 0 : ℝ) : ℂ))
        ≤ errBound (box2 ty tx hty htx) (flat2 refFftw refFftw_laws ty tx hty htx).half ε g
            (fun x => d.getD ((flat2 refFftw refFftw_laws ty tx hty htx).pos x) 0)) :
    √(sqErr2 nx ny tx ty C W data) ≤ bound2 tx ty hty htx ε g W := by
  have hpos : ∀ a b : ℕ, (flat2 refFftw refFftw_laws ty tx hty htx).pos ((b : ℤ), (a : ℤ)) = b * tx + a :=
    fun _ _ => rfl
  have hB : errBound (box2 ty tx hty htx) (flat2 refFftw refFftw_laws ty tx hty htx).half ε g
            (fun x => d.getD ((flat2 refFftw refFftw_laws ty tx hty htx).pos x) 0) = bound2 tx ty hty htx ε g W := by
    refine errBound_congr fun x hx => ?_
    obtain ⟨b, a, hb, ha, rfl⟩ := mem_box2.1 hx
    rw [hpos, hd a b ha hb]
    simp
  rw [hB] at h
  unfold sqErr2
  refine le_trans ?_ h
  have e : (fun x : ℤ × ℤ => ((X.getD ((flat2 refFftw refFftw_laws ty tx hty htx).pos x) 0 : ℝ) : ℂ)
          - ((∑ y ∈ (box2 ty tx hty htx).box, (box2 ty tx hty htx).ker (ext2 tx ty C) (x - y)
            * d.getD ((flat2 refFftw refFftw_laws ty tx hty htx).pos y) 0 : ℝ) : ℂ))
      = fun x => ((X.getD ((flat2 refFftw refFftw_laws ty tx hty htx).pos x) 0
          - ∑ y ∈ (box2 ty tx hty htx).box, (box2 ty tx hty htx).ker (ext2 tx ty C) (x - y)
            * d.getD ((flat2 refFftw refFftw_laws ty tx hty htx).pos y) 0 : ℝ) : ℂ) := by
    funext x; push_cast; rfl
  rw [e, l2_real]
  apply Real.sqrt_le_sqrt
  rw [box2_sum_real hty htx fun x => (X.getD ((flat2 refFftw refFftw_laws ty tx hty htx).pos x) 0
          - ∑ y ∈ (box2 ty tx hty htx).box, (box2 ty tx hty htx).ker (ext2 tx ty C) (x - y)
            * d.getD ((flat2 refFftw refFftw_laws ty tx hty htx).pos y) 0) ^ 2]
  have s1 : ∑ i ∈ range nx, ∑ j ∈ range ny, (data.getD (i + nx * j) 0 - field2 tx ty C W i j) ^ 2
      = ∑ i ∈ range nx, ∑ j ∈ range ny, (X.getD (j * tx + i) 0 - field2 tx ty C W i j) ^ 2 :=
    Finset.sum_congr rfl fun i hi => Finset.sum_congr rfl fun j hj => by
      rw [hX i j (mem_range.1 hi) (mem_range.1 hj)]
  have s2 : ∑ i ∈ range nx, ∑ j ∈ range ny, (X.getD (j * tx + i) 0 - field2 tx ty C W i j) ^ 2
      ≤ ∑ i ∈ range tx, ∑ j ∈ range ty, (X.getD (j * tx + i) 0 - field2 tx ty C W i j) ^ 2 := by
    refine le_trans (Finset.sum_le_sum fun i _ => Finset.sum_le_sum_of_subset_of_nonneg
      (range_subset_range.2 hny) fun j _ _ => sq_nonneg _) ?_
    exact Finset.sum_le_sum_of_subset_of_nonneg (range_subset_range.2 hnx) fun i _ _ =>
      Finset.sum_nonneg fun j _ => sq_nonneg _
  rw [s1]
  rw [Finset.sum_comm (s := range tx)] at s2
  refine s2.trans (le_of_eq (Finset.sum_congr rfl fun j _ => Finset.sum_congr rfl fun i _ => ?_))
  rw [hpos, field2_eq]
  congr 2
  unfold field2
  refine Finset.sum_congr rfl fun a ha => Finset.sum_congr rfl fun b hb => ?_
  rw [mem_range] at ha hb
  refine congrArg _ ?_
  change W a b = d.getD (b * tx + a) 0
  rw [hd a b ha hb]

theorem fieldStep2Fl_sat {F : Fftw} {ε δ : ℝ} (hF : F.Near ε) {σ : Type} {norm01 : σ → Res (ℝ × σ)}
    {nx ny tx ty : ℕ} (htx : 0 < tx)
    (hty : 0 < ty) (htx' : tx < 2 ^ 31) (hty' : ty < 2 ^ 31) (hnx : nx ≤ tx) (hny : ny ≤ ty)
    (C : ℕ → ℕ → ℝ) (filter : FFTGrid2D)
    (hf1 : filter.complexSize = (flat2 refFftw refFftw_laws ty tx hty htx).M)
    (hf2 : filter.complex_data.length = (flat2 refFftw refFftw_laws ty tx hty htx).M)
    {c' : ℤ × ℤ → ℝ} {z' : ℤ × ℤ → ℂ} {f' : ℤ × ℤ → ℝ}
    (hf3 : ∀ k ∈ (flat2 refFftw refFftw_laws ty tx hty htx).half,
      filter.complex_data.getD ((flat2 refFftw refFftw_laws ty tx hty htx).cpos k) 0 = ((f' k : ℝ) : ℂ))
    (K : ErrFilter (box2 ty tx hty htx) (flat2 refFftw refFftw_laws ty tx hty htx).half ε δ (ext2 tx ty C) c' z' f')
    (g : FFTGrid2D) (hg : Ready2 nx ny tx ty g) (noise : Grid2D ℝ)
    (hn : noise.ni = tx ∧ noise.nj = ty ∧ noise.WF) (s s' : σ) (w : List ℝ)
    (hw : draws norm01 (tx * ty) s = .ok (w, s')) (out : List (Grid2D ℝ)) :
    (fieldStep2Fl F norm01 filter tx ty (g, noise, s, out)).Sat fun st =>
      Ready2 nx ny tx ty st.1 ∧ (st.2.1.ni = tx ∧ st.2.1.nj = ty ∧ st.2.1.WF) ∧ st.2.2.1 = s' ∧
      ∃ grid : Grid2D ℝ, st.2.2.2 = out ++ [grid] ∧ grid.ni = nx ∧ grid.nj = ny ∧ grid.data.length = nx * ny ∧
        √(sqErr2 nx ny tx ty C (fun a b => w.getD (a * ty + b) 0) grid.data)
            ≤ bound2 tx ty hty htx ε (fun k => f' k - (box2 ty tx hty htx).amp (ext2 tx ty C) k)
              (fun a b => w.getD (a * ty + b) 0) := by
  obtain ⟨sf, ni, nj, nit, njt, d0, c0⟩ := g
  obtain ⟨r1, r2, r3, r4, r5, r6, r7⟩ := hg
  simp only at r1 r2 r3 r4 r5 r6 r7
  subst r1 r2 r3 r4 r5
  unfold fieldStep2Fl
  simp only [Res.monad_bind_eq]
  refine (drawNoise2_sat noise hn hw).bind ?_
  rintro ⟨noise', s1⟩ ⟨rfl, hnoise⟩
  simp only
  set W : ℕ → ℕ → ℝ := fun a b => w.getD (a * njt + b) 0 with hW
  refine (FFTGrid2D.init_sat _ r6 (f := W) hnoise).bind ?_
  rintro f ⟨d, rfl, hd1, hd2⟩
  simp only at hd1 hd2
  have hN := FFTGrid2D.box_N hty htx
  have hM : (flat2 refFftw refFftw_laws njt nit hty htx).M = (nit / 2 + 1) * njt := Nat.mul_comm _ _
  obtain ⟨a, b, X, ea, la, eb, lb, eX, lX, hX⟩ := Flat.field_run (flat2 refFftw refFftw_laws njt nit hty htx)
    (flat2_near hF refFftw_laws njt nit hty htx) (N2_le htx hty htx' hty') K filter.complex_data hf2 hf3 d
    (hd1.trans hN.symm)
  have ea' : scaleLoopFl (nit * njt) (scaleFl (nit * njt)) d = .ok a := by rw [← hN]; exact ea
  have eb' : mulLoopFl filter.complexSize (F.r2c2 njt nit a) filter.complex_data = .ok b := by rw [hf1]; exact eb
  have eX' : scaleLoopFl (nit * njt) (scaleFl (nit * njt)) (F.c2r2 njt nit b).1 = .ok X := by rw [← hN]; exact eX
  have lc : (F.c2r2 njt nit b).2.length = (nit / 2 + 1) * njt := by
    rw [((flat2_near hF refFftw_laws njt nit hty htx).c2r_length b lb).2, hM]
  unfold FFTGrid2D.doFFTFl FFTGrid2D.doInverseFFTFl
  simp only [Res.monad_bind_eq, if_true, ea', eb', eX', invScaleFl_true, Res.bind_ok, planSize_ok hty',
    planSize_ok htx']
  have hlX : X.length = nit * njt := lX.trans hN
  refine (FFTGrid2D.getRealGrid_sat ⟨true, ni, nj, nit, njt, X, (F.c2r2 njt nit b).2⟩
    (f := fun i j => X.getD (j * nit + i) 0) (by
      intro i j hi hj
      simp only at hi hj ⊢
      have : j * nit + i < X.length := by
        rw [hlX, Nat.mul_comm nit njt]; exact rowMajor_lt (by omega) (by omega)
      rw [List.getD_eq_getElem _ _ this, List.getElem?_eq_getElem this])).bind ?_
  intro grid hgrid
  rw [Res.sat_ok]
  obtain ⟨h2, h3, h4, h5⟩ := hgrid
  refine ⟨⟨rfl, rfl, rfl, rfl, rfl, hlX, lc⟩, ⟨hnoise.1, hnoise.2.1, hnoise.2.2.1⟩, rfl,
    grid, rfl, h2, h3, by rw [h4, h2, h3], ?_⟩
  refine near2_of_run htx hty hnx hny (fun a b ha hb => getD_of_some (hd2 a b ha hb)) (fun i j hi hj => ?_) hX
  have := h5 i j hi hj trivial
  rw [grid.get_eq (h2 ▸ hi) (h3 ▸ hj), rd_eq_ok, h2] at this
  rw [Nat.mul_comm]
  exact getD_of_some (d := 0) this

/-- The loop over fields. -/
theorem fields2Fl_sat {F : Fftw} {ε δ : ℝ} (hF : F.Near ε) {σ : Type} {norm01 : σ → Res (ℝ × σ)}
    {nx ny tx ty : ℕ} (htx : 0 < tx)
    (hty : 0 < ty) (htx' : tx < 2 ^ 31) (hty' : ty < 2 ^ 31) (hnx : nx ≤ tx) (hny : ny ≤ ty)
    (C : ℕ → ℕ → ℝ) (filter : FFTGrid2D)
    (hf1 : filter.complexSize = (flat2 refFftw refFftw_laws ty tx hty htx).M)
    (hf2 : filter.complex_data.length = (flat2 refFftw refFftw_laws ty tx hty htx).M)
    {c' : ℤ × ℤ → ℝ} {z' : ℤ × ℤ → ℂ} {f' : ℤ × ℤ → ℝ}
    (hf3 : ∀ k ∈ (flat2 refFftw refFftw_laws ty tx hty htx).half,
      filter.complex_data.getD ((flat2 refFftw refFftw_laws ty tx hty htx).cpos k) 0 = ((f' k : ℝ) : ℂ))
    (E : ErrFilter (box2 ty tx hty htx) (flat2 refFftw refFftw_laws ty tx hty htx).half ε δ (ext2 tx ty C) c' z' f')
    (g : FFTGrid2D) (hg : Ready2 nx ny tx ty g) (noise : Grid2D ℝ)
    (hn : noise.ni = tx ∧ noise.nj = ty ∧ noise.WF) (K : ℕ) (s s' : σ) (w : List ℝ)
    (hw : draws norm01 (K * (tx * ty)) s = .ok (w, s')) (out : List (Grid2D ℝ)) :
    (forRange 0 K (fun _ st => fieldStep2Fl F norm01 filter tx ty st) (g, noise, s, out)).Sat
      fun st => st.2.2.1 = s' ∧ ∃ gs : List (Grid2D ℝ), st.2.2.2 = out ++ gs ∧ gs.length = K ∧
        ∀ k < K, ∃ grid : Grid2D ℝ, gs[k]? = some grid ∧ grid.ni = nx ∧ grid.nj = ny ∧ grid.data.length = nx * ny ∧
          √(sqErr2 nx ny tx ty C (fun a b => w.getD (k * (tx * ty) + (a * ty + b)) 0) grid.data)
            ≤ bound2 tx ty hty htx ε (fun k => f' k - (box2 ty tx hty htx).amp (ext2 tx ty C) k)
              (fun a b => w.getD (k * (tx * ty) + (a * ty + b)) 0) := by
  have := forRange_sat (lo := 0) (hi := K) (s := (g, noise, s, out))
    (body := fun _ st => fieldStep2Fl F norm01 filter tx ty st)
    (fun k st => Ready2 nx ny tx ty st.1 ∧ (st.2.1.ni = tx ∧ st.2.1.nj = ty ∧ st.2.1.WF) ∧
      draws norm01 (k * (tx * ty)) s = .ok (w.take (k * (tx * ty)), st.2.2.1) ∧
      ∃ gs : List (Grid2D ℝ), st.2.2.2 = out ++ gs ∧ gs.length = k ∧
        ∀ k' < k, ∃ grid : Grid2D ℝ, gs[k']? = some grid ∧ grid.ni = nx ∧ grid.nj = ny ∧ grid.data.length = nx * ny ∧
          √(sqErr2 nx ny tx ty C (fun a b => w.getD (k' * (tx * ty) + (a * ty + b)) 0) grid.data)
            ≤ bound2 tx ty hty htx ε (fun k => f' k - (box2 ty tx hty htx).amp (ext2 tx ty C) k)
              (fun a b => w.getD (k' * (tx * ty) + (a * ty + b)) 0))
    (Nat.zero_le _)
    ⟨hg, hn, by simp [draws], [], by simp, rfl, by intros; omega⟩ ?_
  · refine this.mono ?_
    rintro ⟨g, n, t, o⟩ ⟨-, -, h1, h2⟩
    exact ⟨draws_full hw h1, h2⟩
  · rintro k ⟨g, noise, t, o⟩ - hk ⟨hg, hn, hd, gs, rfl, hgl, hgs⟩
    have hle : (k + 1) * (tx * ty) ≤ K * (tx * ty) := Nat.mul_le_mul_right _ hk
    obtain ⟨t', ht'⟩ := draws_prefix hw hle
    have hs : draws norm01 (k * (tx * ty) + tx * ty) s = .ok (w.take ((k + 1) * (tx * ty)), t') := by
      rw [← Nat.succ_mul]; exact ht'
    obtain ⟨t1, e1, e2⟩ := draws_split hs
    rw [List.take_take, Nat.min_eq_left (by rw [Nat.succ_mul]; omega)] at e1
    rw [e1] at hd
    simp only [Res.ok.injEq, Prod.mk.injEq, true_and] at hd
    subst hd
    refine (fieldStep2Fl_sat hF htx hty htx' hty' hnx hny C filter hf1 hf2 hf3 E g hg noise hn _ _ _ e2
      (out ++ gs)).mono ?_
    rintro ⟨g', n', t2, o'⟩ ⟨a1, a2, a3, grid, a4, a5, a6, a7, a8⟩
    simp only at a1 a2 a3 a4
    subst a3 a4
    refine ⟨a1, a2, ht', gs ++ [grid], by simp, by simp [hgl], ?_⟩
    intro k' hk'
    by_cases h : k' < k
    · obtain ⟨gr, h1, h2⟩ := hgs k' h
      refine ⟨gr, ?_, h2⟩
      rw [List.getElem?_append_left (by omega)]; exact h1
    · obtain rfl : k' = k := by omega
      refine ⟨grid, by rw [List.getElem?_append_right (by omega)]; simp [hgl], a5, a6, a7, ?_⟩
      have hWW : ∀ a < tx, ∀ b < ty, ((w.take ((k' + 1) * (tx * ty))).drop (k' * (tx * ty))).getD (a * ty + b) 0
          = w.getD (k' * (tx * ty) + (a * ty + b)) 0 := by
        intro a ha b hb
        have := rowMajor_lt ha hb
        simp only [List.getD_eq_getElem?_getD, List.getElem?_drop, List.getElem?_take]
        rw [if_pos (by rw [Nat.succ_mul]; omega)]
      rw [← sqErr2_congr hWW, ← bound2_congr hWW]
      exact a8

end Verif
