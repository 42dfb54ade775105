import Verif.Lemmas.Field
import Verif.Props.Padding
import Verif.Props.FftSize
import Verif.Props.CovGrid

/-!
# C01, C02, C03, C16, C34, C43 for the simulation functions

The programs that simulate one-, two- and three-dimensional fields terminate normally and return
the specified field (`Spec/Field.lean`), for every generator, every transform library that meets
its contract and all sizes.
-/

namespace Verif

open Finset Spec Variogram

/-- The number of padding cells in one direction: the least one of C18 if the argument is
negative (the default), otherwise the argument. -/
def IsPadding (v : Variogram) (n : ℕ) (range step : ℝ) (pad : ℤ) (q : ℕ) : Prop :=
  if pad < 0 then IsPad v n range step q
  else (q : ℤ) = pad

/-- The total number of cells in one direction. -/
def IsTotal (v : Variogram) (n : ℕ) (range step : ℝ) (pad : ℤ) (even : Bool) (t : ℕ) : Prop :=
  ∃ q, IsPadding v n range step pad q ∧ FftSize (n + q) even t

/-- Arguments of one direction for which the simulation is well defined: positive size, step and
range; quotients that fit in an `int`; a padded size that fits in the search for a transform size
and, after rounding up, in an `int`; a positive smoothing parameter. -/
structure DirOk (p : Platform) (v : Variogram) (n : ℕ) (range step : ℝ) (pad : ℤ) (s : ℝ) : Prop where
  size : 1 ≤ n
  padOk : PadOk v n range step
  pad_lt : pad < 2 ^ 31
  fits : ∀ q, IsPadding v n range step pad q → SizeOk p (n + q) ∧ 2 * (n + q) < 2 ^ 31
  scaling : 1e-12 < s

theorem fftSize_sat {p : Platform} {n : ℕ} (h : SizeOk p n) (h2 : 2 * n < 2 ^ 31) (ev : Bool) :
    (findNewSize p n ev).Sat fun t => FftSize n ev t ∧ n ≤ t ∧ 0 < t ∧ t + 1 < 2 ^ 31 := by
  have h1 := h.1
  by_cases hev : ev = true ∧ n = 1
  · obtain ⟨rfl, rfl⟩ := hev
    obtain ⟨ε, hε, -⟩ := h.2.2.1
    rw [findNewSize_one_even_refuted p ε hε, Res.sat_ok]
    refine ⟨by simp [FftSize], le_rfl, by norm_num, by norm_num⟩
  · have hev' : ev = true → 2 ≤ n := fun he => by
      have : n ≠ 1 := fun h => hev ⟨he, h⟩
      omega
    obtain ⟨t, e, ht⟩ := findNewSize_least_partial p n ev h hev'
    obtain ⟨t', e', ht'⟩ := findNewSize_lt_two_mul p n ev h hev'
    rw [e] at e'
    obtain rfl := Res.ok.inj e'
    refine ⟨t, e, ?_, ht'.1, by omega, by omega⟩
    unfold FftSize
    rw [if_neg hev]
    exact ht

theorem dirOk_total {p : Platform} {v : Variogram} {n : ℕ} {range step : ℝ} {pad : ℤ} {s : ℝ}
    (h : DirOk p v n range step pad s) (ev : Bool) {px : ℕ}
    (hpx : IsPad v n range step px)
    {def_pad : List ℕ} {i : ℕ} (hd : rd def_pad i = .ok px) :
    ∃ q t, desiredPadding pad def_pad i = .ok q ∧ findNewSize p (wrap64 (n + q)) ev = .ok t ∧
      IsTotal v n range step pad ev t ∧ n ≤ t ∧ 0 < t ∧ t + 1 < 2 ^ 31 := by
  have key : ∀ q, IsPadding v n range step pad q →
      ∃ t, findNewSize p (wrap64 (n + q)) ev = .ok t ∧
      IsTotal v n range step pad ev t ∧ n ≤ t ∧ 0 < t ∧ t + 1 < 2 ^ 31 := by
    intro q hq
    obtain ⟨h1, h2⟩ := h.fits q hq
    obtain ⟨t, e, h3, h4, h5, h6⟩ := fftSize_sat h1 h2 ev
    refine ⟨t, ?_, ⟨q, hq, h3⟩, by omega, h5, h6⟩
    have := wrap64_natCast (n := n + q) (by omega)
    push_cast at this
    rw [this, e]
  by_cases hp : pad < 0
  · have hq : IsPadding v n range step pad px := by
      unfold IsPadding; rw [if_pos hp]; exact hpx
    obtain ⟨t, ht⟩ := key px hq
    exact ⟨px, t, by rw [desiredPadding, if_pos hp, hd], ht⟩
  · have hq : IsPadding v n range step pad pad.toNat := by
      unfold IsPadding; rw [if_neg hp]; omega
    obtain ⟨t, ht⟩ := key _ hq
    exact ⟨pad.toNat, t, by rw [desiredPadding, if_neg hp], ht⟩

/-- The generator used: the one passed in, or a new one made from the global state. -/
def UsesGenerator {σ γ : Type} (newRg : γ → Res (σ × γ)) (rg : Option σ) (glob : γ) (s : σ)
    (glob' : γ) : Prop :=
  (rg = some s ∧ glob' = glob) ∨ (rg = none ∧ newRg glob = .ok (s, glob'))

theorem rgOrNew_of {σ γ : Type} {newRg : γ → Res (σ × γ)} {rg : Option σ} {glob : γ} {s : σ}
    {glob' : γ} (h : UsesGenerator newRg rg glob s glob') :
    rgOrNew newRg rg glob = .ok (s, glob') := by
  rcases h with ⟨rfl, rfl⟩ | ⟨rfl, h⟩
  · rfl
  · exact h

/-- Covariance at index `a` of a cycle of `tx` cells, with smoothing. -/
noncomputable def gridCov1 (v : Variogram) (r : ℝ × ℝ × ℝ) (tx : ℕ) (dx sx : ℝ) (a : ℕ) : ℝ :=
  v.cov1 (lag tx a * dx) * kernel sx r.1 (lag tx a * dx)

/-- The same on a torus. -/
noncomputable def gridCov2 (v : Variogram) (r : ℝ × ℝ × ℝ) (tx : ℕ) (dx : ℝ) (ty : ℕ)
    (dy sx sy : ℝ) (a b : ℕ) : ℝ :=
  v.cov2 (lag tx a * dx) (lag ty b * dy) * kernel sx r.1 (lag tx a * dx)
    * kernel sy r.2.1 (lag ty b * dy)

noncomputable def gridCov3 (v : Variogram) (r : ℝ × ℝ × ℝ) (tx : ℕ) (dx : ℝ) (ty : ℕ) (dy : ℝ)
    (tz : ℕ) (dz sx sy sz : ℝ) (a b c : ℕ) : ℝ :=
  v.cov3 (lag tx a * dx) (lag ty b * dy) (lag tz c * dz) * kernel sx r.1 (lag tx a * dx)
    * kernel sy r.2.1 (lag ty b * dy) * kernel sz r.2.2 (lag tz c * dz)

theorem covOn1_eq : covOn1 = gridCov1 := rfl
theorem covOn2_eq : covOn2 = gridCov2 := rfl
theorem covOn3_eq : covOn3 = gridCov3 := rfl

section
variable {p : Platform} {t : VType} {pw rx ry rz az dp sd : ℝ}
  {v : Variogram} (hv : Variogram.create t pw rx ry rz az dp sd = .ok v)
include hv

/-- **C01, C02, C03, C34, C43, one dimension.** For every well-formed call, with any random
generator: the call returns normally, the result has one value per cell, and it is the specified
convolution of the draws (a linear function of them) with the periodic covariance of the variogram;
exactly `tx` draws are taken. -/
theorem simulate1D_value {nx : ℕ} {dx sx : ℝ} {padx : ℤ} (hx : DirOk p v nx v.rangeX dx padx sx) :
    ∃ tx r, IsTotal v nx v.rangeX dx padx false tx ∧ nx ≤ tx ∧ IsExtents rx ry rz az dp r ∧
      ∀ {F : Fftw} (_ : F.Laws) {σ γ : Type} (newRg : γ → Res (σ × γ)) (norm01 : σ → Res (ℝ × σ)) (rg : Option σ)
        (glob glob' : γ) (s s' : σ) (w : List ℝ), UsesGenerator newRg rg glob s glob' →
        draws norm01 tx s = .ok (w, s') →
        ∃ out, simulate1D F p newRg norm01 v nx dx nx rg padx sx glob = .ok (out, s', glob') ∧
          out.length = nx ∧ ∀ i < nx, out[i]? =
            some (field1 tx (gridCov1 v r tx dx sx) (fun a => w.getD a 0) i) := by
  obtain ⟨-, -, e1, e2, e3, -⟩ := create_fields hv
  obtain ⟨n1, n2, n3⟩ := create_ok_iff.1 ⟨v, hv⟩
  obtain ⟨px, hpx, -, lx⟩ := padding_isLeast v nx _ dx hx.padOk
  obtain ⟨q, tx, eq, et, hT, hle, hpos, hlt⟩ := dirOk_total hx false lx (def_pad := [px]) (i := 0) rfl
  refine ⟨tx, findVariogramRanges v, hT, hle, findVariogramRanges_close hv, ?_⟩
  intro F hF σ γ newRg norm01 rg glob glob' s s' w hrg hw
  obtain ⟨cov, ec, hcl, hcv⟩ := fftCovGrid1D_sat v (e1 ▸ n1) (e2 ▸ n2) (e3 ▸ n3) tx hlt dx sx
    hx.scaling
  have hwl := draws_length hw
  obtain ⟨out, eo, hol, hov⟩ := tail1_sat hF p hpos (by omega) cov w hcl hwl nx hle
  refine ⟨out, ?_, hol, ?_⟩
  · unfold simulate1D findNDimPadding
    simp only [Res.monad_bind_eq, le_refl, if_true, hpx, Res.bind_ok, eq, et, ec, rgOrNew_of hrg,
      drawNoise1_sat hw] at eo ⊢
    rw [Res.bind_eq_ok] at eo
    obtain ⟨a1, b1, eo⟩ := eo
    rw [Res.bind_eq_ok] at eo
    obtain ⟨a2, b2, eo⟩ := eo
    rw [Res.bind_eq_ok] at eo
    obtain ⟨a3, b3, eo⟩ := eo
    rw [Res.bind_eq_ok] at eo
    obtain ⟨a4, b4, eo⟩ := eo
    rw [Res.bind_eq_ok] at eo
    obtain ⟨a5, b5, eo⟩ := eo
    simp only [b1, b2, b3, b4, b5, eo, Res.bind_ok]
  · intro i hi
    rw [hov i hi]
    congr 1
    unfold field1
    refine Finset.sum_congr rfl fun a ha => ?_
    have : weight1 tx (fun a => cov.getD a 0) = weight1 tx (gridCov1 v (findVariogramRanges v) tx dx sx) := by
      funext d
      unfold weight1
      refine congrArg (· / (tx : ℝ)) (Finset.sum_congr rfl fun k _ => ?_)
      congr 3
      unfold spectrum1
      refine Finset.sum_congr rfl fun x hx => ?_
      rw [mem_range] at hx
      have := hcv x hx
      simp only [List.getD_eq_getElem?_getD, this]
      rfl
    rw [this]

/-- **C01, C02, C03, C34, C43, two dimensions.** Field number `k` of `K` fields; its cell `(i, j)`
is at position `i + nx * j`. -/
theorem simulate2D_value {nx ny : ℕ} {dx dy sx sy : ℝ} {padx pady : ℤ} (hny : 1 < ny)
    (hx : DirOk p v nx (max v.rangeX v.rangeY) dx padx sx)
    (hy : DirOk p v ny (padRangeY v) dy pady sy) :
    ∃ tx ty r, IsTotal v nx (max v.rangeX v.rangeY) dx padx true tx ∧
      IsTotal v ny (padRangeY v) dy pady false ty ∧ nx ≤ tx ∧ ny ≤ ty ∧
      IsExtents rx ry rz az dp r ∧
      ∀ {F : Fftw} (_ : F.Laws) {σ γ : Type} (newRg : γ → Res (σ × γ)) (norm01 : σ → Res (ℝ × σ)) (rg : Option σ)
        (glob glob' : γ) (s s' : σ) (K : ℕ) (w : List ℝ) (grid_out : List (Grid2D ℝ)),
        UsesGenerator newRg rg glob s glob' →
        draws norm01 (K * (tx * ty)) s = .ok (w, s') →
        ∃ gs, simulate2D F p newRg norm01 v nx dx ny dy K grid_out rg padx pady sx sy glob
            = .ok (grid_out ++ gs, s', glob') ∧ gs.length = K ∧
          ∀ k < K, ∃ g, gs[k]? = some g ∧ g.ni = nx ∧ g.nj = ny ∧ g.data.length = nx * ny ∧
            ∀ i j, i < nx → j < ny → g.data[i + nx * j]? =
              some (field2 tx ty (gridCov2 v r tx dx ty dy sx sy)
                (fun a b => w.getD (k * (tx * ty) + (a * ty + b)) 0) i j) := by
  obtain ⟨-, -, e1, e2, e3, -⟩ := create_fields hv
  obtain ⟨n1, n2, n3⟩ := create_ok_iff.1 ⟨v, hv⟩
  obtain ⟨px, hpx, -, lx⟩ := padding_isLeast v nx _ dx hx.padOk
  obtain ⟨py, hpy, -, ly⟩ := padding_isLeast v ny _ dy hy.padOk
  obtain ⟨qx, tx, eqx, etx, hTx, hlex, hposx, hltx⟩ := dirOk_total hx true lx
    (def_pad := [px, py]) (i := 0) rfl
  obtain ⟨qy, ty, eqy, ety, hTy, hley, hposy, hlty⟩ := dirOk_total hy false ly
    (def_pad := [px, py]) (i := 1) rfl
  refine ⟨tx, ty, findVariogramRanges v, hTx, hTy, hlex, hley, findVariogramRanges_close hv, ?_⟩
  intro F hF σ γ newRg norm01 rg glob glob' s s' K w grid_out hrg hw
  obtain ⟨filt, ef, hf1, hf2⟩ := makeFilter2_sat hF (e1 ▸ n1) (e2 ▸ n2) (e3 ▸ n3) hposx hposy hltx
    hlty etx ety dx dy sx sy hx.scaling hy.scaling
  obtain ⟨st, est, hs', gs, hgs, hlen, hval⟩ := fields2_sat hF hposx hposy (by omega) (by omega)
    hlex hley _ filt hf1 hf2
    ⟨true, nx, ny, tx, ty, List.replicate (tx * ty) 0, List.replicate ((tx / 2 + 1) * ty) 0⟩
    ⟨rfl, rfl, rfl, rfl, rfl, by simp, by simp⟩ (Grid2D.mk' tx ty 0)
    ⟨rfl, rfl, Grid2D.wf_mk' _ _ _⟩ K s s' w hw grid_out
  refine ⟨gs, ?_, hlen, ?_⟩
  · have hny' : ¬ ny ≤ 1 := by omega
    have hz : (if v.azimuth = (0.0 : ℝ) then v.rangeY else max v.rangeX v.rangeY) = padRangeY v := by
      unfold padRangeY; norm_num
    unfold simulate2D findNDimPadding FFTGrid2D.create
    simp only [Res.monad_bind_eq, hny', if_false, le_refl, if_true, hz, hpx, hpy, Res.bind_ok, eqx,
      eqy, etx, ety, ef, rgOrNew_of hrg, Int.toNat_natCast]
    rw [est, Res.bind_ok, hgs, hs']
  · intro k hk
    obtain ⟨g, h1, h2, h3, h4, h5⟩ := hval k hk
    refine ⟨g, h1, h2, h3, by rw [h4, h2, h3], fun i j hi hj => ?_⟩
    have := h5 i j hi hj trivial
    rw [g.get_eq (h2 ▸ hi) (h3 ▸ hj), rd_eq_ok, h2] at this
    rw [Nat.mul_comm nx j]
    exact this

/-- **C01, C02, C03, C34, C43, three dimensions.** The draws come from the global generator; cell
`(i, j, l)` is at position `i + nx * (j + ny * l)`. -/
theorem simulate3D_value {nx ny nz : ℕ} {dx dy dz sx sy sz : ℝ} {padx pady padz : ℤ} (hny : 1 < ny)
    (hnz : 1 < nz) (hx : DirOk p v nx (max v.rangeX v.rangeY) dx padx sx)
    (hy : DirOk p v ny (padRangeY v) dy pady sy) (hz : DirOk p v nz v.rangeZ dz padz sz) :
    ∃ tx ty tz r, IsTotal v nx (max v.rangeX v.rangeY) dx padx true tx ∧
      IsTotal v ny (padRangeY v) dy pady false ty ∧ IsTotal v nz v.rangeZ dz padz false tz ∧
      nx ≤ tx ∧ ny ≤ ty ∧ nz ≤ tz ∧ IsExtents rx ry rz az dp r ∧
      ∀ {F : Fftw} (_ : F.Laws) {γ : Type} (norm01 : γ → Res (ℝ × γ)) (s s' : γ) (K : ℕ) (w : List ℝ)
        (grid_out : List (Grid3D ℝ)),
        draws norm01 (K * (tx * ty * tz)) s = .ok (w, s') →
        ∃ gs, simulate3D F p norm01 v nx dx ny dy nz dz K grid_out padx pady padz sx sy sz s
            = .ok (grid_out ++ gs, s') ∧ gs.length = K ∧
          ∀ k < K, ∃ g, gs[k]? = some g ∧ g.ni = nx ∧ g.nj = ny ∧ g.nk = nz ∧
            g.data.length = nx * ny * nz ∧
            ∀ i j l, i < nx → j < ny → l < nz → g.data[i + nx * (j + ny * l)]? =
              some (field3 tx ty tz (gridCov3 v r tx dx ty dy tz dz sx sy sz)
                (fun a b c => w.getD (k * (tx * ty * tz) + ((a * ty + b) * tz + c)) 0) i j l) := by
  obtain ⟨-, -, e1, e2, e3, -⟩ := create_fields hv
  obtain ⟨n1, n2, n3⟩ := create_ok_iff.1 ⟨v, hv⟩
  obtain ⟨px, hpx, -, lx⟩ := padding_isLeast v nx _ dx hx.padOk
  obtain ⟨py, hpy, -, ly⟩ := padding_isLeast v ny _ dy hy.padOk
  obtain ⟨pz, hpz, -, lz⟩ := padding_isLeast v nz _ dz hz.padOk
  obtain ⟨qx, tx, eqx, etx, hTx, hlex, hposx, hltx⟩ := dirOk_total hx true lx
    (def_pad := [px, py, pz]) (i := 0) rfl
  obtain ⟨qy, ty, eqy, ety, hTy, hley, hposy, hlty⟩ := dirOk_total hy false ly
    (def_pad := [px, py, pz]) (i := 1) rfl
  obtain ⟨qz, tz, eqz, etz, hTz, hlez, hposz, hltz⟩ := dirOk_total hz false lz
    (def_pad := [px, py, pz]) (i := 2) rfl
  refine ⟨tx, ty, tz, findVariogramRanges v, hTx, hTy, hTz, hlex, hley, hlez,
    findVariogramRanges_close hv, ?_⟩
  intro F hF γ norm01 s s' K w grid_out hw
  obtain ⟨filt, ef, hf1, hf2⟩ := makeFilter3_sat hF (e1 ▸ n1) (e2 ▸ n2) (e3 ▸ n3) hposx hposy hposz
    hltx hlty hltz etx ety etz dx dy dz sx sy sz hx.scaling hy.scaling hz.scaling
  obtain ⟨st, est, hs', gs, hgs, hlen, hval⟩ := fields3_sat hF hposx hposy hposz (by omega)
    (by omega) (by omega) hlex hley hlez _ filt hf1 hf2
    ⟨true, nx, ny, nz, tx, ty, tz, List.replicate (tx * ty * tz) 0,
      List.replicate ((tx / 2 + 1) * ty * tz) 0⟩
    ⟨rfl, rfl, rfl, rfl, rfl, rfl, rfl, by simp, by simp⟩ (Grid3D.mk' tx ty tz 0)
    ⟨rfl, rfl, rfl, Grid3D.wf_mk' _ _ _ _⟩ K s s' w hw grid_out
  refine ⟨gs, ?_, hlen, ?_⟩
  · have hny' : ¬ ny ≤ 1 := by omega
    have hnz' : ¬ nz ≤ 1 := by omega
    have hz : (if v.azimuth = (0.0 : ℝ) then v.rangeY else max v.rangeX v.rangeY) = padRangeY v := by
      unfold padRangeY; norm_num
    unfold simulate3D findNDimPadding FFTGrid3D.create
    simp only [Res.monad_bind_eq, hny', hnz', if_false, hz, hpx, hpy, hpz, Res.bind_ok, eqx,
      eqy, eqz, etx, ety, etz, ef, Int.toNat_natCast]
    rw [est, Res.bind_ok, hgs, hs']
  · intro k hk
    obtain ⟨g, h1, h2, h3, h6, h4, h5⟩ := hval k hk
    refine ⟨g, h1, h2, h3, h6, by rw [h4, h2, h3, h6], fun i j l hi hj hl => ?_⟩
    have := h5 i j l hi hj hl trivial
    rw [g.get_eq (h2 ▸ hi) (h3 ▸ hj) (h6 ▸ hl), rd_eq_ok, h2, h3] at this
    refine Eq.trans ?_ this
    congr 1
    ring

end

end Verif
