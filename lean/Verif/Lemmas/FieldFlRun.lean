import Verif.Lemmas.FieldFl1
import Verif.Lemmas.FieldFl3
import Verif.Props.Field

/-! Helper lemmas: the simulation programs in double arithmetic, from the padding to the fields. -/

namespace Verif

open Finset Spec Variogram Fl

attribute [local irreducible] rnd64

section
variable {p : Platform} {lm : Libm} {v : Variogram}

theorem simulate1DFl_run {nx : ℕ} {dx sx : ℝ} {padx : ℤ} (hx : DirOk p v nx v.rangeX dx padx sx)
    (hs : rnd64 1e-12 < sx) :
    ∃ (tx : ℕ) (htx : 0 < tx), IsTotal v nx v.rangeX dx padx false tx ∧ nx ≤ tx ∧ tx + 1 < 2 ^ 31 ∧
      ∀ {F : Fftw} {ε δ : ℝ} (_ : F.Near ε) (_ : u ≤ ε) (_ : ε ≤ 2⁻¹ ^ 20) (_ : 0 ≤ δ) (_ : δ ≤ 2⁻¹) {C : ℕ → ℝ}
        (_ : ∀ a < tx, |C a| ≤ 1)
        (_ : ∀ a < tx, ∃ c, covVal1Fl lm v sx (rnd64 (|(lag tx a : ℝ)| * dx)) = .ok c ∧ |c - C a| ≤ δ),
      ∃ c' z' f', ErrFilter (cyc tx htx) (half1 tx htx) ε δ (ext1 tx C) c' z' f' ∧
      ∀ {σ γ : Type} (newRg : γ → Res (σ × γ)) (norm01 : σ → Res (ℝ × σ)) (rg : Option σ)
        (glob glob' : γ) (s s' : σ) (w : List ℝ), UsesGenerator newRg rg glob s glob' →
        draws norm01 tx s = .ok (w, s') →
        ∃ out, simulate1DFl lm F p newRg norm01 v nx dx nx rg padx sx glob = .ok (out, s', glob') ∧
          out.length = nx ∧ √(sqErr1 nx tx C (fun a => w.getD a 0) out)
            ≤ bound1 tx htx ε (fun k => f' k - (cyc tx htx).amp (ext1 tx C) k) fun a => w.getD a 0 := by
  obtain ⟨px, hpx, -, lx⟩ := padding_isLeast v nx _ dx hx.padOk
  obtain ⟨q, tx, eq, et, hT, hle, hpos, hlt⟩ := dirOk_total hx false lx (def_pad := [px]) (i := 0) rfl
  refine ⟨tx, hpos, hT, hle, hlt, ?_⟩
  intro F ε δ hF hu hε hδ hδ' C hC hcell
  choose! c hc1 hc2 using hcell
  obtain ⟨cov, ec, hcl, hcv⟩ := fftCovGrid1DFl_sat hlt hs hc1
  have hcv' : ∀ a < tx, cov.getD a 0 = c a := fun a ha => getD_of_some (hcv a ha)
  obtain ⟨c', z', f', K, hrun⟩ := tail1Fl_sat hF hu hε hδ hδ' hpos (by omega) cov hcl hC
    (fun a ha => by rw [hcv' a ha]; exact hc2 a ha)
    (fun a ha => by rw [hcv' a ha]; exact covVal1Fl_double (hc1 a ha)) nx hle
  refine ⟨c', z', f', K, ?_⟩
  intro σ γ newRg norm01 rg glob glob' s s' w hrg hw
  obtain ⟨out, eo, hol, hov⟩ := hrun w (draws_length hw)
  refine ⟨out, ?_, hol, hov⟩
  unfold simulate1DFl findNDimPadding
  simp only [Res.monad_bind_eq, le_refl, if_true, hpx, Res.bind_ok, eq, et, ec, rgOrNew_of hrg,
    drawNoise1_sat hw] at eo ⊢
  rw [Res.bind_eq_ok] at eo
  obtain ⟨a1, b1, eo⟩ := eo
  rw [Res.bind_eq_ok] at eo
  obtain ⟨a2, b2, eo⟩ := eo
  rw [Res.bind_eq_ok] at eo
  obtain ⟨a3, b3, eo⟩ := eo
  rw [Res.bind_eq_ok] at eo
  obtain ⟨a4, b4, eo⟩ := eo
  rw [Res.bind_eq_ok] at eo
  obtain ⟨a5, b5, eo⟩ := eo
  simp only [b1, b2, b3, b4, b5, eo, Res.bind_ok]

theorem simulate2DFl_run {nx ny : ℕ} {dx dy sx sy : ℝ} {padx pady : ℤ} (hny : 1 < ny)
    (hx : DirOk p v nx (max v.rangeX v.rangeY) dx padx sx)
    (hy : DirOk p v ny (padRangeY v) dy pady sy) (hsx : rnd64 1e-12 < sx) (hsy : rnd64 1e-12 < sy) :
    ∃ (tx ty : ℕ) (htx : 0 < tx) (hty : 0 < ty), IsTotal v nx (max v.rangeX v.rangeY) dx padx true tx ∧
      IsTotal v ny (padRangeY v) dy pady false ty ∧ nx ≤ tx ∧ ny ≤ ty ∧ tx + 1 < 2 ^ 31 ∧ ty + 1 < 2 ^ 31 ∧
      ∀ {F : Fftw} {ε δ : ℝ} (_ : F.Near ε) (_ : u ≤ ε) (_ : ε ≤ 2⁻¹ ^ 20) (_ : 0 ≤ δ) (_ : δ ≤ 2⁻¹)
        {C : ℕ → ℕ → ℝ} (_ : ∀ a b, a < tx → b < ty → |C a b| ≤ 1)
        (_ : ∀ a b, a < tx → b < ty → ∃ c,
          covVal2Fl lm v sx sy (rnd64 (lag tx a * dx)) (rnd64 (lag ty b * dy)) = .ok c ∧ |c - C a b| ≤ δ),
      ∃ c' z' f', ErrFilter (box2 ty tx hty htx) (flat2 refFftw refFftw_laws ty tx hty htx).half ε δ (ext2 tx ty C)
        c' z' f' ∧
      ∀ {σ γ : Type} (newRg : γ → Res (σ × γ)) (norm01 : σ → Res (ℝ × σ)) (rg : Option σ)
        (glob glob' : γ) (s s' : σ) (K : ℕ) (w : List ℝ) (grid_out : List (Grid2D ℝ)),
        UsesGenerator newRg rg glob s glob' →
        draws norm01 (K * (tx * ty)) s = .ok (w, s') →
        ∃ gs, simulate2DFl lm F p newRg norm01 v nx dx ny dy K grid_out rg padx pady sx sy glob
            = .ok (grid_out ++ gs, s', glob') ∧ gs.length = K ∧
          ∀ k < K, ∃ g, gs[k]? = some g ∧ g.ni = nx ∧ g.nj = ny ∧ g.data.length = nx * ny ∧
            √(sqErr2 nx ny tx ty C (fun a b => w.getD (k * (tx * ty) + (a * ty + b)) 0) g.data)
              ≤ bound2 tx ty hty htx ε (fun k => f' k - (box2 ty tx hty htx).amp (ext2 tx ty C) k)
                fun a b => w.getD (k * (tx * ty) + (a * ty + b)) 0 := by
  obtain ⟨px, hpx, -, lx⟩ := padding_isLeast v nx _ dx hx.padOk
  obtain ⟨py, hpy, -, ly⟩ := padding_isLeast v ny _ dy hy.padOk
  obtain ⟨qx, tx, eqx, etx, hTx, hlex, hposx, hltx⟩ := dirOk_total hx true lx
    (def_pad := [px, py]) (i := 0) rfl
  obtain ⟨qy, ty, eqy, ety, hTy, hley, hposy, hlty⟩ := dirOk_total hy false ly
    (def_pad := [px, py]) (i := 1) rfl
  refine ⟨tx, ty, hposx, hposy, hTx, hTy, hlex, hley, hltx, hlty, ?_⟩
  intro F ε δ hF hu hε hδ hδ' C hC hcell
  have hcell' : ∀ a b, ∃ c, a < tx → b < ty →
      covVal2Fl lm v sx sy (rnd64 (lag tx a * dx)) (rnd64 (lag ty b * dy)) = .ok c ∧ |c - C a b| ≤ δ := by
    intro a b
    by_cases h : a < tx ∧ b < ty
    · obtain ⟨c, hc⟩ := hcell a b h.1 h.2
      exact ⟨c, fun _ _ => hc⟩
    · exact ⟨0, fun h1 h2 => absurd ⟨h1, h2⟩ h⟩
  choose c hc using hcell'
  obtain ⟨filt, ef, hf1, hf2, c', z', f', hf3, E⟩ := makeFilter2Fl_sat hF hu hε hδ hδ' hposx hposy hltx
    hlty etx ety hsx hsy hC (fun a b ha hb => (hc a b ha hb).1) (fun a b ha hb => (hc a b ha hb).2)
  refine ⟨c', z', f', E, ?_⟩
  intro σ γ newRg norm01 rg glob glob' s s' K w grid_out hrg hw
  obtain ⟨st, est, hs', gs, hgs, hlen, hval⟩ := fields2Fl_sat hF hposx hposy (by omega) (by omega)
    hlex hley _ filt hf1 hf2 hf3 E
    ⟨true, nx, ny, tx, ty, List.replicate (tx * ty) 0, List.replicate ((tx / 2 + 1) * ty) 0⟩
    ⟨rfl, rfl, rfl, rfl, rfl, by simp, by simp⟩ (Grid2D.mk' tx ty 0)
    ⟨rfl, rfl, Grid2D.wf_mk' _ _ _⟩ K s s' w hw grid_out
  refine ⟨gs, ?_, hlen, hval⟩
  have hny' : ¬ ny ≤ 1 := by omega
  have hz : (if v.azimuth = (0.0 : ℝ) then v.rangeY else max v.rangeX v.rangeY) = padRangeY v := by
    unfold padRangeY; norm_num
  unfold simulate2DFl findNDimPadding FFTGrid2D.create
  simp only [Res.monad_bind_eq, hny', if_false, le_refl, if_true, hz, hpx, hpy, Res.bind_ok, eqx,
    eqy, etx, ety, ef, rgOrNew_of hrg, Int.toNat_natCast]
  rw [est, Res.bind_ok, hgs, hs']

theorem simulate3DFl_run {nx ny nz : ℕ} {dx dy dz sx sy sz : ℝ} {padx pady padz : ℤ} (hny : 1 < ny)
    (hnz : 1 < nz) (hx : DirOk p v nx (max v.rangeX v.rangeY) dx padx sx)
    (hy : DirOk p v ny (padRangeY v) dy pady sy) (hz : DirOk p v nz v.rangeZ dz padz sz)
    (hsx : rnd64 1e-12 < sx) (hsy : rnd64 1e-12 < sy) (hsz : rnd64 1e-12 < sz) :
    ∃ (tx ty tz : ℕ) (htx : 0 < tx) (hty : 0 < ty) (htz : 0 < tz),
      IsTotal v nx (max v.rangeX v.rangeY) dx padx true tx ∧
      IsTotal v ny (padRangeY v) dy pady false ty ∧ IsTotal v nz v.rangeZ dz padz false tz ∧
      nx ≤ tx ∧ ny ≤ ty ∧ nz ≤ tz ∧ tx + 1 < 2 ^ 31 ∧ ty + 1 < 2 ^ 31 ∧ tz + 1 < 2 ^ 31 ∧
      ∀ {F : Fftw} {ε δ : ℝ} (_ : F.Near ε) (_ : u ≤ ε) (_ : ε ≤ 2⁻¹ ^ 20) (_ : 0 ≤ δ) (_ : δ ≤ 2⁻¹)
        {C : ℕ → ℕ → ℕ → ℝ} (_ : ∀ a b c, a < tx → b < ty → c < tz → |C a b c| ≤ 1)
        (_ : ∀ a b c, a < tx → b < ty → c < tz → ∃ x,
          covVal3Fl lm v sx sy sz (rnd64 (lag tx a * dx)) (rnd64 (lag ty b * dy)) (rnd64 (lag tz c * dz)) = .ok x ∧
            |x - C a b c| ≤ δ),
      ∃ c' z' f', ErrFilter (box3 tz ty tx htz hty htx) (flat3 refFftw refFftw_laws tz ty tx htz hty htx).half ε δ
        (ext3 tx ty tz C) c' z' f' ∧
      ∀ {γ : Type} (norm01 : γ → Res (ℝ × γ)) (s s' : γ) (K : ℕ) (w : List ℝ)
        (grid_out : List (Grid3D ℝ)),
        draws norm01 (K * (tx * ty * tz)) s = .ok (w, s') →
        ∃ gs, simulate3DFl lm F p norm01 v nx dx ny dy nz dz K grid_out padx pady padz sx sy sz s
            = .ok (grid_out ++ gs, s') ∧ gs.length = K ∧
          ∀ k < K, ∃ g, gs[k]? = some g ∧ g.ni = nx ∧ g.nj = ny ∧ g.nk = nz ∧
            g.data.length = nx * ny * nz ∧
            √(sqErr3 nx ny nz tx ty tz C
                (fun a b c => w.getD (k * (tx * ty * tz) + ((a * ty + b) * tz + c)) 0) g.data)
              ≤ bound3 tx ty tz htz hty htx ε (fun k => f' k - (box3 tz ty tx htz hty htx).amp (ext3 tx ty tz C) k)
                fun a b c => w.getD (k * (tx * ty * tz) + ((a * ty + b) * tz + c)) 0 := by
  obtain ⟨px, hpx, -, lx⟩ := padding_isLeast v nx _ dx hx.padOk
  obtain ⟨py, hpy, -, ly⟩ := padding_isLeast v ny _ dy hy.padOk
  obtain ⟨pz, hpz, -, lz⟩ := padding_isLeast v nz _ dz hz.padOk
  obtain ⟨qx, tx, eqx, etx, hTx, hlex, hposx, hltx⟩ := dirOk_total hx true lx
    (def_pad := [px, py, pz]) (i := 0) rfl
  obtain ⟨qy, ty, eqy, ety, hTy, hley, hposy, hlty⟩ := dirOk_total hy false ly
    (def_pad := [px, py, pz]) (i := 1) rfl
  obtain ⟨qz, tz, eqz, etz, hTz, hlez, hposz, hltz⟩ := dirOk_total hz false lz
    (def_pad := [px, py, pz]) (i := 2) rfl
  refine ⟨tx, ty, tz, hposx, hposy, hposz, hTx, hTy, hTz, hlex, hley, hlez, hltx, hlty, hltz, ?_⟩
  intro F ε δ hF hu hε hδ hδ' C hC hcell
  have hcell' : ∀ a b c, ∃ x, a < tx → b < ty → c < tz →
      covVal3Fl lm v sx sy sz (rnd64 (lag tx a * dx)) (rnd64 (lag ty b * dy)) (rnd64 (lag tz c * dz)) = .ok x ∧
        |x - C a b c| ≤ δ := by
    intro a b c
    by_cases h : a < tx ∧ b < ty ∧ c < tz
    · obtain ⟨x, hx⟩ := hcell a b c h.1 h.2.1 h.2.2
      exact ⟨x, fun _ _ _ => hx⟩
    · exact ⟨0, fun h1 h2 h3 => absurd ⟨h1, h2, h3⟩ h⟩
  choose x hx' using hcell'
  obtain ⟨filt, ef, hf1, hf2, c', z', f', hf3, E⟩ := makeFilter3Fl_sat hF hu hε hδ hδ' hposx hposy hposz hltx
    hlty hltz etx ety etz hsx hsy hsz hC (fun a b c ha hb hc => (hx' a b c ha hb hc).1)
    (fun a b c ha hb hc => (hx' a b c ha hb hc).2)
  refine ⟨c', z', f', E, ?_⟩
  intro γ norm01 s s' K w grid_out hw
  obtain ⟨st, est, hs', gs, hgs, hlen, hval⟩ := fields3Fl_sat hF hposx hposy hposz (by omega)
    (by omega) (by omega) hlex hley hlez _ filt hf1 hf2 hf3 E
    ⟨true, nx, ny, nz, tx, ty, tz, List.replicate (tx * ty * tz) 0,
      List.replicate ((tx / 2 + 1) * ty * tz) 0⟩
    ⟨rfl, rfl, rfl, rfl, rfl, rfl, rfl, by simp, by simp⟩ (Grid3D.mk' tx ty tz 0)
    ⟨rfl, rfl, rfl, Grid3D.wf_mk' _ _ _ _⟩ K s s' w hw grid_out
  refine ⟨gs, ?_, hlen, hval⟩
  have hny' : ¬ ny ≤ 1 := by omega
  have hnz' : ¬ nz ≤ 1 := by omega
  have hz : (if v.azimuth = (0.0 : ℝ) then v.rangeY else max v.rangeX v.rangeY) = padRangeY v := by
    unfold padRangeY; norm_num
  unfold simulate3DFl findNDimPadding FFTGrid3D.create
  simp only [Res.monad_bind_eq, hny', hnz', if_false, hz, hpx, hpy, hpz, Res.bind_ok, eqx,
    eqy, eqz, etx, ety, etz, ef, Int.toNat_natCast]
  rw [est, Res.bind_ok, hgs, hs']

end

theorem rowMajor_inj {n a b a' b' : ℕ} (hb : b < n) (hb' : b' < n) (h : a * n + b = a' * n + b') :
    a = a' ∧ b = b' := by
  have e1 : b = b' := by
    have := congrArg (· % n) h
    simpa [Nat.mod_eq_of_lt hb, Nat.mod_eq_of_lt hb', Nat.mul_add_mod'] using this
  subst e1
  exact ⟨Nat.eq_of_mul_eq_mul_right (by omega) (Nat.add_right_cancel h), rfl⟩

end Verif
