import Verif.Model.Fft
import Verif.Model.CovGrid

/-!
# Simulation of Gaussian fields

Models src/nrlib/variogram/gaussianfield.cpp lines 96-349. The random generator is a parameter:
`norm01` draws a normal variable from a generator state, `newRg` is
`rg = new RandomGenerator(); rg->Initialize(Random::DrawUint32())`, which reads and changes the
global generator state. (The new generator is never deleted; the leak is not modelled.)
-/

namespace Verif

/-- `(padding < 0) ? default_padding[i] : padding`, gaussianfield.cpp lines 121-123, 247-248, 314. -/
def desiredPadding (padding : ℤ) (default_padding : List ℕ) (i : ℕ) : Res ℕ :=
  if padding < 0 then rd default_padding i else .ok padding.toNat

/-- gaussianfield.cpp lines 158-162, 268-272, 334-338: real part clipped at zero, imaginary part
set to zero, square root. -/
noncomputable def clipSqrtLoop (m : ℕ) (data : List ℂ) : Res (List ℂ) :=
  forRange 0 m (fun i a => (rd a i).bind fun x =>
    let x : ℂ := ⟨max x.re 0.0, x.im⟩
    let x : ℂ := ⟨x.re, 0.0⟩
    wr a i (csqrt x)) data

/-- `if (rg == NULL) { ... }`, gaussianfield.cpp lines 282-285, 321-324. -/
def rgOrNew {σ γ : Type} (newRg : γ → Res (σ × γ)) (rg : Option σ) (glob : γ) : Res (σ × γ) :=
  match rg with
  | some s => .ok (s, glob)
  | none => newRg glob

/-- `noise[i] = rg->Norm01()`, gaussianfield.cpp lines 325-327. -/
def drawNoise1 {σ : Type} (norm01 : σ → Res (ℝ × σ)) (n : ℕ) (s : σ) : Res (List ℝ × σ) :=
  forRange 0 n (fun i (st : List ℝ × σ) => do
    let (x, s) ← norm01 st.2
    let noise ← wr st.1 i x
    .ok (noise, s)) (List.replicate n 0, s)

/-- gaussianfield.cpp lines 287-289. -/
def drawNoise2 {σ : Type} (norm01 : σ → Res (ℝ × σ)) (nx ny : ℕ) (noise : Grid2D ℝ) (s : σ) :
    Res (Grid2D ℝ × σ) :=
  forRange 0 nx (fun i st =>
    forRange 0 ny (fun j (st : Grid2D ℝ × σ) => do
      let (x, s) ← norm01 st.2
      let noise ← st.1.set i j x
      .ok (noise, s)) st) (noise, s)

/-- gaussianfield.cpp lines 177-180. -/
def drawNoise3 {σ : Type} (norm01 : σ → Res (ℝ × σ)) (nx ny nz : ℕ) (noise : Grid3D ℝ) (s : σ) :
    Res (Grid3D ℝ × σ) :=
  forRange 0 nx (fun i st =>
    forRange 0 ny (fun j st =>
      forRange 0 nz (fun k (st : Grid3D ℝ × σ) => do
        let (x, s) ← norm01 st.2
        let noise ← st.1.set i j k x
        .ok (noise, s)) st) st) (noise, s)

/-- `Simulate1DGaussianField`, gaussianfield.cpp lines 303-349. `out_size` is `grid_out.size()`;
the old contents of `grid_out` are overwritten. Returns `grid_out`, the state of the generator that
was used and the global state. -/
noncomputable def simulate1D {σ γ : Type} (F : Fftw) (p : Platform)
    (newRg : γ → Res (σ × γ)) (norm01 : σ → Res (ℝ × σ)) (v : Variogram) (nx : ℕ) (dx : ℝ)
    (out_size : ℕ) (rg : Option σ) (padding : ℤ) (scaling_x : ℝ) (glob : γ) :
    Res (List ℝ × σ × γ) := do
  let default_padding ← findNDimPadding v nx dx 1 (-1) 1 (-1)
  let nx_pad ← desiredPadding padding default_padding 0
  let nxp ← findNewSize p (wrap64 (nx + nx_pad)) false
  let cov ← fftCovGrid1D v nxp dx scaling_x
  let (s, glob) ← rgOrNew newRg rg glob
  let (noise, s) ← drawNoise1 norm01 nxp s
  let cov_fft ← computeFFT1D F p cov [] false 0
  let noise_fft ← computeFFT1D F p noise [] true 0
  let convolve := List.replicate cov_fft.length (0 : ℂ)
  let cov_fft ← clipSqrtLoop cov_fft.length cov_fft
  let convolve ← forRange 0 cov_fft.length (fun i convolve => do
    let x ← rd cov_fft i
    let y ← rd noise_fft i
    wr convolve i (x * y)) convolve
  let tmp ← computeFFTInv1D F convolve (List.replicate nxp 0) true
  let out ← forRange 0 out_size (fun i out => do
    let x ← rd tmp i
    wr out i x) (List.replicate out_size 0)
  .ok (out, s, glob)

/-- The filter of `Simulate2DGaussianField`, gaussianfield.cpp lines 255-272: covariance grid for
the total size, transform, square root. -/
noncomputable def makeFilter2 (F : Fftw) (p : Platform) (v : Variogram) (nx : ℕ) (dx : ℝ)
    (ny : ℕ) (dy : ℝ) (px py nx_tot ny_tot : ℕ) (scaling_x scaling_y : ℝ) : Res FFTGrid2D := do
  let cov ← fftCovGrid2D v nx_tot dx ny_tot dy scaling_x scaling_y
  let filter ← FFTGrid2D.create p nx ny px py false
  let filter ← filter.init cov
  let filter ← filter.doFFT F
  let c ← clipSqrtLoop filter.complexSize filter.complex_data
  .ok { filter with complex_data := c }

/-- One pass of the loop over fields, gaussianfield.cpp lines 286-299. The FFT grid, the noise grid
and the generator are carried along. -/
noncomputable def fieldStep2 {σ : Type} (F : Fftw) (norm01 : σ → Res (ℝ × σ)) (filter : FFTGrid2D)
    (nx_tot ny_tot : ℕ) (st : FFTGrid2D × Grid2D ℝ × σ × List (Grid2D ℝ)) :
    Res (FFTGrid2D × Grid2D ℝ × σ × List (Grid2D ℝ)) := do
  let (noise, s) ← drawNoise2 norm01 nx_tot ny_tot st.2.1 st.2.2.1
  let fftgrid ← st.1.init noise
  let fftgrid ← fftgrid.doFFT F
  let c ← mulLoop filter.complexSize fftgrid.complex_data filter.complex_data
  let fftgrid ← ({ fftgrid with complex_data := c } : FFTGrid2D).doInverseFFT F
  let g ← fftgrid.getRealGrid
  .ok (fftgrid, noise, s, st.2.2.2 ++ [g])

/-- `Simulate2DGaussianField`, gaussianfield.cpp lines 224-300. -/
noncomputable def simulate2D {σ γ : Type} (F : Fftw) (p : Platform)
    (newRg : γ → Res (σ × γ)) (norm01 : σ → Res (ℝ × σ)) (v : Variogram) (nx : ℕ) (dx : ℝ)
    (ny : ℕ) (dy : ℝ) (n_fields : ℤ) (grid_out : List (Grid2D ℝ)) (rg : Option σ)
    (padding_x padding_y : ℤ) (scaling_x scaling_y : ℝ) (glob : γ) :
    Res (List (Grid2D ℝ) × σ × γ) := do
  let default_padding ← findNDimPadding v nx dx ny dy 1 (-1)
  let px ← desiredPadding padding_x default_padding 0
  let py ← desiredPadding padding_y default_padding 1
  let fftgrid ← FFTGrid2D.create p nx ny px py true
  let nx_tot := fftgrid.ni_tot
  let ny_tot := fftgrid.nj_tot
  let filter ← makeFilter2 F p v nx dx ny dy px py nx_tot ny_tot scaling_x scaling_y
  let noise := Grid2D.mk' nx_tot ny_tot (0 : ℝ)
  let (s, glob) ← rgOrNew newRg rg glob
  let st ← forRange 0 n_fields.toNat (fun _ st => fieldStep2 F norm01 filter nx_tot ny_tot st)
    (fftgrid, noise, s, grid_out)
  .ok (st.2.2.2, st.2.2.1, glob)

/-- The filter of `Simulate3DGaussianField`, gaussianfield.cpp lines 134-162. -/
noncomputable def makeFilter3 (F : Fftw) (p : Platform) (v : Variogram) (nx : ℕ) (dx : ℝ)
    (ny : ℕ) (dy : ℝ) (nz : ℕ) (dz : ℝ) (px py pz nx_tot ny_tot nz_tot : ℕ)
    (scaling_x scaling_y scaling_z : ℝ) : Res FFTGrid3D := do
  let cov ← fftCovGrid3D v nx_tot dx ny_tot dy nz_tot dz scaling_x scaling_y scaling_z
  let filter ← FFTGrid3D.create p nx ny nz px py pz false
  let filter ← filter.init cov
  let filter ← filter.doFFT F
  let c ← clipSqrtLoop filter.complexSize filter.complex_data
  .ok { filter with complex_data := c }

/-- One pass of the loop over fields, gaussianfield.cpp lines 176-190. -/
noncomputable def fieldStep3 {γ : Type} (F : Fftw) (norm01 : γ → Res (ℝ × γ)) (filter : FFTGrid3D)
    (nx_tot ny_tot nz_tot : ℕ) (st : FFTGrid3D × Grid3D ℝ × γ × List (Grid3D ℝ)) :
    Res (FFTGrid3D × Grid3D ℝ × γ × List (Grid3D ℝ)) := do
  let (noise, s) ← drawNoise3 norm01 nx_tot ny_tot nz_tot st.2.1 st.2.2.1
  let fftgrid ← st.1.init noise
  let fftgrid ← fftgrid.doFFT F
  let c ← mulLoop filter.complexSize fftgrid.complex_data filter.complex_data
  let fftgrid ← ({ fftgrid with complex_data := c } : FFTGrid3D).doInverseFFT F
  let g ← fftgrid.getRealGrid
  .ok (fftgrid, noise, s, st.2.2.2 ++ [g])

/-- `Simulate3DGaussianField`, gaussianfield.cpp lines 96-191. It draws from the global
generator. -/
noncomputable def simulate3D {γ : Type} (F : Fftw) (p : Platform)
    (norm01 : γ → Res (ℝ × γ)) (v : Variogram) (nx : ℕ) (dx : ℝ) (ny : ℕ) (dy : ℝ) (nz : ℕ) (dz : ℝ)
    (n_fields : ℤ) (grid_out : List (Grid3D ℝ)) (padding_x padding_y padding_z : ℤ)
    (scaling_x scaling_y scaling_z : ℝ) (glob : γ) : Res (List (Grid3D ℝ) × γ) := do
  let default_padding ← findNDimPadding v nx dx ny dy nz dz
  let px ← desiredPadding padding_x default_padding 0
  let py ← desiredPadding padding_y default_padding 1
  let pz ← desiredPadding padding_z default_padding 2
  let fftgrid ← FFTGrid3D.create p nx ny nz px py pz true
  let nx_tot := fftgrid.ni_tot
  let ny_tot := fftgrid.nj_tot
  let nz_tot := fftgrid.nk_tot
  let filter ← makeFilter3 F p v nx dx ny dy nz dz px py pz nx_tot ny_tot nz_tot
    scaling_x scaling_y scaling_z
  let noise := Grid3D.mk' nx_tot ny_tot nz_tot (0 : ℝ)
  let st ← forRange 0 n_fields.toNat
    (fun _ st => fieldStep3 F norm01 filter nx_tot ny_tot nz_tot st) (fftgrid, noise, glob, grid_out)
  .ok (st.2.2.2, st.2.2.1)

end Verif
