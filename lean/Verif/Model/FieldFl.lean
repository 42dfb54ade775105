import Verif.Model.Field
import Verif.Model.VariogramFl

/-!
# Simulation of Gaussian fields in double arithmetic

The same programs as in `Verif/Model/Field.lean`, with every operation rounded to a double. FFTW is the same
parameter; what is assumed of it is not exactness but a small error (`Fftw.Near`, `Spec/FftwNear.lean`). The padding,
the sizes, the memory handling and the drawing of the noise are the same functions as in the exact model: the
sizes are rounded there too. Overflow is not represented.
-/

namespace Verif

open scoped Fl
open Variogram

/-! ### Covariances -/

/-- `GetCov(dx,dy,dz)`, variogram.hpp line 96. -/
noncomputable def Variogram.cov3Fl (lm : Libm) (v : Variogram) (dx dy dz : ℝ) : Res ℝ := do
  let c ← v.corr3Fl lm dx dy dz
  .ok (v.var *ᶠ c)

/-- `GetCov(dx,dy)`, variogram.hpp line 98. -/
noncomputable def Variogram.cov2Fl (lm : Libm) (v : Variogram) (dx dy : ℝ) : Res ℝ := do
  let c ← v.corr2Fl lm dx dy
  .ok (v.var *ᶠ c)

/-- `GetCov(dx)`, variogram.hpp line 100. -/
noncomputable def Variogram.cov1Fl (lm : Libm) (v : Variogram) (dx : ℝ) : Res ℝ := do
  let c ← v.corrFl lm dx
  .ok (v.var *ᶠ c)

/-- `FindVariogramRanges`, fftcovgrid.cpp lines 31-72. -/
noncomputable def findVariogramRangesFl (lm : Libm) (v : Variogram) : ℝ × ℝ × ℝ :=
  let azi := v.azimuth
  let dip := v.dip
  let quarter := rnd64 3.14 /ᶠ 2.0
  let main0 := |v.rangeX *ᶠ lm.cos dip *ᶠ lm.cos azi|
  let main1 := |v.rangeX *ᶠ lm.cos dip *ᶠ lm.sin azi|
  let main2 := |v.rangeX *ᶠ lm.sin dip|
  let perp0 := |v.rangeY *ᶠ lm.cos (azi +ᶠ quarter)|
  let perp1 := |v.rangeY *ᶠ lm.sin (azi +ᶠ quarter)|
  let perp2 : ℝ := 0.0
  let down0 := |v.rangeZ *ᶠ lm.cos (dip +ᶠ quarter) *ᶠ lm.cos azi|
  let down1 := |v.rangeZ *ᶠ lm.cos (dip +ᶠ quarter) *ᶠ lm.sin azi|
  let down2 := |v.rangeZ *ᶠ lm.sin (dip +ᶠ quarter)|
  (max (max main0 perp0) down0, max (max main1 perp1) down1, max (max main2 perp2) down2)

/-- `pow(scaling, 1.0/(r*r))`, fftcovgrid.cpp lines 90-92. It is computed for every direction but only used
in those with smoothing; infinity from a zero range is reported when it is used. -/
noncomputable def smoothingBaseFl (lm : Libm) (scaling r : ℝ) : Res ℝ :=
  if r *ᶠ r = 0 then .nonfinite "1/0 in FindSmoothingFactors"
  else .ok (lm.pow scaling (1.0 /ᶠ (r *ᶠ r)))

/-- The assertions in `FindSmoothingFactors`, fftcovgrid.cpp lines 81-83. -/
noncomputable def assertScaling (scaling : ℝ) : Res Unit :=
  if rnd64 1e-12 < scaling then .ok () else .ub "assert scaling > 1e-12"

/-- `if (apply_scaling_x) cov *= FindSmoothingFactorX(ddx)`, fftcovgrid.cpp, for example line 162; fftcovgrid.hpp
line 77. -/
noncomputable def smoothFl (lm : Libm) (scaling r dd c : ℝ) : Res ℝ :=
  if scaling < rnd64 0.99999 then do
    let s ← smoothingBaseFl lm scaling r
    .ok (c *ᶠ lm.pow s (dd *ᶠ dd))
  else .ok c

/-- Constructor of `FFTCovGrid1D`, fftcovgrid.cpp lines 103-122. The two assignments to a cell are written as one. -/
noncomputable def fftCovGrid1DFl (lm : Libm) (v : Variogram) (nx : ℕ) (dx scaling_x : ℝ) : Res (List ℝ) := do
  intSize nx
  assertScaling scaling_x
  let r := findVariogramRangesFl lm v
  let cov := List.replicate nx (0 : ℝ)
  let nxm := (nx + 1) / 2
  let cov ← forRange 0 nxm (fun i cov => do
    let ddx := (i : ℝ) *ᶠ dx
    let c ← v.cov1Fl lm ddx
    let c ← smoothFl lm scaling_x r.1 ddx c
    wr cov i c) cov
  forRange nxm nx (fun i cov => do
    let ddx := dx *ᶠ ((nx : ℝ) - i)
    let c ← v.cov1Fl lm ddx
    let c ← smoothFl lm scaling_x r.1 ddx c
    wr cov i c) cov

/-- The value of one cell of `FFTCovGrid2D`, fftcovgrid.cpp lines 161-163. -/
noncomputable def covVal2Fl (lm : Libm) (v : Variogram) (scaling_x scaling_y ddx ddy : ℝ) : Res ℝ := do
  let r := findVariogramRangesFl lm v
  let c ← v.cov2Fl lm ddx ddy
  let c ← smoothFl lm scaling_x r.1 ddx c
  smoothFl lm scaling_y r.2.1 ddy c

/-- Constructor of `FFTCovGrid2D`, fftcovgrid.cpp lines 139-191. The loops are those of the exact model; the lags
`i*dx` and `(i-nx)*dx` (an exact difference of integers) are rounded here. The assignments to a cell are written
as one. -/
noncomputable def fftCovGrid2DFl (lm : Libm) (v : Variogram) (nx : ℕ) (dx : ℝ) (ny : ℕ) (dy : ℝ)
    (scaling_x scaling_y : ℝ) : Res (Grid2D ℝ) := do
  intSize nx
  intSize ny
  assertScaling scaling_x
  assertScaling scaling_y
  covLoops2 nx dx ny dy (fun i j ddx ddy cov => do
    let c ← covVal2Fl lm v scaling_x scaling_y (rnd64 ddx) (rnd64 ddy)
    cov.set i j c) (Grid2D.mk' nx ny (0 : ℝ))

/-- The value of one cell of `FFTCovGrid3D`, fftcovgrid.cpp lines 240-243. -/
noncomputable def covVal3Fl (lm : Libm) (v : Variogram) (scaling_x scaling_y scaling_z ddx ddy ddz : ℝ) :
    Res ℝ := do
  let r := findVariogramRangesFl lm v
  let c ← v.cov3Fl lm ddx ddy ddz
  let c ← smoothFl lm scaling_x r.1 ddx c
  let c ← smoothFl lm scaling_y r.2.1 ddy c
  smoothFl lm scaling_z r.2.2 ddz c

/-- Constructor of `FFTCovGrid3D`, fftcovgrid.cpp lines 211-322, as `fftCovGrid2DFl`. -/
noncomputable def fftCovGrid3DFl (lm : Libm) (v : Variogram) (nx : ℕ) (dx : ℝ) (ny : ℕ) (dy : ℝ)
    (nz : ℕ) (dz : ℝ) (scaling_x scaling_y scaling_z : ℝ) : Res (Grid3D ℝ) := do
  intSize nx
  intSize ny
  intSize nz
  assertScaling scaling_x
  assertScaling scaling_y
  assertScaling scaling_z
  covLoops3 nx dx ny dy nz dz (fun i j k ddx ddy ddz cov => do
    let c ← covVal3Fl lm v scaling_x scaling_y scaling_z (rnd64 ddx) (rnd64 ddy) (rnd64 ddz)
    cov.set i j k c) (Grid3D.mk' nx ny nz (0 : ℝ))

/-! ### Arrays -/

/-- Product of two `std::complex<double>`: four products, a difference and a sum. -/
noncomputable def cmulFl (x y : ℂ) : ℂ :=
  ⟨x.re *ᶠ y.re -ᶠ x.im *ᶠ y.im, x.re *ᶠ y.im +ᶠ x.im *ᶠ y.re⟩

/-- `1.0/sqrt(1.0*n)`: fft.hpp lines 96, 136; fftgrid2d.hpp lines 211, 228; fftgrid3d.hpp lines 233, 250. -/
noncomputable def scaleFl (n : ℕ) : ℝ := 1.0 /ᶠ rnd64 √(1.0 *ᶠ (n : ℝ))

/-- As `scaleLoop`. -/
noncomputable def scaleLoopFl (n : ℕ) (scale : ℝ) (data : List ℝ) : Res (List ℝ) :=
  forRange 0 n (fun i a => (rd a i).bind fun x => wr a i (x *ᶠ scale)) data

/-- As `mulLoop`. -/
noncomputable def mulLoopFl (m : ℕ) (data filter : List ℂ) : Res (List ℂ) :=
  forRange 0 m (fun i a => (rd a i).bind fun x => (rd filter i).bind fun y =>
    wr a i (cmulFl x y)) data

/-- gaussianfield.cpp lines 158-162, 268-272, 334-338, as `clipSqrtLoop`. The complex square root of a non-negative
number with imaginary part zero is the square root of the real part, correctly rounded. -/
noncomputable def clipSqrtLoopFl (m : ℕ) (data : List ℂ) : Res (List ℂ) :=
  forRange 0 m (fun i a => (rd a i).bind fun x =>
    wr a i (⟨rnd64 √(max x.re 0.0), 0.0⟩ : ℂ)) data

/-- `scale` in `DoInverseFFT`, as `invScale`. -/
noncomputable def invScaleFl (scale_forward : Bool) (n : ℕ) : ℝ :=
  if !scale_forward then 1.0 /ᶠ rnd64 n else scaleFl n

/-- `DoFFT`, fftgrid2d.hpp lines 208-218. -/
noncomputable def FFTGrid2D.doFFTFl (F : Fftw) (g : FFTGrid2D) : Res FFTGrid2D := do
  let n := g.ni_tot * g.nj_tot
  let data ← (if g.scale_forward then scaleLoopFl n (scaleFl n) g.real_data else .ok g.real_data)
  planSize g.nj_tot
  planSize g.ni_tot
  .ok { g with real_data := data, complex_data := F.r2c2 g.nj_tot g.ni_tot data }

/-- `DoInverseFFT`, fftgrid2d.hpp lines 220-233. -/
noncomputable def FFTGrid2D.doInverseFFTFl (F : Fftw) (g : FFTGrid2D) : Res FFTGrid2D := do
  planSize g.nj_tot
  planSize g.ni_tot
  let out := F.c2r2 g.nj_tot g.ni_tot g.complex_data
  let n := g.ni_tot * g.nj_tot
  let data ← scaleLoopFl n (invScaleFl g.scale_forward n) out.1
  .ok { g with real_data := data, complex_data := out.2 }

/-- `DoFFT`, fftgrid3d.hpp lines 230-239. -/
noncomputable def FFTGrid3D.doFFTFl (F : Fftw) (g : FFTGrid3D) : Res FFTGrid3D := do
  let n := g.ni_tot * g.nj_tot * g.nk_tot
  let data ← (if g.scale_forward then scaleLoopFl n (scaleFl n) g.real_data else .ok g.real_data)
  planSize g.nk_tot
  planSize g.nj_tot
  planSize g.ni_tot
  .ok { g with real_data := data, complex_data := F.r2c3 g.nk_tot g.nj_tot g.ni_tot data }

/-- `DoInverseFFT`, fftgrid3d.hpp lines 241-254. -/
noncomputable def FFTGrid3D.doInverseFFTFl (F : Fftw) (g : FFTGrid3D) : Res FFTGrid3D := do
  planSize g.nk_tot
  planSize g.nj_tot
  planSize g.ni_tot
  let out := F.c2r3 g.nk_tot g.nj_tot g.ni_tot g.complex_data
  let n := g.ni_tot * g.nj_tot * g.nk_tot
  let data ← scaleLoopFl n (invScaleFl g.scale_forward n) out.1
  .ok { g with real_data := data, complex_data := out.2 }

/-! ### Simulation -/

/-- The filter, gaussianfield.cpp lines 255-272, as `makeFilter2`. -/
noncomputable def makeFilter2Fl (lm : Libm) (F : Fftw) (p : Platform) (v : Variogram) (nx : ℕ) (dx : ℝ)
    (ny : ℕ) (dy : ℝ) (px py nx_tot ny_tot : ℕ) (scaling_x scaling_y : ℝ) : Res FFTGrid2D := do
  let cov ← fftCovGrid2DFl lm v nx_tot dx ny_tot dy scaling_x scaling_y
  let filter ← FFTGrid2D.create p nx ny px py false
  let filter ← filter.init cov
  let filter ← filter.doFFTFl F
  let c ← clipSqrtLoopFl filter.complexSize filter.complex_data
  .ok { filter with complex_data := c }

/-- One pass of the loop over fields, gaussianfield.cpp lines 286-299, as `fieldStep2`. -/
noncomputable def fieldStep2Fl {σ : Type} (F : Fftw) (norm01 : σ → Res (ℝ × σ)) (filter : FFTGrid2D)
    (nx_tot ny_tot : ℕ) (st : FFTGrid2D × Grid2D ℝ × σ × List (Grid2D ℝ)) :
    Res (FFTGrid2D × Grid2D ℝ × σ × List (Grid2D ℝ)) := do
  let (noise, s) ← drawNoise2 norm01 nx_tot ny_tot st.2.1 st.2.2.1
  let fftgrid ← st.1.init noise
  let fftgrid ← fftgrid.doFFTFl F
  let c ← mulLoopFl filter.complexSize fftgrid.complex_data filter.complex_data
  let fftgrid ← ({ fftgrid with complex_data := c } : FFTGrid2D).doInverseFFTFl F
  let g ← fftgrid.getRealGrid
  .ok (fftgrid, noise, s, st.2.2.2 ++ [g])

/-- `Simulate2DGaussianField`, gaussianfield.cpp lines 224-300, as `simulate2D`. -/
noncomputable def simulate2DFl {σ γ : Type} (lm : Libm) (F : Fftw) (p : Platform)
    (newRg : γ → Res (σ × γ)) (norm01 : σ → Res (ℝ × σ)) (v : Variogram) (nx : ℕ) (dx : ℝ)
    (ny : ℕ) (dy : ℝ) (n_fields : ℤ) (grid_out : List (Grid2D ℝ)) (rg : Option σ)
    (padding_x padding_y : ℤ) (scaling_x scaling_y : ℝ) (glob : γ) :
    Res (List (Grid2D ℝ) × σ × γ) := do
  let default_padding ← findNDimPadding v nx dx ny dy 1 (-1)
  let px ← desiredPadding padding_x default_padding 0
  let py ← desiredPadding padding_y default_padding 1
  let fftgrid ← FFTGrid2D.create p nx ny px py true
  let nx_tot := fftgrid.ni_tot
  let ny_tot := fftgrid.nj_tot
  let filter ← makeFilter2Fl lm F p v nx dx ny dy px py nx_tot ny_tot scaling_x scaling_y
  let noise := Grid2D.mk' nx_tot ny_tot (0 : ℝ)
  let (s, glob) ← rgOrNew newRg rg glob
  let st ← forRange 0 n_fields.toNat (fun _ st => fieldStep2Fl F norm01 filter nx_tot ny_tot st)
    (fftgrid, noise, s, grid_out)
  .ok (st.2.2.2, st.2.2.1, glob)

/-- The filter, gaussianfield.cpp lines 134-162, as `makeFilter3`. -/
noncomputable def makeFilter3Fl (lm : Libm) (F : Fftw) (p : Platform) (v : Variogram) (nx : ℕ) (dx : ℝ)
    (ny : ℕ) (dy : ℝ) (nz : ℕ) (dz : ℝ) (px py pz nx_tot ny_tot nz_tot : ℕ)
    (scaling_x scaling_y scaling_z : ℝ) : Res FFTGrid3D := do
  let cov ← fftCovGrid3DFl lm v nx_tot dx ny_tot dy nz_tot dz scaling_x scaling_y scaling_z
  let filter ← FFTGrid3D.create p nx ny nz px py pz false
  let filter ← filter.init cov
  let filter ← filter.doFFTFl F
  let c ← clipSqrtLoopFl filter.complexSize filter.complex_data
  .ok { filter with complex_data := c }

/-- One pass of the loop over fields, gaussianfield.cpp lines 176-190, as `fieldStep3`. -/
noncomputable def fieldStep3Fl {γ : Type} (F : Fftw) (norm01 : γ → Res (ℝ × γ)) (filter : FFTGrid3D)
    (nx_tot ny_tot nz_tot : ℕ) (st : FFTGrid3D × Grid3D ℝ × γ × List (Grid3D ℝ)) :
    Res (FFTGrid3D × Grid3D ℝ × γ × List (Grid3D ℝ)) := do
  let (noise, s) ← drawNoise3 norm01 nx_tot ny_tot nz_tot st.2.1 st.2.2.1
  let fftgrid ← st.1.init noise
  let fftgrid ← fftgrid.doFFTFl F
  let c ← mulLoopFl filter.complexSize fftgrid.complex_data filter.complex_data
  let fftgrid ← ({ fftgrid with complex_data := c } : FFTGrid3D).doInverseFFTFl F
  let g ← fftgrid.getRealGrid
  .ok (fftgrid, noise, s, st.2.2.2 ++ [g])

/-- `Simulate3DGaussianField`, gaussianfield.cpp lines 96-191, as `simulate3D`. -/
noncomputable def simulate3DFl {γ : Type} (lm : Libm) (F : Fftw) (p : Platform)
    (norm01 : γ → Res (ℝ × γ)) (v : Variogram) (nx : ℕ) (dx : ℝ) (ny : ℕ) (dy : ℝ) (nz : ℕ) (dz : ℝ)
    (n_fields : ℤ) (grid_out : List (Grid3D ℝ)) (padding_x padding_y padding_z : ℤ)
    (scaling_x scaling_y scaling_z : ℝ) (glob : γ) : Res (List (Grid3D ℝ) × γ) := do
  let default_padding ← findNDimPadding v nx dx ny dy nz dz
  let px ← desiredPadding padding_x default_padding 0
  let py ← desiredPadding padding_y default_padding 1
  let pz ← desiredPadding padding_z default_padding 2
  let fftgrid ← FFTGrid3D.create p nx ny nz px py pz true
  let nx_tot := fftgrid.ni_tot
  let ny_tot := fftgrid.nj_tot
  let nz_tot := fftgrid.nk_tot
  let filter ← makeFilter3Fl lm F p v nx dx ny dy nz dz px py pz nx_tot ny_tot nz_tot
    scaling_x scaling_y scaling_z
  let noise := Grid3D.mk' nx_tot ny_tot nz_tot (0 : ℝ)
  let st ← forRange 0 n_fields.toNat
    (fun _ st => fieldStep3Fl F norm01 filter nx_tot ny_tot nz_tot st) (fftgrid, noise, glob, grid_out)
  .ok (st.2.2.2, st.2.2.1)

/-- `ComputeFFT1D` without padding, fft.hpp lines 79-116, as `computeFFT1D`, of a vector that is not empty: the only way
the simulation calls it. `AddPadding` then only reads the first element. -/
noncomputable def computeFFT1DFl (F : Fftw) (vin : List ℝ) (scale_forward : Bool) : Res (List ℂ) := do
  let tot_size := vin.length
  let scale : ℝ := if scale_forward then scaleFl tot_size else 1.0
  let real_data ← forRange 0 tot_size (fun i a => do
    let x ← rd vin i
    wr a i (some (scale *ᶠ x))) (uninit tot_size)
  let complex_size := tot_size / 2 + 1
  let _ ← rd vin 0
  planSize tot_size
  let real_data ← initialised real_data
  let complex_data := F.r2c1 tot_size real_data
  let c0 ← rd complex_data 0
  let vout ← wr (List.replicate tot_size 0) 0 c0
  forRange 1 complex_size (fun i vout => do
    let c ← rd complex_data i
    let vout ← wr vout i c
    wr vout (tot_size - i) c) vout

/-- `ComputeFFTInv1D`, fft.hpp lines 118-146, as `computeFFTInv1D`, of a vector that is not empty, scaled as the
simulation does. -/
noncomputable def computeFFTInv1DFl (F : Fftw) (vin : List ℂ) (vout : List ℝ) : Res (List ℝ) := do
  let tot_size := vin.length
  let data_size := vout.length
  planSize tot_size
  let real_data := (F.c2r1 tot_size vin).1
  let scale : ℝ := scaleFl tot_size
  forRange 0 data_size (fun i vout => do
    let x ← rd real_data i
    wr vout i (x *ᶠ scale)) vout

/-- `Simulate1DGaussianField`, gaussianfield.cpp lines 303-349, as `simulate1D`. -/
noncomputable def simulate1DFl {σ γ : Type} (lm : Libm) (F : Fftw) (p : Platform)
    (newRg : γ → Res (σ × γ)) (norm01 : σ → Res (ℝ × σ)) (v : Variogram) (nx : ℕ) (dx : ℝ)
    (out_size : ℕ) (rg : Option σ) (padding : ℤ) (scaling_x : ℝ) (glob : γ) :
    Res (List ℝ × σ × γ) := do
  let default_padding ← findNDimPadding v nx dx 1 (-1) 1 (-1)
  let nx_pad ← desiredPadding padding default_padding 0
  let nxp ← findNewSize p (wrap64 (nx + nx_pad)) false
  let cov ← fftCovGrid1DFl lm v nxp dx scaling_x
  let (s, glob) ← rgOrNew newRg rg glob
  let (noise, s) ← drawNoise1 norm01 nxp s
  let cov_fft ← computeFFT1DFl F cov false
  let noise_fft ← computeFFT1DFl F noise true
  let convolve := List.replicate cov_fft.length (0 : ℂ)
  let cov_fft ← clipSqrtLoopFl cov_fft.length cov_fft
  let convolve ← forRange 0 cov_fft.length (fun i convolve => do
    let x ← rd cov_fft i
    let y ← rd noise_fft i
    wr convolve i (cmulFl x y)) convolve
  let tmp ← computeFFTInv1DFl F convolve (List.replicate nxp 0)
  let out ← forRange 0 out_size (fun i out => do
    let x ← rd tmp i
    wr out i x) (List.replicate out_size 0)
  .ok (out, s, glob)

end Verif
