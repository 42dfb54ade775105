import Verif.Model.FftSize
import Verif.Model.Padding
import Verif.Model.Grid
import Verif.Spec.Dft
import Mathlib.Data.Complex.Basic
import Mathlib.Analysis.SpecialFunctions.Pow.Complex

/-!
# FFT interface and FFT grids

Models src/nrlib/fft/fft.hpp, fft.cpp, fftgrid2d.{hpp,cpp} and fftgrid3d.{hpp,cpp} for `double`.
FFTW itself is not modelled: it is a parameter `Fftw` with the documented behaviour `Fftw.Laws`.
-/

namespace Verif

open Spec ComplexConjugate

/-- The FFTW calls used (fft.cpp lines 24-48, fftgrid2d.cpp lines 26-51, fftgrid3d.cpp
lines 26-51): sizes with the slowest index first, flat row-major arrays. A complex-to-real
transform also destroys its input; the second component is what it leaves there. -/
structure Fftw where
  r2c1 : ℕ → List ℝ → List ℂ
  c2r1 : ℕ → List ℂ → List ℝ × List ℂ
  r2c2 : ℕ → ℕ → List ℝ → List ℂ
  c2r2 : ℕ → ℕ → List ℂ → List ℝ × List ℂ
  r2c3 : ℕ → ℕ → ℕ → List ℝ → List ℂ
  c2r3 : ℕ → ℕ → ℕ → List ℂ → List ℝ × List ℂ

/-- The documented behaviour of FFTW's real transforms. Real data of size `n0 x ... x nd` has a
complex half array of size `n0 x ... x (nd/2+1)`. The complex-to-real transform is only specified
if the half array is part of a Hermitian array. The complex arrays may be longer than needed. -/
structure Fftw.Laws (F : Fftw) : Prop where
  r2c1_length : ∀ n a, 0 < n → a.length = n → (F.r2c1 n a).length = n / 2 + 1
  r2c1_value : ∀ n a, 0 < n → a.length = n → ∀ k < n / 2 + 1,
    (F.r2c1 n a)[k]? = some (dft1 n (fun x => (a.getD x 0 : ℂ)) k)
  c2r1_length : ∀ n z, 0 < n → n / 2 + 1 ≤ z.length →
    (F.c2r1 n z).1.length = n ∧ (F.c2r1 n z).2.length = z.length
  c2r1_value : ∀ n z (Z : ℕ → ℂ), 0 < n → n / 2 + 1 ≤ z.length →
    (∀ k < n, Z (opp n k) = conj (Z k)) →
    (∀ k < n / 2 + 1, z[k]? = some (Z k)) →
    ∀ x < n, ∃ r, (F.c2r1 n z).1[x]? = some r ∧ (r : ℂ) = idft1 n Z x
  r2c2_length : ∀ n0 n1 a, 0 < n0 → 0 < n1 → a.length = n0 * n1 →
    (F.r2c2 n0 n1 a).length = n0 * (n1 / 2 + 1)
  r2c2_value : ∀ n0 n1 a, 0 < n0 → 0 < n1 → a.length = n0 * n1 → ∀ k0 < n0, ∀ k1 < n1 / 2 + 1,
    (F.r2c2 n0 n1 a)[k0 * (n1 / 2 + 1) + k1]? =
      some (dft2 n0 n1 (fun x0 x1 => (a.getD (x0 * n1 + x1) 0 : ℂ)) k0 k1)
  c2r2_length : ∀ n0 n1 z, 0 < n0 → 0 < n1 → z.length = n0 * (n1 / 2 + 1) →
    (F.c2r2 n0 n1 z).1.length = n0 * n1 ∧ (F.c2r2 n0 n1 z).2.length = z.length
  c2r2_value : ∀ n0 n1 z (Z : ℕ → ℕ → ℂ), 0 < n0 → 0 < n1 → z.length = n0 * (n1 / 2 + 1) →
    (∀ k0 < n0, ∀ k1 < n1, Z (opp n0 k0) (opp n1 k1) = conj (Z k0 k1)) →
    (∀ k0 < n0, ∀ k1 < n1 / 2 + 1, z[k0 * (n1 / 2 + 1) + k1]? = some (Z k0 k1)) →
    ∀ x0 < n0, ∀ x1 < n1, ∃ r, (F.c2r2 n0 n1 z).1[x0 * n1 + x1]? = some r ∧
      (r : ℂ) = idft2 n0 n1 Z x0 x1
  r2c3_length : ∀ n0 n1 n2 a, 0 < n0 → 0 < n1 → 0 < n2 → a.length = n0 * n1 * n2 →
    (F.r2c3 n0 n1 n2 a).length = n0 * n1 * (n2 / 2 + 1)
  r2c3_value : ∀ n0 n1 n2 a, 0 < n0 → 0 < n1 → 0 < n2 → a.length = n0 * n1 * n2 →
    ∀ k0 < n0, ∀ k1 < n1, ∀ k2 < n2 / 2 + 1,
    (F.r2c3 n0 n1 n2 a)[(k0 * n1 + k1) * (n2 / 2 + 1) + k2]? =
      some (dft3 n0 n1 n2 (fun x0 x1 x2 => (a.getD ((x0 * n1 + x1) * n2 + x2) 0 : ℂ)) k0 k1 k2)
  c2r3_length : ∀ n0 n1 n2 z, 0 < n0 → 0 < n1 → 0 < n2 → z.length = n0 * n1 * (n2 / 2 + 1) →
    (F.c2r3 n0 n1 n2 z).1.length = n0 * n1 * n2 ∧ (F.c2r3 n0 n1 n2 z).2.length = z.length
  c2r3_value : ∀ n0 n1 n2 z (Z : ℕ → ℕ → ℕ → ℂ), 0 < n0 → 0 < n1 → 0 < n2 →
    z.length = n0 * n1 * (n2 / 2 + 1) →
    (∀ k0 < n0, ∀ k1 < n1, ∀ k2 < n2, Z (opp n0 k0) (opp n1 k1) (opp n2 k2) = conj (Z k0 k1 k2)) →
    (∀ k0 < n0, ∀ k1 < n1, ∀ k2 < n2 / 2 + 1,
      z[(k0 * n1 + k1) * (n2 / 2 + 1) + k2]? = some (Z k0 k1 k2)) →
    ∀ x0 < n0, ∀ x1 < n1, ∀ x2 < n2, ∃ r,
      (F.c2r3 n0 n1 n2 z).1[(x0 * n1 + x1) * n2 + x2]? = some r ∧ (r : ℂ) = idft3 n0 n1 n2 Z x0 x1 x2

/-- `static_cast<int>(n)` in front of an FFTW plan (fft.cpp lines 30, 43; fftgrid2d.cpp lines 31,
45; fftgrid3d.cpp lines 31, 45). A size that does not fit becomes another number; that outcome is
`ub` here. Plan creation is assumed to succeed. -/
def planSize (n : ℕ) : Res Unit :=
  if n < 2 ^ 31 then .ok () else .ub "FFT size does not fit in an int"

/-- `std::sqrt(std::complex<double>)`: principal square root. -/
noncomputable def csqrt (z : ℂ) : ℂ := z ^ (1 / 2 : ℂ)

/-! ### One dimension -/

/-- Memory from `fftw_malloc`: not initialised. -/
def uninit (n : ℕ) : List (Option ℝ) := List.replicate n none

/-- Handing an array to FFTW reads all of it; reading an uninitialised cell is `ub`. -/
def initialised (a : List (Option ℝ)) : Res (List ℝ) :=
  a.foldr (fun x r => match x with
    | some v => r.bind fun l => .ok (v :: l)
    | none => .ub "uninitialised value") (.ok [])

/-- `AddPadding`, fft.hpp lines 150-169; `vin` is the range `[begin, end)`. -/
noncomputable def addPadding (vin : List ℝ) (v : List (Option ℝ)) (padSize sizeOrig : ℕ)
    (scale : ℝ) : Res (List (Option ℝ)) := do
  let endv ← rd vin 0
  if padSize = 1 then
    wr v sizeOrig (some (scale * endv))
  else
    forRange 0 padSize (fun i v => do
      let j := sizeOrig + i
      let t : ℝ := (i : ℝ) / ((padSize : ℝ) - 1)
      let last ← rd vin (vin.length - 1)
      wr v j (some (scale * (endv * t + (1 - t) * last)))) v

/-- The number of padding cells chosen by `ComputeFFT1D`, fft.hpp lines 84-87. -/
noncomputable def padSize1D (p : Platform) (orig_size : ℕ) (minPadSize : ℤ) : Res ℕ := do
  let pad_size := if minPadSize < 0 then orig_size else minPadSize.toNat
  if pad_size ≠ 0 then
    let n ← findNewSize p (wrap64 (pad_size + orig_size)) false
    .ok (wrap64 ((n : ℤ) - orig_size))
  else .ok pad_size

/-- `ComputeFFT1D`, fft.hpp lines 79-116. The argument `vout` is the old content of the output
vector, which is kept when there is no input data and otherwise resized (new cells are zero). -/
noncomputable def computeFFT1D (F : Fftw) (p : Platform) (vin : List ℝ) (vout : List ℂ)
    (scale_forward : Bool) (minPadSize : ℤ) : Res (List ℂ) := do
  if vin.length = 0 then .ok vout
  else
    let orig_size := vin.length
    let pad_size ← padSize1D p orig_size minPadSize
    let tot_size := orig_size + pad_size
    let real_data := uninit tot_size
    let scale : ℝ := if scale_forward then 1.0 / Real.sqrt (1.0 * tot_size) else 1.0
    let real_data ← forRange 0 orig_size (fun i a => do
      let x ← rd vin i
      wr a i (some (scale * x))) real_data
    let complex_size := tot_size / 2 + 1
    let real_data ← addPadding vin real_data pad_size orig_size scale
    planSize tot_size
    let real_data ← initialised real_data
    let complex_data := F.r2c1 tot_size real_data
    let vout := vout.take tot_size ++ List.replicate (tot_size - vout.length) 0
    let c0 ← rd complex_data 0
    let vout ← wr vout 0 c0
    forRange 1 complex_size (fun i vout => do
      let c ← rd complex_data i
      let vout ← wr vout i c
      wr vout (tot_size - i) c) vout

/-- `ComputeFFTInv1D`, fft.hpp lines 118-146; `vout` is the range `[begin, end)`. -/
noncomputable def computeFFTInv1D (F : Fftw) (vin : List ℂ) (vout : List ℝ)
    (scale_forward : Bool) : Res (List ℝ) := do
  if vin.length = 0 then .ok vout
  else
    let tot_size := vin.length
    let data_size := vout.length
    planSize tot_size
    let real_data := (F.c2r1 tot_size vin).1
    let scale : ℝ := if scale_forward then 1.0 / Real.sqrt (1.0 * tot_size) else 1.0 / tot_size
    forRange 0 data_size (fun i vout => do
      let x ← rd real_data i
      wr vout i (x * scale)) vout

/-! ### Loops over the flat arrays, shared by the 2D and 3D grids -/

/-- `for (i < n) real_data_[i] *= scale`: fftgrid2d.hpp lines 212-214, 230-232; fftgrid3d.hpp
lines 234-235, 252-253. -/
noncomputable def scaleLoop (n : ℕ) (scale : ℝ) (data : List ℝ) : Res (List ℝ) :=
  forRange 0 n (fun i a => (rd a i).bind fun x => wr a i (x * scale)) data

/-- `for (i < m) complex_data_[i] *= filter.complex_data_[i]`: fftgrid2d.hpp lines 271-274,
fftgrid3d.hpp lines 342-345, 366-369; gaussianfield.cpp lines 185-186, 294-295. -/
noncomputable def mulLoop (m : ℕ) (data filter : List ℂ) : Res (List ℂ) :=
  forRange 0 m (fun i a => (rd a i).bind fun x => (rd filter i).bind fun y =>
    wr a i (x * y)) data

/-- `for (i < m) complex_data_[i] *= sqrt(filter.complex_data_[i])`: fftgrid2d.hpp lines 284-287,
fftgrid3d.hpp lines 355-358. -/
noncomputable def mulSqrtLoop (m : ℕ) (data filter : List ℂ) : Res (List ℂ) :=
  forRange 0 m (fun i a => (rd a i).bind fun x => (rd filter i).bind fun y =>
    wr a i (x * csqrt y)) data

/-- `scale` in `DoInverseFFT`: fftgrid2d.hpp lines 225-228, fftgrid3d.hpp lines 247-250. -/
noncomputable def invScale (scale_forward : Bool) (n : ℕ) : ℝ :=
  if !scale_forward then 1.0 / n else 1.0 / Real.sqrt (1.0 * n)

/-! ### Two dimensions -/

/-- fftgrid2d.hpp lines 116-130. -/
structure FFTGrid2D where
  scale_forward : Bool
  ni : ℕ
  nj : ℕ
  ni_tot : ℕ
  nj_tot : ℕ
  real_data : List ℝ
  complex_data : List ℂ

namespace FFTGrid2D

/-- `GetComplexNI() * GetComplexNJ()`, fftgrid2d.hpp lines 96-97. -/
def complexSize (g : FFTGrid2D) : ℕ := (g.ni_tot / 2 + 1) * g.nj_tot

/-- Constructor, fftgrid2d.hpp lines 173-197. The extra cell at the end of the real array
(line 184) is never used and left out. -/
noncomputable def create (p : Platform) (ni nj padding_ni padding_nj : ℕ) (scale_forward : Bool) :
    Res FFTGrid2D := do
  let ni_tot ← findNewSize p (wrap64 (ni + padding_ni)) true
  let nj_tot ← findNewSize p (wrap64 (nj + padding_nj)) false
  .ok ⟨scale_forward, ni, nj, ni_tot, nj_tot, List.replicate (ni_tot * nj_tot) 0,
    List.replicate ((ni_tot / 2 + 1) * nj_tot) 0⟩

/-- `DoFFT`, fftgrid2d.hpp lines 208-218, with fftgrid2d.cpp lines 26-37. -/
noncomputable def doFFT (F : Fftw) (g : FFTGrid2D) : Res FFTGrid2D := do
  let n := g.ni_tot * g.nj_tot
  let data ← (if g.scale_forward then scaleLoop n (1.0 / Real.sqrt (1.0 * n)) g.real_data
    else .ok g.real_data)
  planSize g.nj_tot
  planSize g.ni_tot
  .ok { g with real_data := data, complex_data := F.r2c2 g.nj_tot g.ni_tot data }

/-- `DoInverseFFT`, fftgrid2d.hpp lines 220-233, with fftgrid2d.cpp lines 40-51. -/
noncomputable def doInverseFFT (F : Fftw) (g : FFTGrid2D) : Res FFTGrid2D := do
  planSize g.nj_tot
  planSize g.ni_tot
  let out := F.c2r2 g.nj_tot g.ni_tot g.complex_data
  let n := g.ni_tot * g.nj_tot
  let data ← scaleLoop n (invScale g.scale_forward n) out.1
  .ok { g with real_data := data, complex_data := out.2 }

/-- `Real(i,j)` with `GetRealIndex`, fftgrid2d.hpp lines 72-73, 236-241. -/
def real (g : FFTGrid2D) (i j : ℕ) : Res ℝ :=
  if i < g.ni ∧ j < g.nj then rd g.real_data (i + j * g.ni_tot)
  else .ub "assert in FFTGrid2D::GetRealIndex"

/-- `Complex(i,j)` with `GetComplexIndex`, fftgrid2d.hpp lines 81-82, 244-249. -/
def complex (g : FFTGrid2D) (i j : ℕ) : Res ℂ :=
  if i < g.ni_tot / 2 + 1 ∧ j < g.nj_tot then rd g.complex_data (i + j * (g.ni_tot / 2 + 1))
  else .ub "assert in FFTGrid2D::GetComplexIndex"

/-- `Initialize`, fftgrid2d.hpp lines 252-263. -/
def init (g : FFTGrid2D) (values : Grid2D ℝ) : Res FFTGrid2D := do
  if g.ni_tot = values.ni ∧ g.nj_tot = values.nj then
    let s ← forRange 0 values.nj (fun j s =>
      forRange 0 values.ni (fun i s => do
        let x ← values.get i j
        let d ← wr s.2 s.1 x
        .ok (s.1 + 1, d)) s) (0, g.real_data)
    .ok { g with real_data := s.2 }
  else .ub "assert in FFTGrid2D::Initialize"

/-- `Convolve`, fftgrid2d.hpp lines 266-276. Returns the grid and the filter, both changed. -/
noncomputable def convolve (F : Fftw) (g filter : FFTGrid2D) : Res (FFTGrid2D × FFTGrid2D) := do
  let g ← g.doFFT F
  let filter ← filter.doFFT F
  let c ← mulLoop g.complexSize g.complex_data filter.complex_data
  let g ← ({ g with complex_data := c } : FFTGrid2D).doInverseFFT F
  .ok (g, filter)

/-- `ConvolveCovariance`, fftgrid2d.hpp lines 279-289. -/
noncomputable def convolveCovariance (F : Fftw) (g filter : FFTGrid2D) :
    Res (FFTGrid2D × FFTGrid2D) := do
  let g ← g.doFFT F
  let filter ← filter.doFFT F
  let c ← mulSqrtLoop g.complexSize g.complex_data filter.complex_data
  let g ← ({ g with complex_data := c } : FFTGrid2D).doInverseFFT F
  .ok (g, filter)

/-- `GetRealGrid`, fftgrid2d.hpp lines 292-303. -/
def getRealGrid (g : FFTGrid2D) : Res (Grid2D ℝ) :=
  forRange 0 g.ni (fun i out =>
    forRange 0 g.nj (fun j out => do
      let x ← rd g.real_data (i + g.ni_tot * j)
      out.set i j x) out) (Grid2D.mk' g.ni g.nj 0)

end FFTGrid2D

/-! ### Three dimensions -/

/-- fftgrid3d.hpp, private members. -/
structure FFTGrid3D where
  scale_forward : Bool
  ni : ℕ
  nj : ℕ
  nk : ℕ
  ni_tot : ℕ
  nj_tot : ℕ
  nk_tot : ℕ
  real_data : List ℝ
  complex_data : List ℂ

namespace FFTGrid3D

/-- `GetComplexNI() * GetComplexNJ() * GetComplexNK()`. -/
def complexSize (g : FFTGrid3D) : ℕ := (g.ni_tot / 2 + 1) * g.nj_tot * g.nk_tot

/-- Constructor, fftgrid3d.hpp lines 196-219. -/
noncomputable def create (p : Platform) (ni nj nk padding_ni padding_nj padding_nk : ℕ)
    (scale_forward : Bool) : Res FFTGrid3D := do
  let ni_tot ← findNewSize p (wrap64 (ni + padding_ni)) true
  let nj_tot ← findNewSize p (wrap64 (nj + padding_nj)) false
  let nk_tot ← findNewSize p (wrap64 (nk + padding_nk)) false
  .ok ⟨scale_forward, ni, nj, nk, ni_tot, nj_tot, nk_tot,
    List.replicate (ni_tot * nj_tot * nk_tot) 0,
    List.replicate ((ni_tot / 2 + 1) * nj_tot * nk_tot) 0⟩

/-- `DoFFT`, fftgrid3d.hpp lines 230-239, with fftgrid3d.cpp lines 26-37. -/
noncomputable def doFFT (F : Fftw) (g : FFTGrid3D) : Res FFTGrid3D := do
  let n := g.ni_tot * g.nj_tot * g.nk_tot
  let data ← (if g.scale_forward then scaleLoop n (1.0 / Real.sqrt (1.0 * n)) g.real_data
    else .ok g.real_data)
  planSize g.nk_tot
  planSize g.nj_tot
  planSize g.ni_tot
  .ok { g with real_data := data, complex_data := F.r2c3 g.nk_tot g.nj_tot g.ni_tot data }

/-- `DoInverseFFT`, fftgrid3d.hpp lines 241-254, with fftgrid3d.cpp lines 40-51. -/
noncomputable def doInverseFFT (F : Fftw) (g : FFTGrid3D) : Res FFTGrid3D := do
  planSize g.nk_tot
  planSize g.nj_tot
  planSize g.ni_tot
  let out := F.c2r3 g.nk_tot g.nj_tot g.ni_tot g.complex_data
  let n := g.ni_tot * g.nj_tot * g.nk_tot
  let data ← scaleLoop n (invScale g.scale_forward n) out.1
  .ok { g with real_data := data, complex_data := out.2 }

/-- `Real(i,j,k)` with `GetRealIndex`, fftgrid3d.hpp lines 257-262. -/
def real (g : FFTGrid3D) (i j k : ℕ) : Res ℝ :=
  if i < g.ni ∧ j < g.nj ∧ k < g.nk then
    rd g.real_data (i + j * g.ni_tot + k * g.ni_tot * g.nj_tot)
  else .ub "assert in FFTGrid3D::GetRealIndex"

/-- `GetRealIndexCyclic`, fftgrid3d.hpp lines 265-285. All terms are non-negative, so the
`int` arithmetic overflows exactly if the final sum does. -/
def getRealIndexCyclic (g : FFTGrid3D) (i j k : ℤ) : Res ℕ :=
  let ni : ℤ := g.ni_tot
  let nj : ℤ := g.nj_tot
  let nk : ℤ := g.nk_tot
  if (i < ni ∧ j < nj ∧ k < nk) ∧ (i > -ni ∧ j > -nj ∧ k > -nk) then
    let i := if i < 0 then ni + i else i
    let j := if j < 0 then nj + j else j
    let k := if k < 0 then nk + k else k
    let ind := i + j * ni + k * ni * nj
    if ind < 2 ^ 31 then .ok (wrap64 ind) else .ub "int overflow"
  else .ub "assert in FFTGrid3D::GetRealIndexCyclic"

/-- `Complex(i,j,k)` with `GetComplexIndex`, fftgrid3d.hpp lines 288-293. -/
def complex (g : FFTGrid3D) (i j k : ℕ) : Res ℂ :=
  if i < g.ni_tot / 2 + 1 ∧ j < g.nj_tot ∧ k < g.nk_tot then
    rd g.complex_data (i + j * (g.ni_tot / 2 + 1) + k * (g.ni_tot / 2 + 1) * g.nj_tot)
  else .ub "assert in FFTGrid3D::GetComplexIndex"

/-- `Initialize`, fftgrid3d.hpp lines 296-308. -/
def init (g : FFTGrid3D) (values : Grid3D ℝ) : Res FFTGrid3D := do
  if g.ni_tot = values.ni ∧ g.nj_tot = values.nj ∧ g.nk_tot = values.nk then
    let s ← forRange 0 values.nk (fun k s =>
      forRange 0 values.nj (fun j s =>
        forRange 0 values.ni (fun i s => do
          let x ← values.get i j k
          let d ← wr s.2 s.1 x
          .ok (s.1 + 1, d)) s) s) (0, g.real_data)
    .ok { g with real_data := s.2 }
  else .ub "assert in FFTGrid3D::Initialize"

/-- `InitializePadZero`, fftgrid3d.hpp lines 311-326. -/
def initializePadZero (g : FFTGrid3D) (values : Grid3D ℝ) : Res FFTGrid3D := do
  if g.ni = values.ni ∧ g.nj = values.nj ∧ g.nk = values.nk then
    let s ← forRange 0 g.nk_tot (fun k s =>
      forRange 0 g.nj_tot (fun j s =>
        forRange 0 g.ni_tot (fun i s => do
          let x ← (if i < g.ni ∧ j < g.nj ∧ k < g.nk then values.get i j k else .ok 0)
          let d ← wr s.2 s.1 x
          .ok (s.1 + 1, d)) s) s) (0, g.real_data)
    .ok { g with real_data := s.2 }
  else .ub "assert in FFTGrid3D::InitializePadZero"

/-- `InitializeConstant`, fftgrid3d.hpp lines 329-334. -/
def initializeConstant (g : FFTGrid3D) (value : ℝ) : Res FFTGrid3D := do
  let d ← forRange 0 (g.ni_tot * g.nj_tot * g.nk_tot) (fun ind d => wr d ind value) g.real_data
  .ok { g with real_data := d }

/-- `Convolve`, fftgrid3d.hpp lines 337-347. -/
noncomputable def convolve (F : Fftw) (g filter : FFTGrid3D) : Res (FFTGrid3D × FFTGrid3D) := do
  let g ← g.doFFT F
  let filter ← filter.doFFT F
  let c ← mulLoop g.complexSize g.complex_data filter.complex_data
  let g ← ({ g with complex_data := c } : FFTGrid3D).doInverseFFT F
  .ok (g, filter)

/-- `ConvolveCovariance`, fftgrid3d.hpp lines 350-360. -/
noncomputable def convolveCovariance (F : Fftw) (g filter : FFTGrid3D) :
    Res (FFTGrid3D × FFTGrid3D) := do
  let g ← g.doFFT F
  let filter ← filter.doFFT F
  let c ← mulSqrtLoop g.complexSize g.complex_data filter.complex_data
  let g ← ({ g with complex_data := c } : FFTGrid3D).doInverseFFT F
  .ok (g, filter)

/-- `ConvolveNoFFT`, fftgrid3d.hpp lines 363-370. -/
noncomputable def convolveNoFFT (g filter : FFTGrid3D) : Res FFTGrid3D := do
  let c ← mulLoop g.complexSize g.complex_data filter.complex_data
  .ok { g with complex_data := c }

/-- `GetRealGrid`, fftgrid3d.hpp lines 373-385. -/
def getRealGrid (g : FFTGrid3D) : Res (Grid3D ℝ) :=
  forRange 0 g.ni (fun i out =>
    forRange 0 g.nj (fun j out =>
      forRange 0 g.nk (fun k out => do
        let x ← rd g.real_data (i + g.ni_tot * j + g.ni_tot * g.nj_tot * k)
        out.set i j k x) out) out) (Grid3D.mk' g.ni g.nj g.nk 0)

end FFTGrid3D

end Verif
