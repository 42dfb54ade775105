import Verif.Model.Field
import Verif.Model.Random

/-!
# The Python module

Models src/gaussfft.cpp and the bindings in src/gaussfftinterface.cpp lines 167-258: the functions
of the module, acting on the static state of `NRLib::Random`.

What the functions get from outside is explicit: the time of day, and what is in the memory that a
new `RandomGenerator` occupies (`Env`).

Simplifications: conversion of Python arguments is not modelled (pybind11 rejects integers that do
not fit `size_t`, `unsigned long` or `int` and values that are not numbers). Arrays that are too
large for the memory are not modelled. Doubles are real numbers. A `None` given for the variogram is
converted to a null pointer by pybind11, which the functions dereference (`simulateNone` below).
-/

namespace Verif

open Dsfmt (Build)

/-- What does not change while the module is used: FFTW, the compiler, the processor. -/
structure Setup where
  F : Fftw
  p : Platform
  b : Build

/-- What a call gets from outside: the time, and the memory of an object to be created. An object of
type `dsfmt_t` has 192 words of 128 bits (dSFMT.h lines 185-188). -/
structure Env where
  time : BitVec 64
  raw : Dsfmt
  hraw : raw.status.length = 192

/-- `rg = new RandomGenerator(); rg->Initialize(Random::DrawUint32());`,
src/nrlib/variogram/gaussianfield.cpp lines 282-285 and 321-324. -/
def newRandomGenerator (b : Build) (raw : Dsfmt) (s : Random) : Res (RandomGenerator × Random) := do
  let rg := RandomGenerator.create raw
  let (seed, s) ← s.drawUint32 b
  let rg ← rg.initializeSeed seed
  .ok (rg, s)

/-- gaussfft.cpp lines 122-128: seeds from the clock if there is no seed. -/
def ensureSeeded (b : Build) (time : BitVec 64) (s : Random) : Res Random :=
  match s.getStartSeed with
  | .throws _ => s.initializeTime b time
  | .ok _ => .ok s
  | .ub w => .ub w
  | .nonfinite w => .nonfinite w
  | .diverges => .diverges

/-- `GaussFFT::Simulate1D`, gaussfft.cpp lines 145-162. -/
noncomputable def apiSimulate1D (S : Setup) (e : Env) (v : Variogram) (nx : ℕ) (dx : ℝ)
    (padding_x : ℤ) (scaling_x : ℝ) (s : Random) : Res (List ℝ × Random) := do
  let (values, _, s) ← simulate1D S.F S.p (newRandomGenerator S.b e.raw)
    (RandomGenerator.norm01 S.b) v nx dx nx none padding_x scaling_x s
  .ok (values, s)

/-- `GaussFFT::Simulate2D`, gaussfft.cpp lines 165-189. -/
noncomputable def apiSimulate2D (S : Setup) (e : Env) (v : Variogram) (nx : ℕ) (dx : ℝ) (ny : ℕ)
    (dy : ℝ) (padding_x padding_y : ℤ) (scaling_x scaling_y : ℝ) (s : Random) :
    Res (List ℝ × Random) := do
  let (fields, _, s) ← simulate2D S.F S.p (newRandomGenerator S.b e.raw)
    (RandomGenerator.norm01 S.b) v nx dx ny dy 1 [] none padding_x padding_y scaling_x scaling_y s
  let g ← rd fields 0
  .ok (g.data, s)

/-- `GaussFFT::Simulate3D`, gaussfft.cpp lines 192-223. -/
noncomputable def apiSimulate3D (S : Setup) (v : Variogram) (nx : ℕ) (dx : ℝ) (ny : ℕ) (dy : ℝ)
    (nz : ℕ) (dz : ℝ) (padding_x padding_y padding_z : ℤ) (scaling_x scaling_y scaling_z : ℝ)
    (s : Random) : Res (List ℝ × Random) := do
  let (fields, s) ← simulate3D S.F S.p (Random.norm01 S.b) v nx dx ny dy nz dz 1 []
    padding_x padding_y padding_z scaling_x scaling_y scaling_z s
  let g ← rd fields 0
  .ok (g.data, s)

/-- `GaussFFT::SimulateWithAdvancedSettings`, gaussfft.cpp lines 108-142 (`advanced.simulate`). -/
noncomputable def advancedSimulate (S : Setup) (e : Env) (v : Variogram) (nx : ℕ) (dx : ℝ) (ny : ℕ)
    (dy : ℝ) (nz : ℕ) (dz : ℝ) (padding_x padding_y padding_z : ℤ)
    (scaling_x scaling_y scaling_z : ℝ) (s : Random) : Res (List ℝ × Random) :=
  (ensureSeeded S.b e.time s).bind fun s =>
    if ny ≤ 1 ∨ dy < 0.0 then apiSimulate1D S e v nx dx padding_x scaling_x s
    else if nz ≤ 1 ∨ dz < 0.0 then
      apiSimulate2D S e v nx dx ny dy padding_x padding_y scaling_x scaling_y s
    else
      apiSimulate3D S v nx dx ny dy nz dz padding_x padding_y padding_z scaling_x scaling_y
        scaling_z s

/-- `GaussFFT::Simulate`, gaussfft.cpp lines 96-105 (`simulate`). -/
noncomputable def simulate (S : Setup) (e : Env) (v : Variogram) (nx : ℕ) (dx : ℝ) (ny : ℕ)
    (dy : ℝ) (nz : ℕ) (dz : ℝ) (s : Random) : Res (List ℝ × Random) :=
  advancedSimulate S e v nx dx ny dy nz dz (-1) (-1) (-1) 1.0 1.0 1.0 s

/-- `simulate(None, ...)`: a null pointer is dereferenced (gaussfft.cpp lines 155, 174, 203). The
generator is seeded before that if there is no seed. -/
def simulateNone (S : Setup) (e : Env) (s : Random) : Res (List ℝ × Random) :=
  (ensureSeeded S.b e.time s).bind fun _ => .ub "null pointer dereferenced"

/-- `NRLib::Simulate2DGaussianField` for one grid, gaussianfield.cpp lines 194-221. Any exception of
`GetStartSeed` means that there is no seed; then the generator pointer stays null. Not available in
Python. -/
noncomputable def simulate2DGrid (S : Setup) (e : Env) (v : Variogram) (nx : ℕ) (dx : ℝ) (ny : ℕ)
    (dy : ℝ) (s : Random) : Res (Grid2D ℝ × Random) := do
  let rg ← match s.getStartSeed with
    | .ok seed => (RandomGenerator.createSeeded seed e.raw).bind fun rg => .ok (some rg)
    | _ => .ok none
  let (grids, _, s) ← simulate2D S.F S.p (newRandomGenerator S.b e.raw)
    (RandomGenerator.norm01 S.b) v nx dx ny dy 1 [] rg (-1) (-1) 1.0 1.0 s
  let g ← rd grids 0
  .ok (g, s)

/-- The functions of the Python module and their arguments. -/
inductive PyCall where
  | seed (n : BitVec 64)
  | getSeed
  | simulate (v : Variogram) (nx : ℕ) (dx : ℝ) (ny : ℕ) (dy : ℝ) (nz : ℕ) (dz : ℝ)
  | advancedSimulate (v : Variogram) (nx : ℕ) (dx : ℝ) (ny : ℕ) (dy : ℝ) (nz : ℕ) (dz : ℝ)
      (padx pady padz : ℤ) (sx sy sz : ℝ)
  | simulationSize (v : Variogram) (nx : ℕ) (dx : ℝ) (ny : ℕ) (dy : ℝ) (nz : ℕ) (dz : ℝ)
  | variogram (type : List Char) (mainRange perpRange depthRange azimuth dip power : ℝ)
  | corr1 (v : Variogram) (x : ℝ)
  | corr2 (v : Variogram) (x y : ℝ)
  | corr3 (v : Variogram) (x y z : ℝ)
  | quote

/-- What Python gets. -/
inductive PyReply where
  | none
  | int (n : BitVec 64)
  | array (values : List ℝ)
  | sizes (values : List ℕ)
  | variogram (v : Variogram)
  | float (x : ℝ)
  | text (s : String)
  | raised (message : String)

/-- The text in gaussfft.cpp line 23. -/
def quoteText : String :=
  "Arc, amplitude, and curvature sustain a similar relation to each other as time, motion, and velocity, or as volume, mass, and density."

/-- An exception becomes a Python exception. The functions it is used for throw before they change
anything. -/
def pyRaise {σ : Type} (s : σ) : Res (PyReply × σ) → Res (PyReply × σ)
  | .throws m => .ok (.raised m, s)
  | r => r

/-- One call, gaussfftinterface.cpp lines 167-258. -/
noncomputable def pyCall (S : Setup) (s : Random) (c : Env × PyCall) : Res (PyReply × Random) :=
  match c.2 with
  | .seed n => (s.initializeSeed n).bind fun s => .ok (.none, s)
  | .getSeed => pyRaise s ((s.getStartSeed).bind fun n => .ok (.int n, s))
  | .simulate v nx dx ny dy nz dz =>
    (Verif.simulate S c.1 v nx dx ny dy nz dz s).bind fun r => .ok (.array r.1, r.2)
  | .advancedSimulate v nx dx ny dy nz dz padx pady padz sx sy sz =>
    (Verif.advancedSimulate S c.1 v nx dx ny dy nz dz padx pady padz sx sy sz s).bind fun r =>
      .ok (.array r.1, r.2)
  | .simulationSize v nx dx ny dy nz dz =>
    pyRaise s ((Verif.simulationSize v nx dx ny dy nz dz).bind fun r => .ok (.sizes r, s))
  | .variogram t r1 r2 r3 az dip pw =>
    pyRaise s ((createVariogram t r1 r2 r3 az dip pw).bind fun v => .ok (.variogram v, s))
  | .corr1 v x => .ok (.float (v.corr x), s)
  | .corr2 v x y => .ok (.float (v.corr2 x y), s)
  | .corr3 v x y z => .ok (.float (v.corr3 x y z), s)
  | .quote => .ok (.text quoteText, s)

end Verif
