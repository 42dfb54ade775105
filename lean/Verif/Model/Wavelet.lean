import Verif.Model.Distr
import Verif.Model.NormalDistr
import Verif.Model.Surface
import Mathlib.Analysis.SpecialFunctions.Trigonometric.Basic

/-!
# Wavelets

Models src/nrlib/wavelet/wavelet.{hpp,cpp} without files. Doubles are real numbers, `NRLib::Pi` is the
number pi, and lengths are small enough for `int`.
-/

namespace Verif

open Classical

/-- `Wavelet`, wavelet.hpp lines 94-100. -/
structure Wavelet where
  data : List ℝ
  dt : ℝ

namespace Wavelet

/-- `GetCenterIndex`, wavelet.hpp line 71. -/
def center (w : Wavelet) : ℕ := w.data.length / 2

/-- `GetTimeForIndex`, wavelet.hpp lines 68-69; the `assert` is no instruction. -/
noncomputable def time (w : Wavelet) (i : ℕ) : ℝ := (((i : ℤ) - (w.center : ℤ) : ℤ) : ℝ) * w.dt

/-- `Scale`, wavelet.cpp lines 174-179. -/
noncomputable def scale (w : Wavelet) (f : ℝ) : Wavelet := { w with data := w.data.map (· * f) }

/-- The body of the loop of the constructor of a Ricker wavelet, wavelet.cpp lines 55-57. -/
noncomputable def rickerStep (peak : ℝ) (nw : ℕ) (dt : ℝ) (i : ℕ) (a : List ℝ) : Res (List ℝ) :=
  let t := (Wavelet.mk a dt).time i
  let c := Real.pi * Real.pi * peak * peak * t * t * 1e-6
  wr a i ((1 - 2 * c) * Real.exp (-c))

/-- The constructor of a Ricker wavelet, wavelet.cpp lines 47-62. -/
noncomputable def ricker (peak : ℝ) (nw : ℕ) (dt factor : ℝ) : Res Wavelet := do
  let a ← forRange 0 nw (rickerStep peak nw dt) (List.replicate nw 0)
  let w : Wavelet := ⟨a, dt⟩
  (if factor ≠ 1.0 then .ok (w.scale factor) else .ok w : Res Wavelet)

/-- `std::fmod` for a divisor that is not zero. -/
noncomputable def fmod (x y : ℝ) : ℝ := x - truncZ (x / y) * y

/-- The body of the loop of `Resample`, wavelet.cpp lines 101-104. -/
noncomputable def resampleStep (old : List ℝ) (newCenter sub oldCenter : ℤ) (i : ℕ) (a : List ℝ) :
    Res (List ℝ) := do
  let oldI := ((i : ℤ) - newCenter) * sub + oldCenter
  let v ← (if oldI < 0 then .ub "read out of range" else rd old oldI.toNat : Res ℝ)
  wr a i v

/-- `Resample`, wavelet.cpp lines 83-108. The remainder by zero is not a number, which is not zero. -/
noncomputable def resample (w : Wavelet) (newDt : ℝ) : Res Wavelet :=
  if IsEqual newDt w.dt then .ok w
  else if newDt < w.dt ∨ w.dt = 0 ∨ ¬ IsZero (fmod newDt w.dt) then
    .throws "Resampling only supported if new dt is a multiple of original dt."
  else do
    let sub ← toInt32 ⌊newDt / w.dt + 0.5⌋
    let oldCenter : ℤ := w.center
    let oldNw : ℤ := w.data.length
    let nw : ℤ ← (if oldNw > 0 then
        if sub = 0 then .ub "division by zero"
        else .ok (1 + oldCenter.tdiv sub + (oldNw - oldCenter - 1).tdiv sub)
      else .ok 0 : Res ℤ)
    let newCenter := nw.tdiv 2
    let a ← forRange 0 nw.toNat (resampleStep w.data newCenter sub oldCenter) (List.replicate nw.toNat 0)
    .ok ⟨a, newDt⟩

/-- The body of the loop of `Resize`, wavelet.cpp lines 131-133. -/
noncomputable def resizeStep (old : List ℝ) (start shift : ℕ) (i : ℕ) (a : List ℝ) : Res (List ℝ) := do
  let v ← rd old (i - start)
  wr a (i + shift) v

/-- `Resize`, wavelet.cpp lines 111-136. -/
noncomputable def resize (w : Wavelet) (nw : ℕ) : Res Wavelet :=
  if nw = w.data.length then .ok w
  else
    let oldCenter := w.data.length / 2
    let newCenter := nw / 2
    let start := if oldCenter > newCenter then oldCenter - newCenter else 0
    let stop := if oldCenter > newCenter then nw + start else w.data.length
    let shift := if oldCenter > newCenter then 0 else newCenter - oldCenter
    do
      let a ← forRange start stop (resizeStep w.data start shift) (List.replicate nw 0)
      .ok ⟨a, w.dt⟩

end Wavelet
end Verif
