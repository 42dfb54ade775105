import Verif.Model.TextIO
import Verif.Model.Surface

/-!
# Surface files

Models the Irap classic format of src/nrlib/surface/surfaceio.hpp and surfaceio.cpp, for `A = double`. A
file is the list of its characters; opening it succeeds. The constants `NRLib::Pi` and `NRLib::Degree` are π
and π/180. The name of a surface is left out.
-/

namespace Verif

/-- `IRAP_MISSING`, surfaceio.hpp line 34. -/
noncomputable def irapMissing : ℝ := 9999900.0

/-- The formats that are told apart here, surface.hpp or surfaceio.hpp `SurfaceFileFormat`. -/
inductive SurfFormat where
  | unknown
  | irapClassicAscii
  | stormBinary
  | sgri
deriving DecidableEq

/-- `FindSurfaceFileType`, surfaceio.cpp lines 51-80. `FindHufsaTrends` does not change the result and is left
out. -/
def findSurfaceFileType (file : List Char) : SurfFormat :=
  let s := IStream.openOn file
  match s.word with
  | (none, _) => .unknown
  | (some first_token, s) =>
    if first_token = "-996".toList then .irapClassicAscii
    else if first_token = "STORMGRID_BINARY".toList then .stormBinary
    else if first_token = "NORSAR".toList then
      -- a failing extraction leaves the token as it was
      let step := fun (st : List Char × IStream) =>
        let r := st.2.word
        (r.1.getD st.1, r.2)
      let r := step (step (step (step ([], s))))
      if r.1 = "v1.0".toList ∨ r.1 = "v2.0".toList then .sgri else .unknown
    else .unknown

/-- The loop over the nodes of `WriteIrapClassicAsciiSurf`, surfaceio.hpp lines 399-415, from node `i` on. -/
noncomputable def irapNodes (surf : RegSurf) : ℕ → List ℝ → List Char
  | _, [] => []
  | i, v :: vs =>
    (if surf.missing = irapMissing then showFixed 6 v
     else if surf.IsMissing v then showFixed 6 irapMissing else showFixed 6 v)
      ++ [' '] ++ (if (i + 1) % 6 = 0 then ['\n'] else []) ++ irapNodes surf (i + 1) vs

/-- `WriteIrapClassicAsciiSurf`, surfaceio.hpp lines 370-418: the file written. -/
noncomputable def writeIrap (surf : RegSurf) (angle : ℝ) : List Char :=
  showInt (-996) ++ [' '] ++ showInt surf.grid.nj ++ [' '] ++ showFixed 6 surf.dx ++ [' ']
    ++ showFixed 6 surf.dy ++ ['\n']
    ++ showFixed 2 surf.x_min ++ [' '] ++ showFixed 2 surf.xMax ++ [' ']
    ++ showFixed 2 surf.y_min ++ [' '] ++ showFixed 2 surf.yMax ++ ['\n']
    ++ showInt surf.grid.ni ++ [' '] ++ showFixed 6 (angle * 180 / Real.pi) ++ [' ']
    ++ showFixed 2 surf.x_min ++ [' '] ++ showFixed 2 surf.y_min ++ ['\n']
    ++ "   0   0   0   0   0   0   0\n".toList
    ++ irapNodes surf 0 surf.grid.data

/-- What `ReadIrapClassicAsciiSurf` takes from the header. -/
structure IrapHeader where
  ni : ℤ
  nj : ℤ
  dx : ℝ
  dy : ℝ
  x_min : ℝ
  y_min : ℝ
  angle : ℝ

/-- The header in `ReadIrapClassicAsciiSurf`, surfaceio.hpp lines 177-204. -/
noncomputable def readIrapHeader (s : IStream) : Res (IrapHeader × IStream) := do
  let (_, s) ← readNext scanInt s
  let (nj, s) ← readNext scanInt s
  let (dx, s) ← readNext scanDouble s
  let (dy, s) ← readNext scanDouble s
  let (x_min, s) ← readNext scanDouble s
  let (_, s) ← readNext scanDouble s
  let (y_min, s) ← readNext scanDouble s
  let (_, s) ← readNext scanDouble s
  let (ni, s) ← readNext scanInt s
  let (angle, s) ← readNext scanDouble s
  let (_, s) ← readNext scanDouble s
  let (_, s) ← readNext scanDouble s
  let (_, s) ← readNext scanInt s
  let (_, s) ← readNext scanInt s
  let (_, s) ← readNext scanInt s
  let (_, s) ← readNext scanInt s
  let (_, s) ← readNext scanInt s
  let (_, s) ← readNext scanInt s
  let (_, s) ← readNext scanInt s
  .ok (⟨ni, nj, dx, dy, x_min, y_min, Real.pi / 180 * angle⟩, s)

/-- `n - 1` for an `int`; overflow is undefined. -/
def predInt32 (n : ℤ) : Res ℤ := if n - 1 < -2 ^ 31 then .ub "signed overflow" else .ok (n - 1)

/-- An `int` as a `size_t`. -/
def sizeOfInt (n : ℤ) : ℕ := (n % 2 ^ 64).toNat

/-- `Grid2D::Resize`, grid2d.hpp lines 107-115, in `size_t` arithmetic. The storage throws if its size
is above `max_size`; memory does not run out. -/
noncomputable def resizeGrid (ni nj : ℕ) : Res (Grid2D ℝ) :=
  let n := ni * nj % 2 ^ 64
  if 2 ^ 60 ≤ n then .throws "std::length_error" else .ok ⟨ni, nj, List.replicate n 0⟩

/-- `ReadIrapClassicAsciiSurf`, surfaceio.hpp lines 166-229: the surface and the angle. -/
noncomputable def readIrap (file : List Char) (surface : RegSurf) : Res (RegSurf × ℝ) := do
  let (h, s) ← readIrapHeader (IStream.openOn file)
  let ni1 ← predInt32 h.ni
  let lx : ℝ := ni1 * h.dx
  let nj1 ← predInt32 h.nj
  let ly : ℝ := nj1 * h.dy
  let grid ← resizeGrid (sizeOfInt h.ni) (sizeOfInt h.nj)
  let surface := { surface with grid := grid }.setDimensions h.x_min h.y_min lx ly
  let (data, s) ← readAsciiArrayFast scanDouble s grid.data.length
  let surface := { surface with grid := { grid with data := data } }
  let surface := surface.setMissingValue irapMissing
  let (eof, _) ← checkEndOfFile s
  if eof = true then .ok (surface, h.angle) else .throws "File too long."

/-- `RegularSurface::WriteToFile` for this format, regularsurface.hpp lines 832-847. -/
noncomputable def RegSurf.writeToFile (s : RegSurf) : List Char := writeIrap s 0.0

/-- `RegularSurface::ReadFromFile`, regularsurface.hpp lines 797-829, for files of this format; `format` is
`SURF_UNKNOWN` or the format. -/
noncomputable def RegSurf.readFromFile (s : RegSurf) (file : List Char) (format : SurfFormat) :
    Res RegSurf := do
  let format := if format = .unknown then findSurfaceFileType file else format
  if format = .irapClassicAscii then
    let r ← readIrap file s
    if r.2 ≠ 0.0 then .throws "Rotated grids are not supported." else .ok r.1
  else .throws "not followed"

end Verif
