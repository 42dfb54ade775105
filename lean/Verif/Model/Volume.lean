import Verif.Model.Surface
import Verif.Lemmas.Outcome

/-!
# Volumes

Models src/nrlib/volume/volume.{hpp,cpp} without files. Doubles are real numbers. A surface is what the interface `Surface<double>`
gives; the volume owns its surfaces, so cloning is the identity, but arguments may refer to the surfaces of the volume itself.
-/

namespace Verif

open Classical

/-- The members of the interface `Surface<double>` that volumes use, surface.hpp lines 29-55. -/
structure VSurf where
  getZ : ℝ → ℝ → Res ℝ
  isMissing : ℝ → Prop
  encloses : ℝ → ℝ → ℝ → ℝ → Bool
  isInside : ℝ → ℝ → Bool
  min : Res ℝ
  max : Res ℝ

/-- `ConstantSurface`, surface.hpp lines 59-130. -/
def VSurf.constant (z : ℝ) : VSurf := ⟨fun _ _ => .ok z, fun _ => False, fun _ _ _ _ => true, fun _ _ => true, .ok z, .ok z⟩

/-- `RegularSurface`. -/
noncomputable def VSurf.regular (s : RegSurf) : VSurf :=
  ⟨s.getZ, s.IsMissing, s.enclosesRectangle, s.isInsideSurface, s.min, s.max⟩

/-- The members of `Volume`, volume.hpp lines 130-140. -/
structure Volume where
  x_min : ℝ
  y_min : ℝ
  lx : ℝ
  ly : ℝ
  lz : ℝ
  top : VSurf
  bot : VSurf
  eroTop : Option VSurf
  eroBot : Option VSurf
  angle : ℝ
  tol : ℝ

namespace Volume

/-- `LocalToGlobalCoord`, volume.cpp lines 482-489. -/
noncomputable def localToGlobal (V : Volume) (x y : ℝ) : ℝ × ℝ :=
  (Real.cos V.angle * x - Real.sin V.angle * y + V.x_min, Real.sin V.angle * x + Real.cos V.angle * y + V.y_min)

/-- `GlobalToLocalCoord`, volume.cpp lines 469-479. -/
noncomputable def globalToLocal (V : Volume) (x y : ℝ) : ℝ × ℝ :=
  let x_rel := x - V.x_min
  let y_rel := y - V.y_min
  (Real.cos V.angle * x_rel + Real.sin V.angle * y_rel, -Real.sin V.angle * x_rel + Real.cos V.angle * y_rel)

/-- `GetXYFromRelative`, volume.hpp lines 69-72. -/
noncomputable def fromRelative (V : Volume) (rx ry : ℝ) : ℝ × ℝ := V.localToGlobal (rx * V.lx) (ry * V.ly)

/-- One point of `RecalculateLZ`, volume.cpp lines 508-515. -/
noncomputable def lzPoint (V : Volume) (dx dy : ℝ) (i j : ℕ) (lz : ℝ) : Res ℝ := do
  let p := V.localToGlobal (dx * i) (dy * j)
  let zb ← V.bot.getZ p.1 p.2
  let zt ← V.top.getZ p.1 p.2
  (if ¬ V.bot.isMissing zb ∧ ¬ V.top.isMissing zt then .ok (max lz (zb - zt)) else .ok lz : Res ℝ)

/-- `RecalculateLZ`, volume.cpp lines 492-520. -/
noncomputable def recalculateLZ (V : Volume) : Res ℝ :=
  if V.lx > 0.0 ∨ V.ly > 0.0 then
    let dx := V.lx / 100
    let dy := V.ly / 100
    forRange 0 100 (fun i lz => forRange 0 100 (fun j lz => V.lzPoint dx dy i j lz) lz) 0.0
  else .ok 0.0

/-- `CheckSurface`, volume.cpp lines 523-539. -/
noncomputable def checkSurface (V : Volume) (s : VSurf) : Bool :=
  let p0 := V.localToGlobal 0 0
  let p1 := V.localToGlobal V.lx 0
  let p2 := V.localToGlobal 0 V.ly
  let p3 := V.localToGlobal V.lx V.ly
  s.encloses (min (min (min p0.1 p1.1) p2.1) p3.1) (max (max (max p0.1 p1.1) p2.1) p3.1)
    (min (min (min p0.2 p1.2) p2.2) p3.2) (max (max (max p0.2 p1.2) p2.2) p3.2)

/-- `CheckSurfaces`, volume.cpp lines 542-557. -/
noncomputable def checkSurfaces (V : Volume) : Res Unit :=
  if ¬ V.checkSurface V.top then .throws "The top surface does not cover the volume."
  else if ¬ V.checkSurface V.bot then .throws "The bottom surface does not cover the volume."
  else if ¬ (∀ s, V.eroTop = some s → V.checkSurface s) then .throws "The erosion top surface does not cover the volume."
  else if ¬ (∀ s, V.eroBot = some s → V.checkSurface s) then .throws "The erosion bottom surface does not cover the volume."
  else .ok ()

/-- `Volume(x_min, y_min, z_min, lx, ly, lz, angle)`, volume.cpp lines 51-64. -/
noncomputable def ofBox (x_min y_min z_min lx ly lz angle : ℝ) : Volume :=
  ⟨x_min, y_min, lx, ly, lz, .constant z_min, .constant (z_min + lz), none, none, angle, 1e-6⟩

/-- `Volume(x_min, y_min, lx, ly, top, bot, angle)`, volume.cpp lines 67-86. -/
noncomputable def ofSurfaces (x_min y_min lx ly : ℝ) (top bot : VSurf) (angle : ℝ) : Res Volume := do
  let V : Volume := ⟨x_min, y_min, lx, ly, 0, top, bot, none, none, angle, 1e-6⟩
  let lz ← V.recalculateLZ
  .ok { V with lz := lz }

/-- The copy constructor, volume.cpp lines 89-122. -/
noncomputable def copy (V : Volume) : Volume := { V with tol := 1e-6 }

/-- `operator=`, volume.cpp lines 134-181. -/
def assign (_V rhs : Volume) : Volume := rhs

/-- `lz_ = RecalculateLZ()` after `CheckSurfaces()` if `check` holds: the volume afterwards and how the call ends. -/
noncomputable def finish (V : Volume) (check : Prop) : Volume × Res Unit :=
  match (if check then V.checkSurfaces else .ok ()) with
  | .ok () =>
    match V.recalculateLZ with
    | .ok lz => ({ V with lz := lz }, .ok ())
    | .throws m => (V, .throws m)
    | .ub w => (V, .ub w)
    | .nonfinite w => (V, .nonfinite w)
    | .diverges => (V, .diverges)
  | r => (V, r)

/-- `SetDimensions`, volume.cpp lines 184-194. -/
noncomputable def setDimensions (V : Volume) (x_min y_min lx ly : ℝ) : Volume × Res Unit :=
  finish { V with x_min := x_min, y_min := y_min, lx := lx, ly := ly } True

/-- `SetAngle`, volume.cpp lines 196-202. -/
noncomputable def setAngle (V : Volume) (angle : ℝ) : Volume × Res Unit := finish { V with angle := angle } True

/-- An argument of `SetSurfaces`: a reference to some surface, or what `GetTopSurface` or `GetBotSurface` of the volume gives. -/
inductive SurfArg where
  | other (s : VSurf)
  | ownTop
  | ownBot

/-- `Clone` of an argument when the surfaces of the volume may have been deleted. -/
def SurfArg.clone (V : Volume) (topDeleted botDeleted : Bool) : SurfArg → Res VSurf
  | .other s => .ok s
  | .ownTop => if topDeleted = true then .ub "use of a deleted surface" else .ok V.top
  | .ownBot => if botDeleted = true then .ub "use of a deleted surface" else .ok V.bot

/-- Lines 209-213: each surface is deleted before the new one is cloned. -/
def cloneSurfaces (V : Volume) (a b : SurfArg) : Res (VSurf × VSurf) := do
  let s ← a.clone V true false
  let t ← b.clone V true true
  .ok (s, t)

/-- `SetSurfaces(top, bot, skip_check)`, volume.cpp lines 205-220. -/
noncomputable def setSurfaces (V : Volume) (a b : SurfArg) (skip : Bool) : Volume × Res Unit :=
  match V.cloneSurfaces a b with
  | .ok (s, t) => finish { V with top := s, bot := t } ((V.lx > 0.0 ∨ V.ly > 0.0) ∧ skip = false)
  | .throws m => (V, .throws m)
  | .ub w => (V, .ub w)
  | .nonfinite w => (V, .nonfinite w)
  | .diverges => (V, .diverges)

/-- `SetSurfaces(top, bot, erosion_top, erosion_bot)`, volume.cpp lines 223-245, for surfaces that are not those of the volume. -/
noncomputable def setSurfaces4 (V : Volume) (top bot eroTop eroBot : VSurf) : Volume × Res Unit :=
  finish { V with top := top, bot := bot, eroTop := some eroTop, eroBot := some eroBot } (V.lx > 0.0 ∨ V.ly > 0.0)

/-- One point of `GetZExtreme`, volume.cpp lines 308-315; the state is (x, y, result). -/
noncomputable def extremePoint (surf : VSurf) (getmin : Bool) (dxi dyi : ℝ) (_i : ℕ) (st : ℝ × ℝ × ℝ) : Res (ℝ × ℝ × ℝ) := do
  let z ← surf.getZ st.1 st.2.1
  let r := if ¬ surf.isMissing z ∧ (surf.isMissing st.2.2 ∨ (getmin = true ∧ z < st.2.2) ∨ (getmin = false ∧ z > st.2.2)) then z else st.2.2
  .ok (st.1 + dxi, st.2.1 + dyi, r)

/-- One row of `GetZExtreme`, volume.cpp lines 305-316. -/
noncomputable def extremeRow (surf : VSurf) (getmin : Bool) (nx : ℕ) (dxi dyi dxj dyj x0 y0 : ℝ) (j : ℕ) (result : ℝ) : Res ℝ := do
  let st ← forRange 0 nx (extremePoint surf getmin dxi dyi) (x0 + dxj * j, y0 + dyj * j, result)
  .ok st.2.2

/-- `GetZExtreme`, volume.cpp lines 286-326, for a surface. -/
noncomputable def getZExtreme (V : Volume) (nx ny : ℕ) (surf : VSurf) (getmin : Bool) : Res ℝ :=
  if V.lx > 0.0 ∨ V.ly > 0.0 then do
    let di ← divD V.lx nx
    let dj ← divD V.ly ny
    let dxi := Real.cos V.angle * di
    let dyi := Real.sin V.angle * di
    let dxj := -Real.sin V.angle * dj
    let dyj := Real.cos V.angle * dj
    let x0 := V.x_min + 0.5 * (dxi + dxj)
    let y0 := V.y_min + 0.5 * (dyi + dyj)
    let result ← surf.getZ x0 y0
    forRange 0 ny (extremeRow surf getmin nx dxi dyi dxj dyj x0 y0) result
  else if getmin = true then surf.min else surf.max

/-- `GetZMin` and `GetTopZMin`, volume.cpp lines 248-252 and 260-264. -/
noncomputable def getZMin (V : Volume) (nx ny : ℕ) : Res ℝ := V.getZExtreme nx ny V.top true

/-- `GetTopZMax`, volume.cpp lines 267-271. -/
noncomputable def getTopZMax (V : Volume) (nx ny : ℕ) : Res ℝ := V.getZExtreme nx ny V.top false

/-- `GetBotZMin`, volume.cpp lines 273-277. -/
noncomputable def getBotZMin (V : Volume) (nx ny : ℕ) : Res ℝ := V.getZExtreme nx ny V.bot true

/-- `GetZMax` and `GetBotZMax`, volume.cpp lines 254-258 and 279-283. -/
noncomputable def getZMax (V : Volume) (nx ny : ℕ) : Res ℝ := V.getZExtreme nx ny V.bot false

/-- `FindCenter`, volume.cpp lines 328-334. -/
noncomputable def findCenter (V : Volume) : Res (ℝ × ℝ × ℝ) := do
  let x := V.x_min + 0.5 * V.lx
  let y := V.y_min + 0.5 * V.ly
  let zt ← V.top.getZ x y
  let zb ← V.bot.getZ x y
  .ok (x, y, 0.5 * (zt + zb))

/-- `IsInsideTolerance`, volume.cpp lines 560-569. -/
noncomputable def isInsideTolerance (V : Volume) (x y : ℝ) : Bool :=
  let rx := (x - V.x_min) * Real.cos V.angle + (y - V.y_min) * Real.sin V.angle
  let ry := -(x - V.x_min) * Real.sin V.angle + (y - V.y_min) * Real.cos V.angle
  if rx + V.tol < 0.0 ∨ rx - V.tol > V.lx ∨ ry + V.tol < 0.0 ∨ ry - V.tol > V.ly then false else true

/-- `IsInside(x, y)`, volume.cpp lines 572-581. -/
noncomputable def isInsideXY (V : Volume) (x y : ℝ) : Bool :=
  let rx := (x - V.x_min) * Real.cos V.angle + (y - V.y_min) * Real.sin V.angle
  let ry := -(x - V.x_min) * Real.sin V.angle + (y - V.y_min) * Real.cos V.angle
  if rx < 0.0 ∨ rx > V.lx ∨ ry < 0.0 ∨ ry > V.ly then false else true

/-- `IsInsideZTolerance`, volume.cpp lines 594-601. -/
noncomputable def isInsideZTolerance (V : Volume) (x y z tolerance : ℝ) : Res Bool :=
  if V.isInsideXY x y then do
    let zt ← V.top.getZ x y
    (if z > zt - tolerance then do
      let zb ← V.bot.getZ x y
      .ok (decide (z < zb + tolerance))
    else .ok false : Res Bool)
  else .ok false

/-- `IsInside(x, y, z)`, volume.cpp lines 585-592. -/
noncomputable def isInside (V : Volume) (x y z : ℝ) : Res Bool :=
  if V.isInsideXY x y then do
    let zt ← V.top.getZ x y
    (if z > zt then do
      let zb ← V.bot.getZ x y
      .ok (decide (z < zb))
    else .ok false : Res Bool)
  else .ok false

end Volume

end Verif
