import Verif.Spec.Geometry
import Verif.Model.Transformation

/-!
# What the calls that change a transformation do to a point
-/

namespace Verif.Geo

/-- Where a point goes. Angles turn from the first axis to the second one, with axes in the order x, y, z, x: around x from y to z,
around y from z to x, around z from x to y. A shear moves a point along two axes in proportion to its third coordinate; a mirror is
named by its plane. -/
noncomputable def Change.move : Change → Pt → Pt
  | translateX d, p => ⟨p.x + d, p.y, p.z⟩
  | translateY d, p => ⟨p.x, p.y + d, p.z⟩
  | translateZ d, p => ⟨p.x, p.y, p.z + d⟩
  | stretchX f, p => ⟨f * p.x, p.y, p.z⟩
  | stretchY f, p => ⟨p.x, f * p.y, p.z⟩
  | stretchZ f, p => ⟨p.x, p.y, f * p.z⟩
  | rotateX a, p => ⟨p.x, p.y * Real.cos a - p.z * Real.sin a, p.y * Real.sin a + p.z * Real.cos a⟩
  | rotateY a, p => ⟨p.z * Real.sin a + p.x * Real.cos a, p.y, p.z * Real.cos a - p.x * Real.sin a⟩
  | rotateZ a, p => ⟨p.x * Real.cos a - p.y * Real.sin a, p.x * Real.sin a + p.y * Real.cos a, p.z⟩
  | shearXY sx sy, p => ⟨p.x + sx * p.z, p.y + sy * p.z, p.z⟩
  | shearXZ sx sz, p => ⟨p.x + sx * p.y, p.y, p.z + sz * p.y⟩
  | shearYZ sy sz, p => ⟨p.x, p.y + sy * p.x, p.z + sz * p.x⟩
  | mirrorXY, p => ⟨p.x, p.y, -p.z⟩
  | mirrorXZ, p => ⟨p.x, -p.y, p.z⟩
  | mirrorYZ, p => ⟨-p.x, p.y, p.z⟩

/-- The calls that move bodies as a whole. -/
def Change.Rigid : Change → Prop
  | stretchX f | stretchY f | stretchZ f => f = 1 ∨ f = -1
  | shearXY s t | shearXZ s t | shearYZ s t => s = 0 ∧ t = 0
  | _ => True

/-- The call that takes a call back; for a stretch by a number that is not zero. -/
noncomputable def Change.back : Change → Change
  | translateX d => translateX (-d)
  | translateY d => translateY (-d)
  | translateZ d => translateZ (-d)
  | stretchX f => stretchX (1 / f)
  | stretchY f => stretchY (1 / f)
  | stretchZ f => stretchZ (1 / f)
  | rotateX a => rotateX (-a)
  | rotateY a => rotateY (-a)
  | rotateZ a => rotateZ (-a)
  | shearXY sx sy => shearXY (-sx) (-sy)
  | shearXZ sx sz => shearXZ (-sx) (-sz)
  | shearYZ sy sz => shearYZ (-sy) (-sz)
  | c => c

/-- The call does not press everything into a plane. -/
def Change.Regular : Change → Prop
  | stretchX f | stretchY f | stretchZ f => f ≠ 0
  | _ => True

end Verif.Geo
