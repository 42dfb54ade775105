import Verif.Model.Bilinear
import Verif.Spec.Geometry

/-!
# What bilinear surfaces are about
-/

namespace Verif.Geo

/-- The point with parameters `u` and `v` of the surface with the given corners. -/
def patch (p00 p10 p11 p01 : Pt) (u v : ℝ) : Pt :=
  ⟨(1 - u) * (1 - v) * p00.x + u * (1 - v) * p10.x + u * v * p11.x + (1 - u) * v * p01.x,
    (1 - u) * (1 - v) * p00.y + u * (1 - v) * p10.y + u * v * p11.y + (1 - u) * v * p01.y,
    (1 - u) * (1 - v) * p00.z + u * (1 - v) * p10.z + u * v * p11.z + (1 - u) * v * p01.z⟩

/-- The partial derivatives of `patch`. -/
def patchU (p00 p10 p11 p01 : Pt) (v : ℝ) : Pt :=
  ⟨(1 - v) * (p10.x - p00.x) + v * (p11.x - p01.x), (1 - v) * (p10.y - p00.y) + v * (p11.y - p01.y),
    (1 - v) * (p10.z - p00.z) + v * (p11.z - p01.z)⟩

@[inherit_doc patchU]
def patchV (p00 p10 p11 p01 : Pt) (u : ℝ) : Pt :=
  ⟨(1 - u) * (p01.x - p00.x) + u * (p11.x - p10.x), (1 - u) * (p01.y - p00.y) + u * (p11.y - p10.y),
    (1 - u) * (p01.z - p00.z) + u * (p11.z - p10.z)⟩

/-- The determinant of three vectors. -/
def det3 (a b c : Pt) : ℝ := a.x * (b.y * c.z - b.z * c.y) + a.y * (b.z * c.x - b.x * c.z) + a.z * (b.x * c.y - b.y * c.x)

/-- The point `r + t q` on the line through `r` and `r'`. -/
def along (r r' : Pt) (t : ℝ) : Pt := ⟨r.x + t * (r'.x - r.x), r.y + t * (r'.y - r.y), r.z + t * (r'.z - r.z)⟩

/-- The twist of the surface is zero or not small relative to the first corner, in each coordinate. -/
def ClearTwist (p00 p10 p11 p01 : Pt) : Prop :=
  (p00.x - p10.x - p01.x + p11.x = 0 ∨ 0.001 * |p00.x| ≤ |p00.x - p10.x - p01.x + p11.x|) ∧
  (p00.y - p10.y - p01.y + p11.y = 0 ∨ 0.001 * |p00.y| ≤ |p00.y - p10.y - p01.y + p11.y|) ∧
  (p00.z - p10.z - p01.z + p11.z = 0 ∨ 0.001 * |p00.z| ≤ |p00.z - p10.z - p01.z + p11.z|)

end Verif.Geo
