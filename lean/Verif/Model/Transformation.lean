import Verif.Model.Geometry

/-!
# Transformations of space

Models src/nrlib/geometry/transformation.cpp. Doubles are real numbers.
-/

namespace Verif.Geo

/-- `Transformation::Matrix`, transformation.hpp lines 106-119: four by four numbers. -/
abbrev Mat4 := Fin 4 → Fin 4 → ℝ

/-- `Identity`, transformation.cpp lines 213-222. -/
def Mat4.identity : Mat4 := fun i j => if i = j then 1 else 0

/-- The assignment `m[i][j] = v`. -/
def Mat4.put (m : Mat4) (i j : Fin 4) (v : ℝ) : Mat4 := fun k l => if k = i ∧ l = j then v else m k l

/-- `AddTransformation`, transformation.cpp lines 225-248: the sum that the innermost loop builds up is written out. -/
def Mat4.add (deform t : Mat4) : Mat4 := fun i j => deform i 0 * t 0 j + deform i 1 * t 1 j + deform i 2 * t 2 j + deform i 3 * t 3 j

/-- `Transform`, transformation.cpp lines 197-210. -/
def Mat4.transform (t : Mat4) (p : Pt) : Pt :=
  ⟨t 0 0 * p.x + t 0 1 * p.y + t 0 2 * p.z + t 0 3, t 1 0 * p.x + t 1 1 * p.y + t 1 2 * p.z + t 1 3,
   t 2 0 * p.x + t 2 1 * p.y + t 2 2 * p.z + t 2 3⟩

/-- The calls that change a transformation, with their arguments: transformation.hpp lines 38-99. -/
inductive Change where
  | translateX (d : ℝ) | translateY (d : ℝ) | translateZ (d : ℝ)
  | stretchX (f : ℝ) | stretchY (f : ℝ) | stretchZ (f : ℝ)
  | rotateX (a : ℝ) | rotateY (a : ℝ) | rotateZ (a : ℝ)
  | shearXY (sx sy : ℝ) | shearXZ (sx sz : ℝ) | shearYZ (sy sz : ℝ)
  | mirrorXY | mirrorXZ | mirrorYZ

/-- The matrix `deform` of each call, transformation.cpp lines 35-194. -/
noncomputable def Change.deform : Change → Mat4
  | translateX d => Mat4.identity.put 0 3 d
  | translateY d => Mat4.identity.put 1 3 d
  | translateZ d => Mat4.identity.put 2 3 d
  | stretchX f => Mat4.identity.put 0 0 f
  | stretchY f => Mat4.identity.put 1 1 f
  | stretchZ f => Mat4.identity.put 2 2 f
  | rotateX a => (((Mat4.identity.put 1 1 (Real.cos a)).put 1 2 (-Real.sin a)).put 2 1 (Real.sin a)).put 2 2 (Real.cos a)
  | rotateY a => (((Mat4.identity.put 0 0 (Real.cos a)).put 0 2 (Real.sin a)).put 2 0 (-Real.sin a)).put 2 2 (Real.cos a)
  | rotateZ a => (((Mat4.identity.put 0 0 (Real.cos a)).put 0 1 (-Real.sin a)).put 1 0 (Real.sin a)).put 1 1 (Real.cos a)
  | shearXY sx sy => (Mat4.identity.put 0 2 sx).put 1 2 sy
  | shearXZ sx sz => (Mat4.identity.put 0 1 sx).put 2 1 sz
  | shearYZ sy sz => (Mat4.identity.put 1 0 sy).put 2 0 sz
  | mirrorXY => Mat4.identity.put 2 2 (-1)
  | mirrorXZ => Mat4.identity.put 1 1 (-1)
  | mirrorYZ => Mat4.identity.put 0 0 (-1)

/-- A `Transformation` after its constructor (transformation.cpp lines 29-32) and some calls. -/
noncomputable def transformation (cs : List Change) : Mat4 := cs.foldl (fun t c => c.deform.add t) Mat4.identity

end Verif.Geo
