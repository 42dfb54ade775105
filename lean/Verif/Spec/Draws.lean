import Verif.Model.Api
import Verif.Spec.Dsfmt
import Verif.Spec.Field

/-!
# Specification: the normal numbers used by a call
-/

namespace Verif.Spec

open Dsfmt (Build)

/-- A generator object that was just given the seed `n`. -/
noncomputable def seededObject (n : BitVec 64) : RandomGenerator := ⟨⟨Mt.seedState (n.setWidth 32), 382⟩, n, true⟩

/-- The normal numbers of a one- or two-dimensional simulation: one number of the global stream is
the seed of a generator of its own. -/
noncomputable def flatNormals (b : Build) (n : ℕ) (s : Random) : Res (List ℝ × Random) :=
  (s.drawUint32 b).bind fun r =>
    (draws (RandomGenerator.norm01 b) n (seededObject r.1)).bind fun w => .ok (w.1, r.2)

/-- The normal numbers of a three-dimensional simulation: those of the global stream. -/
noncomputable def solidNormals (b : Build) (n : ℕ) (s : Random) : Res (List ℝ × Random) :=
  draws (Random.norm01 b) n s

end Verif.Spec
