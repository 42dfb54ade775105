import Verif.Model.Api
import Verif.Spec.Random

/-!
# Specification of sessions with the Python module
-/

namespace Verif

/-- The call simulates a field. -/
def PyCall.simulates : PyCall → Prop
  | .simulate .. => True
  | .advancedSimulate .. => True
  | _ => False

/-- The call sets the seed. -/
def PyCall.seeds : PyCall → Prop
  | .seed _ => True
  | _ => False

/-- The call simulates a one- or two-dimensional field. -/
def PyCall.simulatesFlat : PyCall → Prop
  | .simulate _ _ _ ny dy nz dz => ny ≤ 1 ∨ dy < 0 ∨ nz ≤ 1 ∨ dz < 0
  | .advancedSimulate _ _ _ ny dy nz dz .. => ny ≤ 1 ∨ dy < 0 ∨ nz ≤ 1 ∨ dz < 0
  | _ => False

/-- Neither undefined behaviour nor an exception. (A computation can also end with a NaN, or go on for
ever.) -/
def Res.Clean {α : Type} : Res α → Prop
  | .throws _ => False
  | .ub _ => False
  | _ => True

namespace Spec

/-- Two lists of calls that may differ in what the calls get from outside: the time and the contents
of uninitialised memory. -/
def SameCalls (l l' : List (Env × PyCall)) : Prop := l.map Prod.snd = l'.map Prod.snd

/-- A state of the global generator that can occur in a process that uses the Python module only. -/
def Reachable (S : Setup) (s : Random) : Prop :=
  ∃ history replies, session (pyCall S) history .initial = .ok (replies, s)

end Spec

end Verif
