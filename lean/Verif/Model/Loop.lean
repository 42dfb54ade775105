import Verif.Model.Outcome
import Mathlib.Data.Nat.Find

/-!
# Loops without a bound

`do { ... } while (...)` loops. A loop that never ends is the outcome `diverges`.
-/

namespace Verif

/-- At most `n` rounds of a loop. A round returns `some a` if the loop ends with value `a`, and the
new state. -/
def untilFuel {σ α : Type} (step : σ → Res (Option α × σ)) : ℕ → σ → Res (α × σ)
  | 0, _ => .diverges
  | n + 1, s => (step s).bind fun r =>
    match r.1 with
    | some a => .ok (a, r.2)
    | none => untilFuel step n r.2

open Classical in
/-- The loop: the outcome after as many rounds as are needed, `diverges` if there is none. -/
noncomputable def untilLoop {σ α : Type} (step : σ → Res (Option α × σ)) (s : σ) : Res (α × σ) :=
  if h : ∃ n, untilFuel step n s ≠ .diverges then untilFuel step (Nat.find h) s else .diverges

end Verif
