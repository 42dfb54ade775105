import Mathlib.Data.Finset.Prod
import Mathlib.Data.Set.Function
import Mathlib.Tactic.Ring
import Mathlib.Algebra.Order.Ring.Nat

/-! Helper lemmas: which draw goes to which cell of the padded grid. -/

namespace Verif

theorem rowIdx_lt {tx ty : ℕ} {q : ℕ × ℕ} (h1 : q.1 < tx) (h2 : q.2 < ty) : q.1 * ty + q.2 < tx * ty :=
  calc q.1 * ty + q.2 < q.1 * ty + ty := by omega
    _ = (q.1 + 1) * ty := by ring
    _ ≤ tx * ty := Nat.mul_le_mul_right _ h1

theorem rowIdx_inj {ty a b a' b' : ℕ} (hb : b < ty) (hb' : b' < ty) (e : a * ty + b = a' * ty + b') :
    a = a' ∧ b = b' := by
  have e1 : b = b' := by
    have := congrArg (· % ty) e
    simpa [Nat.mod_eq_of_lt hb, Nat.mod_eq_of_lt hb', Nat.mul_add_mod'] using this
  subst e1
  exact ⟨Nat.eq_of_mul_eq_mul_right (by omega) (Nat.add_right_cancel e), rfl⟩

theorem blockIdx_lt {M k K r : ℕ} (hk : k < K) (hr : r < M) : k * M + r < K * M := rowIdx_lt (q := (k, r)) hk hr

end Verif
