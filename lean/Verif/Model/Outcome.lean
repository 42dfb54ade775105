/-!
# Outcomes of C++ computations

Every modelled C++ function that can do anything but return a value is a
function into `Res`.  The five outcomes are kept apart so that "returns a
value" in a theorem excludes exceptions, undefined behaviour, non-finite
floating point results and non-termination.
-/

namespace Verif

/-- Outcome of a C++ computation. -/
inductive Res (α : Type) : Type where
  /-- normal return -/
  | ok (a : α)
  /-- a C++ exception -/
  | throws (msg : String)
  /-- undefined behaviour (bad index, bad conversion, signed overflow) -/
  | ub (why : String)
  /-- a double operation yields inf or NaN, which exact arithmetic cannot follow -/
  | nonfinite (why : String)
  /-- fuel of a loop without a static bound is used up -/
  | diverges

namespace Res

/-- Sequencing: the first outcome that is not a return value ends the computation. -/
def bind {α β : Type} (x : Res α) (f : α → Res β) : Res β :=
  match x with
  | ok a => f a
  | throws m => throws m
  | ub w => ub w
  | nonfinite w => nonfinite w
  | diverges => diverges

instance : Monad Res where
  pure := ok
  bind := bind

/-- `r` returns a value and the value satisfies `P`. -/
def Sat {α : Type} (r : Res α) (P : α → Prop) : Prop := ∃ a, r = ok a ∧ P a

end Res

/-- `n` iterations starting with loop variable `lo`. -/
def forN {σ : Type} : Nat → Nat → (Nat → σ → Res σ) → σ → Res σ
  | 0, _, _, s => .ok s
  | n + 1, lo, body, s => (body lo s).bind (forN n (lo + 1) body)

/-- The C++ loop `for (i = lo; i < hi; i++) s = body(i, s)`. -/
def forRange {σ : Type} (lo hi : Nat) (body : Nat → σ → Res σ) (s : σ) : Res σ :=
  forN (hi - lo) lo body s

/-- Checked array read: an index outside the array is undefined behaviour. -/
def rd {α : Type} (a : List α) (i : Nat) : Res α :=
  match a[i]? with
  | some x => .ok x
  | none => .ub "read out of range"

/-- Checked array write: an index outside the array is undefined behaviour. -/
def wr {α : Type} (a : List α) (i : Nat) (x : α) : Res (List α) :=
  if i < a.length then .ok (a.set i x) else .ub "write out of range"

end Verif
