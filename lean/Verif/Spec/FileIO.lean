import Mathlib.Data.Nat.Notation
import Mathlib.Data.Rat.Defs
import Mathlib.Algebra.Order.Field.Rat

/-!
# Specification of binary numbers

What a list of bytes means as a number, and what a bit pattern means as an IEEE or IBM single.
-/

namespace Verif.Spec

/-- The number written by a list of bytes, most significant byte first. -/
def bigEndian (l : List (BitVec 8)) : ℕ := l.foldl (fun n b => 256 * n + b.toNat) 0

/-- The number written by a list of bytes, least significant byte first. -/
def littleEndian (l : List (BitVec 8)) : ℕ := bigEndian l.reverse

/-- Sign of a pattern: the highest bit. -/
def signOf (x : BitVec 32) : ℚ := if x.toNat < 2 ^ 31 then 1 else -1

/-- Exponent field of an IEEE single. -/
def ieeeExp (x : BitVec 32) : ℕ := x.toNat / 2 ^ 23 % 2 ^ 8

/-- Fraction field of an IEEE single. -/
def ieeeFrac (x : BitVec 32) : ℕ := x.toNat % 2 ^ 23

/-- Value of an IEEE single that is neither infinite nor NaN (exponent field below 255). -/
def ieeeVal (x : BitVec 32) : ℚ :=
  if ieeeExp x = 0 then signOf x * (ieeeFrac x / 2 ^ 23) * 2 ^ (-126 : ℤ)
  else signOf x * (1 + ieeeFrac x / 2 ^ 23) * 2 ^ ((ieeeExp x : ℤ) - 127)

/-- A normal IEEE number: not zero, denormal, infinite or NaN. -/
def IeeeNormal (x : BitVec 32) : Prop := 1 ≤ ieeeExp x ∧ ieeeExp x ≤ 254

/-- Exponent field of an IBM single. -/
def ibmExp (x : BitVec 32) : ℕ := x.toNat / 2 ^ 24 % 2 ^ 7

/-- Fraction field of an IBM single. -/
def ibmFrac (x : BitVec 32) : ℕ := x.toNat % 2 ^ 24

/-- Value of an IBM single: base 16, excess 64. -/
def ibmVal (x : BitVec 32) : ℚ := signOf x * (ibmFrac x / 2 ^ 24) * 16 ^ ((ibmExp x : ℤ) - 64)

/-- A normalised IBM number: the first hexadecimal digit of the fraction is not zero. -/
def IbmNormalised (x : BitVec 32) : Prop := 2 ^ 20 ≤ ibmFrac x

/-- How many low bits of an IEEE fraction with the given exponent do not fit in a normalised IBM
fraction. -/
def lostBits (e : ℕ) : ℕ :=
  match e % 4 with
  | 0 => 2
  | 1 => 1
  | 2 => 0
  | _ => 3

end Verif.Spec
