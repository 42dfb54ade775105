import Verif.Spec.Dsfmt
import Mathlib.Data.ZMod.Basic

/-!
# Specification of seeding with an array of keys

The published procedure (dSFMT, after the Mersenne twister's `init_by_array`) on a ring of 768 words
of 32 bits.
-/

namespace Verif.Spec.Mt

/-- The ring of words. -/
abbrev Ring := ZMod 768 → BitVec 32

/-- A round of the first kind at place `i` with the number `k`: the words at `i`, 378 places ahead and
one place behind are mixed to `r`, which is added to the word 378 places ahead; `r + k` is added to the
word 389 places ahead and put in place `i`. -/
def mixKey (i : ZMod 768) (k : BitVec 32) (s : Ring) : Ring := fun j =>
  let x := s i ^^^ s (i + 378) ^^^ s (i - 1)
  let r := (x ^^^ (x >>> 27)) * 1664525#32
  if j = i then r + k
  else if j = i + 378 then s j + r
  else if j = i + 389 then s j + (r + k)
  else s j

/-- A round of the second kind at place `i`. -/
def mixOut (i : ZMod 768) (s : Ring) : Ring := fun j =>
  let x := s i + s (i + 378) + s (i - 1)
  let r := (x ^^^ (x >>> 27)) * 1566083941#32
  let r' := r - BitVec.ofNat 32 i.val
  if j = i then r'
  else if j = i + 378 then s j ^^^ r
  else if j = i + 389 then s j ^^^ r'
  else s j

/-- What round `t` of the first kind adds: first the number of keys, then every key with its place, then
(if the keys are used up) the place. -/
def keyAt (key : List (BitVec 32)) (t : ℕ) : BitVec 32 :=
  if t = 0 then BitVec.ofNat 32 key.length
  else key.getD (t - 1) 0#32 + BitVec.ofNat 32 (t % 768)

/-- The words after `t` rounds of the first kind; round `t` is at place `t`. -/
def keyRounds (key : List (BitVec 32)) : ℕ → Ring
  | 0 => fun _ => 0x8b8b8b8b#32
  | t + 1 => mixKey (t : ZMod 768) (keyAt key t) (keyRounds key t)

/-- `t` rounds of the second kind, the first one at place `i`. -/
def outRounds (i : ZMod 768) (s : Ring) : ℕ → Ring
  | 0 => s
  | t + 1 => mixOut (i + (t : ZMod 768)) (outRounds i s t)

/-- All rounds: of the first kind one for every key and one more, but at least 768; of the second kind
768, which begin where the first ended. -/
def arrayRing (key : List (BitVec 32)) : Ring :=
  let n := max (key.length + 1) 768
  outRounds (n : ZMod 768) (keyRounds key n) 768

/-- Two words of the ring as one of 64 bits. -/
def arrayWord (key : List (BitVec 32)) (i : ℕ) : BitVec 64 :=
  arrayRing key ((2 * i + 1 : ℕ) : ZMod 768) ++ arrayRing key ((2 * i : ℕ) : ZMod 768)

/-- The state an array of keys gives. -/
noncomputable def arrayState (key : List (BitVec 32)) : List W128 :=
  open Classical in
  (List.range 191).map (fun i => ⟨put12 (arrayWord key (2 * i)), put12 (arrayWord key (2 * i + 1))⟩)
    ++ [if Certified ⟨arrayWord key 382, arrayWord key 383⟩ then ⟨arrayWord key 382, arrayWord key 383⟩
        else ⟨arrayWord key 382, arrayWord key 383 ^^^ 1#64⟩]

end Verif.Spec.Mt
