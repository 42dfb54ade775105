import Verif.Model.Dsfmt

/-!
# Specification of the dSFMT generator

The published recursion (Saito and Matsumoto, dSFMT-19937): a sequence `X` of 128-bit words and a
sequence `L` of "lung" words with

* `L (i+1) = (X i << 19) ^ swap (L i) ^ X (i+117)`
* `X (i+191) = (L (i+1) >> 12) ^ (L (i+1) & mask) ^ X i`

where shifts act on 64-bit halves and `swap` reverses the four 32-bit quarters.
-/

namespace Verif.Spec.Mt

/-- Exchange of the 32-bit halves. -/
def swap32 (x : BitVec 64) : BitVec 64 := x.extractLsb' 0 32 ++ x.extractLsb' 32 32

/-- The next lung word. -/
def lungNext (a b l : W128) : W128 :=
  ⟨(a.u0 <<< 19) ^^^ swap32 l.u1 ^^^ b.u0, (a.u1 <<< 19) ^^^ swap32 l.u0 ^^^ b.u1⟩

/-- The next word of the sequence. -/
def outNext (a l : W128) : W128 :=
  ⟨(l.u0 >>> 12) ^^^ (l.u0 &&& 0x000ffafffffffb3f#64) ^^^ a.u0,
    (l.u1 >>> 12) ^^^ (l.u1 &&& 0x000ffdfffc90fffd#64) ^^^ a.u1⟩

/-- The published recursion. -/
structure DsfmtSeq (X L : ℕ → W128) : Prop where
  lung : ∀ i, L (i + 1) = lungNext (X i) (X (i + 117)) (L i)
  out : ∀ i, X (i + 191) = outNext (X i) (L (i + 1))

/-- The sequence of 128-bit words as a sequence of 64-bit words. -/
def word (X : ℕ → W128) (p : ℕ) : BitVec 64 := if p % 2 = 0 then (X (p / 2)).u0 else (X (p / 2)).u1

/-- The generator is about to return number `p` of the sequence (counting from the beginning of the
array it was seeded with): its array holds a section of the sequence. -/
structure Pos (X L : ℕ → W128) (p : ℕ) (d : Dsfmt) : Prop where
  len : d.status.length = 192
  at_ : ∃ k, (∀ i < 191, d.status[i]? = some (X (k + i))) ∧ d.status[191]? = some (L k) ∧
    d.idx ≤ 382 ∧ p = 2 * k + d.idx

/-- The pattern of an IEEE double in [1, 2): sign and exponent bits 0x3ff. -/
def Is12 (w : BitVec 64) : Prop := w.extractLsb' 52 12 = 0x3ff#12

/-- The value of such a double. -/
noncomputable def val12 (w : BitVec 64) : ℝ := 1 + ((w.toNat % 2 ^ 52 : ℕ) : ℝ) / 2 ^ 52

/-- The number of one bits. -/
def ones (w : BitVec 64) : ℕ := ((List.range 64).filter fun i => w.getLsbD i).length

/-- The period certificate: the number of ones at the certified positions is odd. -/
def Certified (lung : W128) : Prop :=
  Odd (ones ((lung.u0 ^^^ 0x90014964b32f4329#64) &&& 0x3d84e1ac0dc82880#64)
    + ones ((lung.u1 ^^^ 0x3b8d12ac548a7c7a#64) &&& 1#64))

/-- The seeding recursion of the Mersenne twister. -/
def mtInit (seed : BitVec 32) : ℕ → BitVec 32
  | 0 => seed
  | i + 1 => 1812433253#32 * (mtInit seed i ^^^ (mtInit seed i >>> 30)) + BitVec.ofNat 32 (i + 1)

/-- Two consecutive numbers of the seeding recursion as a 64-bit word. -/
def seedWord (seed : BitVec 32) (i : ℕ) : BitVec 64 := mtInit seed (2 * i + 1) ++ mtInit seed (2 * i)

/-- The fraction bits of a word with the sign and exponent of [1, 2). -/
def put12 (w : BitVec 64) : BitVec 64 := (w &&& 0x000FFFFFFFFFFFFF#64) ||| 0x3FF0000000000000#64

/-- The state a seed gives: 191 words in [1, 2), and a lung word in which the last bit of the second
half is flipped if that is needed for the period certificate. -/
noncomputable def seedState (seed : BitVec 32) : List W128 :=
  open Classical in
  (List.range 191).map (fun i => ⟨put12 (seedWord seed (2 * i)), put12 (seedWord seed (2 * i + 1))⟩)
    ++ [if Certified ⟨seedWord seed 382, seedWord seed 383⟩ then ⟨seedWord seed 382, seedWord seed 383⟩
        else ⟨seedWord seed 382, seedWord seed 383 ^^^ 1#64⟩]

/-- A state from which numbers in the documented intervals are drawn: every word of the array has
the pattern of a double in [1, 2). -/
structure Admissible (d : Dsfmt) : Prop where
  len : d.status.length = 192
  idx : d.idx ≤ 382
  is12 : ∀ i < 191, ∀ w, d.status[i]? = some w → Is12 w.u0 ∧ Is12 w.u1

/-- The kinds of numbers that can be drawn one at a time. -/
inductive Kind where
  | uint32 | close1Open2 | closeOpen | openClose | openOpen

/-- Draw one number. -/
noncomputable def Kind.draw (b : Dsfmt.Build) (d : Dsfmt) : Kind → Res (ℝ × Dsfmt)
  | .uint32 => (Dsfmt.genrandUint32 b d).bind fun r => .ok ((r.1.toNat : ℝ), r.2)
  | .close1Open2 => Dsfmt.genrandClose1Open2 b d
  | .closeOpen => Dsfmt.genrandCloseOpen b d
  | .openClose => Dsfmt.genrandOpenClose b d
  | .openOpen => Dsfmt.genrandOpenOpen b d

/-- The number a word of the sequence gives. -/
noncomputable def Kind.value : Kind → BitVec 64 → ℝ
  | .uint32, w => ((w.toNat % 2 ^ 32 : ℕ) : ℝ)
  | .close1Open2, w => val12 w
  | .closeOpen, w => val12 w - 1
  | .openClose, w => 2 - val12 w
  | .openOpen, w => val12 (w ||| 1#64) - 1

/-- The documented interval. -/
def Kind.InRange : Kind → ℝ → Prop
  | .uint32, x => ∃ n : ℕ, n < 2 ^ 32 ∧ x = n
  | .close1Open2, x => 1 ≤ x ∧ x < 2
  | .closeOpen, x => 0 ≤ x ∧ x < 1
  | .openClose, x => 0 < x ∧ x ≤ 1
  | .openOpen, x => 0 < x ∧ x < 1

/-- Draw numbers of the given kinds one after the other. -/
noncomputable def draws (b : Dsfmt.Build) : List Kind → Dsfmt → Res (List ℝ × Dsfmt)
  | [], d => .ok ([], d)
  | k :: ks, d => (k.draw b d).bind fun r => (draws b ks r.2).bind fun q => .ok (r.1 :: q.1, q.2)

/-- The two doubles in an entry of a filled array. -/
noncomputable def cellVals : Dsfmt.Cell → List ℝ
  | .bits w => [val12 w.u0, val12 w.u1]
  | .dbl x y => [x, y]

end Verif.Spec.Mt
