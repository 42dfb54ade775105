import Verif.Spec.Dsfmt

/-! Helper lemmas: bit-level facts about the dSFMT recursion. -/

namespace Verif.Dsfmt

open Spec.Mt

theorem W128.ext' {a b : W128} (h0 : a.u0 = b.u0) (h1 : a.u1 = b.u1) : a = b := by
  cases a; cases b; simp_all

theorem getLsbD_swap32 (x : BitVec 64) (i : ℕ) :
    (swap32 x).getLsbD i = if i < 32 then x.getLsbD (32 + i) else
      (decide (i - 32 < 32) && x.getLsbD (i - 32)) := by
  show (x.extractLsb' 0 32 ++ x.extractLsb' 32 32 : BitVec (32 + 32)).getLsbD i = _
  rw [BitVec.getLsbD_append]
  simp only [BitVec.getLsbD_extractLsb', zero_add]
  split
  · next h => simp [h]
  · rfl

theorem shiftSwap (x : BitVec 64) : (x >>> 32) ^^^ (x <<< 32) = swap32 x := by
  refine BitVec.eq_of_getLsbD_eq fun i hi => ?_
  rw [getLsbD_swap32, BitVec.getLsbD_xor, BitVec.getLsbD_ushiftRight, BitVec.getLsbD_shiftLeft]
  by_cases h : i < 32
  · simp [h]
  · have : 64 ≤ 32 + i := by omega
    simp [h, BitVec.getLsbD_of_ge _ _ this, show i - 32 < 32 by omega, hi]

theorem recPortable_eq (a b l : W128) :
    recPortable a b l = (outNext a (lungNext a b l), lungNext a b l) := by
  have e0 : (recPortable a b l).2 = lungNext a b l := by
    refine W128.ext' ?_ ?_ <;> simp only [recPortable, lungNext, ← shiftSwap, sl1] <;>
      simp only [BitVec.xor_assoc]
  refine Prod.ext ?_ e0
  have : (recPortable a b l).1 = outNext a (recPortable a b l).2 := rfl
  rw [this, e0]

theorem getLsbD_si (w : W128) (i : ℕ) :
    (si w).getLsbD i = if i < 64 then w.u0.getLsbD i else w.u1.getLsbD (i - 64) := by
  show (w.u1 ++ w.u0 : BitVec (64 + 64)).getLsbD i = _
  rw [BitVec.getLsbD_append]

theorem si_low (w : W128) : (si w).extractLsb' 0 64 = w.u0 := by
  refine BitVec.eq_of_getLsbD_eq fun i hi => ?_
  rw [BitVec.getLsbD_extractLsb', getLsbD_si]
  simp [hi]

theorem si_high (w : W128) : (si w).extractLsb' 64 64 = w.u1 := by
  refine BitVec.eq_of_getLsbD_eq fun i hi => ?_
  rw [BitVec.getLsbD_extractLsb', getLsbD_si]
  simp [hi]

theorem ofSi_si (w : W128) : ofSi (si w) = w := W128.ext' (si_low w) (si_high w)

theorem si_xor (a b : W128) : si a ^^^ si b = si ⟨a.u0 ^^^ b.u0, a.u1 ^^^ b.u1⟩ := by
  refine BitVec.eq_of_getLsbD_eq fun i hi => ?_
  simp only [getLsbD_si, BitVec.getLsbD_xor]
  split <;> rfl

theorem si_and (a b : W128) : si a &&& si b = si ⟨a.u0 &&& b.u0, a.u1 &&& b.u1⟩ := by
  refine BitVec.eq_of_getLsbD_eq fun i hi => ?_
  simp only [getLsbD_si, BitVec.getLsbD_and]
  split <;> rfl

theorem slli_si (a : W128) (k : ℕ) : slliEpi64 (si a) k = si ⟨a.u0 <<< k, a.u1 <<< k⟩ := by
  simp only [slliEpi64, si_low, si_high]; rfl

theorem srli_si (a : W128) (k : ℕ) : srliEpi64 (si a) k = si ⟨a.u0 >>> k, a.u1 >>> k⟩ := by
  simp only [srliEpi64, si_low, si_high]; rfl

theorem shuffle_si (a : W128) : shuffleEpi32 (si a) 0x1b = si ⟨swap32 a.u1, swap32 a.u0⟩ := by
  have l0 : (si a).extractLsb' 0 32 = a.u0.extractLsb' 0 32 := by
    refine BitVec.eq_of_getLsbD_eq fun i hi => ?_
    simp only [BitVec.getLsbD_extractLsb', getLsbD_si]
    simp [show i < 64 by omega]
  have l1 : (si a).extractLsb' 32 32 = a.u0.extractLsb' 32 32 := by
    refine BitVec.eq_of_getLsbD_eq fun i hi => ?_
    simp only [BitVec.getLsbD_extractLsb', getLsbD_si]
    simp [show 32 + i < 64 by omega]
  have l2 : (si a).extractLsb' 64 32 = a.u1.extractLsb' 0 32 := by
    refine BitVec.eq_of_getLsbD_eq fun i hi => ?_
    simp only [BitVec.getLsbD_extractLsb', getLsbD_si]
    simp
  have l3 : (si a).extractLsb' 96 32 = a.u1.extractLsb' 32 32 := by
    refine BitVec.eq_of_getLsbD_eq fun i hi => ?_
    simp only [BitVec.getLsbD_extractLsb', getLsbD_si]
    simp [show ¬ 96 + i < 64 by omega, show 96 + i - 64 = 32 + i by omega]
  unfold shuffleEpi32
  rw [show 32 * (0x1b / 64 % 4) = 0 from rfl, show 32 * (0x1b / 16 % 4) = 32 from rfl,
    show 32 * (0x1b / 4 % 4) = 64 from rfl, show 32 * (0x1b % 4) = 96 from rfl, l0, l1, l2, l3]
  rfl

theorem xor_shuffle (p q r : BitVec 64) : p ^^^ (q ^^^ r) = q ^^^ p ^^^ r := by
  rw [← BitVec.xor_assoc, BitVec.xor_comm p q]

theorem xor_last (p q r : BitVec 64) : p ^^^ q ^^^ r = p ^^^ r ^^^ q := by
  rw [BitVec.xor_assoc, BitVec.xor_comm q r, ← BitVec.xor_assoc]

/-- The two builds compute the same recursion. -/
theorem recSse2_eq (a b l : W128) : recSse2 a b l = recPortable a b l := by
  rw [recPortable_eq]
  have hy : shuffleEpi32 (si l) 0x1b ^^^ (slliEpi64 (si a) sl1 ^^^ si b) = si (lungNext a b l) := by
    rw [slli_si, shuffle_si, si_xor, si_xor]
    refine congrArg si (W128.ext' ?_ ?_)
    · exact xor_shuffle _ _ _
    · exact xor_shuffle _ _ _
  unfold recSse2
  simp only [hy]
  refine Prod.ext ?_ (ofSi_si _)
  simp only [srli_si, sse2ParamMask, si_and, si_xor, ofSi_si]
  refine W128.ext' ?_ ?_
  · exact xor_last _ _ _
  · exact xor_last _ _ _

theorem doRecursion_eq (c : Build) (a b l : W128) :
    doRecursion c a b l = (outNext a (lungNext a b l), lungNext a b l) := by
  cases c
  · exact (recSse2_eq a b l).trans (recPortable_eq a b l)
  · exact recPortable_eq a b l

/-! ### Sign and exponent bits -/

theorem is12_iff (w : BitVec 64) : Is12 w ↔ ∀ i < 12, w.getLsbD (52 + i) = (0x3ff#12).getLsbD i := by
  unfold Is12
  constructor
  · intro h i hi
    rw [← h]; simp [hi]
  · intro h
    ext i hi
    have := h i hi
    simp only [BitVec.getElem_extractLsb', this, BitVec.getLsbD_eq_getElem hi]

theorem is12_out {a l : W128} (h0 : Is12 a.u0) (h1 : Is12 a.u1) :
    Is12 (outNext a l).u0 ∧ Is12 (outNext a l).u1 := by
  rw [is12_iff] at h0 h1 ⊢
  rw [is12_iff]
  have m1 : ∀ i < 12, (0x000ffafffffffb3f#64).getLsbD (52 + i) = false := by decide
  have m2 : ∀ i < 12, (0x000ffdfffc90fffd#64).getLsbD (52 + i) = false := by decide
  have hs : ∀ (x : BitVec 64) (i : ℕ), (x >>> 12).getLsbD (52 + i) = false := by
    intro x i
    rw [BitVec.getLsbD_ushiftRight]
    exact BitVec.getLsbD_of_ge _ _ (by omega)
  refine ⟨fun i hi => ?_, fun i hi => ?_⟩
  · simp only [outNext, BitVec.getLsbD_xor, BitVec.getLsbD_and, hs, m1 i hi, h0 i hi]
    simp
  · simp only [outNext, BitVec.getLsbD_xor, BitVec.getLsbD_and, hs, m2 i hi, h1 i hi]
    simp

theorem is12_mask (x : BitVec 64) : Is12 ((x &&& lowMask) ||| highConst) := by
  rw [is12_iff]
  intro i hi
  have m1 : ∀ i < 12, lowMask.getLsbD (52 + i) = false := by decide
  have m2 : ∀ i < 12, highConst.getLsbD (52 + i) = (0x3ff#12).getLsbD i := by decide
  rw [BitVec.getLsbD_or, BitVec.getLsbD_and, m1 i hi, m2 i hi]
  simp

theorem is12_or_one {w : BitVec 64} (h : Is12 w) : Is12 (w ||| 1#64) := by
  rw [is12_iff] at h ⊢
  intro i hi
  have m1 : ∀ i < 12, (1#64).getLsbD (52 + i) = false := by decide
  rw [BitVec.getLsbD_or, m1 i hi, h i hi, Bool.or_false]

end Verif.Dsfmt
