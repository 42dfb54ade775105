import Verif.Lemmas.DsfmtSeq
import Verif.Lemmas.DsfmtSeed
import Mathlib.Tactic.IntervalCases

/-! Helper lemmas: the state of the generator can be recovered from its output. -/

namespace Verif.Dsfmt

open Spec.Mt

theorem bits_zero0 (y : BitVec 64)
    (a : ∀ j < 52, y.getLsbD (j + 12) = ((0x000ffafffffffb3f#64).getLsbD j && y.getLsbD j))
    (b : ∀ j < 52, y.getLsbD ((j + 44) % 64)
      = ((0x000ffdfffc90fffd#64).getLsbD j && y.getLsbD ((j + 32) % 64))) : y = 0#64 := by
  have z45 : y.getLsbD 45 = false := b 1 (by decide)
  have z18 : y.getLsbD 18 = false := a 6 (by decide)
  have z19 : y.getLsbD 19 = false := a 7 (by decide)
  have z22 : y.getLsbD 22 = false := a 10 (by decide)
  have z57 : y.getLsbD 57 = false := (b 13 (by decide)).trans z45
  have z60 : y.getLsbD 60 = false := b 16 (by decide)
  have z61 : y.getLsbD 61 = false := b 17 (by decide)
  have z30 : y.getLsbD 30 = false := (a 18 (by decide)).trans z18
  have z62 : y.getLsbD 62 = false := b 18 (by decide)
  have z31 : y.getLsbD 31 = false := (a 19 (by decide)).trans z19
  have z63 : y.getLsbD 63 = false := b 19 (by decide)
  have z1 : y.getLsbD 1 = false := b 21 (by decide)
  have z34 : y.getLsbD 34 = false := (a 22 (by decide)).trans z22
  have z2 : y.getLsbD 2 = false := b 22 (by decide)
  have z4 : y.getLsbD 4 = false := b 24 (by decide)
  have z5 : y.getLsbD 5 = false := b 25 (by decide)
  have z8 : y.getLsbD 8 = false := (b 28 (by decide)).trans z60
  have z9 : y.getLsbD 9 = false := (b 29 (by decide)).trans z61
  have z42 : y.getLsbD 42 = false := (a 30 (by decide)).trans z30
  have z10 : y.getLsbD 10 = false := (b 30 (by decide)).trans z62
  have z43 : y.getLsbD 43 = false := (a 31 (by decide)).trans z31
  have z11 : y.getLsbD 11 = false := (b 31 (by decide)).trans z63
  have z33 : y.getLsbD 33 = false := (a 33 (by decide)).symm.trans z45
  have z13 : y.getLsbD 13 = false := (b 33 (by decide)).trans z1
  have z46 : y.getLsbD 46 = false := (a 34 (by decide)).trans z34
  have z14 : y.getLsbD 14 = false := (b 34 (by decide)).trans z2
  have z16 : y.getLsbD 16 = false := (b 36 (by decide)).trans z4
  have z17 : y.getLsbD 17 = false := (b 37 (by decide)).trans z5
  have z6 : y.getLsbD 6 = false := (b 38 (by decide)).symm.trans z18
  have z7 : y.getLsbD 7 = false := (b 39 (by decide)).symm.trans z19
  have z52 : y.getLsbD 52 = false := a 40 (by decide)
  have z20 : y.getLsbD 20 = false := (b 40 (by decide)).trans z8
  have z21 : y.getLsbD 21 = false := b 41 (by decide)
  have z54 : y.getLsbD 54 = false := a 42 (by decide)
  have z55 : y.getLsbD 55 = false := (a 43 (by decide)).trans z43
  have z23 : y.getLsbD 23 = false := (b 43 (by decide)).trans z11
  have z25 : y.getLsbD 25 = false := (b 45 (by decide)).trans z13
  have z58 : y.getLsbD 58 = false := (a 46 (by decide)).trans z46
  have z26 : y.getLsbD 26 = false := (b 46 (by decide)).trans z14
  have z48 : y.getLsbD 48 = false := (a 48 (by decide)).symm.trans z60
  have z28 : y.getLsbD 28 = false := (b 48 (by decide)).trans z16
  have z49 : y.getLsbD 49 = false := (a 49 (by decide)).symm.trans z61
  have z29 : y.getLsbD 29 = false := (b 49 (by decide)).trans z17
  have z50 : y.getLsbD 50 = false := (a 50 (by decide)).symm.trans z62
  have z51 : y.getLsbD 51 = false := (a 51 (by decide)).symm.trans z63
  have z36 : y.getLsbD 36 = false := (b 4 (by decide)).symm.trans z48
  have z37 : y.getLsbD 37 = false := (b 5 (by decide)).symm.trans z49
  have z38 : y.getLsbD 38 = false := (b 6 (by decide)).symm.trans z50
  have z39 : y.getLsbD 39 = false := (b 7 (by decide)).symm.trans z51
  have z40 : y.getLsbD 40 = false := (b 8 (by decide)).symm.trans z52
  have z32 : y.getLsbD 32 = false := (a 20 (by decide)).trans z20
  have z0 : y.getLsbD 0 = false := (b 20 (by decide)).trans z52
  have z35 : y.getLsbD 35 = false := (a 23 (by decide)).trans z23
  have z3 : y.getLsbD 3 = false := (b 23 (by decide)).trans z55
  have z24 : y.getLsbD 24 = false := (a 24 (by decide)).symm.trans z36
  have z27 : y.getLsbD 27 = false := (a 27 (by decide)).symm.trans z39
  have z59 : y.getLsbD 59 = false := (b 27 (by decide)).symm.trans z7
  have z41 : y.getLsbD 41 = false := (a 29 (by decide)).trans z29
  have z44 : y.getLsbD 44 = false := (a 32 (by decide)).trans z32
  have z12 : y.getLsbD 12 = false := (b 32 (by decide)).trans z0
  have z47 : y.getLsbD 47 = false := (a 35 (by decide)).trans z35
  have z15 : y.getLsbD 15 = false := (b 35 (by decide)).trans z3
  have z53 : y.getLsbD 53 = false := (a 41 (by decide)).trans z41
  have z56 : y.getLsbD 56 = false := (a 44 (by decide)).trans z44
  refine BitVec.eq_of_getLsbD_eq fun i hi => ?_
  rw [BitVec.getLsbD_zero]
  interval_cases i <;> assumption

theorem bits_zero1 (y : BitVec 64)
    (a : ∀ j < 52, y.getLsbD (j + 12) = ((0x000ffdfffc90fffd#64).getLsbD j && y.getLsbD j))
    (b : ∀ j < 52, y.getLsbD ((j + 44) % 64)
      = ((0x000ffafffffffb3f#64).getLsbD j && y.getLsbD ((j + 32) % 64))) : y = 0#64 := by
  have z13 : y.getLsbD 13 = false := a 1 (by decide)
  have z50 : y.getLsbD 50 = false := b 6 (by decide)
  have z51 : y.getLsbD 51 = false := b 7 (by decide)
  have z54 : y.getLsbD 54 = false := b 10 (by decide)
  have z25 : y.getLsbD 25 = false := (a 13 (by decide)).trans z13
  have z28 : y.getLsbD 28 = false := a 16 (by decide)
  have z29 : y.getLsbD 29 = false := a 17 (by decide)
  have z30 : y.getLsbD 30 = false := a 18 (by decide)
  have z62 : y.getLsbD 62 = false := (b 18 (by decide)).trans z50
  have z31 : y.getLsbD 31 = false := a 19 (by decide)
  have z63 : y.getLsbD 63 = false := (b 19 (by decide)).trans z51
  have z33 : y.getLsbD 33 = false := a 21 (by decide)
  have z34 : y.getLsbD 34 = false := a 22 (by decide)
  have z2 : y.getLsbD 2 = false := (b 22 (by decide)).trans z54
  have z36 : y.getLsbD 36 = false := a 24 (by decide)
  have z37 : y.getLsbD 37 = false := a 25 (by decide)
  have z40 : y.getLsbD 40 = false := (a 28 (by decide)).trans z28
  have z41 : y.getLsbD 41 = false := (a 29 (by decide)).trans z29
  have z42 : y.getLsbD 42 = false := (a 30 (by decide)).trans z30
  have z10 : y.getLsbD 10 = false := (b 30 (by decide)).trans z62
  have z43 : y.getLsbD 43 = false := (a 31 (by decide)).trans z31
  have z11 : y.getLsbD 11 = false := (b 31 (by decide)).trans z63
  have z45 : y.getLsbD 45 = false := (a 33 (by decide)).trans z33
  have z1 : y.getLsbD 1 = false := (b 33 (by decide)).symm.trans z13
  have z46 : y.getLsbD 46 = false := (a 34 (by decide)).trans z34
  have z14 : y.getLsbD 14 = false := (b 34 (by decide)).trans z2
  have z48 : y.getLsbD 48 = false := (a 36 (by decide)).trans z36
  have z49 : y.getLsbD 49 = false := (a 37 (by decide)).trans z37
  have z38 : y.getLsbD 38 = false := (a 38 (by decide)).symm.trans z50
  have z39 : y.getLsbD 39 = false := (a 39 (by decide)).symm.trans z51
  have z52 : y.getLsbD 52 = false := (a 40 (by decide)).trans z40
  have z20 : y.getLsbD 20 = false := b 40 (by decide)
  have z53 : y.getLsbD 53 = false := a 41 (by decide)
  have z22 : y.getLsbD 22 = false := b 42 (by decide)
  have z55 : y.getLsbD 55 = false := (a 43 (by decide)).trans z43
  have z23 : y.getLsbD 23 = false := (b 43 (by decide)).trans z11
  have z57 : y.getLsbD 57 = false := (a 45 (by decide)).trans z45
  have z58 : y.getLsbD 58 = false := (a 46 (by decide)).trans z46
  have z26 : y.getLsbD 26 = false := (b 46 (by decide)).trans z14
  have z60 : y.getLsbD 60 = false := (a 48 (by decide)).trans z48
  have z16 : y.getLsbD 16 = false := (b 48 (by decide)).symm.trans z28
  have z61 : y.getLsbD 61 = false := (a 49 (by decide)).trans z49
  have z17 : y.getLsbD 17 = false := (b 49 (by decide)).symm.trans z29
  have z18 : y.getLsbD 18 = false := (b 50 (by decide)).symm.trans z30
  have z19 : y.getLsbD 19 = false := (b 51 (by decide)).symm.trans z31
  have z4 : y.getLsbD 4 = false := (a 4 (by decide)).symm.trans z16
  have z5 : y.getLsbD 5 = false := (a 5 (by decide)).symm.trans z17
  have z6 : y.getLsbD 6 = false := (a 6 (by decide)).symm.trans z18
  have z7 : y.getLsbD 7 = false := (a 7 (by decide)).symm.trans z19
  have z8 : y.getLsbD 8 = false := (a 8 (by decide)).symm.trans z20
  have z32 : y.getLsbD 32 = false := (a 20 (by decide)).trans z20
  have z0 : y.getLsbD 0 = false := (b 20 (by decide)).trans z52
  have z35 : y.getLsbD 35 = false := (a 23 (by decide)).trans z23
  have z3 : y.getLsbD 3 = false := (b 23 (by decide)).trans z55
  have z56 : y.getLsbD 56 = false := (b 24 (by decide)).symm.trans z4
  have z27 : y.getLsbD 27 = false := (a 27 (by decide)).symm.trans z39
  have z59 : y.getLsbD 59 = false := (b 27 (by decide)).symm.trans z7
  have z9 : y.getLsbD 9 = false := (b 29 (by decide)).trans z61
  have z44 : y.getLsbD 44 = false := (a 32 (by decide)).trans z32
  have z12 : y.getLsbD 12 = false := (b 32 (by decide)).trans z0
  have z47 : y.getLsbD 47 = false := (a 35 (by decide)).trans z35
  have z15 : y.getLsbD 15 = false := (b 35 (by decide)).trans z3
  have z21 : y.getLsbD 21 = false := (b 41 (by decide)).trans z9
  have z24 : y.getLsbD 24 = false := (b 44 (by decide)).trans z12
  refine BitVec.eq_of_getLsbD_eq fun i hi => ?_
  rw [BitVec.getLsbD_zero]
  interval_cases i <;> assumption

theorem getLsbD_swap32' (x : BitVec 64) {i : ℕ} (hi : i < 64) :
    (swap32 x).getLsbD i = x.getLsbD ((i + 32) % 64) := by
  rw [getLsbD_swap32]
  by_cases h : i < 32
  · rw [if_pos h]; congr 1; omega
  · rw [if_neg h, decide_eq_true (by omega), Bool.true_and]; congr 1; omega

theorem out_diff {l l' M a : BitVec 64}
    (h : (l >>> 12) ^^^ (l &&& M) ^^^ a = (l' >>> 12) ^^^ (l' &&& M) ^^^ a) (j : ℕ) :
    (l ^^^ l').getLsbD (j + 12) = (M.getLsbD j && (l ^^^ l').getLsbD j) := by
  have := congrArg (fun v : BitVec 64 => v.getLsbD j) h
  simp only [BitVec.getLsbD_xor, BitVec.getLsbD_ushiftRight, BitVec.getLsbD_and] at this ⊢
  rw [Nat.add_comm j 12]
  revert this
  cases l.getLsbD (12 + j) <;> cases l'.getLsbD (12 + j) <;> cases l.getLsbD j <;>
    cases l'.getLsbD j <;> cases M.getLsbD j <;> cases a.getLsbD j <;> simp

theorem xor_eq_zero {a b : BitVec 64} (h : a ^^^ b = 0#64) : a = b := by
  have := congrArg (· ^^^ b) h
  simpa [BitVec.xor_assoc] using this

theorem xor_right_cancel' {a b c : BitVec 64} (h : a ^^^ c = b ^^^ c) : a = b := by
  have := congrArg (· ^^^ c) h
  simpa [BitVec.xor_assoc] using this

theorem swap32_inj {a b : BitVec 64} (h : swap32 a = swap32 b) : a = b := by
  refine BitVec.eq_of_getLsbD_eq fun i hi => ?_
  have := congrArg (fun v : BitVec 64 => v.getLsbD ((i + 32) % 64)) h
  simp only [getLsbD_swap32' _ (Nat.mod_lt _ (by omega : 64 > 0))] at this
  rw [show ((i + 32) % 64 + 32) % 64 = i by omega] at this
  exact this

theorem lung_diff {a b l l' : W128} (j : ℕ) (hj : j < 64) :
    ((lungNext a b l).u0 ^^^ (lungNext a b l').u0).getLsbD j
        = (l.u1 ^^^ l'.u1).getLsbD ((j + 32) % 64) ∧
      ((lungNext a b l).u1 ^^^ (lungNext a b l').u1).getLsbD j
        = (l.u0 ^^^ l'.u0).getLsbD ((j + 32) % 64) := by
  simp only [lungNext, BitVec.getLsbD_xor, getLsbD_swap32' _ hj]
  constructor
  · cases (a.u0 <<< 19).getLsbD j <;> cases b.u0.getLsbD j <;> simp
  · cases (a.u1 <<< 19).getLsbD j <;> cases b.u1.getLsbD j <;> simp

/-- Two steps of the output determine the lung word. -/
theorem lung_observable {a0 a1 b1 l l' : W128} (h0 : outNext a0 l = outNext a0 l')
    (h1 : outNext a1 (lungNext a1 b1 l) = outNext a1 (lungNext a1 b1 l')) : l = l' := by
  have k00 := out_diff (congrArg W128.u0 h0)
  have k01 := out_diff (congrArg W128.u1 h0)
  have k10 := out_diff (congrArg W128.u0 h1)
  have k11 := out_diff (congrArg W128.u1 h1)
  refine W128.ext' (xor_eq_zero (bits_zero0 _ (fun j _ => k00 j) fun j hj => ?_))
    (xor_eq_zero (bits_zero1 _ (fun j _ => k01 j) fun j hj => ?_))
  · have := k11 j
    rw [(lung_diff (j + 12) (by omega)).2, (lung_diff j (by omega)).2] at this
    exact this
  · have := k10 j
    rw [(lung_diff (j + 12) (by omega)).1, (lung_diff j (by omega)).1] at this
    exact this

variable {X L X' L' : ℕ → W128}

/-- 193 consecutive words of the sequence determine the whole sequence. -/
theorem seq_observable (hX : DsfmtSeq X L) (hX' : DsfmtSeq X' L') {n : ℕ}
    (h : ∀ i, n ≤ i → i < n + 193 → X i = X' i) : X = X' ∧ L = L' := by
  have hl : L (n + 1) = L' (n + 1) := by
    refine lung_observable (a0 := X n) (a1 := X (n + 1)) (b1 := X (n + 118)) ?_ ?_
    · rw [← hX.out, h n (by omega) (by omega), ← hX'.out]
      exact h _ (by omega) (by omega)
    · have e1 : lungNext (X (n + 1)) (X (n + 118)) (L (n + 1)) = L (n + 2) := (hX.lung (n + 1)).symm
      have e2 : lungNext (X (n + 1)) (X (n + 118)) (L' (n + 1)) = L' (n + 2) := by
        rw [h (n + 1) (by omega) (by omega), h (n + 118) (by omega) (by omega)]
        exact (hX'.lung (n + 1)).symm
      rw [e1, e2, ← hX.out (n + 1), h (n + 1) (by omega) (by omega), ← hX'.out (n + 1)]
      exact h _ (by omega) (by omega)
  have back : ∀ q, q ≤ n → (∀ i, n - q ≤ i → i < n + 193 → X i = X' i) ∧
      L (n - q + 1) = L' (n - q + 1) := by
    intro q
    induction q with
    | zero => intro _; exact ⟨h, hl⟩
    | succ q ih =>
      intro hq
      obtain ⟨g1, g2⟩ := ih (by omega)
      obtain ⟨p, hp⟩ : ∃ p, n - q = p + 1 := ⟨n - q - 1, by omega⟩
      rw [hp] at g1 g2
      rw [show n - (q + 1) = p by omega]
      -- the lung word before
      have hL : L (p + 1) = L' (p + 1) := by
        have e := g2
        rw [hX.lung, hX'.lung, g1 (p + 1) (by omega) (by omega),
          g1 (p + 1 + 117) (by omega) (by omega)] at e
        refine W128.ext' ?_ ?_
        · have := congrArg W128.u1 e
          simp only [lungNext] at this
          have := xor_right_cancel' this
          rw [BitVec.xor_comm _ (swap32 (L (p + 1)).u0), BitVec.xor_comm _ (swap32 (L' (p + 1)).u0)]
            at this
          exact swap32_inj (xor_right_cancel' this)
        · have := congrArg W128.u0 e
          simp only [lungNext] at this
          have := xor_right_cancel' this
          rw [BitVec.xor_comm _ (swap32 (L (p + 1)).u1), BitVec.xor_comm _ (swap32 (L' (p + 1)).u1)]
            at this
          exact swap32_inj (xor_right_cancel' this)
      refine ⟨fun i h1 h2 => ?_, hL⟩
      by_cases hi : p + 1 ≤ i
      · exact g1 i hi h2
      · obtain rfl : i = p := by omega
        have e := g1 (i + 191) (by omega) (by omega)
        rw [hX.out, hX'.out, hL] at e
        refine W128.ext' ?_ ?_
        · have := congrArg W128.u0 e
          simp only [outNext] at this
          rw [BitVec.xor_comm _ (X i).u0, BitVec.xor_comm _ (X' i).u0] at this
          exact xor_right_cancel' this
        · have := congrArg W128.u1 e
          simp only [outNext] at this
          rw [BitVec.xor_comm _ (X i).u1, BitVec.xor_comm _ (X' i).u1] at this
          exact xor_right_cancel' this
  obtain ⟨g1, g2⟩ := back n le_rfl
  rw [Nat.sub_self, zero_add] at g2
  have hX0 : ∀ i < 191, X i = X' i := fun i hi => g1 i (by omega) (by omega)
  refine seq_unique hX hX' hX0 ?_
  have e := g2
  rw [← zero_add 1, hX.lung, hX'.lung, hX0 0 (by omega), hX0 (0 + 117) (by omega)] at e
  refine W128.ext' ?_ ?_
  · have := congrArg W128.u1 e
    simp only [lungNext] at this
    have := xor_right_cancel' this
    rw [BitVec.xor_comm _ (swap32 (L 0).u0), BitVec.xor_comm _ (swap32 (L' 0).u0)] at this
    exact swap32_inj (xor_right_cancel' this)
  · have := congrArg W128.u0 e
    simp only [lungNext] at this
    have := xor_right_cancel' this
    rw [BitVec.xor_comm _ (swap32 (L 0).u1), BitVec.xor_comm _ (swap32 (L' 0).u1)] at this
    exact swap32_inj (xor_right_cancel' this)

end Verif.Dsfmt
