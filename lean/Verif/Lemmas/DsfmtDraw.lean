import Verif.Lemmas.DsfmtBlock
import Verif.Lemmas.DsfmtObs
import Mathlib.Tactic.Linarith
import Mathlib.Tactic.NormNum
import Mathlib.Tactic.Positivity
import Mathlib.Tactic.FieldSimp

/-! Helper lemmas: values of the numbers drawn. -/

namespace Verif.Dsfmt

open Spec.Mt

theorem f64Val_is12 {w : BitVec 64} (h : Is12 w) : f64Val w = .ok (val12 w) := by
  have h' := (is12_iff w).1 h
  have e : (w.extractLsb' 52 11).toNat = 1023 := by
    have : w.extractLsb' 52 11 = 0x3ff#11 := by
      refine BitVec.eq_of_getLsbD_eq fun i hi => ?_
      rw [BitVec.getLsbD_extractLsb', decide_eq_true hi, Bool.true_and, h' i (by omega)]
      interval_cases i <;> rfl
    rw [this]; rfl
  have s : w.getLsbD 63 = false := h' 11 (by omega)
  have m : (w.extractLsb' 0 52).toNat = w.toNat % 2 ^ 52 := by
    rw [BitVec.extractLsb'_toNat]; simp
  unfold f64Val
  simp only [e, s, m]
  norm_num [val12]

theorem val12_ge (w : BitVec 64) : 1 ≤ val12 w := by
  unfold val12
  have : (0 : ℝ) ≤ ((w.toNat % 2 ^ 52 : ℕ) : ℝ) / 2 ^ 52 := by positivity
  linarith

theorem val12_lt (w : BitVec 64) : val12 w < 2 := by
  unfold val12
  have h : ((w.toNat % 2 ^ 52 : ℕ) : ℝ) < 2 ^ 52 := by
    have := Nat.mod_lt w.toNat (show 2 ^ 52 > 0 by norm_num)
    exact_mod_cast this
  have : ((w.toNat % 2 ^ 52 : ℕ) : ℝ) / 2 ^ 52 < 1 := (div_lt_one (by positivity)).2 h
  linarith

theorem val12_or_one (w : BitVec 64) : 1 < val12 (w ||| 1#64) := by
  unfold val12
  have h : 1 ≤ (w ||| 1#64).toNat % 2 ^ 52 := by
    have hb : (w ||| 1#64).toNat % 2 = 1 := by
      have : (w ||| 1#64).getLsbD 0 = true := by
        rw [BitVec.getLsbD_or]; simp
      rw [BitVec.getLsbD, Nat.testBit_zero] at this
      simpa using this
    omega
  have : (0 : ℝ) < (((w ||| 1#64).toNat % 2 ^ 52 : ℕ) : ℝ) := by exact_mod_cast h
  have : (0 : ℝ) < (((w ||| 1#64).toNat % 2 ^ 52 : ℕ) : ℝ) / 2 ^ 52 := by positivity
  linarith

theorem value_inRange (k : Kind) (w : BitVec 64) : k.InRange (k.value w) := by
  have h1 := val12_ge w
  have h2 := val12_lt w
  cases k
  · exact ⟨_, Nat.mod_lt _ (by norm_num), rfl⟩
  · exact ⟨h1, h2⟩
  · exact ⟨sub_nonneg.2 h1, by show val12 w - 1 < 1; linarith⟩
  · exact ⟨by show 0 < 2 - val12 w; linarith, by show 2 - val12 w ≤ 1; linarith⟩
  · have := val12_or_one w
    have h4 := val12_lt (w ||| 1#64)
    exact ⟨by show 0 < _ - (1 : ℝ); linarith, by show _ - (1 : ℝ) < 1; linarith⟩

theorem uint32_toNat (w : BitVec 64) :
    ((w &&& 0xffffffff#64).setWidth 32).toNat = w.toNat % 2 ^ 32 := by
  rw [BitVec.toNat_setWidth, BitVec.toNat_and]
  have : (0xffffffff#64).toNat = 2 ^ 32 - 1 := rfl
  rw [this, Nat.and_two_pow_sub_one_eq_mod, Nat.mod_mod]

variable {X L : ℕ → W128}

theorem draw_pos (hX : DsfmtSeq X L) (b : Build) {p : ℕ} {d : Dsfmt} (h : Pos X L p d)
    (h12 : Is12 (word X p)) (k : Kind) :
    (k.draw b d).Sat fun r => r.1 = k.value (word X p) ∧ Pos X L (p + 1) r.2 := by
  obtain ⟨⟨w, d'⟩, e, hw, hp, _⟩ := nextWord_pos hX b h
  simp only at hw hp
  subst hw
  cases k
  · simp only [Kind.draw, genrandUint32, Res.monad_bind_eq, e, Res.bind_ok, Res.sat_ok, uint32_toNat]
    exact ⟨rfl, hp⟩
  all_goals
    simp only [Kind.draw, genrandClose1Open2, genrandCloseOpen, genrandOpenClose, genrandOpenOpen,
      Res.monad_bind_eq, e, Res.bind_ok, f64Val_is12 h12, f64Val_is12 (is12_or_one h12), Res.sat_ok]
    refine ⟨?_, hp⟩
    norm_num [Kind.value]

/-- The numbers drawn are the numbers of the sequence, in order. -/
theorem draws_pos (hX : DsfmtSeq X L) (b : Build) (ks : List Kind) {p : ℕ} {d : Dsfmt}
    (h : Pos X L p d) (h12 : ∀ q, p ≤ q → Is12 (word X q)) :
    (draws b ks d).Sat fun r => Pos X L (p + ks.length) r.2 ∧
      r.1 = (ks.zipIdx p).map fun kq => kq.1.value (word X kq.2) := by
  induction ks generalizing p d with
  | nil => exact ⟨_, rfl, h, rfl⟩
  | cons k ks ih =>
    unfold draws
    refine Res.Sat.bind (draw_pos hX b h (h12 p le_rfl) k) fun r ⟨h1, h2⟩ => ?_
    refine Res.Sat.bind (ih h2 fun q hq => h12 q (by omega)) fun q ⟨h3, h4⟩ => ?_
    rw [Res.sat_ok]
    refine ⟨?_, ?_⟩
    · rw [List.length_cons, show p + (ks.length + 1) = p + 1 + ks.length by omega]; exact h3
    · rw [List.zipIdx_cons, List.map_cons, h4, h1]

theorem is12_seq (hX : DsfmtSeq X L) {k : ℕ} (h : ∀ i < 191, Is12 (X (k + i)).u0 ∧ Is12 (X (k + i)).u1)
    (n : ℕ) (hn : k ≤ n) : Is12 (X n).u0 ∧ Is12 (X n).u1 := by
  induction n using Nat.strong_induction_on with
  | _ n ih =>
    by_cases hlt : n < k + 191
    · have := h (n - k) (by omega)
      rwa [show k + (n - k) = n by omega] at this
    · obtain ⟨q, rfl⟩ : ∃ q, n = q + 191 := ⟨n - 191, by omega⟩
      have := ih q (by omega) (by omega)
      rw [hX.out]
      exact is12_out this.1 this.2

theorem word_is12 {k : ℕ} (h : ∀ n, k ≤ n → Is12 (X n).u0 ∧ Is12 (X n).u1) (q : ℕ) (hq : 2 * k ≤ q) :
    Is12 (word X q) := by
  unfold word
  split
  · exact (h _ (by omega)).1
  · exact (h _ (by omega)).2

theorem admissible_pos {d : Dsfmt} (h : Admissible d) : ∃ X L, DsfmtSeq X L ∧ Win X L 0 d.status ∧
    Pos X L d.idx d ∧ ∀ n, Is12 (X n).u0 ∧ Is12 (X n).u1 := by
  obtain ⟨X, L, hX, hw, hp⟩ := exists_pos h.len h.idx
  exact ⟨X, L, hX, hw, hp, fun n => is12_seq hX (k := 0)
    (fun i hi => h.is12 i hi _ (hw.el i hi)) n (Nat.zero_le n)⟩

theorem pos_admissible {p : ℕ} {d : Dsfmt} (h : Pos X L p d)
    (h12 : ∀ n, Is12 (X n).u0 ∧ Is12 (X n).u1) : Admissible d := by
  obtain ⟨k, hw, hi, _⟩ := pos_iff.1 h
  refine ⟨hw.len, hi, fun i hi w hw' => ?_⟩
  rw [hw.el i hi, Option.some.injEq] at hw'
  rw [← hw']
  exact h12 _

theorem put12_is12 (w : BitVec 64) : Is12 (put12 w) := is12_mask w

theorem seedState_el (seed : BitVec 32) {i : ℕ} (hi : i < 191) :
    (seedState seed)[i]?
      = some ⟨put12 (seedWord seed (2 * i)), put12 (seedWord seed (2 * i + 1))⟩ := by
  rw [seedState, List.getElem?_append_left (by simpa using hi), List.getElem?_map,
    List.getElem?_range hi]
  rfl

theorem seed_admissible (seed : BitVec 32) : Admissible ⟨seedState seed, 382⟩ := by
  refine ⟨by simp [seedState], le_rfl, fun i hi w hw => ?_⟩
  have hw' : (seedState seed)[i]? = some w := hw
  rw [seedState_el seed hi, Option.some.injEq] at hw'
  rw [← hw']
  exact ⟨put12_is12 _, put12_is12 _⟩

theorem lung_choice (w : W128) (l : List W128) (hl : l.length = 191) :
    ∃ v, (open Classical in
      (l ++ [if Certified w then w else ⟨w.u0, w.u1 ^^^ 1#64⟩])[191]?) = some v ∧ Certified v := by
  by_cases hc : Certified w
  · refine ⟨w, ?_, hc⟩
    rw [List.getElem?_append_right (by omega), if_pos hc]; simp [hl]
  · refine ⟨⟨w.u0, w.u1 ^^^ 1#64⟩, ?_, certified_flip _ hc⟩
    rw [List.getElem?_append_right (by omega), if_neg hc]; simp [hl]

theorem seedState_lung (seed : BitVec 32) : ∃ w, (seedState seed)[191]? = some w ∧ Certified w :=
  lung_choice ⟨seedWord seed 382, seedWord seed 383⟩ _ (by simp)

end Verif.Dsfmt
