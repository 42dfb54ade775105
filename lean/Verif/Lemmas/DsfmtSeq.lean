import Verif.Lemmas.DsfmtBits
import Verif.Lemmas.Outcome

/-! Helper lemmas: the generator walks along the published sequence. -/

namespace Verif.Dsfmt

open Spec.Mt

/-- `st` is the section of the sequence that starts at `k`. -/
structure Win (X L : ℕ → W128) (k : ℕ) (st : List W128) : Prop where
  len : st.length = 192
  el : ∀ i < 191, st[i]? = some (X (k + i))
  lung : st[191]? = some (L k)

/-- The state in the middle of the renewal: `i` entries have been replaced. -/
structure Mid (X L : ℕ → W128) (k i : ℕ) (s : List W128 × W128) : Prop where
  len : s.1.length = 192
  old : ∀ j < 191, i ≤ j → s.1[j]? = some (X (k + j))
  new : ∀ j < i, s.1[j]? = some (X (k + 191 + j))
  lung : s.2 = L (k + i)

variable {X L : ℕ → W128}

theorem recInto_mid (hX : DsfmtSeq X L) (c : Build) {k i j : ℕ} {s : List W128 × W128}
    (h : Mid X L k i s) (hi : i < 191) (hj : (i + 117 < 191 ∧ j = i + 117) ∨
      (191 ≤ i + 117 ∧ j = i + 117 - 191)) :
    (recInto c i j s).Sat (Mid X L k (i + 1)) := by
  have hx : rd s.1 i = .ok (X (k + i)) := rd_eq_ok.2 (h.old i hi le_rfl)
  have hy : rd s.1 j = .ok (X (k + i + 117)) := by
    rcases hj with ⟨h1, h2⟩ | ⟨h1, h2⟩
    · rw [h2, rd_eq_ok, h.old (i + 117) h1 (by omega), Nat.add_assoc]
    · rw [h2, rd_eq_ok, h.new _ (by omega), show k + 191 + (i + 117 - 191) = k + i + 117 by omega]
  have hw : ∀ x, wr s.1 i x = .ok (s.1.set i x) := fun x => wr_ok (by rw [h.len]; omega) x
  have e : doRecursion c (X (k + i)) (X (k + i + 117)) s.2 = (X (k + i + 191), L (k + i + 1)) := by
    rw [doRecursion_eq, h.lung, ← hX.lung, ← hX.out]
  unfold recInto
  simp only [Res.monad_bind_eq, hx, hy, Res.bind_ok, e, hw, Res.sat_ok]
  refine ⟨by simp [h.len], ?_, ?_, rfl⟩
  · intro m hm1 hm2
    rw [List.getElem?_set_ne (by omega)]
    exact h.old m hm1 (by omega)
  · intro m hm
    rcases Nat.lt_succ_iff_lt_or_eq.1 hm with hlt | rfl
    · rw [List.getElem?_set_ne (by omega)]
      exact h.new m hlt
    · rw [List.getElem?_set_self (by rw [h.len]; omega)]
      rw [show k + m + 191 = k + 191 + m by omega]

theorem genRandAll_win (hX : DsfmtSeq X L) (c : Build) {k : ℕ} {d : Dsfmt}
    (h : Win X L k d.status) :
    (genRandAll c d).Sat fun d' => Win X L (k + 191) d'.status ∧ d'.idx = d.idx := by
  have h0 : Mid X L k 0 (d.status, L k) :=
    ⟨h.len, fun j hj _ => h.el j hj, fun j hj => absurd hj (by omega), rfl⟩
  unfold genRandAll
  simp only [Res.monad_bind_eq]
  rw [show rd d.status nW = .ok (L k) from rd_eq_ok.2 h.lung, Res.bind_ok]
  refine Res.Sat.bind (recInto_mid hX c h0 (by omega) (.inl ⟨by omega, rfl⟩)) fun s hs => ?_
  refine Res.Sat.bind (P := Mid X L k 74) (forRange_sat (Mid X L k) (by decide) hs
    fun i s h1 h2 hI => ?_) fun s hs => ?_
  · change i < 74 at h2
    exact recInto_mid hX c hI (by omega) (.inl ⟨by omega, rfl⟩)
  refine Res.Sat.bind (P := Mid X L k 191) (forRange_sat (Mid X L k) (by decide) hs
    fun i s h1 h2 hI => ?_) fun s hs => ?_
  · change 74 ≤ i at h1
    change i < 191 at h2
    exact recInto_mid hX c hI (by omega) (.inr ⟨by omega, rfl⟩)
  rw [wr_ok (by rw [hs.len]; decide), Res.bind_ok, Res.sat_ok]
  refine ⟨⟨by simp [hs.len], fun i hi => ?_, ?_⟩, rfl⟩
  · show (s.1.set 191 s.2)[i]? = _
    rw [List.getElem?_set_ne (by omega)]
    exact hs.new i hi
  · show (s.1.set 191 s.2)[191]? = _
    rw [List.getElem?_set_self (by rw [hs.len]; omega), hs.lung]

theorem pos_iff {p : ℕ} {d : Dsfmt} :
    Pos X L p d ↔ ∃ k, Win X L k d.status ∧ d.idx ≤ 382 ∧ p = 2 * k + d.idx := by
  constructor
  · rintro ⟨hl, k, h1, h2, h3, h4⟩
    exact ⟨k, ⟨hl, h1, h2⟩, h3, h4⟩
  · rintro ⟨k, h1, h3, h4⟩
    exact ⟨h1.len, k, h1.el, h1.lung, h3, h4⟩

theorem nextWord_pos (hX : DsfmtSeq X L) (c : Build) {p : ℕ} {d : Dsfmt} (h : Pos X L p d) :
    (nextWord c d).Sat fun r => r.1 = word X p ∧ Pos X L (p + 1) r.2 ∧ r.2.idx ≠ 0 := by
  obtain ⟨k, hw, hi, hp⟩ := pos_iff.1 h
  have key : ∀ (k : ℕ) (d : Dsfmt), Win X L k d.status → d.idx < 382 → p = 2 * k + d.idx →
      ((rd64 d.status d.idx).bind fun w => .ok (w, { d with idx := d.idx + 1 })).Sat
        fun r : BitVec 64 × Dsfmt => r.1 = word X p ∧ Pos X L (p + 1) r.2 ∧ r.2.idx ≠ 0 := by
    intro k d hw hi hp
    have e : rd d.status (d.idx / 2) = .ok (X (p / 2)) := by
      rw [rd_eq_ok, hw.el _ (by omega), show k + d.idx / 2 = p / 2 by omega]
    unfold rd64
    simp only [Res.monad_bind_eq, e, Res.bind_ok, Res.sat_ok]
    refine ⟨?_, pos_iff.2 ⟨k, hw, by show d.idx + 1 ≤ 382; omega, by
      show p + 1 = 2 * k + (d.idx + 1); omega⟩, Nat.succ_ne_zero _⟩
    unfold word
    rw [show p % 2 = d.idx % 2 by omega]
  unfold nextWord
  simp only [Res.monad_bind_eq]
  by_cases hc : n64 ≤ d.idx
  · rw [if_pos hc]
    have : d.idx = 382 := le_antisymm hi hc
    obtain ⟨d', e1, hw', hi'⟩ := genRandAll_win hX c hw
    rw [e1, Res.bind_ok, Res.bind_ok]
    exact key (k + 191) { d' with idx := 0 } hw' (by simp) (by simp; omega)
  · rw [if_neg hc, Res.bind_ok]
    exact key k d hw (not_le.1 hc) hp

/-! ### Existence of the sequence -/

section exists_

variable (st : List W128) (l0 : W128)

mutual
/-- The sequence that starts with the entries of `st`. -/
def seqX : ℕ → W128
  | n => if h : n < 191 then (st[n]?).getD ⟨0, 0⟩ else outNext (seqX (n - 191)) (seqL (n - 190))
  termination_by n => n
/-- Its lung words. -/
def seqL : ℕ → W128
  | 0 => l0
  | n + 1 => lungNext (seqX n) (seqX (n + 117)) (seqL n)
  termination_by n => n + 117
end

theorem seq_dsfmt : DsfmtSeq (seqX st l0) (seqL st l0) := by
  constructor
  · intro i
    rw [seqL]
  · intro i
    rw [seqX, dif_neg (by omega), show i + 191 - 191 = i by omega, show i + 191 - 190 = i + 1 by omega]

end exists_

/-- Every state with an index in range is a position in some sequence. -/
theorem exists_pos {d : Dsfmt} (hl : d.status.length = 192) (hi : d.idx ≤ 382) :
    ∃ X L, DsfmtSeq X L ∧ Win X L 0 d.status ∧ Pos X L d.idx d := by
  have hw : Win (seqX d.status d.status[191]) (seqL d.status d.status[191]) 0 d.status := by
    refine ⟨hl, fun i hi => ?_, ?_⟩
    · rw [seqX, dif_pos (by omega), zero_add, List.getElem?_eq_getElem (by omega)]
      simp
    · rw [List.getElem?_eq_getElem (by omega)]
      simp [seqL]
  exact ⟨_, _, seq_dsfmt _ _, hw, pos_iff.2 ⟨0, hw, hi, by omega⟩⟩

/-- Two sequences with the same starting section are equal. -/
theorem seq_unique {X' L' : ℕ → W128} (hX : DsfmtSeq X L) (hX' : DsfmtSeq X' L')
    (h : ∀ i < 191, X i = X' i) (hl : L 0 = L' 0) : X = X' ∧ L = L' := by
  have key : ∀ n, (∀ i < n + 191, X i = X' i) ∧ L n = L' n := by
    intro n
    induction n with
    | zero => exact ⟨fun i hi => h i (by omega), hl⟩
    | succ n ih =>
      obtain ⟨ih1, ih2⟩ := ih
      have hL : L (n + 1) = L' (n + 1) := by
        rw [hX.lung, hX'.lung, ih1 n (by omega), ih1 (n + 117) (by omega), ih2]
      refine ⟨fun i hi => ?_, hL⟩
      by_cases h1 : i < n + 191
      · exact ih1 i h1
      · obtain rfl : i = n + 191 := by omega
        rw [hX.out, hX'.out, ih1 n (by omega), hL]
  exact ⟨funext fun i => (key i).1 i (by omega), funext fun i => (key i).2⟩

end Verif.Dsfmt
