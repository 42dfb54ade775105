import Verif.Lemmas.SeedArray

/-! # C40, second part: seeding with an array of keys -/

namespace Verif.Dsfmt

open Spec.Mt

theorem keyRounds_holds (key : List (BitVec 32)) {st : List W128} {n : ℕ} (hn : key.length ≤ n)
    (h : Holds st (keyRounds key 1)) :
    ((forRange 0 (min n key.length) (fun j s => (rd key j).bind fun k => arrayRound1 768 378 11 k s)
      (st, 1)).bind fun s => forRange (min n key.length) n (fun _ s => arrayRound1 768 378 11 0#32 s) s).Sat
      fun s => Holds s.1 (keyRounds key (n + 1)) ∧ s.2 = ((n + 1 : ℕ) : ZMod 768).val := by
  rw [Nat.min_eq_right hn]
  refine Res.Sat.bind (forRange_sat (fun j s => Holds s.1 (keyRounds key (j + 1)) ∧
    s.2 = ((j + 1 : ℕ) : ZMod 768).val) (Nat.zero_le _) ⟨h, show 1 = ((0 + 1 : ℕ) : ZMod 768).val by decide⟩ fun j s _ hj ⟨h1, h2⟩ => ?_)
    fun s hs => ?_
  · rw [rd_ok hj, Res.bind_ok]
    obtain ⟨st1, i⟩ := s
    simp only at h1 h2
    subst h2
    refine (arrayRound1_holds h1 _ _).mono fun r ⟨g1, g2⟩ => ⟨?_, by rw [g2]; push_cast; rfl⟩
    convert g1 using 1
    show mixKey _ (keyAt key (j + 1)) _ = _
    rw [keyAt, if_neg (by omega), Nat.add_sub_cancel, natCast_val, List.getD_eq_getElem?_getD,
      List.getElem?_eq_getElem hj]
    rfl
  · refine forRange_sat (fun j (s : List W128 × ℕ) => Holds s.1 (keyRounds key (j + 1)) ∧
      s.2 = ((j + 1 : ℕ) : ZMod 768).val) hn hs fun j s hj _ ⟨h1, h2⟩ => ?_
    obtain ⟨st1, i⟩ := s
    simp only at h1 h2
    subst h2
    refine (arrayRound1_holds h1 _ _).mono fun r ⟨g1, g2⟩ => ⟨?_, by rw [g2]; push_cast; rfl⟩
    convert g1 using 1
    show mixKey _ (keyAt key (j + 1)) _ = _
    rw [keyAt, if_neg (by omega), Nat.add_sub_cancel, natCast_val, List.getD_eq_getElem?_getD,
      List.getElem?_eq_none hj]
    rfl

theorem outRounds_holds {st : List W128} {s : Ring} {i : ZMod 768} (h : Holds st s) :
    (forRange 0 768 (fun _ s => arrayRound2 768 378 11 s) (st, i.val)).Sat
      fun r => Holds r.1 (outRounds i s 768) := by
  refine (forRange_sat (fun j r => Holds r.1 (outRounds i s j) ∧ r.2 = (i + (j : ZMod 768)).val)
    (Nat.zero_le _) ⟨h, by simp⟩ fun j r _ _ ⟨h1, h2⟩ => ?_).mono fun r hr => hr.1
  obtain ⟨st1, l⟩ := r
  simp only at h1 h2
  subst h2
  refine (arrayRound2_holds h1 _).mono fun r ⟨g1, g2⟩ => ⟨g1, ?_⟩
  rw [g2]
  push_cast
  rw [add_assoc]

/-- Seeding with keys (fewer than 2³¹ - 1) overwrites the whole state by what the published procedure
gives; the result is a function of the keys alone. -/
theorem arraySeeding_determined (key : List (BitVec 32)) (hk : key.length < 2 ^ 31 - 1) {d : Dsfmt}
    (hl : d.status.length = 192) : initByArray key d = .ok ⟨arrayState key, 382⟩ := by
  have : (initByArray key d).Sat fun d' => d'.idx = 382 ∧ d'.status = arrayState key := by
    unfold initByArray
    rw [if_neg (by omega)]
    simp only [Res.monad_bind_eq]
    rw [hl]
    have e1 : ((nW + 1) * 4 - 11) / 2 % ((nW + 1) * 4) = 378 := by decide
    have e2 : (((nW + 1) * 4 - 11) / 2 + 11) % ((nW + 1) * 4) = 389 := by decide
    have e3 : ((nW + 1) * 4 - 1) % ((nW + 1) * 4) = 767 := by decide
    have e4 : (nW + 1) * 4 = 768 := by decide
    have e5 : (768 - 11) / 2 = 378 := by decide
    have hn : (if 768 < key.length + 1 then key.length + 1 else 768) - 1 + 1
        = max (key.length + 1) 768 := by
      split <;> omega
    rw [e1, e2, e3, e4, e5]
    generalize hc : (if 768 < key.length + 1 then key.length + 1 else 768) - 1 = n at *
    have hln : key.length ≤ n := by rw [← hc]; split <;> omega
    have h1 := first_round key.length
    simp only at h1
    have key_steps : ∀ st, Holds st (keyRounds key 1) →
        (((forRange 0 (min n key.length) (fun j s => (rd key j).bind fun k =>
          arrayRound1 768 378 11 k s) (st, 1)).bind fun s =>
          forRange (min n key.length) n (fun _ s => arrayRound1 768 378 11 0#32 s) s).bind fun s =>
          (forRange 0 768 (fun _ s => arrayRound2 768 378 11 s) s).bind fun s =>
          (initialMask s.1).bind fun st => (periodCertification st).bind fun st =>
            .ok (Dsfmt.mk st n64)).Sat fun d' => d'.idx = 382 ∧ d'.status = arrayState key := by
      intro st hst
      refine Res.Sat.bind (keyRounds_holds key hln hst) fun s ⟨g1, g2⟩ => ?_
      obtain ⟨st2, i⟩ := s
      simp only at g1 g2
      subst g2
      refine Res.Sat.bind (outRounds_holds g1) fun s gs => ?_
      rw [hn] at gs
      refine (ring_state (w := arrayWord key) gs.1 fun i hi => ?_)
      refine rd64_of_rd32 ?_ ?_ (by rw [gs.1]; omega)
      · have := gs.2 ((2 * i : ℕ) : ZMod 768)
        rw [natCast_val, Nat.mod_eq_of_lt (by omega)] at this
        exact this
      · have := gs.2 ((2 * i + 1 : ℕ) : ZMod 768)
        rw [natCast_val, Nat.mod_eq_of_lt (by omega)] at this
        exact this
    have h2 := Res.Sat.bind h1 key_steps
    simpa only [Res.bind_assoc] using h2
  obtain ⟨d', h1, h2, h3⟩ := this
  rw [h1]
  cases d'
  simp only at h2 h3
  rw [h2, h3]

/-- A concrete case: no keys at all, and a state of the right size. -/
example : initByArray [] ⟨List.replicate 192 ⟨0, 0⟩, 0⟩ = .ok ⟨arrayState [], 382⟩ :=
  arraySeeding_determined [] (by decide) List.length_replicate

end Verif.Dsfmt
