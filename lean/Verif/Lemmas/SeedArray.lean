import Verif.Spec.SeedArray
import Verif.Lemmas.DsfmtSeed
import Mathlib.Data.ZMod.Basic

/-! Helper lemmas: seeding with an array of keys. -/

namespace Verif.Dsfmt

open Spec.Mt

/-- The state holds the ring. -/
def Holds (st : List W128) (s : Ring) : Prop :=
  st.length = 192 ∧ ∀ j : ZMod 768, rd32 st j.val = .ok (s j)

theorem Holds.len {st : List W128} {s : Ring} (h : Holds st s) (j : ZMod 768) :
    j.val < 4 * st.length := by
  rw [h.1]; exact ZMod.val_lt j

theorem Holds.wr {st : List W128} {s : Ring} (h : Holds st s) (j : ZMod 768) (x : BitVec 32) :
    (wr32 st j.val x).Sat fun st' => Holds st' (Function.update s j x) := by
  refine (wr32_spec (h.len j) x).mono fun st' ⟨h1, h2, h3⟩ => ⟨h1.trans h.1, fun l => ?_⟩
  by_cases e : l = j
  · subst e; rw [h2, Function.update_self]
  · rw [h3 _ fun e' => e (ZMod.val_injective 768 e'), h.2, Function.update_of_ne e]

theorem Holds.upd {st : List W128} {s : Ring} (h : Holds st s) (j : ZMod 768)
    (f : BitVec 32 → BitVec 32) :
    (upd32 st j.val f).Sat fun st' => Holds st' (Function.update s j (f (s j))) := by
  unfold upd32
  rw [Res.monad_bind_eq, h.2, Res.bind_ok]
  exact h.wr j _

theorem val_ahead (i : ZMod 768) (n : ℕ) : (i.val + n) % 768 = (i + (n : ZMod 768)).val := by
  rw [ZMod.val_add, ZMod.val_natCast, Nat.add_mod_mod]

theorem val_behind (i : ZMod 768) : (i.val + 768 - 1) % 768 = (i - 1).val := by
  rw [show i.val + 768 - 1 = i.val + 767 by omega, val_ahead, show ((767 : ℕ) : ZMod 768) = -1 by decide,
    sub_eq_add_neg]

theorem val_next (i : ZMod 768) : (i.val + 1) % 768 = (i + 1).val := by
  rw [val_ahead]; congr 1

theorem add_ne {i : ZMod 768} {n : ZMod 768} (h : n ≠ 0) : i + n ≠ i := by
  intro e
  exact h (by simpa using e)

theorem ahead_ne (i : ZMod 768) : i + 378 ≠ i ∧ i + 389 ≠ i ∧ i + 389 ≠ i + 378 :=
  ⟨add_ne (by decide), add_ne (by decide), fun e => absurd (add_left_cancel e) (by decide)⟩

theorem arrayRound1_holds {st : List W128} {s : Ring} (h : Holds st s) (i : ZMod 768) (k : BitVec 32) :
    (arrayRound1 768 378 11 k (st, i.val)).Sat fun r =>
      Holds r.1 (mixKey i (k + BitVec.ofNat 32 i.val) s) ∧ r.2 = (i + 1).val := by
  obtain ⟨n1, n2, n3⟩ := ahead_ne i
  unfold arrayRound1
  simp only [Res.monad_bind_eq]
  rw [show i.val + 378 + 11 = i.val + 389 by omega, val_ahead, val_ahead, val_behind, val_next]
  rw [h.2, Res.bind_ok, h.2, Res.bind_ok, h.2, Res.bind_ok]
  refine Res.Sat.bind (h.upd _ _) fun st1 h1 => ?_
  refine Res.Sat.bind (h1.upd _ _) fun st2 h2 => ?_
  refine Res.Sat.bind (h2.wr _ _) fun st3 h3 => ?_
  rw [Res.sat_ok]
  refine ⟨?_, rfl⟩
  convert h3 using 1
  funext j
  simp only [mixKey, iniFunc1, Function.update_apply, Nat.cast_ofNat, if_neg n3]
  by_cases e : j = i
  · subst e; rw [if_pos rfl, if_pos rfl]
  · rw [if_neg e, if_neg e]
    by_cases e1 : j = i + 378
    · subst e1
      rw [if_pos rfl, if_neg (Ne.symm n3), if_pos rfl]
    · rw [if_neg e1, if_neg e1]
      by_cases e2 : j = i + 389
      · subst e2; rw [if_pos rfl]
      · rw [if_neg e2, if_neg e2]

theorem arrayRound2_holds {st : List W128} {s : Ring} (h : Holds st s) (i : ZMod 768) :
    (arrayRound2 768 378 11 (st, i.val)).Sat fun r =>
      Holds r.1 (mixOut i s) ∧ r.2 = (i + 1).val := by
  obtain ⟨n1, n2, n3⟩ := ahead_ne i
  unfold arrayRound2
  simp only [Res.monad_bind_eq]
  rw [show i.val + 378 + 11 = i.val + 389 by omega, val_ahead, val_ahead, val_behind, val_next]
  rw [h.2, Res.bind_ok, h.2, Res.bind_ok, h.2, Res.bind_ok]
  refine Res.Sat.bind (h.upd _ _) fun st1 h1 => ?_
  refine Res.Sat.bind (h1.upd _ _) fun st2 h2 => ?_
  refine Res.Sat.bind (h2.wr _ _) fun st3 h3 => ?_
  rw [Res.sat_ok]
  refine ⟨?_, rfl⟩
  convert h3 using 1
  funext j
  simp only [mixOut, iniFunc2, Function.update_apply, Nat.cast_ofNat, if_neg n3]
  by_cases e : j = i
  · subst e; rw [if_pos rfl, if_pos rfl]
  · rw [if_neg e, if_neg e]
    by_cases e1 : j = i + 378
    · subst e1
      rw [if_pos rfl, if_neg (Ne.symm n3), if_pos rfl]
    · rw [if_neg e1, if_neg e1]
      by_cases e2 : j = i + 389
      · subst e2; rw [if_pos rfl]
      · rw [if_neg e2, if_neg e2]

theorem fill_holds : Holds (List.replicate 192
    (⟨0x8b8b8b8b8b8b8b8b#64, 0x8b8b8b8b8b8b8b8b#64⟩ : W128)) fun _ => 0x8b8b8b8b#32 := by
  refine ⟨List.length_replicate, fun j => ?_⟩
  have hj := ZMod.val_lt j
  have e : rd64 (List.replicate 192 (⟨0x8b8b8b8b8b8b8b8b#64, 0x8b8b8b8b8b8b8b8b#64⟩ : W128))
      (j.val / 2) = .ok 0x8b8b8b8b8b8b8b8b#64 := by
    rw [rd64_of (w := ⟨0x8b8b8b8b8b8b8b8b#64, 0x8b8b8b8b8b8b8b8b#64⟩)
      (by rw [List.getElem?_replicate, if_pos (by omega)])]
    split <;> rfl
  rw [rd32_of e]
  split <;> rfl

theorem ring_state {w : ℕ → BitVec 64} {st1 : List W128} (h1 : st1.length = 192)
    (hw : ∀ i < 384, rd64 st1 i = .ok (w i)) :
    ((initialMask st1).bind fun st => (periodCertification st).bind fun st =>
      .ok (Dsfmt.mk st n64)).Sat fun d' => d'.idx = 382 ∧ d'.status = (open Classical in
        (List.range 191).map (fun i => (⟨put12 (w (2 * i)), put12 (w (2 * i + 1))⟩ : W128))
          ++ [if Certified ⟨w 382, w 383⟩ then ⟨w 382, w 383⟩ else ⟨w 382, w 383 ^^^ 1#64⟩]) := by
  refine Res.Sat.bind (initialMask_spec h1) fun st2 ⟨g1, g2, g3⟩ => ?_
  have hlung : st2[191]? = some ⟨w 382, w 383⟩ :=
    el_of_rd64 (i := 191) ((g3 382 le_rfl).trans (hw 382 (by omega)))
      ((g3 383 (by omega)).trans (hw 383 (by omega))) (by omega)
  refine Res.Sat.bind (periodCertification_spec g1 hlung) fun st3 ⟨k1, k2, k3, k4⟩ => ?_
  rw [Res.sat_ok]
  refine ⟨rfl, ?_⟩
  refine List.ext_getElem? fun i => ?_
  rcases Nat.lt_trichotomy i 191 with hi | hi | hi
  · rw [k2 i hi, List.getElem?_append_left (by simpa using hi), List.getElem?_map,
      List.getElem?_range hi]
    exact el_of_rd64 (g2 _ (by omega) _ (hw _ (by omega))) (g2 _ (by omega) _ (hw _ (by omega)))
      (by omega)
  · subst hi
    rw [List.getElem?_append_right (by simp)]
    by_cases hc : Certified ⟨w 382, w 383⟩
    · rw [k3 hc]; simp [hc]
    · rw [k4 hc]; simp [hc]
  · rw [List.getElem?_eq_none (show st3.length ≤ i by omega), List.getElem?_eq_none (by simp; omega)]

theorem natCast_val {t : ℕ} : ((t : ZMod 768)).val = t % 768 := ZMod.val_natCast 768 t

theorem first_round (len : ℕ) :
    let st := List.replicate 192 (⟨0x8b8b8b8b8b8b8b8b#64, 0x8b8b8b8b8b8b8b8b#64⟩ : W128)
    ((rd32 st 0).bind fun x => (rd32 st 378).bind fun y => (rd32 st 767).bind fun z =>
      (upd32 st 378 (· + iniFunc1 (x ^^^ y ^^^ z))).bind fun st =>
      (upd32 st 389 (· + (iniFunc1 (x ^^^ y ^^^ z) + BitVec.ofNat 32 len))).bind fun st =>
      wr32 st 0 (iniFunc1 (x ^^^ y ^^^ z) + BitVec.ofNat 32 len)).Sat fun st' =>
      Holds st' (mixKey 0 (BitVec.ofNat 32 len) fun _ => 0x8b8b8b8b#32) := by
  intro st
  have h : Holds st _ := fill_holds
  rw [show rd32 st 0 = .ok 0x8b8b8b8b#32 from h.2 0, Res.bind_ok,
    show rd32 st 378 = .ok 0x8b8b8b8b#32 from h.2 378, Res.bind_ok,
    show rd32 st 767 = .ok 0x8b8b8b8b#32 from h.2 767, Res.bind_ok]
  refine Res.Sat.bind (h.upd 378 _) fun st1 h1 => ?_
  refine Res.Sat.bind (h1.upd 389 _) fun st2 h2 => ?_
  refine (h2.wr 0 _).mono fun st3 h3 => ?_
  convert h3 using 1
  have n3 : ¬ (389 : ZMod 768) = 378 := by decide
  funext j
  simp only [mixKey, iniFunc1, Function.update_apply, zero_add, if_neg n3]
  by_cases e : j = 0
  · subst e; rw [if_pos rfl, if_pos rfl]
  · rw [if_neg e, if_neg e]
    by_cases e1 : j = 378
    · subst e1
      rw [if_pos rfl, if_neg (Ne.symm n3), if_pos rfl]
    · rw [if_neg e1, if_neg e1]

end Verif.Dsfmt
