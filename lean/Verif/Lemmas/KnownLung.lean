import Verif.Lemmas.Known

/-! The lung word after the first renewal of a seeded generator, in a form that the kernel can
compute. Used for a concrete case only. -/

namespace Verif.Known

open Spec.Mt
open Dsfmt (Win)

/-- A part of the renewal. -/
def pass {β : Type} : List W128 → List W128 → W128 → (List W128 → W128 → β) → β
  | a :: as, b :: bs, l, f =>
    strictW (lungNext a b l) fun l => strictW (outNext a l) fun x =>
      pass as bs l fun ws l => f (x :: ws) l
  | _, _, l, f => f [] l

theorem pass_spec {X L : ℕ → W128} (hX : DsfmtSeq X L) {β : Type} (as bs : List W128) (k : ℕ)
    (f : List W128 → W128 → β) (ha : Tracks X k as) (hb : Tracks X (k + 117) bs)
    (hl : as.length ≤ bs.length) :
    ∃ ws, pass as bs (L k) f = f ws (L (k + as.length)) ∧ Tracks X (k + 191) ws ∧
      ws.length = as.length := by
  induction as generalizing bs k f with
  | nil => exact ⟨[], by simp [pass], trivial, rfl⟩
  | cons a as ih =>
    cases bs with
    | nil => simp at hl
    | cons b bs =>
      obtain ⟨ws, e, h1, h2⟩ := ih bs (k + 1) (fun ws l => f (X (k + 191) :: ws) l) ha.2 (by
        have := hb.2
        rwa [Nat.add_right_comm] at this) (by simpa using hl)
      refine ⟨X (k + 191) :: ws, ?_, ⟨rfl, ?_⟩, by simp [h2]⟩
      · rw [pass, strictW_eq, strictW_eq, ha.1, hb.1, ← hX.lung, ← hX.out, e, List.length_cons]
        congr 2
        omega
      · rwa [Nat.add_right_comm] at h1

/-- The lung word after the first renewal, from the words given by the seed. -/
def lungOf (w : List W128) : Option W128 :=
  match w.drop 191 with
  | l :: _ => strictW l fun l =>
    let as := (w.take 191).map mask
    pass (as.take 74) (as.drop 117) (if Certified l then l else ⟨l.u0, l.u1 ^^^ 1#64⟩) fun n1 l =>
    pass ((as.drop 74).take 74) n1 l fun n2 l =>
    pass (as.drop 148) n2 l fun _ l => some l
  | [] => none

/-- The lung word after the first renewal after seeding. -/
def seedLung (seed : BitVec 32) : Option W128 := lungOf (packs (mtRun 768 0 seed))

theorem mtRun_length (n i : ℕ) (p : BitVec 32) : (mtRun n i p).length = n := by
  induction n generalizing i p with
  | zero => rfl
  | succ n ih => rw [mtRun, List.length_cons, strict_eq, ih]

theorem packs_length (l : List (BitVec 32)) : (packs l).length = l.length / 4 := by
  induction l using packs.induct with
  | case1 a b c d l ih =>
    rw [packs, strict_eq, strict_eq, List.length_cons, ih]
    simp only [List.length_cons]
    omega
  | case2 l h1 =>
    rw [packs]
    · match l, h1 with
      | [], _ => rfl
      | [_], _ => simp
      | [_, _], _ => simp
      | [_, _, _], _ => simp
      | a :: b :: c :: d :: l, h1 => exact absurd rfl (h1 a b c d l)
    · exact h1

theorem seedLung_eq (seed : BitVec 32) {X L : ℕ → W128} (hX : DsfmtSeq X L)
    (hw : Win X L 0 (seedState seed)) : seedLung seed = some (L 191) := by
  unfold seedLung lungOf
  have h0 := packs_tracks seed _ 0 (mtRun_tracks seed 768 0)
  have hm : mtInit seed 0 = seed := rfl
  rw [hm] at h0
  have hlen : (packs (mtRun 768 0 seed)).length = 192 := by rw [packs_length, mtRun_length]
  split
  · rename_i l tl hl
    have h191 := h0.drop 191
    rw [hl] at h191
    have hl0 := h191.1
    rw [strictW_eq]
    have hL : (if Certified l then l else ⟨l.u0, l.u1 ^^^ 1#64⟩) = L 0 := by
      have e := hw.lung
      unfold seedState at e
      rw [List.getElem?_append_right (by simp)] at e
      simp only [List.length_map, List.length_range, Nat.sub_self, List.getElem?_cons_zero,
        Option.some.injEq] at e
      rw [← e, hl0]
      congr
    rw [hL]
    have ht : Tracks X 0 (((packs (mtRun 768 0 seed)).take 191).map mask) := by
      refine (h0.take 191).congr mask (n := 191) (by simp) fun i hi => ?_
      have := hw.el i hi
      rw [Dsfmt.seedState_el seed hi, Option.some.injEq, Nat.zero_add] at this
      exact this
    have hal : (((packs (mtRun 768 0 seed)).take 191).map mask).length = 191 := by simp [hlen]
    generalize ((packs (mtRun 768 0 seed)).take 191).map mask = as at ht hal
    simp only
    obtain ⟨n1, e1, t1, l1⟩ := pass_spec hX (as.take 74) (as.drop 117) 0
      (fun n1 l => pass ((as.drop 74).take 74) n1 l fun n2 l =>
        pass (as.drop 148) n2 l fun _ l => some l) (ht.take 74) (ht.drop 117) (by simp [hal])
    have a1 : (as.take 74).length = 74 := by simp [hal]
    obtain ⟨n2, e2, t2, l2⟩ := pass_spec hX ((as.drop 74).take 74) n1 74
      (fun n2 l => pass (as.drop 148) n2 l fun _ l => some l)
      (by have := (ht.drop 74).take 74; rwa [Nat.zero_add] at this)
      (by simpa using t1) (by simp [hal, l1])
    have a2 : ((as.drop 74).take 74).length = 74 := by simp [hal]
    obtain ⟨n3, e3, t3, l3⟩ := pass_spec hX (as.drop 148) n2 148 (fun _ l => some l)
      (by have := ht.drop 148; rwa [Nat.zero_add] at this)
      (by simpa using t2) (by simp [hal, l2])
    have a3 : (as.drop 148).length = 43 := by simp [hal]
    rw [e1, a1, e2, a2, e3, a3]
  · rename_i hl
    have := congrArg List.length hl
    simp [hlen] at this

/-- The lung word computed for seed 5. -/
theorem seedLung_5 : (seedLung 5).map (fun w => w.u0) = some 0x6c340c6c157372e7#64 := by
  decide +kernel

end Verif.Known
