import Verif.Lemmas.DsfmtDraw
import Verif.Lemmas.Draws
import Verif.Props.Random

/-! The first numbers drawn after seeding with a given number, in a form that the kernel can compute.
Used for concrete cases only. -/

namespace Verif.Known

open Spec.Mt
open Dsfmt (Build Win nextWord nextWord_pos)

/-- `f x`; the kernel computes `x` before it goes on. -/
def strict {β : Type} {n : ℕ} (x : BitVec n) (f : BitVec n → β) : β :=
  match x.toNat with
  | 0 => f 0#n
  | m + 1 => f (BitVec.ofNat n (m + 1))

theorem strict_eq {β : Type} {n : ℕ} (x : BitVec n) (f : BitVec n → β) : strict x f = f x := by
  have h : BitVec.ofNat n x.toNat = x := by simp
  unfold strict
  split
  · rename_i h0; rw [h0] at h; rw [h]
  · rename_i m hm; rw [hm] at h; rw [h]

/-- The list is a section of the sequence `f`, from `p` on. -/
def Tracks {α : Type} (f : ℕ → α) : ℕ → List α → Prop
  | _, [] => True
  | p, a :: l => a = f p ∧ Tracks f (p + 1) l

theorem Tracks.drop {α : Type} {f : ℕ → α} {p : ℕ} {l : List α} (h : Tracks f p l) (n : ℕ) :
    Tracks f (p + n) (l.drop n) := by
  induction n generalizing p l with
  | zero => exact h
  | succ n ih =>
    cases l with
    | nil => trivial
    | cons a l =>
      have := ih h.2
      rwa [Nat.add_right_comm, Nat.add_assoc] at this

theorem Tracks.take {α : Type} {f : ℕ → α} {p : ℕ} {l : List α} (h : Tracks f p l) (n : ℕ) :
    Tracks f p (l.take n) := by
  induction n generalizing p l with
  | zero => trivial
  | succ n ih =>
    cases l with
    | nil => trivial
    | cons a l => exact ⟨h.1, ih h.2⟩

theorem Tracks.congr {α β : Type} {f : ℕ → α} {g : ℕ → β} (e : α → β) {p : ℕ} {l : List α}
    (h : Tracks f p l) {n : ℕ} (hn : p + l.length ≤ n) (hg : ∀ i < n, e (f i) = g i) :
    Tracks g p (l.map e) := by
  induction l generalizing p with
  | nil => trivial
  | cons a l ih =>
    rw [List.length_cons] at hn
    exact ⟨by rw [h.1]; exact hg p (by omega), ih h.2 (by omega)⟩

def mtRun : ℕ → ℕ → BitVec 32 → List (BitVec 32)
  | 0, _, _ => []
  | n + 1, i, p =>
    p :: strict (1812433253#32 * (p ^^^ (p >>> 30)) + BitVec.ofNat 32 (i + 1)) (mtRun n (i + 1))

theorem mtRun_tracks (seed : BitVec 32) (n i : ℕ) :
    Tracks (mtInit seed) i (mtRun n i (mtInit seed i)) := by
  induction n generalizing i with
  | zero => trivial
  | succ n ih =>
    refine ⟨rfl, ?_⟩
    rw [strict_eq]
    exact ih (i + 1)

def packs : List (BitVec 32) → List W128
  | a :: b :: c :: d :: l =>
    strict (b ++ a : BitVec 64) fun x => strict (d ++ c : BitVec 64) fun y => ⟨x, y⟩ :: packs l
  | _ => []

theorem packs_tracks (seed : BitVec 32) (l : List (BitVec 32)) (i : ℕ)
    (h : Tracks (mtInit seed) (4 * i) l) :
    Tracks (fun k => (⟨seedWord seed (2 * k), seedWord seed (2 * k + 1)⟩ : W128)) i (packs l) := by
  induction l using packs.induct generalizing i with
  | case1 a b c d l ih =>
    obtain ⟨ha, hb, hc, hd, hl⟩ := h
    rw [packs, strict_eq, strict_eq]
    refine ⟨?_, ih (i + 1) hl⟩
    unfold seedWord
    rw [ha, hb, hc, hd]
    congr 3 <;> ring_nf
  | case2 l h1 =>
    rw [packs]
    · trivial
    · exact h1

def mask (w : W128) : W128 := ⟨put12 w.u0, put12 w.u1⟩

def strictW {β : Type} (w : W128) (f : W128 → β) : β :=
  strict w.u0 fun x => strict w.u1 fun y => f ⟨x, y⟩

theorem strictW_eq {β : Type} (w : W128) (f : W128 → β) : strictW w f = f w := by
  unfold strictW
  rw [strict_eq, strict_eq]

def outs : List W128 → List W128 → W128 → List (BitVec 64)
  | a :: as, b :: bs, l =>
    strictW (lungNext a b l) fun l => strictW (outNext a l) fun x => x.u0 :: x.u1 :: outs as bs l
  | _, _, _ => []

theorem outs_tracks {X L : ℕ → W128} (hX : DsfmtSeq X L) (as bs : List W128) (k : ℕ)
    (ha : Tracks X k as) (hb : Tracks X (k + 117) bs) :
    Tracks (word X) (2 * (k + 191)) (outs as bs (L k)) := by
  induction as generalizing bs k with
  | nil => trivial
  | cons a as ih =>
    cases bs with
    | nil => trivial
    | cons b bs =>
      rw [outs, strictW_eq, strictW_eq, ha.1, hb.1, ← hX.lung, ← hX.out]
      have h1 : (2 * (k + 191) + 1) / 2 = k + 191 := by omega
      have h2 : (2 * (k + 191)) / 2 = k + 191 := Nat.mul_div_cancel_left _ (by norm_num)
      refine ⟨?_, ?_, ?_⟩
      · unfold word; rw [if_pos (by omega), h2]
      · unfold word; rw [if_neg (by omega), h1]
      · have := ih bs (k + 1) ha.2 (by
          have := hb.2
          rwa [Nat.add_right_comm] at this)
        rwa [show 2 * (k + 1 + 191) = 2 * (k + 191) + 1 + 1 by ring] at this

instance (w : W128) : Decidable (Certified w) := by unfold Certified; infer_instance

/-- What the generator draws first, at most 148 words, from the words given by the seed. -/
def outsOf (w : List W128) : List (BitVec 64) :=
  match w.drop 191 with
  | l :: _ => strictW l fun l => outs ((w.take 191).map mask) (((w.take 191).map mask).drop 117)
      (if Certified l then l else ⟨l.u0, l.u1 ^^^ 1#64⟩)
  | [] => []

/-- What the generator draws first after seeding. -/
def seedOuts (seed : BitVec 32) : List (BitVec 64) := outsOf (packs (mtRun 768 0 seed))

theorem seedOuts_tracks (seed : BitVec 32) {X L : ℕ → W128} (hX : DsfmtSeq X L)
    (hw : Win X L 0 (seedState seed)) : Tracks (word X) 382 (seedOuts seed) := by
  unfold seedOuts outsOf
  have h0 := packs_tracks seed _ 0 (mtRun_tracks seed 768 0)
  have hm : mtInit seed 0 = seed := rfl
  rw [hm] at h0
  split
  · rename_i l tl hl
    have h191 := h0.drop 191
    rw [hl] at h191
    have hl0 := h191.1
    rw [strictW_eq]
    have hL : (if Certified l then l else ⟨l.u0, l.u1 ^^^ 1#64⟩) = L 0 := by
      have e := hw.lung
      unfold seedState at e
      rw [List.getElem?_append_right (by simp)] at e
      simp only [List.length_map, List.length_range, Nat.sub_self, List.getElem?_cons_zero,
        Option.some.injEq] at e
      rw [← e, hl0]
      congr
    rw [hL]
    have ht : Tracks X 0 (((packs (mtRun 768 0 seed)).take 191).map mask) := by
      refine (h0.take 191).congr mask (n := 191) (by simp) fun i hi => ?_
      have := hw.el i hi
      rw [Dsfmt.seedState_el seed hi, Option.some.injEq, Nat.zero_add] at this
      exact this
    exact outs_tracks hX _ _ 0 ht (ht.drop 117)
  · trivial

/-! ## Normal numbers that need no rejection loop -/

/-- The next `n` normal numbers are sums of uniform numbers made of the given words. -/
def quick : ℕ → List (BitVec 64) → Bool
  | 0, _ => true
  | n + 1, w :: l =>
    if w.toNat % 2 ^ 52 * 10000 < 8638 * 2 ^ 52 then
      match l with
      | _ :: _ :: _ :: l => quick n l
      | _ => false
    else if w.toNat % 2 ^ 52 * 10000 < 9745 * 2 ^ 52 then
      match l with
      | _ :: _ :: l => quick n l
      | _ => false
    else false
  | _ + 1, [] => false

/-- The generator is in a state in which the next words are those of `l`. -/
def Ahead (l : List (BitVec 64)) (d : Dsfmt) : Prop :=
  ∃ X L p, DsfmtSeq X L ∧ Pos X L p d ∧ (∀ n, Is12 (X n).u0 ∧ Is12 (X n).u1) ∧ Tracks (word X) p l

theorem ahead_seed (seed : BitVec 32) : Ahead (seedOuts seed) ⟨seedState seed, 382⟩ := by
  obtain ⟨X, L, hX, hw, hp, h12⟩ := Dsfmt.admissible_pos (Dsfmt.seed_admissible seed)
  exact ⟨X, L, 382, hX, hp, h12, seedOuts_tracks seed hX hw⟩

theorem Ahead.next {w : BitVec 64} {l : List (BitVec 64)} {d : Dsfmt} (h : Ahead (w :: l) d)
    (b : Build) : ∃ d', nextWord b d = .ok (w, d') ∧ Is12 w ∧ Ahead l d' := by
  obtain ⟨X, L, p, hX, hp, h12, hw, ht⟩ := h
  obtain ⟨⟨w', d'⟩, e, e1, e2, -⟩ := nextWord_pos hX b hp
  have e1 : w' = _ := e1
  refine ⟨d', by rw [e, e1, hw], ?_, X, L, p + 1, hX, e2, h12, ht⟩
  rw [hw]
  exact Dsfmt.word_is12 (k := 0) (fun n _ => h12 n) p (by omega)

theorem Ahead.unif01 {w : BitVec 64} {l : List (BitVec 64)} {s : Random} (h : Ahead (w :: l) s.dsfmt)
    (b : Build) : ∃ u d', s.unif01 b = .ok (u, { s with dsfmt := d' }) ∧ Ahead l d' ∧
      u = ((w.toNat % 2 ^ 52 : ℕ) : ℝ) / 2 ^ 52 := by
  obtain ⟨d', e, h12, ha⟩ := h.next b
  refine ⟨_, d', ?_, ha, rfl⟩
  unfold Random.unif01 Dsfmt.genrandCloseOpen Dsfmt.genrandClose1Open2
  simp only [Res.monad_bind_eq, e, Res.bind_ok, Dsfmt.f64Val_is12 h12, val12]
  norm_num

theorem Ahead.drawUint32 {w : BitVec 64} {l : List (BitVec 64)} {s : Random}
    (h : Ahead (w :: l) s.dsfmt) (b : Build) :
    ∃ d', s.drawUint32 b = .ok (((w &&& 0xffffffff#64).setWidth 32).setWidth 64,
      { s with dsfmt := d' }) ∧ Ahead l d' := by
  obtain ⟨d', e, h12, ha⟩ := h.next b
  refine ⟨d', ?_, ha⟩
  unfold Random.drawUint32 Dsfmt.genrandUint32
  simp only [Res.monad_bind_eq, e, Res.bind_ok]

theorem quick_spec {n : ℕ} {ws : List (BitVec 64)} (h : quick n ws = true) (b : Build) {s : Random}
    (hs : Ahead ws s.dsfmt) :
    ∃ l d', Spec.draws (Random.norm01 b) n s = .ok (l, { s with dsfmt := d' }) := by
  induction n generalizing ws s with
  | zero => exact ⟨[], s.dsfmt, rfl⟩
  | succ n ih =>
    cases ws with
    | nil => simp [quick] at h
    | cons w l =>
      obtain ⟨u1, d1, e1, h1, hu⟩ := hs.unif01 b
      unfold quick at h
      split_ifs at h with c1 c2
      · split at h
        · rename_i w2 w3 w4 l'
          obtain ⟨u2, d2, e2, h2, -⟩ := Ahead.unif01 (s := { s with dsfmt := d1 }) h1 b
          obtain ⟨u3, d3, e3, h3, -⟩ := Ahead.unif01 (s := { s with dsfmt := d2 }) h2 b
          obtain ⟨u4, d4, e4, h4, -⟩ := Ahead.unif01 (s := { s with dsfmt := d3 }) h3 b
          obtain ⟨xs, d', hl⟩ := ih h (s := { s with dsfmt := d4 }) h4
          have hc : u1 < 0.8638 := by
            have : ((w.toNat % 2 ^ 52 : ℕ) : ℝ) * 10000 < 8638 * 2 ^ 52 := by exact_mod_cast c1
            rw [hu, div_lt_iff₀ (by positivity)]; norm_num at this ⊢; linarith
          refine ⟨(2.0 * (u2 + u3 + u4) - 3.0) :: xs, d', ?_⟩
          have hn : Random.norm01 b s = .ok (2.0 * (u2 + u3 + u4) - 3.0, { s with dsfmt := d4 }) := by
            unfold Random.norm01 Random.norm01With
            simp only [Res.monad_bind_eq, e1, Res.bind_ok, if_pos hc, e2, e3, e4]
          unfold Spec.draws
          simp only [hn, Res.bind_ok, hl]
        · simp at h
      · split at h
        · rename_i w2 w3 l'
          obtain ⟨u2, d2, e2, h2, -⟩ := Ahead.unif01 (s := { s with dsfmt := d1 }) h1 b
          obtain ⟨u3, d3, e3, h3, -⟩ := Ahead.unif01 (s := { s with dsfmt := d2 }) h2 b
          obtain ⟨xs, d', hl⟩ := ih h (s := { s with dsfmt := d3 }) h3
          have hc : ¬ u1 < 0.8638 := by
            have : (8638 * 2 ^ 52 : ℝ) ≤ ((w.toNat % 2 ^ 52 : ℕ) : ℝ) * 10000 := by
              exact_mod_cast not_lt.1 c1
            rw [hu, not_lt, le_div_iff₀ (by positivity)]; norm_num at this ⊢; linarith
          have hc2 : u1 < 0.9745 := by
            have : ((w.toNat % 2 ^ 52 : ℕ) : ℝ) * 10000 < 9745 * 2 ^ 52 := by exact_mod_cast c2
            rw [hu, div_lt_iff₀ (by positivity)]; norm_num at this ⊢; linarith
          refine ⟨(1.5 * (u2 + u3 - 1.0)) :: xs, d', ?_⟩
          have hn : Random.norm01 b s = .ok (1.5 * (u2 + u3 - 1.0), { s with dsfmt := d3 }) := by
            unfold Random.norm01 Random.norm01With
            simp only [Res.monad_bind_eq, e1, Res.bind_ok, if_neg hc, if_pos hc2, e2, e3]
          unfold Spec.draws
          simp only [hn, Res.bind_ok, hl]
        · simp at h

/-- The words computed for seed 0. -/
theorem seedOuts_0 : (seedOuts 0).take 4 = [4607320143500780570#64, 4608142317466048832#64,
    4608529006460262309#64, 4608898915596565614#64] := by decide +kernel

end Verif.Known
