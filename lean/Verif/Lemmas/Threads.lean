import Verif.Spec.Threads
import Verif.Lemmas.DsfmtSeq
import Verif.Lemmas.Outcome
import Mathlib.Data.List.Basic
import Mathlib.Data.List.Flatten

/-! Helper lemmas about threads that share a generator. -/

namespace Verif.Threads

open Dsfmt Spec.Mt

variable {σ : Type} {X L : ℕ → W128}

theorem run_append (b : Build) (c : ℕ → Client σ) (s1 s2 : List ℕ) (ts : ℕ → Thread σ) (d : Dsfmt) :
    run b c (s1 ++ s2) ts d = (run b c s1 ts d).bind fun r => run b c s2 r.1 r.2 := by
  induction s1 generalizing ts d with
  | nil => rfl
  | cons t s1 ih =>
    simp only [List.cons_append, run]
    rw [Res.bind_assoc]
    congr 1
    funext r
    exact ih _ _

theorem fed_done {c : Client σ} {s : σ} (h : c.done s = true) (ws : List (BitVec 64)) :
    fed c s ws = s ∧ taken c s ws = 0 := by
  cases ws <;> simp [fed, taken, h]

theorem section_succ (X : ℕ → W128) (p n : ℕ) :
    section_ X p (n + 1) = word X p :: section_ X (p + 1) n := by
  unfold section_
  rw [List.range_succ_eq_map, List.map_cons, List.map_map]
  congr 1
  apply List.map_congr_left
  intro i _
  simp only [Function.comp]
  congr 1
  omega

/-- The generator with the index taken back by one after a draw: it is inside the array. -/
theorem check_pos (hX : DsfmtSeq X L) (b : Build) {c : Client σ} {s : σ} (hd : c.done s = false)
    {p : ℕ} {d : Dsfmt} (h : Pos X L p d) :
    ∃ d', step b c ⟨.check, s⟩ d = .ok (⟨.load, s⟩, d') ∧ Pos X L p d' ∧ d'.idx < 382 := by
  obtain ⟨k, hw, hi, hp⟩ := pos_iff.1 h
  simp only [step, hd, Bool.false_eq_true, if_false]
  by_cases hc : n64 ≤ d.idx
  · rw [if_pos hc]
    have : d.idx = 382 := le_antisymm hi hc
    obtain ⟨d', e1, hw', hi'⟩ := genRandAll_win hX b hw
    rw [e1, Res.bind_ok]
    exact ⟨_, rfl, pos_iff.2 ⟨k + 191, hw', by simp, by simp; omega⟩, by simp⟩
  · rw [if_neg hc]
    exact ⟨d, rfl, h, not_le.1 hc⟩

theorem check_inside (b : Build) {c : Client σ} {s : σ} (hd : c.done s = false) {d : Dsfmt}
    (h : d.idx < 382) : step b c ⟨.check, s⟩ d = .ok (⟨.load, s⟩, d) := by
  simp only [step, hd, Bool.false_eq_true, if_false]
  rw [if_neg (show ¬ n64 ≤ d.idx from not_le.2 h)]

theorem check_done (b : Build) {c : Client σ} {s : σ} (hd : c.done s = true) (d : Dsfmt) :
    step b c ⟨.check, s⟩ d = .ok (⟨.check, s⟩, d) := by
  simp [step, hd]

theorem pos_bump {p : ℕ} {d : Dsfmt} (h : Pos X L p d) (hi : d.idx < 382) :
    rd64 d.status d.idx = .ok (word X p) ∧ Pos X L (p + 1) { d with idx := d.idx + 1 } := by
  obtain ⟨k, hw, _, hp⟩ := pos_iff.1 h
  have e : rd d.status (d.idx / 2) = .ok (X (p / 2)) := by
    rw [rd_eq_ok, hw.el _ (by omega), show k + d.idx / 2 = p / 2 by omega]
  constructor
  · unfold rd64
    simp only [Res.monad_bind_eq, e, Res.bind_ok]
    unfold word
    rw [show p % 2 = d.idx % 2 by omega]
  · exact pos_iff.2 ⟨k, hw, by show d.idx + 1 ≤ 382; omega, by
      show p + 1 = 2 * k + (d.idx + 1); omega⟩

/-- The whole system is at rest: no thread is inside a draw. -/
def Rest (ts : ℕ → Thread σ) (s : ℕ → σ) : Prop := ∀ t, ts t = ⟨.check, s t⟩

theorem upd_self (ts : ℕ → Thread σ) (t : ℕ) (x : Thread σ) : Function.update ts t x t = x :=
  Function.update_self ..

/-- Four turns of one thread: a draw. -/
theorem draw_alone (hX : DsfmtSeq X L) (b : Build) (c : ℕ → Client σ) {ts : ℕ → Thread σ}
    {s : ℕ → σ} (hr : Rest ts s) {p : ℕ} {d : Dsfmt} (h : Pos X L p d) (t : ℕ)
    (hd : (c t).done (s t) = false) :
    (run b c [t, t, t, t] ts d).Sat fun r =>
      Rest r.1 (Function.update s t ((c t).next (s t) (word X p))) ∧ Pos X L (p + 1) r.2 := by
  obtain ⟨d', e, h', hi⟩ := check_pos hX b hd h
  obtain ⟨e2, h2⟩ := pos_bump h' hi
  simp only [run, hr t, e, Res.bind_ok, upd_self]
  simp only [step, Res.bind_ok, e2]
  rw [Res.sat_ok]
  refine ⟨fun u => ?_, h2⟩
  by_cases hu : u = t
  · subst hu; simp
  · simp [Function.update_of_ne hu, hr u]

/-- Draws that do not need a renewal. -/
theorem draws_inside (b : Build) (c : ℕ → Client σ) (t : ℕ) (hd : ∀ x, (c t).done x = false) (n : ℕ)
    {ts : ℕ → Thread σ} {s : ℕ → σ} (hr : Rest ts s) {d : Dsfmt} (hl : d.status.length = 192)
    (hi : d.idx + n ≤ 382) :
    ∃ ts' y, run b c (List.replicate (4 * n) t) ts d = .ok (ts', { d with idx := d.idx + n }) ∧
      Rest ts' (Function.update s t y) := by
  induction n generalizing ts s d with
  | zero =>
    refine ⟨ts, s t, rfl, ?_⟩
    rwa [Function.update_eq_self]
  | succ n ih =>
    obtain ⟨w, hw⟩ : ∃ w, rd64 d.status d.idx = .ok w := by
      unfold rd64
      rw [rd_ok (by omega)]
      exact ⟨_, rfl⟩
    rw [show 4 * (n + 1) = 4 + 4 * n by omega, List.replicate_add, run_append]
    have e : run b c (List.replicate 4 t) ts d
        = .ok (Function.update ts t ⟨.check, (c t).next (s t) w⟩, { d with idx := d.idx + 1 }) := by
      show run b c [t, t, t, t] ts d = _
      simp only [run, hr t, check_inside b (hd (s t)) (show d.idx < 382 by omega), Res.bind_ok,
        upd_self]
      simp only [step, Res.bind_ok, hw, Function.update_idem]
    rw [e, Res.bind_ok]
    obtain ⟨ts', y, e', h'⟩ := ih (ts := Function.update ts t ⟨.check, (c t).next (s t) w⟩)
      (s := Function.update s t ((c t).next (s t) w)) (d := { d with idx := d.idx + 1 })
      (fun u => by
        by_cases hu : u = t
        · subst hu; simp
        · simp [Function.update_of_ne hu, hr u]) hl (by show d.idx + 1 + n ≤ 382; omega)
    refine ⟨ts', y, ?_, ?_⟩
    · rw [e']
      congr 3
      show d.idx + 1 + n = d.idx + (n + 1)
      omega
    · rwa [Function.update_idem] at h'

/-- Turns of a thread whose call is over change nothing. -/
theorem idle (b : Build) (c : ℕ → Client σ) {ts : ℕ → Thread σ} {s : ℕ → σ} (hr : Rest ts s)
    (d : Dsfmt) (n t : ℕ) (hd : (c t).done (s t) = true) :
    run b c (List.replicate n t) ts d = .ok (ts, d) := by
  induction n with
  | zero => rfl
  | succ n ih =>
    rw [List.replicate_succ, run, hr t, check_done b hd, Res.bind_ok, ← hr t,
      Function.update_eq_self]
    exact ih

theorem run_cons_idle (b : Build) (c : ℕ → Client σ) {ts : ℕ → Thread σ} {d : Dsfmt} {t : ℕ} {x : σ}
    (hr : ts t = ⟨.check, x⟩) (hd : (c t).done x = true) (l : List ℕ) :
    run b c (t :: l) ts d = run b c l ts d := by
  rw [run, hr, check_done b hd, Res.bind_ok, ← hr, Function.update_eq_self]

theorem run_filter_idle (b : Build) (c : ℕ → Client σ) {t : ℕ} {x : σ} (hd : (c t).done x = true)
    (l : List ℕ) {ts : ℕ → Thread σ} {d : Dsfmt} (hr : ts t = ⟨.check, x⟩) :
    run b c l ts d = run b c (l.filter (· ≠ t)) ts d := by
  induction l generalizing ts d with
  | nil => rfl
  | cons u l ih =>
    by_cases hu : u = t
    · subst hu
      rw [run_cons_idle b c hr hd, ih hr, List.filter_cons_of_neg (by simp)]
    · rw [List.filter_cons_of_pos (by simpa using hu), run, run]
      congr 1
      funext r
      exact ih (by rw [Function.update_of_ne (Ne.symm hu), hr])

/-- Four turns each of two threads, alternating. -/
theorem draw_lockstep (hX : DsfmtSeq X L) (b : Build) (c : ℕ → Client σ) {ts : ℕ → Thread σ}
    {s : ℕ → σ} (hr : Rest ts s) {p : ℕ} {d : Dsfmt} (h : Pos X L p d)
    (hd0 : (c 0).done (s 0) = false) (hd1 : (c 1).done (s 1) = false) :
    (run b c [0, 1, 0, 1, 0, 1, 0, 1] ts d).Sat fun r =>
      Rest r.1 (Function.update (Function.update s 0 ((c 0).next (s 0) (word X p))) 1
        ((c 1).next (s 1) (word X p))) ∧ Pos X L (p + 1) r.2 := by
  obtain ⟨d', e, h', hi⟩ := check_pos hX b hd0 h
  obtain ⟨e2, h2⟩ := pos_bump h' hi
  have n01 : (0 : ℕ) ≠ 1 := by omega
  have n10 : (1 : ℕ) ≠ 0 := by omega
  simp only [run, hr 0, hr 1, e, Res.bind_ok, upd_self, Function.update_of_ne n10,
    Function.update_of_ne n01, check_inside b hd1 hi]
  simp only [step, Res.bind_ok, upd_self, Function.update_of_ne n10, Function.update_of_ne n01, e2]
  rw [Res.sat_ok]
  refine ⟨fun u => ?_, h2⟩
  by_cases h1 : u = 1
  · subst h1; simp
  · by_cases h0 : u = 0
    · subst h0; simp
    · simp [Function.update_of_ne h1, Function.update_of_ne h0, hr u]

end Verif.Threads
