import Verif.Model.EclipseFault
import Verif.Lemmas.Loop
import Verif.Lemmas.Outcome
import Mathlib.Tactic.Linarith

/-!
# Going through the faces of a fault
-/

namespace Verif

/-- The integers from `a` to `b`. -/
def upTo (a b : ℤ) : List ℤ := (List.range (b - a + 1).toNat).map fun n : ℕ => a + (n : ℤ)

theorem upTo_empty {a b : ℤ} (h : b < a) : upTo a b = [] := by
  unfold upTo
  rw [show (b - a + 1).toNat = 0 by omega]
  rfl

theorem upTo_cons {a b : ℤ} (h : a ≤ b) : upTo a b = a :: upTo (a + 1) b := by
  unfold upTo
  rw [show (b - a + 1).toNat = (b - (a + 1) + 1).toNat + 1 by omega, List.range_succ_eq_map,
    List.map_cons, List.map_map]
  congr 1
  · simp
  · refine List.map_congr_left fun n _ => ?_
    simp only [Function.comp_apply, Nat.succ_eq_add_one]
    push_cast
    ring

theorem mem_upTo {a b x : ℤ} : x ∈ upTo a b ↔ a ≤ x ∧ x ≤ b := by
  unfold upTo
  rw [List.mem_map]
  constructor
  · rintro ⟨n, hn, rfl⟩
    rw [List.mem_range] at hn
    omega
  · rintro ⟨h1, h2⟩
    exact ⟨(x - a).toNat, by rw [List.mem_range]; omega, by omega⟩

theorem upTo_sorted (a b : ℤ) : (upTo a b).Pairwise (· < ·) := by
  unfold upTo
  refine List.Pairwise.map _ (fun m n h => ?_) List.pairwise_lt_range
  omega

namespace FaceIndexer

/-- The loop from a state. -/
noncomputable abbrev run (it : FaceIndexer) (acc : List CellFace) :
    Res (List CellFace × FaceIndexer × List CellFace) := untilLoop visitStep (it, acc)

theorem run_nil (i j k : ℤ) (acc : List CellFace) :
    run ⟨[], i, j, k⟩ acc = .ok (acc, ⟨[], i, j, k⟩, acc) := by
  unfold run
  rw [untilLoop_unfold]
  rfl

theorem run_cons (s : Segment) (ss : List Segment) (i j k : ℤ) (acc : List CellFace) :
    run ⟨s :: ss, i, j, k⟩ acc = (next ⟨s :: ss, i, j, k⟩).bind fun it =>
      run it (acc ++ [⟨i, j, k, s.face⟩]) := by
  unfold run
  rw [untilLoop_unfold]
  have e : visitStep (⟨s :: ss, i, j, k⟩, acc) = (next ⟨s :: ss, i, j, k⟩).bind fun it =>
      .ok (none, it, acc ++ [⟨i, j, k, s.face⟩]) := rfl
  rw [e]
  cases next ⟨s :: ss, i, j, k⟩ <;> rfl

theorem next_i {s : Segment} (ss : List Segment) {i : ℤ} (j k : ℤ) (h : i ≠ s.iTo) :
    next ⟨s :: ss, i, j, k⟩ = (succInt32 i).bind fun i => .ok ⟨s :: ss, i, j, k⟩ := by
  unfold next
  dsimp only
  rw [if_neg h]
  rfl

theorem next_j {s : Segment} (ss : List Segment) {j : ℤ} (k : ℤ) (h : j ≠ s.jTo) :
    next ⟨s :: ss, s.iTo, j, k⟩ = (succInt32 j).bind fun j => .ok ⟨s :: ss, s.iFrom, j, k⟩ := by
  unfold next
  dsimp only
  rw [if_pos rfl, if_neg h]
  rfl

theorem next_k {s : Segment} (ss : List Segment) {k : ℤ} (h : k ≠ s.kTo) :
    next ⟨s :: ss, s.iTo, s.jTo, k⟩ =
      (succInt32 k).bind fun k => .ok ⟨s :: ss, s.iFrom, s.jFrom, k⟩ := by
  unfold next
  dsimp only
  rw [if_pos rfl, if_pos rfl, if_neg h]
  rfl

theorem row_aux (s : Segment) (ss : List Segment) (hi : s.iTo < 2 ^ 31) (j k : ℤ) (n : ℕ) :
    ∀ i acc, s.iTo - i = n → run ⟨s :: ss, i, j, k⟩ acc =
      (next ⟨s :: ss, s.iTo, j, k⟩).bind fun it =>
        run it (acc ++ (upTo i s.iTo).map fun i => ⟨i, j, k, s.face⟩) := by
  induction n with
  | zero =>
    intro i acc hn
    obtain rfl : i = s.iTo := by push_cast at hn; omega
    rw [run_cons, upTo_cons le_rfl, upTo_empty (by omega)]
    rfl
  | succ n ih =>
    intro i acc hn
    push_cast at hn
    rw [run_cons, next_i ss j k (by omega), succInt32, if_pos (by omega), Res.bind_ok, Res.bind_ok,
      ih (i + 1) _ (by omega), upTo_cons (by omega : i ≤ s.iTo)]
    simp

/-- A row from `i` on. -/
theorem row (s : Segment) (ss : List Segment) (hi : s.iTo < 2 ^ 31) {i : ℤ} (h : i ≤ s.iTo)
    (j k : ℤ) (acc : List CellFace) : run ⟨s :: ss, i, j, k⟩ acc =
      (next ⟨s :: ss, s.iTo, j, k⟩).bind fun it =>
        run it (acc ++ (upTo i s.iTo).map fun i => ⟨i, j, k, s.face⟩) :=
  row_aux s ss hi j k (s.iTo - i).toNat i acc (by omega)

theorem row_ub_aux (s : Segment) (ss : List Segment) (j k : ℤ) (n : ℕ) :
    ∀ i acc, s.iTo < i → 2 ^ 31 - 1 - i ≤ n → run ⟨s :: ss, i, j, k⟩ acc = .ub "signed overflow" := by
  induction n with
  | zero =>
    intro i acc h hn
    rw [run_cons, next_i ss j k (by omega), succInt32, if_neg (by push_cast at hn; omega)]
    rfl
  | succ n ih =>
    intro i acc h hn
    rw [run_cons, next_i ss j k (by omega), succInt32]
    by_cases hc : i + 1 < 2 ^ 31
    · rw [if_pos hc, Res.bind_ok, Res.bind_ok, ih _ _ (by omega) (by push_cast at hn; omega)]
    · rw [if_neg hc]
      rfl

theorem row_ub (s : Segment) (ss : List Segment) {i : ℤ} (h : s.iTo < i) (j k : ℤ)
    (acc : List CellFace) : run ⟨s :: ss, i, j, k⟩ acc = .ub "signed overflow" :=
  row_ub_aux s ss j k (2 ^ 31 - 1 - i).toNat i acc h (by omega)

theorem plane_aux (s : Segment) (ss : List Segment) (hi : s.iTo < 2 ^ 31) (hj : s.jTo < 2 ^ 31)
    (h : s.iFrom ≤ s.iTo) (k : ℤ) (n : ℕ) :
    ∀ j acc, s.jTo - j = n → run ⟨s :: ss, s.iFrom, j, k⟩ acc =
      (next ⟨s :: ss, s.iTo, s.jTo, k⟩).bind fun it =>
        run it (acc ++ (upTo j s.jTo).flatMap fun j =>
          (upTo s.iFrom s.iTo).map fun i => ⟨i, j, k, s.face⟩) := by
  induction n with
  | zero =>
    intro j acc hn
    obtain rfl : j = s.jTo := by push_cast at hn; omega
    rw [row s ss hi h, upTo_cons (le_refl s.jTo), upTo_empty (by omega : s.jTo < s.jTo + 1)]
    simp
  | succ n ih =>
    intro j acc hn
    push_cast at hn
    rw [row s ss hi h, next_j ss k (by omega), succInt32, if_pos (by omega), Res.bind_ok,
      Res.bind_ok, ih (j + 1) _ (by omega), upTo_cons (by omega : j ≤ s.jTo)]
    simp

/-- A layer from the row `j` on. -/
theorem plane (s : Segment) (ss : List Segment) (hi : s.iTo < 2 ^ 31) (hj : s.jTo < 2 ^ 31)
    (h : s.iFrom ≤ s.iTo) {j : ℤ} (h' : j ≤ s.jTo) (k : ℤ) (acc : List CellFace) :
    run ⟨s :: ss, s.iFrom, j, k⟩ acc =
      (next ⟨s :: ss, s.iTo, s.jTo, k⟩).bind fun it =>
        run it (acc ++ (upTo j s.jTo).flatMap fun j =>
          (upTo s.iFrom s.iTo).map fun i => ⟨i, j, k, s.face⟩) :=
  plane_aux s ss hi hj h k (s.jTo - j).toNat j acc (by omega)

theorem plane_ub_aux (s : Segment) (ss : List Segment) (hi : s.iTo < 2 ^ 31)
    (h' : s.iFrom ≤ s.iTo) (k : ℤ) (n : ℕ) : ∀ j acc, s.jTo < j → 2 ^ 31 - 1 - j ≤ n →
      run ⟨s :: ss, s.iFrom, j, k⟩ acc = .ub "signed overflow" := by
  induction n with
  | zero =>
    intro j acc h hn
    rw [row s ss hi h', next_j ss k (by omega), succInt32, if_neg (by push_cast at hn; omega)]
    rfl
  | succ n ih =>
    intro j acc h hn
    rw [row s ss hi h', next_j ss k (by omega), succInt32]
    by_cases hc : j + 1 < 2 ^ 31
    · rw [if_pos hc, Res.bind_ok, Res.bind_ok, ih _ _ (by omega) (by push_cast at hn; omega)]
    · rw [if_neg hc]
      rfl

/-- The state after the last cell of a segment. -/
def after (s : Segment) : List Segment → FaceIndexer
  | [] => ⟨[], s.iTo, s.jTo, s.kTo⟩
  | s' :: ss' => start s' ss'

theorem next_last (s : Segment) (ss : List Segment) :
    next ⟨s :: ss, s.iTo, s.jTo, s.kTo⟩ = .ok (after s ss) := by
  unfold next
  dsimp only
  rw [if_pos rfl, if_pos rfl, if_pos rfl]
  cases ss <;> rfl

/-- The faces of a segment in the order of the program. -/
def box (s : Segment) : List CellFace := (upTo s.kFrom s.kTo).flatMap fun k =>
  (upTo s.jFrom s.jTo).flatMap fun j => (upTo s.iFrom s.iTo).map fun i => ⟨i, j, k, s.face⟩

theorem box_aux (s : Segment) (ss : List Segment) (hi : s.iTo < 2 ^ 31) (hj : s.jTo < 2 ^ 31)
    (hk : s.kTo < 2 ^ 31) (h : s.iFrom ≤ s.iTo) (h' : s.jFrom ≤ s.jTo) (n : ℕ) :
    ∀ k acc, s.kTo - k = n → run ⟨s :: ss, s.iFrom, s.jFrom, k⟩ acc =
        run (after s ss) (acc ++ (upTo k s.kTo).flatMap fun k => (upTo s.jFrom s.jTo).flatMap fun j =>
          (upTo s.iFrom s.iTo).map fun i => ⟨i, j, k, s.face⟩) := by
  induction n with
  | zero =>
    intro k acc hn
    obtain rfl : k = s.kTo := by push_cast at hn; omega
    rw [plane s ss hi hj h h', next_last, Res.bind_ok, upTo_cons (le_refl s.kTo),
      upTo_empty (by omega : s.kTo < s.kTo + 1)]
    simp
  | succ n ih =>
    intro k acc hn
    push_cast at hn
    rw [plane s ss hi hj h h', next_k ss (by omega), succInt32, if_pos (by omega), Res.bind_ok,
      Res.bind_ok, ih (k + 1) _ (by omega), upTo_cons (by omega : k ≤ s.kTo)]
    simp

theorem box_run (s : Segment) (ss : List Segment) (hi : s.iTo < 2 ^ 31) (hj : s.jTo < 2 ^ 31)
    (hk : s.kTo < 2 ^ 31) (h : s.iFrom ≤ s.iTo) (h' : s.jFrom ≤ s.jTo) (h'' : s.kFrom ≤ s.kTo)
    (acc : List CellFace) : run (start s ss) acc = run (after s ss) (acc ++ box s) :=
  box_aux s ss hi hj hk h h' (s.kTo - s.kFrom).toNat s.kFrom acc (by omega)

theorem box_ub_aux (s : Segment) (ss : List Segment) (hi : s.iTo < 2 ^ 31) (hj : s.jTo < 2 ^ 31)
    (h : s.iFrom ≤ s.iTo) (h' : s.jFrom ≤ s.jTo) (n : ℕ) : ∀ k acc, s.kTo < k → 2 ^ 31 - 1 - k ≤ n →
      run ⟨s :: ss, s.iFrom, s.jFrom, k⟩ acc = .ub "signed overflow" := by
  induction n with
  | zero =>
    intro k acc hk hn
    rw [plane s ss hi hj h h', next_k ss (by omega), succInt32, if_neg (by push_cast at hn; omega)]
    rfl
  | succ n ih =>
    intro k acc hk hn
    rw [plane s ss hi hj h h', next_k ss (by omega), succInt32]
    by_cases hc : k + 1 < 2 ^ 31
    · rw [if_pos hc, Res.bind_ok, Res.bind_ok, ih _ _ (by omega) (by push_cast at hn; omega)]
    · rw [if_neg hc]
      rfl

/-- Numbers of cells that an `int` can hold. -/
def FitsInt (s : Segment) : Prop := s.iTo < 2 ^ 31 ∧ s.jTo < 2 ^ 31 ∧ s.kTo < 2 ^ 31

/-- From the first cell to the last one. -/
def Forward (s : Segment) : Prop := s.iFrom ≤ s.iTo ∧ s.jFrom ≤ s.jTo ∧ s.kFrom ≤ s.kTo

theorem start_ub (s : Segment) (ss : List Segment) (hs : FitsInt s) (h : ¬ Forward s)
    (acc : List CellFace) : run (start s ss) acc = .ub "signed overflow" := by
  obtain ⟨hi, hj, hk⟩ := hs
  by_cases h1 : s.iFrom ≤ s.iTo
  · by_cases h2 : s.jFrom ≤ s.jTo
    · have h3 : s.kTo < s.kFrom := by
        by_contra hc
        exact h ⟨h1, h2, not_lt.1 hc⟩
      exact box_ub_aux s ss hi hj h1 h2 (2 ^ 31 - 1 - s.kFrom).toNat s.kFrom acc h3 (by omega)
    · exact plane_ub_aux s ss hi h1 s.kFrom (2 ^ 31 - 1 - s.jFrom).toNat s.jFrom acc
        (not_le.1 h2) (by omega)
  · exact row_ub s ss (not_le.1 h1) _ _ acc

/-- All segments. -/
theorem run_start (ss : List Segment) : ∀ s acc, (∀ x ∈ s :: ss, FitsInt x ∧ Forward x) →
    ∃ it, run (start s ss) acc =
      .ok (acc ++ (s :: ss).flatMap box, it, acc ++ (s :: ss).flatMap box) := by
  induction ss with
  | nil =>
    intro s acc h
    obtain ⟨⟨a, b, c⟩, d, e, f⟩ := h s (by simp)
    rw [box_run s [] a b c d e f, after, run_nil]
    exact ⟨⟨[], s.iTo, s.jTo, s.kTo⟩, by simp⟩
  | cons s' ss ih =>
    intro s acc h
    obtain ⟨⟨a, b, c⟩, d, e, f⟩ := h s (by simp)
    rw [box_run s _ a b c d e f, after]
    obtain ⟨it, hit⟩ := ih s' (acc ++ box s) fun x hx => h x (by simp at hx ⊢; tauto)
    refine ⟨it, ?_⟩
    rw [hit]
    simp

theorem run_start_ub (pre : List Segment) : ∀ s acc bad post, (∀ x ∈ s :: pre, FitsInt x ∧ Forward x) →
    FitsInt bad → ¬ Forward bad → run (start s (pre ++ bad :: post)) acc = .ub "signed overflow" := by
  induction pre with
  | nil =>
    intro s acc bad post h hb hf
    obtain ⟨⟨a, b, c⟩, d, e, f⟩ := h s (by simp)
    rw [List.nil_append, box_run s _ a b c d e f, after]
    exact start_ub bad post hb hf _
  | cons s' ss ih =>
    intro s acc bad post h hb hf
    obtain ⟨⟨a, b, c⟩, d, e, f⟩ := h s (by simp)
    rw [List.cons_append, box_run s _ a b c d e f, after]
    exact ih s' _ bad post (fun x hx => h x (by simp at hx ⊢; tauto)) hb hf

end FaceIndexer
end Verif
