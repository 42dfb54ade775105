import Verif.Lemmas.FaceIndexer
import Mathlib.Data.Real.Basic
import Mathlib.Tactic.NormNum

/-!
# The faces of a fault, and where segments cross (C138)
-/

namespace Verif
open FaceIndexer

/-- The cells of a segment are those with numbers between its ends, and all have its face. -/
def Segment.Has (s : Segment) (c : CellFace) : Prop :=
  (s.iFrom ≤ c.i ∧ c.i ≤ s.iTo) ∧ (s.jFrom ≤ c.j ∧ c.j ≤ s.jTo) ∧
    (s.kFrom ≤ c.k ∧ c.k ≤ s.kTo) ∧ c.face = s.face

/-- The first number changes fastest, then the second one. -/
def CellFace.Before (c d : CellFace) : Prop :=
  c.k < d.k ∨ (c.k = d.k ∧ (c.j < d.j ∨ (c.j = d.j ∧ c.i < d.i)))

theorem mem_box (s : Segment) (c : CellFace) : c ∈ box s ↔ s.Has c := by
  unfold box Segment.Has
  simp only [List.mem_flatMap, List.mem_map, mem_upTo]
  constructor
  · rintro ⟨k, hk, j, hj, i, hi, rfl⟩
    exact ⟨hi, hj, hk, rfl⟩
  · rintro ⟨hi, hj, hk, hf⟩
    refine ⟨c.k, hk, c.j, hj, c.i, hi, ?_⟩
    rw [← hf]

theorem box_sorted (s : Segment) : (box s).Pairwise CellFace.Before := by
  unfold box
  rw [List.pairwise_flatMap]
  refine ⟨fun k _ => ?_, (upTo_sorted s.kFrom s.kTo).imp ?_⟩
  · rw [List.pairwise_flatMap]
    refine ⟨fun j _ => ?_, (upTo_sorted s.jFrom s.jTo).imp ?_⟩
    · exact List.Pairwise.map _ (fun a b h => Or.inr ⟨rfl, Or.inr ⟨rfl, h⟩⟩)
        (upTo_sorted s.iFrom s.iTo)
    · intro a b hab x hx y hy
      rw [List.mem_map] at hx hy
      obtain ⟨_, -, rfl⟩ := hx
      obtain ⟨_, -, rfl⟩ := hy
      exact Or.inr ⟨rfl, Or.inl hab⟩
  · intro a b hab x hx y hy
    simp only [List.mem_flatMap, List.mem_map] at hx hy
    obtain ⟨_, -, _, -, rfl⟩ := hx
    obtain ⟨_, -, _, -, rfl⟩ := hy
    exact Or.inl hab

/-- **C138, going through a fault.** If a fault has segments, and none of them is reversed, the faces
are those of the segments in their order. Each segment gives each of its cells once, the first number
changing fastest. -/
theorem fault_faces (f : EclipseFault) (hne : f.segments ≠ [])
    (h : ∀ s ∈ f.segments, FitsInt s ∧ Forward s) :
    ∃ ls : List (List CellFace), visit f = .ok ls.flatten ∧
      List.Forall₂ (fun s l => (∀ c, c ∈ l ↔ s.Has c) ∧ l.Pairwise CellFace.Before ∧ l.Nodup)
        f.segments ls := by
  refine ⟨f.segments.map box, ?_, ?_⟩
  · unfold visit create
    cases e : f.segments with
    | nil => exact absurd e hne
    | cons s ss =>
      obtain ⟨it, hit⟩ := run_start ss s [] (fun x hx => h x (e ▸ hx))
      unfold run at hit
      simp only [Res.monad_bind_eq, Res.bind_ok]
      rw [hit]
      simp only [Res.bind_ok, List.nil_append, List.flatMap]
  · rw [List.forall₂_map_right_iff, List.forall₂_same]
    intro s _
    refine ⟨mem_box s, box_sorted s, (box_sorted s).imp ?_⟩
    rintro a b hab rfl
    rcases hab with h1 | ⟨-, h1 | ⟨-, h1⟩⟩ <;> exact lt_irrefl _ h1

/-- **C138, faults that cannot be gone through.** A fault without segments has no first face. One that
has a reversed segment is not finished: a number of a cell grows until it overflows. -/
theorem fault_faces_violation :
    (∀ name, visit ⟨name, []⟩ = .ub "iterator at the end") ∧
    ∀ name pre bad post, (∀ s ∈ pre, FitsInt s ∧ Forward s) → FitsInt bad → ¬ Forward bad →
      visit ⟨name, pre ++ bad :: post⟩ = .ub "signed overflow" := by
  refine ⟨fun _ => rfl, fun name pre bad post h hb hf => ?_⟩
  cases pre with
  | nil =>
    have := start_ub bad post hb hf []
    unfold run at this
    unfold visit create
    simp only [List.nil_append, Res.monad_bind_eq, Res.bind_ok]
    rw [this]
    rfl
  | cons s pre =>
    have := run_start_ub pre s [] bad post h hb hf
    unfold run at this
    unfold visit create
    simp only [List.cons_append, Res.monad_bind_eq, Res.bind_ok]
    rw [this]
    rfl

/-- The line of an upright segment on the map: for faces in the first direction the side of the cells
at their number or, for the face after the cell, at the next one. -/
def Segment.line (s : Segment) : Set (ℝ × ℝ) :=
  match s.face with
  | .PosX => {p | p.1 = s.iFrom + 1 ∧ (s.jFrom : ℝ) ≤ p.2 ∧ p.2 ≤ s.jTo + 1}
  | .NegX => {p | p.1 = s.iFrom ∧ (s.jFrom : ℝ) ≤ p.2 ∧ p.2 ≤ s.jTo + 1}
  | .PosY => {p | p.2 = s.jFrom + 1 ∧ (s.iFrom : ℝ) ≤ p.1 ∧ p.1 ≤ s.iTo + 1}
  | .NegY => {p | p.2 = s.jFrom ∧ (s.iFrom : ℝ) ≤ p.1 ∧ p.1 ≤ s.iTo + 1}
  | _ => ∅

/-- The faces of the segment lie in one plane, which is upright. -/
def Segment.Upright (s : Segment) : Prop :=
  match s.face.direction with
  | .X => s.iFrom = s.iTo ∧ s.jFrom ≤ s.jTo
  | .Y => s.jFrom = s.jTo ∧ s.iFrom ≤ s.iTo
  | .Z => False

/-- The two coordinates of a segment in the first direction. -/
theorem upright_x {s : Segment} (h : s.Upright) (hd : s.face.direction = .X) :
    ∃ c : ℤ, s.lower = (c, s.jFrom) ∧ s.upper = (c, s.jTo + 1) ∧ s.jFrom ≤ s.jTo ∧
      (s.face = .PosX ∨ s.face = .NegX) ∧
      s.line = {p : ℝ × ℝ | p.1 = (c : ℝ) ∧ (s.jFrom : ℝ) ≤ p.2 ∧ p.2 ≤ (s.jTo : ℝ) + 1} := by
  obtain ⟨i1, i2, j1, j2, k1, k2, f⟩ := s
  cases f <;> first | (cases hd; done) | skip
  · obtain ⟨rfl, h2⟩ : i1 = i2 ∧ j1 ≤ j2 := h
    refine ⟨i1 + 1, rfl, rfl, h2, Or.inl rfl, ?_⟩
    push_cast
    rfl
  · obtain ⟨rfl, h2⟩ : i1 = i2 ∧ j1 ≤ j2 := h
    exact ⟨i1, rfl, rfl, h2, Or.inr rfl, rfl⟩

theorem upright_y {s : Segment} (h : s.Upright) (hd : s.face.direction = .Y) :
    ∃ c : ℤ, s.lower = (s.iFrom, c) ∧ s.upper = (s.iTo + 1, c) ∧ s.iFrom ≤ s.iTo ∧
      ¬ (s.face = .PosX ∨ s.face = .NegX) ∧
      s.line = {p : ℝ × ℝ | p.2 = (c : ℝ) ∧ (s.iFrom : ℝ) ≤ p.1 ∧ p.1 ≤ (s.iTo : ℝ) + 1} := by
  obtain ⟨i1, i2, j1, j2, k1, k2, f⟩ := s
  cases f <;> first | (cases hd; done) | skip
  · obtain ⟨rfl, h2⟩ : j1 = j2 ∧ i1 ≤ i2 := h
    refine ⟨j1 + 1, rfl, rfl, h2, (by rintro (h | h) <;> cases h), ?_⟩
    push_cast
    rfl
  · obtain ⟨rfl, h2⟩ : j1 = j2 ∧ i1 ≤ i2 := h
    exact ⟨j1, rfl, rfl, h2, (by rintro (h | h) <;> cases h), rfl⟩

theorem upright_cases {s : Segment} (h : s.Upright) :
    s.face.direction = .X ∨ s.face.direction = .Y := by
  unfold Segment.Upright at h
  cases e : s.face.direction
  · exact Or.inl rfl
  · exact Or.inr rfl
  · rw [e] at h; exact h.elim

/-- **C138, where segments cross.** Two upright segments that are not parallel are said to cross if
and only if their lines on the map meet, and the coordinates are then those of the only point where
they meet. Parallel segments are never said to cross. -/
theorem segments_cross {s t : Segment} (hs : s.Upright) (ht : t.Upright) :
    (s.face.direction = t.face.direction → s.cross t = none) ∧
    (s.face.direction ≠ t.face.direction →
      (s.cross t = none ↔ s.line ∩ t.line = ∅) ∧
      ∀ p : ℤ × ℤ, s.cross t = some p ↔ s.line ∩ t.line = {((p.1 : ℝ), (p.2 : ℝ))}) := by
  refine ⟨fun h => by unfold Segment.cross; rw [if_pos h], fun hne => ?_⟩
  suffices key : ∃ q : ℤ × ℤ, (s.cross t = some q ∧ s.line ∩ t.line = {((q.1 : ℝ), (q.2 : ℝ))}) ∨
      (s.cross t = none ∧ s.line ∩ t.line = ∅) by
    obtain ⟨q, ⟨h1, h2⟩ | ⟨h1, h2⟩⟩ := key
    · rw [h1, h2]
      refine ⟨by simp, fun p => ?_⟩
      rw [Option.some.injEq, Set.singleton_eq_singleton_iff, Prod.ext_iff]
      rw [Prod.mk.injEq, Int.cast_inj, Int.cast_inj]
    · rw [h1, h2]
      refine ⟨by simp, fun p => ?_⟩
      constructor
      · intro h; cases h
      · intro h; exact absurd h.symm (Set.singleton_ne_empty _)
  have meet : ∀ (c d a b a' b' : ℤ),
      ({p : ℝ × ℝ | p.1 = (c : ℝ) ∧ (a : ℝ) ≤ p.2 ∧ p.2 ≤ b + 1} ∩
        {p | p.2 = (d : ℝ) ∧ (a' : ℝ) ≤ p.1 ∧ p.1 ≤ b' + 1}) =
      if (a ≤ d ∧ d ≤ b + 1) ∧ (a' ≤ c ∧ c ≤ b' + 1) then {((c : ℝ), (d : ℝ))} else ∅ := by
    intro c d a b a' b'
    have e1 : ((a : ℝ) ≤ d ↔ a ≤ d) := Int.cast_le
    have e2 : ((d : ℝ) ≤ b + 1 ↔ d ≤ b + 1) := by
      rw [← Int.cast_one, ← Int.cast_add, Int.cast_le]
    have e3 : ((a' : ℝ) ≤ c ↔ a' ≤ c) := Int.cast_le
    have e4 : ((c : ℝ) ≤ b' + 1 ↔ c ≤ b' + 1) := by
      rw [← Int.cast_one, ← Int.cast_add, Int.cast_le]
    ext ⟨x, y⟩
    simp only [Set.mem_inter_iff, Set.mem_ofPred_eq]
    split_ifs with h
    · rw [Set.mem_singleton_iff, Prod.mk.injEq]
      constructor
      · rintro ⟨⟨rfl, -⟩, rfl, -⟩; exact ⟨rfl, rfl⟩
      · rintro ⟨rfl, rfl⟩
        exact ⟨⟨rfl, e1.2 h.1.1, e2.2 h.1.2⟩, rfl, e3.2 h.2.1, e4.2 h.2.2⟩
    · simp only [Set.mem_empty_iff_false, iff_false]
      rintro ⟨⟨rfl, h1, h2⟩, rfl, h3, h4⟩
      exact h ⟨⟨e1.1 h1, e2.1 h2⟩, e3.1 h3, e4.1 h4⟩
  rcases upright_cases hs with h1 | h1 <;> rcases upright_cases ht with h2 | h2
  · exact absurd (h1.trans h2.symm) hne
  · obtain ⟨c, l1, u1, o1, f1, e1⟩ := upright_x hs h1
    obtain ⟨d, l2, u2, o2, f2, e2⟩ := upright_y ht h2
    refine ⟨(c, d), ?_⟩
    rw [e1, e2, meet]
    unfold Segment.cross Segment.crossAt
    rw [if_neg hne, l1, l2, u1, u2, if_pos f1]
    dsimp only
    rw [if_neg (by omega)]
    by_cases hm : (s.jFrom ≤ d ∧ d ≤ s.jTo + 1) ∧ t.iFrom ≤ c ∧ c ≤ t.iTo + 1
    · rw [if_pos hm, if_pos (by omega), if_pos (by omega)]
      exact Or.inl ⟨rfl, rfl⟩
    · rw [if_neg hm]
      refine Or.inr ⟨?_, rfl⟩
      by_cases hj : s.jFrom ≤ d ∧ s.jTo + 1 ≥ d
      · rw [if_pos hj, if_neg (by omega)]
      · rw [if_neg hj]
  · obtain ⟨d, l1, u1, o1, f1, e1⟩ := upright_y hs h1
    obtain ⟨c, l2, u2, o2, f2, e2⟩ := upright_x ht h2
    refine ⟨(c, d), ?_⟩
    rw [e1, e2, Set.inter_comm, meet]
    unfold Segment.cross Segment.crossAt
    rw [if_neg hne, l1, l2, u1, u2, if_neg f1]
    dsimp only
    by_cases hm : (t.jFrom ≤ d ∧ d ≤ t.jTo + 1) ∧ s.iFrom ≤ c ∧ c ≤ s.iTo + 1
    · rw [if_pos hm, if_pos (by omega), if_pos (by omega)]
      exact Or.inl ⟨rfl, rfl⟩
    · rw [if_neg hm]
      refine Or.inr ⟨?_, rfl⟩
      by_cases hj : s.iFrom ≤ c ∧ s.iTo + 1 ≥ c
      · rw [if_pos hj, if_neg (by omega)]
      · rw [if_neg hj, if_neg (by omega)]
  · exact absurd (h1.trans h2.symm) hne

/-- **C138, longer segments.** `IncreaseSegmentLength` moves both ends of the line of an upright
segment outwards by the number of cells given, and moves no other coordinate. -/
theorem segment_increase {s : Segment} (hs : s.Upright) {n : ℤ} (hn : 0 ≤ n) :
    (s.increase n).Upright ∧ (s.increase n).face = s.face ∧
    (s.increase n).kFrom = s.kFrom ∧ (s.increase n).kTo = s.kTo ∧
    (s.face.direction = .X → (s.increase n).line =
      {p | ∃ y, (p.1, y) ∈ s.line ∧ |p.2 - y| ≤ n}) ∧
    (s.face.direction = .Y → (s.increase n).line =
      {p | ∃ x, (x, p.2) ∈ s.line ∧ |p.1 - x| ≤ n}) := by
  have mid : ∀ (a b n : ℤ) (y : ℝ), a ≤ b → 0 ≤ n →
      (((a - n : ℤ) : ℝ) ≤ y ∧ y ≤ ((b + n : ℤ) : ℝ) + 1 ↔
        ∃ z : ℝ, ((a : ℝ) ≤ z ∧ z ≤ b + 1) ∧ |y - z| ≤ n) := by
    intro a b n y hab hn
    have hab' : (a : ℝ) ≤ b := by exact_mod_cast hab
    have hn' : (0 : ℝ) ≤ n := by exact_mod_cast hn
    push_cast
    constructor
    · rintro ⟨h1, h2⟩
      refine ⟨max a (min y (b + 1)), ⟨le_max_left _ _, max_le (by linarith) (min_le_right _ _)⟩, ?_⟩
      rw [abs_le]
      rcases le_total y (b + 1) with h3 | h3
      · rw [min_eq_left h3]
        rcases le_total (a : ℝ) y with h4 | h4
        · rw [max_eq_right h4]; constructor <;> linarith
        · rw [max_eq_left h4]; constructor <;> linarith
      · rw [min_eq_right h3, max_eq_right (by linarith)]
        constructor <;> linarith
    · rintro ⟨z, ⟨h1, h2⟩, h3⟩
      rw [abs_le] at h3
      constructor <;> linarith
  obtain ⟨i1, i2, j1, j2, k1, k2, f⟩ := s
  unfold Segment.Upright at hs
  cases f <;> simp only [Face.direction] at hs
  · refine ⟨⟨hs.1, by simp only [Segment.increase, Face.direction]; omega⟩, rfl, rfl, rfl, fun _ => ?_,
      fun h => by cases h⟩
    ext ⟨x, y⟩
    have := mid j1 j2 n y hs.2 hn
    simp only [Segment.increase, Segment.line, Face.direction, Set.mem_ofPred_eq]
    constructor
    · rintro ⟨h1, h2⟩
      obtain ⟨z, h3, h4⟩ := this.1 h2
      exact ⟨z, ⟨h1, h3⟩, h4⟩
    · rintro ⟨z, ⟨h1, h3⟩, h4⟩
      exact ⟨h1, this.2 ⟨z, h3, h4⟩⟩
  · refine ⟨⟨hs.1, by simp only [Segment.increase, Face.direction]; omega⟩, rfl, rfl, rfl, fun _ => ?_,
      fun h => by cases h⟩
    ext ⟨x, y⟩
    have := mid j1 j2 n y hs.2 hn
    simp only [Segment.increase, Segment.line, Face.direction, Set.mem_ofPred_eq]
    constructor
    · rintro ⟨h1, h2⟩
      obtain ⟨z, h3, h4⟩ := this.1 h2
      exact ⟨z, ⟨h1, h3⟩, h4⟩
    · rintro ⟨z, ⟨h1, h3⟩, h4⟩
      exact ⟨h1, this.2 ⟨z, h3, h4⟩⟩
  · refine ⟨⟨hs.1, by simp only [Segment.increase, Face.direction]; omega⟩, rfl, rfl, rfl,
      fun h => (by cases h), fun _ => ?_⟩
    ext ⟨x, y⟩
    have := mid i1 i2 n x hs.2 hn
    simp only [Segment.increase, Segment.line, Face.direction, Set.mem_ofPred_eq]
    constructor
    · rintro ⟨h1, h2⟩
      obtain ⟨z, h3, h4⟩ := this.1 h2
      exact ⟨z, ⟨h1, h3⟩, h4⟩
    · rintro ⟨z, ⟨h1, h3⟩, h4⟩
      exact ⟨h1, this.2 ⟨z, h3, h4⟩⟩
  · refine ⟨⟨hs.1, by simp only [Segment.increase, Face.direction]; omega⟩, rfl, rfl, rfl,
      fun h => (by cases h), fun _ => ?_⟩
    ext ⟨x, y⟩
    have := mid i1 i2 n x hs.2 hn
    simp only [Segment.increase, Segment.line, Face.direction, Set.mem_ofPred_eq]
    constructor
    · rintro ⟨h1, h2⟩
      obtain ⟨z, h3, h4⟩ := this.1 h2
      exact ⟨z, ⟨h1, h3⟩, h4⟩
    · rintro ⟨z, ⟨h1, h3⟩, h4⟩
      exact ⟨h1, this.2 ⟨z, h3, h4⟩⟩

/-- **C138, opposite faces.** The face on the other side of a cell is another face in the same
direction, and the face opposite to that is the first one. `IsStairStepped` tells whether a fault has
a horizontal face. -/
theorem face_opposite (f : Face) :
    f.opposite ≠ f ∧ f.opposite.direction = f.direction ∧ f.opposite.opposite = f ∧
    (∀ g : Face, g.direction = f.direction → g = f ∨ g = f.opposite) ∧
    ∀ flt : EclipseFault, flt.isStairStepped = true ↔ ∃ s ∈ flt.segments, s.face.direction = .Z := by
  refine ⟨by cases f <;> decide, by cases f <;> rfl, by cases f <;> rfl, fun g hg => ?_, fun flt => ?_⟩
  · cases f <;> cases g <;> first | (cases hg; done) | decide
  · unfold EclipseFault.isStairStepped
    rw [List.any_eq_true]
    refine exists_congr fun s => and_congr_right fun _ => ?_
    cases s.face <;> simp [Face.direction]

/-- The hypotheses are met, and the points are the right ones: an east face of the cells (2, 0) to
(2, 4) and a north face of the cells (1, 3) to (5, 3) meet in the corner (3, 4). -/
example : ∃ s t : Segment, s.Upright ∧ t.Upright ∧ s.cross t = some (3, 4) ∧ t.cross s = some (3, 4) :=
  ⟨⟨2, 2, 0, 4, 0, 0, .PosX⟩, ⟨1, 5, 3, 3, 0, 0, .PosY⟩, ⟨rfl, by decide⟩, ⟨rfl, by decide⟩, rfl, rfl⟩

/-- A fault of two segments. -/
example : ∃ f : EclipseFault, f.segments.length = 2 ∧ ∀ s ∈ f.segments, FitsInt s ∧ Forward s :=
  ⟨⟨[], [⟨2, 2, 0, 4, 0, 1, .PosX⟩, ⟨1, 5, 3, 3, 0, 1, .PosY⟩]⟩, rfl, by
    intro s hs
    rw [List.mem_cons, List.mem_singleton] at hs
    unfold FitsInt Forward
    rcases hs with rfl | rfl <;> decide⟩

end Verif
