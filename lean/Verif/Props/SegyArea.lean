import Verif.Props.SegyPart

/-!
# C142: ranges of lines that are not refused, and the lines that cover an area
-/

namespace Verif

open Classical

namespace SegyGeometry

/-- **C142 violated (reversed ranges).** A last line before the first one is not refused: from five in-lines the part from
3 to 1 has as many cells as a `size_t` can count. -/
theorem segy_reversed_violation : ∃ g r, ofLines 0 0 1 1 5 5 (1 / 2) (1 / 2) 1 0 0 1 0 = .ok g ∧ Spec.SegyGrid g 1 1 ∧
    g.subGeometry (3, 1) (1, 5) (-1) (-1) = .ok (r, false) ∧ r.nx = 2 ^ 64 - 1 ∧ r.ny = 5 := by
  obtain ⟨g, e, h, m, ro, l, f⟩ := segy_of_lines (x0 := 0) (y0 := 0) (dx := 1) (dy := 1) (rot := 0) (I0 := 1 / 2)
    (X0 := 1 / 2) (iX := 1) (iY := 0) (xX := 0) (xY := 1) (nx := 5) (ny := 5) (first := true)
    (IL0 := 1) (XL0 := 1) (σI := 1) (σX := 1) (sI := 1) (sX := 1)
    (by
      intro s t
      simp only [Spec.affineLines, Spec.gridPoint, Real.cos_zero, Real.sin_zero, if_true]
      refine Prod.ext ?_ ?_ <;> dsimp only <;> norm_num <;> ring)
    (by norm_num) (by norm_num) (by simp) (by simp) (by norm_num) (by simp) (by simp)
  simp only [Prod.mk.injEq] at m l ro
  obtain ⟨m1, m2, m3, m4, m5, m6⟩ := m
  obtain ⟨l1, l2, l3, l4, l5⟩ := l
  have iI := h.il
  have iX := h.xl
  rw [l5] at iI iX
  simp only [if_true, l1, l2, l3, l4, m5, m6] at iI iX
  obtain ⟨-, ⟨-, a1, a2⟩ | ⟨q, -⟩⟩ := iI
  swap
  · cases q
  obtain ⟨-, ⟨-, b1, b2⟩ | ⟨q, -⟩⟩ := iX
  swap
  · cases q
  norm_num at a2 b2
  have c1 := congrArg Prod.fst (congrFun (congrFun f 0) 0)
  have c2 := congrArg Prod.fst (congrFun (congrFun f 1) 0)
  have c3 := congrArg Prod.fst (congrFun (congrFun f 0) 1)
  have d1 := congrArg Prod.snd (congrFun (congrFun f 0) 0)
  have d2 := congrArg Prod.snd (congrFun (congrFun f 1) 0)
  have d3 := congrArg Prod.snd (congrFun (congrFun f 0) 1)
  simp only [findContILXL, Spec.affineLines, m1, m2] at c1 c2 c3 d1 d2 d3
  norm_num at c1 c2 c3 d1 d2 d3
  have i1 : g.ilStepX = 1 := by linarith
  have i2 : g.ilStepY = 0 := by linarith
  have i3 : g.xlStepX = 0 := by linarith
  have i4 : g.xlStepY = 1 := by linarith
  have nt : ∀ a : ℝ, ¬ tiny a 0 := fun a ha => ha.1 rfl
  have xy : g.findXYFromContILXL (5 / 2) (1 / 2) = .ok (2, 0) := by
    have := (segy_points h (fun ht => absurd ht (by rw [i3]; exact nt _)) (fun ht => absurd ht (by rw [i2]; exact nt _))).1 2 0
    rw [f] at this
    simp only [Spec.affineLines] at this
    norm_num at this
    exact this
  have ck : subCheck 3 1 1 5 = .ok () := by rfl
  have ck' : subCheck 1 5 1 5 = .ok () := by rfl
  have ss : subStep (-1) 1 = .ok (1, false) := by rfl
  have f1 : subFirst 3 1 1 1 = .ok 3 := by rfl
  have f2 : subFirst 1 1 1 1 = .ok 1 := by rfl
  have g1 : subLast 1 3 5 1 = .ok 1 := by rfl
  have g2 : subLast 5 1 5 1 = .ok 5 := by rfl
  have n1 : subCount 3 1 1 = .ok (2 ^ 64 - 1) := by rfl
  have n2 : subCount 1 5 1 = .ok 5 := by rfl
  obtain ⟨r, hr, hn⟩ : ∃ r, ofLines 2 0 1 1 (2 ^ 64 - 1) 5 (5 / 2) (1 / 2) 1 0 0 1 0 = .ok r ∧ r.nx = 2 ^ 64 - 1 ∧ r.ny = 5 := by
    have hl : Spec.LinesAt (Spec.affineLines 2 0 (5 / 2) (1 / 2) 1 0 0 1)
        (Spec.gridPoint 2 0 1 1 (Real.cos 0) (Real.sin 0)) true 3 1 1 1 := by
      intro s t
      simp only [Spec.affineLines, Spec.gridPoint, Real.cos_zero, Real.sin_zero, if_true]
      refine Prod.ext ?_ ?_ <;> dsimp only <;> norm_num <;> ring
    unfold ofLines findILXLGeometry
    simp only [Res.monad_bind_eq]
    have q1 : (0.5 : ℝ) = ((0 : ℕ) : ℝ) + 1 / 2 := by norm_num
    have q2 : (1.5 : ℝ) = ((1 : ℕ) : ℝ) + 1 / 2 := by norm_num
    generalize hG : SegyGeometry.mk 2 0 1 1 (2 ^ 64 - 1) 5 (5 / 2) (1 / 2) 1 0 0 1 (Real.sin 0) (Real.cos 0) 0 0 0 0 0 0 0 0 0
      false = G
    have hl' : Spec.LinesAt G.findContILXL G.at true 3 1 1 1 := by rw [← hG]; exact hl
    have qq : ∀ s t, G.cellPoint s t = G.at s t := fun _ _ => rfl
    rw [qq, qq, qq, q1, q2,
      findILXL_centre hl' 0 0 (a := 3) (b := 1) (by simp) (by simp) (by norm_num) (by norm_num) (by norm_num) (by norm_num),
      Res.bind_ok,
      findILXL_centre hl' 1 0 (a := 4) (b := 1) (by simp) (by simp) (by norm_num) (by norm_num) (by norm_num) (by norm_num),
      Res.bind_ok,
      findILXL_centre hl' 0 1 (a := 3) (b := 2) (by simp) (by simp) (by norm_num) (by norm_num) (by norm_num) (by norm_num),
      Res.bind_ok, if_pos (by norm_num)]
    exact ⟨_, rfl, rfl, rfl⟩
  refine ⟨g, r, e, h, ?_, hn⟩
  unfold subGeometry
  simp only [Res.monad_bind_eq]
  rw [a1, b1, a2, b2, l3, l4, ck, Res.bind_ok, ck', Res.bind_ok, ss, Res.bind_ok, Res.bind_ok]
  simp only [Bool.or_self, Bool.false_eq_true, if_false]
  rw [f1, Res.bind_ok, f2, Res.bind_ok, g1, Res.bind_ok, g2, Res.bind_ok, n1, Res.bind_ok, n2, Res.bind_ok,
    divD_eq (by norm_num), Res.bind_ok, Res.bind_ok, l1, l2, l5]
  simp only [if_true]
  have w1 : (((3 : ℤ) : ℝ) - 0.5 * ((1 : ℤ) : ℝ)) = 5 / 2 := by norm_num
  have w2 : (((1 : ℤ) : ℝ) - 0.5 * ((1 : ℤ) : ℝ)) = 1 / 2 := by norm_num
  have w3 : (1 : ℝ) * (((1 : ℤ) : ℝ) / ((1 : ℤ) : ℝ)) = 1 := by norm_num
  rw [w1, w2, xy, Res.bind_ok, m3, m4, w3, i1, i2, i3, i4, ro.1, hr, Res.bind_ok]

/-- The lines around a range of numbers. -/
theorem areaLines_spec {lo hi : ℝ} {minL maxL step a b : ℤ} (hs : 0 < step) (hd : step ∣ maxL - minL)
    (h : areaLines lo hi minL maxL step = .ok (a, b)) :
    step ∣ a - minL ∧ minL ≤ a ∧ (a = minL ∨ (a : ℝ) ≤ lo) ∧ (a = minL ∨ lo < a + step) ∧
      step ∣ maxL - b ∧ b ≤ maxL ∧ (b = maxL ∨ hi ≤ b) ∧ (b = maxL ∨ (b : ℝ) - step < hi) := by
  unfold areaLines at h
  have key : ∀ k : ℤ, toInt32 k = .ok k ∨ ∃ m, toInt32 k = .ub m := by
    intro k
    unfold toInt32
    split_ifs
    · exact Or.inl rfl
    · exact Or.inr ⟨_, rfl⟩
  simp only [Res.monad_bind_eq, modInt] at h
  rcases key ⌊lo⌋ with k1 | ⟨m, k1⟩ <;> rw [k1] at h
  swap
  · cases h
  rcases key ⌈hi⌉ with k2 | ⟨m, k2⟩ <;> rw [Res.bind_ok, k2] at h
  swap
  · cases h
  rw [Res.bind_ok, if_neg hs.ne', Res.bind_ok, if_neg hs.ne', Res.bind_ok] at h
  injection h with h
  rw [Prod.mk.injEq] at h
  obtain ⟨h1, h2⟩ := h
  have f1 := Int.floor_le lo
  have f2 := Int.lt_floor_add_one lo
  have c1 := Int.le_ceil hi
  have c2 := Int.ceil_lt_add_one hi
  generalize ⌊lo⌋ = x at *
  generalize ⌈hi⌉ = y at *
  have fr : ∀ z : ℤ, 0 ≤ z → ∃ k, z - z.tmod step = step * k ∧ 0 ≤ k ∧ 0 ≤ z.tmod step ∧ z.tmod step < step := by
    intro z hz
    refine ⟨z / step, ?_, Int.ediv_nonneg hz hs.le, ?_, ?_⟩ <;> rw [Int.tmod_eq_emod_of_nonneg hz]
    · have := Int.emod_add_mul_ediv z step; omega
    · exact Int.emod_nonneg _ hs.ne'
    · exact Int.emod_lt_of_pos _ hs
  have A : step ∣ a - minL ∧ minL ≤ a ∧ (a = minL ∨ a ≤ x) ∧ (a = minL ∨ x + 1 ≤ a + step) := by
    rcases le_or_gt minL x with hx | hx
    · obtain ⟨k, k1, k2, k3, k4⟩ := fr (x - minL) (by omega)
      have : 0 ≤ step * k := by positivity
      rw [max_eq_left (by omega)] at h1
      refine ⟨⟨k, by omega⟩, by omega, Or.inr (by omega), Or.inr (by omega)⟩
    · obtain ⟨k, k1, k2, k3, k4⟩ := fr (minL - x) (by omega)
      have e : (x - minL).tmod step = -((minL - x).tmod step) := by
        rw [show x - minL = -(minL - x) by ring, Int.neg_tmod]
      have : 0 ≤ step * k := by positivity
      rw [e, max_eq_right (by omega)] at h1
      refine ⟨⟨0, by omega⟩, by omega, Or.inl h1.symm, Or.inl h1.symm⟩
  have B : step ∣ maxL - b ∧ b ≤ maxL ∧ (b = maxL ∨ y ≤ b) ∧ (b = maxL ∨ b ≤ y - 1 + step) := by
    rcases le_or_gt y maxL with hx | hx
    · obtain ⟨k, k1, k2, k3, k4⟩ := fr (maxL - y) (by omega)
      have : 0 ≤ step * k := by positivity
      rw [min_eq_left (by omega)] at h2
      refine ⟨⟨k, by omega⟩, by omega, Or.inr (by omega), Or.inr (by omega)⟩
    · obtain ⟨k, k1, k2, k3, k4⟩ := fr (y - maxL) (by omega)
      have e : (maxL - y).tmod step = -((y - maxL).tmod step) := by
        rw [show maxL - y = -(y - maxL) by ring, Int.neg_tmod]
      have : 0 ≤ step * k := by positivity
      rw [e, min_eq_right (by omega)] at h2
      refine ⟨⟨0, by omega⟩, by omega, Or.inl h2.symm, Or.inl h2.symm⟩
  refine ⟨A.1, A.2.1, ?_, ?_, B.1, B.2.1, ?_, ?_⟩
  · rcases A.2.2.1 with h | h
    · exact Or.inl h
    · exact Or.inr (le_trans (by exact_mod_cast h) f1)
  · rcases A.2.2.2 with h | h
    · exact Or.inl h
    · have : (x : ℝ) + 1 ≤ a + step := by exact_mod_cast h
      exact Or.inr (by linarith)
  · rcases B.2.2.1 with h | h
    · exact Or.inl h
    · exact Or.inr (le_trans c1 (by exact_mod_cast h))
  · rcases B.2.2.2 with h | h
    · exact Or.inl h
    · have : (b : ℝ) ≤ y - 1 + step := by exact_mod_cast h
      exact Or.inr (by linarith)

/-- An affine function on a square is between its values in the corners. -/
theorem corners_bound {l0 l1 l2 α β : ℝ} (hα : 0 ≤ α ∧ α ≤ 1) (hβ : 0 ≤ β ∧ β ≤ 1) :
    min (min (min l0 l1) l2) (l1 + l2 - l0) ≤ l0 + α * (l1 - l0) + β * (l2 - l0) ∧
    l0 + α * (l1 - l0) + β * (l2 - l0) ≤ max (max (max l0 l1) l2) (l1 + l2 - l0) := by
  have a := mul_nonneg (sub_nonneg.2 hα.2) (sub_nonneg.2 hβ.2)
  have b := mul_nonneg hα.1 (sub_nonneg.2 hβ.2)
  have c := mul_nonneg (sub_nonneg.2 hα.2) hβ.1
  have d := mul_nonneg hα.1 hβ.1
  have e : l0 + α * (l1 - l0) + β * (l2 - l0) =
      (1 - α) * (1 - β) * l0 + α * (1 - β) * l1 + (1 - α) * β * l2 + α * β * (l1 + l2 - l0) := by ring
  have s : (1 - α) * (1 - β) + α * (1 - β) + (1 - α) * β + α * β = 1 := by ring
  constructor
  · generalize hm : min (min (min l0 l1) l2) (l1 + l2 - l0) = m
    have m0 : m ≤ l0 := by rw [← hm]; simp
    have m1 : m ≤ l1 := by rw [← hm]; simp
    have m2 : m ≤ l2 := by rw [← hm]; simp
    have m3 : m ≤ l1 + l2 - l0 := by rw [← hm]; exact min_le_right _ _
    have p0 := mul_le_mul_of_nonneg_left m0 a
    have p1 := mul_le_mul_of_nonneg_left m1 b
    have p2 := mul_le_mul_of_nonneg_left m2 c
    have p3 := mul_le_mul_of_nonneg_left m3 d
    have : m = ((1 - α) * (1 - β) + α * (1 - β) + (1 - α) * β + α * β) * m := by rw [s, one_mul]
    linarith
  · generalize hm : max (max (max l0 l1) l2) (l1 + l2 - l0) = m
    have m0 : l0 ≤ m := by rw [← hm]; simp
    have m1 : l1 ≤ m := by rw [← hm]; simp
    have m2 : l2 ≤ m := by rw [← hm]; simp
    have m3 : l1 + l2 - l0 ≤ m := by rw [← hm]; exact le_max_right _ _
    have p0 := mul_le_mul_of_nonneg_left m0 a
    have p1 := mul_le_mul_of_nonneg_left m1 b
    have p2 := mul_le_mul_of_nonneg_left m2 c
    have p3 := mul_le_mul_of_nonneg_left m3 d
    have : m = ((1 - α) * (1 - β) + α * (1 - β) + (1 - α) * β + α * β) * m := by rw [s, one_mul]
    linarith

/-- The least and the greatest value are taken in a corner. -/
theorem corners_attained (l0 l1 l2 : ℝ) :
    (∃ α β : ℝ, 0 ≤ α ∧ α ≤ 1 ∧ 0 ≤ β ∧ β ≤ 1 ∧
      l0 + α * (l1 - l0) + β * (l2 - l0) = min (min (min l0 l1) l2) (l1 + l2 - l0)) ∧
    ∃ α β : ℝ, 0 ≤ α ∧ α ≤ 1 ∧ 0 ≤ β ∧ β ≤ 1 ∧
      l0 + α * (l1 - l0) + β * (l2 - l0) = max (max (max l0 l1) l2) (l1 + l2 - l0) := by
  have c : ∀ m : ℝ, m = l0 ∨ m = l1 ∨ m = l2 ∨ m = l1 + l2 - l0 →
      ∃ α β : ℝ, 0 ≤ α ∧ α ≤ 1 ∧ 0 ≤ β ∧ β ≤ 1 ∧ l0 + α * (l1 - l0) + β * (l2 - l0) = m := by
    rintro m (h | h | h | h)
    · exact ⟨0, 0, by norm_num, by norm_num, by norm_num, by norm_num, by rw [h]; ring⟩
    · exact ⟨1, 0, by norm_num, by norm_num, by norm_num, by norm_num, by rw [h]; ring⟩
    · exact ⟨0, 1, by norm_num, by norm_num, by norm_num, by norm_num, by rw [h]; ring⟩
    · exact ⟨1, 1, by norm_num, by norm_num, by norm_num, by norm_num, by rw [h]; ring⟩
  constructor
  · apply c
    rcases min_choice (min (min l0 l1) l2) (l1 + l2 - l0) with h | h <;> rw [h]
    · rcases min_choice (min l0 l1) l2 with h | h <;> rw [h]
      · rcases min_choice l0 l1 with h | h <;> rw [h] <;> simp
      · simp
    · simp
  · apply c
    rcases max_choice (max (max l0 l1) l2) (l1 + l2 - l0) with h | h <;> rw [h]
    · rcases max_choice (max l0 l1) l2 with h | h <;> rw [h]
      · rcases max_choice l0 l1 with h | h <;> rw [h] <;> simp
      · simp
    · simp

end SegyGeometry

/-- The lines from `a` to `b` are lines of a cube, and cover the numbers `l α β` of the lines at the points of an area as far
as the cube does, with less than a step to spare. -/
def Spec.Covers (a b minL maxL step : ℤ) (l : ℝ → ℝ → ℝ) : Prop :=
  step ∣ a - minL ∧ step ∣ maxL - b ∧ minL ≤ a ∧ b ≤ maxL ∧
  (∀ α β : ℝ, 0 ≤ α → α ≤ 1 → 0 ≤ β → β ≤ 1 → (minL ≤ l α β → a ≤ l α β) ∧ (l α β ≤ maxL → l α β ≤ b)) ∧
  (a = minL ∨ ∃ α β : ℝ, 0 ≤ α ∧ α ≤ 1 ∧ 0 ≤ β ∧ β ≤ 1 ∧ l α β < a + step) ∧
  (b = maxL ∨ ∃ α β : ℝ, 0 ≤ α ∧ α ≤ 1 ∧ 0 ≤ β ∧ β ≤ 1 ∧ (b : ℝ) - step < l α β)

namespace SegyGeometry

theorem covers {minL maxL step a b : ℤ} {l0 l1 l2 : ℝ} (hs : 0 < step) (hd : step ∣ maxL - minL)
    (h : areaLines (min (min (min l0 l1) l2) (l1 + l2 - l0)) (max (max (max l0 l1) l2) (l1 + l2 - l0)) minL maxL step =
      .ok (a, b)) : Spec.Covers a b minL maxL step (fun α β => l0 + α * (l1 - l0) + β * (l2 - l0)) := by
  obtain ⟨a1, a2, a3, a4, b1, b2, b3, b4⟩ := areaLines_spec hs hd h
  obtain ⟨⟨α, β, c1, c2, c3, c4, c5⟩, α', β', d1, d2, d3, d4, d5⟩ := corners_attained l0 l1 l2
  refine ⟨a1, b1, a2, b2, ?_, ?_, ?_⟩
  · intro α β hα hα' hβ hβ'
    have := corners_bound (l0 := l0) (l1 := l1) (l2 := l2) ⟨hα, hα'⟩ ⟨hβ, hβ'⟩
    refine ⟨fun h => ?_, fun h => ?_⟩
    · rcases a3 with rfl | a3
      · exact h
      · exact a3.trans this.1
    · rcases b3 with rfl | b3
      · exact h
      · exact this.2.trans b3
  · rcases a4 with h | h
    · exact Or.inl h
    · exact Or.inr ⟨α, β, c1, c2, c3, c4, c5.trans_lt h⟩
  · rcases b4 with h | h
    · exact Or.inl h
    · exact Or.inr ⟨α', β', d1, d2, d3, d4, h.trans_eq d5.symm⟩

/-- **C142 (areas).** The lines that `findAreaILXL` gives for the area of another cube are lines of the cube and cover the
area as far as the cube does, with less than a step to spare. -/
theorem segy_area {g t : SegyGeometry} {σI σX : ℤ} (h : Spec.SegyGrid g σI σX) {I X : ℤ × ℤ}
    (he : g.findAreaILXL t = .ok (I, X)) :
    Spec.Covers I.1 I.2 g.minIL g.maxIL g.ILStep (fun α β => (g.findContILXL
      (Spec.gridPoint t.x0 t.y0 t.dx t.dy (Real.cos t.rot) (Real.sin t.rot) (α * t.nx) (β * t.ny)).1
      (Spec.gridPoint t.x0 t.y0 t.dx t.dy (Real.cos t.rot) (Real.sin t.rot) (α * t.nx) (β * t.ny)).2).1) ∧
    Spec.Covers X.1 X.2 g.minXL g.maxXL g.XLStep (fun α β => (g.findContILXL
      (Spec.gridPoint t.x0 t.y0 t.dx t.dy (Real.cos t.rot) (Real.sin t.rot) (α * t.nx) (β * t.ny)).1
      (Spec.gridPoint t.x0 t.y0 t.dx t.dy (Real.cos t.rot) (Real.sin t.rot) (α * t.nx) (β * t.ny)).2).2) := by
  have dv : ∀ {σ L0 lo hi step : ℤ} {n : ℕ}, Spec.LineRange σ L0 lo hi step n → step ∣ hi - lo := by
    rintro σ L0 lo hi step n ⟨-, ⟨-, rfl, rfl⟩ | ⟨-, rfl, rfl, -⟩⟩ <;> exact ⟨n - 1, by ring⟩
  unfold findAreaILXL at he
  simp only [Res.monad_bind_eq] at he
  have inv : ∀ {α β : Type} {r : Res α} {k : α → Res β} {b : β}, r.bind k = .ok b → ∃ a, r = .ok a ∧ k a = .ok b := by
    intro α β r k b hb
    cases r with
    | ok a => exact ⟨a, rfl, hb⟩
    | _ => cases hb
  obtain ⟨I', e1, he⟩ := inv he
  obtain ⟨X', e2, he⟩ := inv he
  injection he with he
  rw [Prod.mk.injEq] at he
  obtain ⟨rfl, rfl⟩ := he
  obtain ⟨p, hp⟩ : ∃ p, p = g.findContILXL t.x0 t.y0 := ⟨_, rfl⟩
  obtain ⟨q, hq⟩ : ∃ q, q = g.findContILXL (t.x0 + t.nx * t.dx * Real.cos t.rot) (t.y0 + t.nx * t.dx * Real.sin t.rot) :=
    ⟨_, rfl⟩
  obtain ⟨r, hr⟩ : ∃ r, r = g.findContILXL (t.x0 + -(t.ny * t.dy) * Real.sin t.rot) (t.y0 + t.ny * t.dy * Real.cos t.rot) :=
    ⟨_, rfl⟩
  have hs : g.findContILXL (t.x0 + t.nx * t.dx * Real.cos t.rot + -(t.ny * t.dy) * Real.sin t.rot)
      (t.y0 + t.nx * t.dx * Real.sin t.rot + t.ny * t.dy * Real.cos t.rot) = (q.1 + r.1 - p.1, q.2 + r.2 - p.2) := by
    rw [hp, hq, hr]
    unfold findContILXL
    refine Prod.ext ?_ ?_ <;> dsimp only <;> ring
  rw [← hp, ← hq, ← hr, hs] at e1 e2
  have f1 : (fun α β : ℝ => (g.findContILXL
      (Spec.gridPoint t.x0 t.y0 t.dx t.dy (Real.cos t.rot) (Real.sin t.rot) (α * t.nx) (β * t.ny)).1
      (Spec.gridPoint t.x0 t.y0 t.dx t.dy (Real.cos t.rot) (Real.sin t.rot) (α * t.nx) (β * t.ny)).2).1) =
      fun α β => p.1 + α * (q.1 - p.1) + β * (r.1 - p.1) := by
    funext α β
    rw [hp, hq, hr]
    simp only [findContILXL, Spec.gridPoint]
    ring
  have f2 : (fun α β : ℝ => (g.findContILXL
      (Spec.gridPoint t.x0 t.y0 t.dx t.dy (Real.cos t.rot) (Real.sin t.rot) (α * t.nx) (β * t.ny)).1
      (Spec.gridPoint t.x0 t.y0 t.dx t.dy (Real.cos t.rot) (Real.sin t.rot) (α * t.nx) (β * t.ny)).2).2) =
      fun α β => p.2 + α * (q.2 - p.2) + β * (r.2 - p.2) := by
    funext α β
    rw [hp, hq, hr]
    simp only [findContILXL, Spec.gridPoint]
    ring
  rw [f1, f2]
  exact ⟨covers h.il.1 (dv h.il) e1, covers h.xl.1 (dv h.xl) e2⟩

/-- The lines from 1 to 5 in both directions, on cells of 1 m, around two cells at (1.2, 2.3). -/
theorem segy_area_example : ∃ g t : SegyGeometry, Spec.SegyGrid g 1 1 ∧ t.x0 = 1.2 ∧ t.y0 = 2.3 ∧ t.nx = 2 ∧ t.ny = 1 ∧
    g.findAreaILXL t = .ok ((1, 4), (2, 4)) := by
  let g : SegyGeometry := ⟨0, 0, 1, 1, 5, 5, 1 / 2, 1 / 2, 1, 0, 0, 1, 0, 1, 0, 1, 1, 1, 5, 1, 1, 5, 1, true⟩
  refine ⟨g, { g with x0 := 1.2, y0 := 2.3, nx := 2, ny := 1 }, ⟨by norm_num [g], by norm_num [g], by norm_num [g], ?_, ?_, ?_⟩,
    rfl, rfl, rfl, rfl, ?_⟩
  · exact ⟨by norm_num [g], Or.inl ⟨rfl, rfl, by norm_num [g]⟩⟩
  · exact ⟨by norm_num [g], Or.inl ⟨rfl, rfl, by norm_num [g]⟩⟩
  · intro s t
    simp only [g, findContILXL, SegyGeometry.at, Spec.gridPoint, if_true]
    refine Prod.ext ?_ ?_ <;> dsimp only <;> norm_num <;> ring
  · unfold findAreaILXL
    simp only [g, findContILXL, Real.cos_zero, Real.sin_zero, Res.monad_bind_eq]
    have a : ∀ lo hi : ℝ, ∀ x y : ℤ, ⌊lo⌋ = x → ⌈hi⌉ = y → (1 ≤ x ∧ x < 2 ^ 31) → (-2 ^ 31 ≤ y ∧ y ≤ 5) → areaLines lo hi 1 5 1 = .ok (x, y) := by
      intro lo hi x y hx hy h1 h2
      unfold areaLines
      rw [hx, hy]
      simp only [Res.monad_bind_eq, modInt]
      rw [RegSurf.toInt32_ok (by omega) h1.2, Res.bind_ok, RegSurf.toInt32_ok h2.1 (by omega), Res.bind_ok, if_neg (by norm_num),
        Res.bind_ok, if_neg (by norm_num), Res.bind_ok, Int.tmod_one, Int.tmod_one, sub_zero, add_zero, max_eq_left h1.1,
        min_eq_left h2.2]
    rw [a _ _ 1 4 (by norm_num [Int.floor_eq_iff]) (by norm_num [Int.ceil_eq_iff]) (by norm_num) (by norm_num), Res.bind_ok,
      a _ _ 2 4 (by norm_num [Int.floor_eq_iff]) (by norm_num [Int.ceil_eq_iff]) (by norm_num) (by norm_num), Res.bind_ok]

end SegyGeometry
end Verif
