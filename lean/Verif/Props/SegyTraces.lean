import Verif.Lemmas.SegyTraces
import Verif.Props.SegySetup
import Mathlib.Tactic.IntervalCases

/-!
# C144: a seismic cube from its traces
-/

namespace Verif

open Classical

/-- Traces on a full rectangle of perpendicular lines, in any order, possibly more than one on a crossing and with null
pointers among them. The first of them is in a corner. -/
structure Spec.TraceGrid (ts : List (Option SegyTrace)) (xRef yRef : ℝ) (minIL minXL dIL dXL : ℤ) (nI nX : ℕ) (vI vX : ℝ × ℝ) :
    Prop where
  perp : vI.1 * vX.1 + vI.2 * vX.2 = 0
  dirI : vI ≠ 0
  dirX : vX ≠ 0
  stepI : 0 < dIL
  stepX : 0 < dXL
  manyI : 1 ≤ nI
  manyX : 1 ≤ nX
  rangeI : 0 ≤ minIL ∧ minIL + nI * dIL < 2 ^ 31
  rangeX : 0 ≤ minXL ∧ minXL + nX * dXL < 2 ^ 31
  each : ∀ t, some t ∈ ts → (∃ a b : ℕ, a ≤ nI ∧ b ≤ nX ∧ t.il = minIL + a * dIL ∧ t.xl = minXL + b * dXL) ∧
    (t.x, t.y) = Spec.linePoint xRef yRef minIL minXL vI vX t.il t.xl
  every : ∀ a b : ℕ, a ≤ nI → b ≤ nX → ∃ t, some t ∈ ts ∧ t.il = minIL + a * dIL ∧ t.xl = minXL + b * dXL
  corner : ∃ k t rest, ts = List.replicate k none ++ some t :: rest ∧ (t.il = minIL ∨ t.il = minIL + nI * dIL) ∧
    (t.xl = minXL ∨ t.xl = minXL + nX * dXL)

namespace SegyTrace

theorem hasLines {ts : List (Option SegyTrace)} {xRef yRef : ℝ} {minIL minXL dIL dXL : ℤ} {nI nX : ℕ} {vI vX : ℝ × ℝ}
    (h : Spec.TraceGrid ts xRef yRef minIL minXL dIL dXL nI nX vI vX) {t : SegyTrace} (ht : some t ∈ ts) : t.HasLines := by
  obtain ⟨⟨a, b, -, -, ea, eb⟩, -⟩ := h.each t ht
  have h1 := h.rangeI.1
  have h2 := h.rangeX.1
  have p1 : (0 : ℤ) ≤ a * dIL := mul_nonneg (by positivity) h.stepI.le
  have p2 : (0 : ℤ) ≤ b * dXL := mul_nonneg (by positivity) h.stepX.le
  unfold HasLines missing
  constructor <;> omega

/-- The lines of one kind, seen from a corner. -/
theorem side_spec {lo c d : ℤ} {n : ℕ} (hd : 0 < d) (hn : 1 ≤ n) (hc : c = lo ∨ c = lo + n * d) :
    ∃ (U : ℤ) (a0 a1 an : ℕ), d ≤ |U| ∧ a0 ≤ n ∧ a1 ≤ n ∧ an ≤ n ∧ a0 ≠ a1 ∧ a0 ≠ an ∧ c = lo + a0 * d ∧ c + U = lo + an * d ∧
      |lo + a1 * d - c| = d ∧ min c (c + U) = lo ∧ max c (c + U) = lo + n * d ∧
      ∀ a : ℕ, a ≤ n → |lo + a * d - c| ≤ |U| ∧ 0 ≤ (lo + a * d - c) * U ∧ ∃ k : ℤ, lo + a * d - c = k * d := by
  have hA : d ≤ n * d := by nlinarith
  have ha : ∀ a : ℕ, a ≤ n → (0 : ℤ) ≤ a * d ∧ (a : ℤ) * d ≤ n * d := fun a h =>
    ⟨by positivity, mul_le_mul_of_nonneg_right (by exact_mod_cast h) hd.le⟩
  rcases hc with rfl | rfl
  · refine ⟨n * d, 0, 1, n, ?_, by omega, hn, le_refl _, by omega, by omega, by simp, rfl, ?_, by omega, by omega, ?_⟩
    · rw [abs_of_pos (by omega)]; exact hA
    · rw [add_sub_cancel_left, Nat.cast_one, one_mul, abs_of_pos hd]
    · intro a h
      obtain ⟨h1, h2⟩ := ha a h
      rw [add_sub_cancel_left, abs_of_nonneg h1, abs_of_pos (by omega)]
      exact ⟨h2, mul_nonneg h1 (by omega), a, rfl⟩
  · refine ⟨-(n * d), n, n - 1, 0, ?_, le_refl _, by omega, by omega, by omega, by omega, rfl, by simp, ?_, by omega, by omega, ?_⟩
    · rw [abs_neg, abs_of_pos (by omega)]; exact hA
    · rw [Nat.cast_sub hn, Nat.cast_one, show lo + ((n : ℤ) - 1) * d - (lo + n * d) = -d by ring, abs_neg, abs_of_pos hd]
    · intro a h
      obtain ⟨h1, h2⟩ := ha a h
      rw [show lo + (a : ℤ) * d - (lo + n * d) = -(n * d - a * d) by ring, abs_neg, abs_neg, abs_of_nonneg (by omega),
        abs_of_pos (by omega)]
      refine ⟨by omega, ?_, (a : ℤ) - n, by ring⟩
      rw [neg_mul_neg]
      exact mul_nonneg (by omega) (by omega)

/-- The ranges, the steps and the directions that are found. -/
theorem loops_spec {ts rest : List (Option SegyTrace)} {xRef yRef : ℝ} {minIL minXL dIL dXL : ℤ} {nI nX : ℕ} {vI vX : ℝ × ℝ}
    (h : Spec.TraceGrid ts xRef yRef minIL minXL dIL dXL nI nX vI vX) {k : ℕ} {t0 : SegyTrace}
    (hts : ts = List.replicate k none ++ some t0 :: rest) (cI : t0.il = minIL ∨ t0.il = minIL + nI * dIL)
    (cX : t0.xl = minXL ∨ t0.xl = minXL + nX * dXL) :
    ((extentOf t0 rest).ilMin = minIL ∧ (extentOf t0 rest).ilMax = minIL + nI * dIL ∧
      (extentOf t0 rest).xlMin = minXL ∧ (extentOf t0 rest).xlMax = minXL + nX * dXL) ∧
    ((spreadOf t0 (extentOf t0 rest) rest).dIL = dIL ∧ (spreadOf t0 (extentOf t0 rest) rest).dXL = dXL) ∧
    directions t0 (extentOf t0 rest).p1 (spreadOf t0 (extentOf t0 rest) rest).p2 (extentOf t0 rest).dist1sq
      (spreadOf t0 (extentOf t0 rest) rest).dist2 = .ok (vI, vX) := by
  have mem : ∀ t, t ∈ present rest → some t ∈ ts := by
    intro t ht
    rw [hts]
    simp [(mem_present.1 ht).1]
  have mem0 : some t0 ∈ ts := by rw [hts]; simp
  have ex : ∀ a b : ℕ, a ≤ nI → b ≤ nX → (t0.il = minIL + a * dIL ∧ t0.xl = minXL + b * dXL) ∨
      ∃ t ∈ present rest, t.il = minIL + a * dIL ∧ t.xl = minXL + b * dXL := by
    intro a b ha hb
    obtain ⟨t, ht, e1, e2⟩ := h.every a b ha hb
    have hl := hasLines h ht
    rw [hts] at ht
    have : t = t0 ∨ some t ∈ rest := by simpa using ht
    rcases this with rfl | ht
    · exact .inl ⟨e1, e2⟩
    · exact .inr ⟨t, mem_present.2 ⟨ht, hl⟩, e1, e2⟩
  have inj : ∀ {d lo : ℤ} {a b : ℕ}, 0 < d → lo + (a : ℤ) * d = lo + b * d → a = b := by
    intro d lo a b hd e
    have : (a : ℤ) * d = b * d := by linarith
    exact_mod_cast mul_right_cancel₀ hd.ne' this
  obtain ⟨U, a0, a1, an, u1, u2, u3, u4, u5, u6, u7, u8, u9, u10, u11, u12⟩ := side_spec h.stepI h.manyI cI
  obtain ⟨W, b0, b1, bn, w1, w2, w3, w4, w5, w6, w7, w8, w9, w10, w11, w12⟩ := side_spec h.stepX h.manyX cX
  have R : Rect t0 (present rest) U W dIL dXL := by
    refine ⟨h.stepI, h.stepX, u1, w1, ?_, ?_, ?_, ?_, ?_, ?_⟩
    · intro t ht
      obtain ⟨⟨a, b, ha, hb, ea, eb⟩, -⟩ := h.each t (mem t ht)
      obtain ⟨k1, k2, k3⟩ := u12 a ha
      rw [ea]
      exact ⟨⟨k1, k2⟩, k3⟩
    · intro t ht
      obtain ⟨⟨a, b, ha, hb, ea, eb⟩, -⟩ := h.each t (mem t ht)
      obtain ⟨k1, k2, k3⟩ := w12 b hb
      rw [eb]
      exact ⟨⟨k1, k2⟩, k3⟩
    · rcases ex an bn u4 w4 with ⟨e, -⟩ | ⟨t, ht, e1, e2⟩
      · exact absurd (inj h.stepI (u7.symm.trans e)) u6
      · exact ⟨t, ht, by linarith, by linarith⟩
    · rcases ex a0 bn u2 w4 with ⟨-, e⟩ | ⟨t, ht, e1, e2⟩
      · exact absurd (inj h.stepX (w7.symm.trans e)) w6
      · exact ⟨t, ht, by linarith, by linarith⟩
    · rcases ex a1 b0 u3 w2 with ⟨e, -⟩ | ⟨t, ht, e1, e2⟩
      · exact absurd (inj h.stepI (u7.symm.trans e)) u5
      · exact ⟨t, ht, by rw [e1]; exact u9⟩
    · rcases ex a0 b1 u2 w3 with ⟨-, e⟩ | ⟨t, ht, e1, e2⟩
      · exact absurd (inj h.stepX (w7.symm.trans e)) w5
      · exact ⟨t, ht, by rw [e2]; exact w9⟩
  obtain ⟨r1, r2, r3, r4, -⟩ := rect_extent R
  obtain ⟨s1, s2, -⟩ := rect_spread R
  refine ⟨⟨r1.trans u10, r2.trans u11, r3.trans w10, r4.trans w11⟩, ⟨s1, s2⟩, rect_directions R ?_⟩
  intro t ht
  obtain ⟨p1, p2⟩ := Prod.ext_iff.1 (h.each t (mem t ht)).2
  obtain ⟨p3, p4⟩ := Prod.ext_iff.1 (h.each t0 mem0).2
  simp only [Spec.linePoint] at p1 p2 p3 p4
  rw [p1, p2, p3, p4]
  push_cast
  constructor <;> ring

/-- The steps of the lines along the axes of the map. -/
theorem steps_spec {g : SegyGeometry} {x0 y0 : ℝ} {il0 xl0 : ℤ} {vI vX : ℝ × ℝ}
    (k : ∀ i j, g.findContILXL (Spec.linePoint x0 y0 il0 xl0 vI vX i j).1 (Spec.linePoint x0 y0 il0 xl0 vI vX i j).2 = (i, j)) :
    vI.1 * vX.2 - vI.2 * vX.1 ≠ 0 ∧ g.ilStepX * (vI.1 * vX.2 - vI.2 * vX.1) = vX.2 ∧
      g.xlStepX * (vI.1 * vX.2 - vI.2 * vX.1) = -vI.2 ∧ g.xlStepY * (vI.1 * vX.2 - vI.2 * vX.1) = vI.1 ∧
      g.ilStepY * (vI.1 * vX.2 - vI.2 * vX.1) = -vX.1 := by
  obtain ⟨a1, a2⟩ := Prod.ext_iff.1 (k il0 xl0)
  obtain ⟨b1, b2⟩ := Prod.ext_iff.1 (k (il0 + 1) xl0)
  obtain ⟨c1, c2⟩ := Prod.ext_iff.1 (k il0 (xl0 + 1))
  simp only [Spec.linePoint, SegyGeometry.findContILXL] at a1 a2 b1 b2 c1 c2
  have p1 : vI.1 * g.ilStepX + vI.2 * g.ilStepY = 1 := by linear_combination b1 - a1
  have p2 : vI.1 * g.xlStepX + vI.2 * g.xlStepY = 0 := by linear_combination b2 - a2
  have p3 : vX.1 * g.ilStepX + vX.2 * g.ilStepY = 0 := by linear_combination c1 - a1
  have p4 : vX.1 * g.xlStepX + vX.2 * g.xlStepY = 1 := by linear_combination c2 - a2
  refine ⟨fun hD => ?_, by linear_combination vX.2 * p1 - vI.2 * p3, by linear_combination vX.2 * p2 - vI.2 * p4,
    by linear_combination vI.1 * p4 - vX.1 * p2, by linear_combination vI.1 * p3 - vX.1 * p1⟩
  have q1 : vX.2 = 0 := by linear_combination -(vX.2 * p1) + vI.2 * p3 + g.ilStepX * hD
  have q2 : vX.1 = 0 := by linear_combination vI.1 * p3 - vX.1 * p1 - g.ilStepY * hD
  rw [q1, q2] at p4
  norm_num at p4

theorem not_tiny {a b c d D : ℝ} (h1 : a * D = c) (h2 : b * D = -d) (h : d = 0 ∨ c = 0 ∨ 1e-14 ≤ |c / d|) (hD : D ≠ 0) :
    SegyGeometry.tiny a b → a = 0 := by
  rintro ⟨hb, ht⟩
  have hd : d ≠ 0 := by
    rintro rfl
    rw [neg_zero] at h2
    exact (mul_ne_zero hb hD) h2
  rcases h with h | h | h
  · exact absurd h hd
  · rw [h] at h1
    exact (mul_eq_zero.1 h1).resolve_right hD
  · have e : a / b = -(c / d) := by
      rw [← h1, show d = -(b * D) by linarith, div_neg, neg_neg, mul_div_mul_right _ _ hD]
    rw [e, abs_neg] at ht
    linarith

theorem place_of_line {σ L0 lo hi step : ℤ} {n p : ℕ} (h : Spec.LineRange σ L0 lo hi step n) (hp : p < n) :
    ∃ a : ℕ, a < n ∧ L0 + σ * step * p = lo + a * step := by
  obtain ⟨hs, ⟨rfl, rfl, rfl⟩ | ⟨rfl, rfl, rfl, hn⟩⟩ := h
  · exact ⟨p, hp, by ring⟩
  · refine ⟨n - 1 - p, by omega, ?_⟩
    rw [Nat.cast_sub (by omega), Nat.cast_sub (by omega)]
    push_cast
    ring

end SegyTrace

/-- **C144 (a cube from its traces).** The constructor from traces on a full rectangle of perpendicular lines, whose first trace is
in a corner, gives a cube with a cell for every crossing of lines, whose members fit one another, and returns the traces in the
order of the cells: at the place of every cell there is a trace that has the lines of the cell and lies in its middle. -/
theorem segy_traces {ts : List (Option SegyTrace)} {xRef yRef : ℝ} {minIL minXL dIL dXL : ℤ} {nI nX : ℕ} {vI vX : ℝ × ℝ}
    (h : Spec.TraceGrid ts xRef yRef minIL minXL dIL dXL nI nX vI vX)
    (h1 : vI.2 = 0 ∨ vX.2 = 0 ∨ 1e-14 ≤ |vX.2 / vI.2|) (h2 : vX.1 = 0 ∨ vI.1 = 0 ∨ 1e-14 ≤ |vI.1 / vX.1|) :
    ∃ g a σI σX, SegyTrace.geometry ts = .ok (g, a) ∧ Spec.SegyGrid g σI σX ∧
      (g.minIL, g.maxIL, g.ILStep) = (minIL, minIL + nI * dIL, dIL) ∧
      (g.minXL, g.maxXL, g.XLStep) = (minXL, minXL + nX * dXL, dXL) ∧
      (g.nx, g.ny) = (if g.firstAxisIL then (nI + 1, nX + 1) else (nX + 1, nI + 1)) ∧
      a.length = g.nx * g.ny ∧
      ∀ i j : ℕ, i < g.nx → j < g.ny → ∃ t, some t ∈ ts ∧ a[i + g.nx * j]? = some (some t) ∧
        g.findILXLOfCell i j = (t.il, t.xl) ∧ g.at (i + 1 / 2) (j + 1 / 2) = (t.x, t.y) := by
  obtain ⟨k, t0, rest, hts, cI, cX⟩ := h.corner
  obtain ⟨⟨r1, r2, r3, r4⟩, ⟨s1, s2⟩, hd⟩ := SegyTrace.loops_spec h hts cI cX
  obtain ⟨g₀, g, σI, σX, k1, k2, k3, k4, k5, k6, -, -, k7⟩ := segy_setup t0.x t0.y t0.il t0.xl h.perp h.dirI h.dirX h.stepI h.stepX
    (rfl : minIL + nI * dIL = _) (rfl : minXL + nX * dXL = _) h.manyI h.manyX h.rangeI h.rangeX
  obtain ⟨m1, m2, m3⟩ : g.minIL = minIL ∧ g.maxIL = minIL + nI * dIL ∧ g.ILStep = dIL := by simpa using k4
  obtain ⟨m4, m5, m6⟩ : g.minXL = minXL ∧ g.maxXL = minXL + nX * dXL ∧ g.XLStep = dXL := by simpa using k5
  have n1 : (if g.firstAxisIL then g.nx else g.ny) = nI + 1 ∧ (if g.firstAxisIL then g.ny else g.nx) = nX + 1 := by
    have e1 := congrArg Prod.fst k6
    have e2 := congrArg Prod.snd k6
    cases hf : g.firstAxisIL <;> simp only [hf, if_true, if_false, Bool.false_eq_true] at e1 e2 ⊢ <;>
      exact ⟨by assumption, by assumption⟩
  have nn : g.nx ≤ 2 ^ 31 ∧ g.ny ≤ 2 ^ 31 := by
    have a1 := h.rangeI
    have a2 := h.rangeX
    have a3 := h.stepI
    have a4 := h.stepX
    have mI : (nI : ℤ) ≤ nI * dIL := by nlinarith
    have mX : (nX : ℤ) ≤ nX * dXL := by nlinarith
    cases hf : g.firstAxisIL <;> simp only [hf, if_true, if_false, Bool.false_eq_true] at n1 <;> omega
  have mem0 : some t0 ∈ ts := by rw [hts]; simp
  -- the lines at a trace
  have lines : ∀ t, some t ∈ ts → g.findContILXL t.x t.y = ((t.il : ℝ), (t.xl : ℝ)) := by
    intro t ht
    rw [← k7 t.il t.xl]
    obtain ⟨p1, p2⟩ := Prod.ext_iff.1 (h.each t ht).2
    obtain ⟨p3, p4⟩ := Prod.ext_iff.1 (h.each t0 mem0).2
    simp only [Spec.linePoint] at p1 p2 p3 p4 ⊢
    rw [p1, p2, p3, p4]
    congr 1 <;> ring
  -- the points of lines
  have pts := (SegyGeometry.segy_points k3 (by
      obtain ⟨t0, t1, t2, -⟩ := SegyTrace.steps_spec k7
      exact SegyTrace.not_tiny t1 t2 h1 t0) (by
      obtain ⟨t0, -, -, t1, t2⟩ := SegyTrace.steps_spec k7
      exact SegyTrace.not_tiny t1 t2 h2 t0)).1
  let R : SegyTrace → ℕ → Prop := fun t m => ∃ i j : ℕ, i < g.nx ∧ j < g.ny ∧ m = i + g.nx * j ∧
    g.findILXLOfCell i j = (t.il, t.xl) ∧ g.at (i + 1 / 2) (j + 1 / 2) = (t.x, t.y)
  have inj : ∀ {i j i' j' : ℕ}, i < g.nx → j < g.ny → i' < g.nx → j' < g.ny →
      g.findILXLOfCell i j = g.findILXLOfCell i' j' → i = i' ∧ j = j' := by
    intro i j i' j' a1 a2 a3 a4 e
    have e1 := ((SegyGeometry.segy_lines k3 i j).2 a1 a2).1
    have e2 := ((SegyGeometry.segy_lines k3 i' j').2 a3 a4).1
    rw [e, e2] at e1
    injection e1 with e1
    injection e1 with e1 e3
    exact ⟨e1.symm, e3.symm⟩
  have hR : ∀ t m m', R t m → R t m' → m = m' := by
    rintro t m m' ⟨i, j, a1, a2, rfl, a3, -⟩ ⟨i', j', b1, b2, rfl, b3, -⟩
    obtain ⟨rfl, rfl⟩ := inj a1 a2 b1 b2 (a3.trans b3.symm)
    rfl
  have cell : ∀ t, some t ∈ ts → ∃ i j : ℕ, i < g.nx ∧ j < g.ny ∧
      g.findILXLOfCell i j = (t.il, t.xl) ∧ g.at (i + 1 / 2) (j + 1 / 2) = (t.x, t.y) := by
    intro t ht
    obtain ⟨⟨a, b, ha, hb, ea, eb⟩, -⟩ := h.each t ht
    obtain ⟨i, j, hi, hj, hP, hl⟩ := SegyGeometry.grid_trace k3 (a := a) (b := b) (by omega) (by omega) (P := (t.x, t.y))
      (by rw [m1, m3, m4, m6, ← ea, ← eb]; exact lines t ht)
    rw [m1, m3, m4, m6, ← ea, ← eb] at hl
    exact ⟨i, j, hi, hj, hl, hP.symm⟩
  have err : 0 ≤ SegyTrace.errorDist vI vX := by
    unfold SegyTrace.errorDist
    simp only
    have q1 : 0 ≤ vI.1 * vI.1 + vI.2 * vI.2 := by nlinarith [mul_self_nonneg vI.1, mul_self_nonneg vI.2]
    have q2 : 0 ≤ vX.1 * vX.1 + vX.2 * vX.2 := by nlinarith [mul_self_nonneg vX.1, mul_self_nonneg vX.2]
    split <;> (norm_num; linarith)
  obtain ⟨arr, p1, p2, p3⟩ := SegyTrace.place_spec (g := g) (err := SegyTrace.errorDist vI vX) (N := g.nx * g.ny) hR ts
    (List.replicate (g.nx * g.ny) none) (by simp) (by
      intro t ht
      refine ⟨SegyTrace.hasLines h ht, ?_⟩
      obtain ⟨i, j, hi, hj, hl, hP⟩ := cell t ht
      have lt : i + g.nx * j < g.nx * g.ny := by nlinarith
      refine ⟨i + g.nx * j, lt, ⟨i, j, hi, hj, rfl, hl, hP⟩, ?_⟩
      intro a ha
      have pt := pts t.x t.y
      rw [lines t ht] at pt
      have c := ((SegyGeometry.segy_cells k3 nn (i + 1 / 2) (j + 1 / 2)).2.2.1
        ⟨by positivity, by have : ((i + 1 : ℕ) : ℝ) ≤ g.nx := by exact_mod_cast hi
                           push_cast at this; linarith,
          by positivity, by have : ((j + 1 : ℕ) : ℝ) ≤ g.ny := by exact_mod_cast hj
                            push_cast at this; linarith⟩).1
      have fl : ∀ n : ℕ, ⌊(n : ℝ) + 1 / 2⌋ = n := by
        intro n
        rw [Int.floor_eq_iff]
        push_cast
        constructor <;> linarith
      rw [hP, fl, fl] at c
      unfold SegyTrace.placeOne
      simp only [Res.monad_bind_eq]
      rw [pt, Res.bind_ok]
      simp only [sub_self, mul_zero, add_zero]
      rw [if_neg (by linarith), c, Res.bind_ok]
      simp only [Int.toNat_natCast]
      rw [wr, if_pos (by rw [ha]; exact lt)])
  refine ⟨g, arr, σI, σX, ?_, k3, k4, k5, k6, p2, ?_⟩
  · have len : ts.length > 1 := by
      obtain ⟨t, ht, e1, e2⟩ := h.every 0 0 (by omega) (by omega)
      obtain ⟨t', ht', e3, e4⟩ := h.every 1 0 h.manyI (by omega)
      by_contra hc
      have l1 : ts.length ≤ 1 := by omega
      rcases ts with _ | ⟨o, _ | ⟨o', ts⟩⟩
      · simp at ht
      · simp only [List.mem_singleton] at ht ht'
        rw [← ht] at ht'
        injection ht' with ht'
        rw [ht', e1] at e3
        have := h.stepI
        push_cast at e3
        omega
      · simp at l1
    unfold SegyTrace.geometry
    rw [if_pos len]
    simp only [Res.monad_bind_eq]
    have ft : SegyTrace.firstTrace ts = .ok (t0, rest) := by rw [hts]; exact SegyTrace.firstTrace_replicate k t0 rest
    rw [ft, Res.bind_ok]
    simp only
    rw [hd, Res.bind_ok, r1, r2, r3, r4, s1, s2, k1, Res.bind_ok, k2, Res.bind_ok, p1, Res.bind_ok]
  · intro i j hi hj
    obtain ⟨p, hp, ep⟩ := SegyTrace.place_of_line k3.il (p := if g.firstAxisIL then i else j) (by split <;> assumption)
    obtain ⟨q, hq, eq⟩ := SegyTrace.place_of_line k3.xl (p := if g.firstAxisIL then j else i) (by split <;> assumption)
    obtain ⟨t, ht, e1, e2⟩ := h.every p q (by omega) (by omega)
    have lc := SegyGeometry.lines_of_cell k3 i j
    have c1 : ((if g.firstAxisIL then i else j : ℕ) : ℤ) = if g.firstAxisIL then (i : ℤ) else j := by split <;> rfl
    have c2 : ((if g.firstAxisIL then j else i : ℕ) : ℤ) = if g.firstAxisIL then (j : ℤ) else i := by split <;> rfl
    rw [← c1, ← c2, ep, eq, m1, m3, m4, m6, ← e1, ← e2] at lc
    obtain ⟨i', j', b1, b2, b3, b4⟩ := cell t ht
    obtain ⟨rfl, rfl⟩ := inj hi hj b1 b2 (lc.trans b3.symm)
    have lt : i + g.nx * j < g.nx * g.ny := by nlinarith
    rcases p3 _ lt with ⟨-, hn⟩ | ⟨t', ht', ⟨i', j', c1, c2, c3, c4, c5⟩, e⟩
    · exact absurd ⟨t, ht, i, j, hi, hj, rfl, b3, b4⟩ hn
    · refine ⟨t', ht', e, ?_⟩
      have nx0 : 0 < g.nx := by omega
      have e1 : i = i' := by
        have := congrArg (· % g.nx) c3
        simpa [Nat.add_mul_mod_self_left, Nat.mod_eq_of_lt hi, Nat.mod_eq_of_lt c1] using this
      have e2 : j = j' := by
        rw [e1] at c3
        exact Nat.eq_of_mul_eq_mul_left nx0 (by omega)
      subst e1 e2
      exact ⟨c4, c5⟩

/-- Two in-lines and three cross-lines along (3, 4) and (-8, 6). The first trace is a null pointer, and one trace is there twice. -/
theorem segy_traces_example : ∃ ts, Spec.TraceGrid ts 1000 2000 100 7 5 1 1 2 (3, 4) (-8, 6) ∧ ts.length = 8 := by
  refine ⟨[none, some ⟨105, 7, 1015, 2020⟩, some ⟨100, 7, 1000, 2000⟩, some ⟨105, 9, 999, 2032⟩, some ⟨105, 8, 1007, 2026⟩,
    some ⟨100, 9, 984, 2012⟩, some ⟨100, 8, 992, 2006⟩, some ⟨105, 8, 1007, 2026⟩], ?_, rfl⟩
  refine ⟨by norm_num, by simp, by simp, by norm_num, by norm_num, by norm_num, by norm_num, by norm_num, by norm_num, ?_, ?_, ?_⟩
  · intro t ht
    simp only [List.mem_cons, Option.some.injEq, reduceCtorEq, false_or, List.not_mem_nil, or_false] at ht
    rcases ht with rfl | rfl | rfl | rfl | rfl | rfl | rfl
    · exact ⟨⟨1, 0, by norm_num⟩, by norm_num [Spec.linePoint]⟩
    · exact ⟨⟨0, 0, by norm_num⟩, by norm_num [Spec.linePoint]⟩
    · exact ⟨⟨1, 2, by norm_num⟩, by norm_num [Spec.linePoint]⟩
    · exact ⟨⟨1, 1, by norm_num⟩, by norm_num [Spec.linePoint]⟩
    · exact ⟨⟨0, 2, by norm_num⟩, by norm_num [Spec.linePoint]⟩
    · exact ⟨⟨0, 1, by norm_num⟩, by norm_num [Spec.linePoint]⟩
    · exact ⟨⟨1, 1, by norm_num⟩, by norm_num [Spec.linePoint]⟩
  · intro a b ha hb
    interval_cases a <;> interval_cases b
    · exact ⟨⟨100, 7, 1000, 2000⟩, by simp, by norm_num⟩
    · exact ⟨⟨100, 8, 992, 2006⟩, by simp, by norm_num⟩
    · exact ⟨⟨100, 9, 984, 2012⟩, by simp, by norm_num⟩
    · exact ⟨⟨105, 7, 1015, 2020⟩, by simp, by norm_num⟩
    · exact ⟨⟨105, 8, 1007, 2026⟩, by simp, by norm_num⟩
    · exact ⟨⟨105, 9, 999, 2032⟩, by simp, by norm_num⟩
  · exact ⟨1, ⟨105, 7, 1015, 2020⟩, _, rfl, by norm_num, by norm_num⟩

namespace SegyTrace

theorem visit_some {α : Type} (f : α → SegyTrace → α) (a : α) {t : SegyTrace} (h : t.HasLines) : visit f a (some t) = f a t :=
  if_pos h

end SegyTrace

open SegyTrace in
/-- **C144 (violation).** A full square of three in-lines and three cross-lines, all in place, whose first trace is the one in the
middle: the two other traces that are chosen lie on a line through it, and the directions are a division of zero by zero. -/
theorem segy_traces_middle_violation :
    SegyTrace.geometry [some ⟨1, 1, 1, 1⟩, some ⟨0, 0, 0, 0⟩, some ⟨1, 0, 1, 0⟩, some ⟨2, 0, 2, 0⟩, some ⟨0, 1, 0, 1⟩,
      some ⟨2, 1, 2, 1⟩, some ⟨0, 2, 0, 2⟩, some ⟨1, 2, 1, 2⟩, some ⟨2, 2, 2, 2⟩] = .nonfinite "division by zero" := by
  have q2 : (1.4 : ℝ) < √2 := by rw [Real.lt_sqrt] <;> norm_num
  have q2' : √2 < (1.5 : ℝ) := by rw [Real.sqrt_lt'] <;> norm_num
  have q5 : √5 < (2.3 : ℝ) := by rw [Real.sqrt_lt'] <;> norm_num
  have q5' : (2.2 : ℝ) < √5 := by rw [Real.lt_sqrt] <;> norm_num
  have q4 : √4 = (2 : ℝ) := by rw [show (4 : ℝ) = 2 ^ 2 by norm_num]; exact Real.sqrt_sq (by norm_num)
  have q8 : √8 = 2 * √2 := by rw [show (8 : ℝ) = 2 ^ 2 * 2 by norm_num, Real.sqrt_mul (by norm_num), Real.sqrt_sq (by norm_num)]
  have e : extentOf ⟨1, 1, 1, 1⟩ [some ⟨0, 0, 0, 0⟩, some ⟨1, 0, 1, 0⟩, some ⟨2, 0, 2, 0⟩, some ⟨0, 1, 0, 1⟩,
      some ⟨2, 1, 2, 1⟩, some ⟨0, 2, 0, 2⟩, some ⟨1, 2, 1, 2⟩, some ⟨2, 2, 2, 2⟩] = ⟨0, 2, 0, 2, 2, ⟨0, 0, 0, 0⟩⟩ := by
    simp [extentOf, visit, HasLines, missing, extend]
  have s : (spreadOf ⟨1, 1, 1, 1⟩ ⟨0, 2, 0, 2, 2, ⟨0, 0, 0, 0⟩⟩ [some ⟨0, 0, 0, 0⟩, some ⟨1, 0, 1, 0⟩, some ⟨2, 0, 2, 0⟩,
      some ⟨0, 1, 0, 1⟩, some ⟨2, 1, 2, 1⟩, some ⟨0, 2, 0, 2⟩, some ⟨1, 2, 1, 2⟩, some ⟨2, 2, 2, 2⟩]) =
      ⟨1, 1, 3 * √2, ⟨2, 2, 2, 2⟩⟩ := by
    have l : ∀ (a b c d : ℤ) (x y z w : ℝ), lineDistance ⟨a, b, x, y⟩ ⟨c, d, z, w⟩ =
        √(((d - b) * (d - b) + (c - a) * (c - a) : ℤ) : ℝ) := fun _ _ _ _ _ _ _ _ => rfl
    have c1 : ¬ √2 < 0 := by linarith
    have c2 : ¬ √2 + 2 < 1 + √5 := by linarith
    have c3 : √2 + 2 < √2 + 2 * √2 := by linarith
    have c4 : √2 + 2 * √2 = 3 * √2 := by ring
    have c5 : √2 < 2 := by linarith
    norm_num [spreadOf, visit, HasLines, missing, spread, l, q4, q8, c1, c2, c3, c4, c5]
    exact ⟨fun h => by linarith, by linarith⟩
  unfold SegyTrace.geometry
  rw [if_pos (by norm_num)]
  simp only [firstTrace, Res.monad_bind_eq, Res.bind_ok, e, s]
  unfold directions
  simp only
  rw [if_pos (by push_cast; norm_num; linarith)]
  unfold solve
  norm_num [Res.monad_bind_eq, divD, Res.bind_ok]

open SegyTrace in
/-- **C144 (violation).** Three traces of which the second has the cross-line of the first, and the third a smaller one: a division
by zero, though the three are not on a line. The test of the divisor is whether it is greater than zero. -/
theorem segy_traces_order_violation :
    SegyTrace.geometry [some ⟨0, 5, 0, 5⟩, some ⟨10, 5, 10, 5⟩, some ⟨3, 0, 3, 0⟩] = .nonfinite "division by zero" := by
  have q1 : √34 > (5 : ℝ) := by rw [gt_iff_lt, Real.lt_sqrt] <;> norm_num
  have q2 : √74 > (8 : ℝ) := by rw [gt_iff_lt, Real.lt_sqrt] <;> norm_num
  have q3 : √100 = (10 : ℝ) := by rw [show (100 : ℝ) = 10 ^ 2 by norm_num]; exact Real.sqrt_sq (by norm_num)
  have e : extentOf ⟨0, 5, 0, 5⟩ [some ⟨10, 5, 10, 5⟩, some ⟨3, 0, 3, 0⟩] = ⟨0, 10, 0, 5, 100, ⟨10, 5, 10, 5⟩⟩ := by
    simp [extentOf, visit, HasLines, missing, extend]
  have s : spreadOf ⟨0, 5, 0, 5⟩ ⟨0, 10, 0, 5, 100, ⟨10, 5, 10, 5⟩⟩ [some ⟨10, 5, 10, 5⟩, some ⟨3, 0, 3, 0⟩] =
      ⟨3, 5, √34 + √74, ⟨3, 0, 3, 0⟩⟩ := by
    have l1 : lineDistance ⟨0, 5, 0, 5⟩ ⟨10, 5, 10, 5⟩ = 10 := by rw [← q3]; norm_num [lineDistance]
    have l2 : lineDistance ⟨10, 5, 10, 5⟩ ⟨10, 5, 10, 5⟩ = 0 := by norm_num [lineDistance]
    have l3 : lineDistance ⟨0, 5, 0, 5⟩ ⟨3, 0, 3, 0⟩ = √34 := by norm_num [lineDistance]
    have l4 : lineDistance ⟨10, 5, 10, 5⟩ ⟨3, 0, 3, 0⟩ = √74 := by norm_num [lineDistance]
    have l5 : 10 < √34 + √74 := by linarith
    simp [spreadOf, visit, HasLines, missing, spread, l1, l2, l3, l4, l5]
  unfold SegyTrace.geometry
  rw [if_pos (by norm_num)]
  simp only [firstTrace, Res.monad_bind_eq, Res.bind_ok, e, s]
  unfold directions
  simp only
  rw [if_pos (by push_cast; rw [q3]; norm_num; linarith)]
  unfold solve
  norm_num [Res.monad_bind_eq, divD, Res.bind_ok]

open SegyTrace in
/-- **C144 (violation).** Two traces on one cross-line: with the in-lines ascending the step from in-line to in-line is found,
with the same two traces in descending order it is left at zero, and the constructor divides by zero. -/
theorem segy_traces_descending_violation :
    directions ⟨1, 5, 10, 0⟩ ⟨2, 5, 20, 0⟩ ⟨2, 5, 20, 0⟩ 1 1 = .ok ((10, 0), (0, 0)) ∧
    ∀ r, SegyTrace.geometry [some ⟨2, 5, 20, 0⟩, some ⟨1, 5, 10, 0⟩] ≠ .ok r := by
  constructor
  · norm_num [directions, divD, Res.monad_bind_eq, Res.bind_ok]
  · have e : extentOf ⟨2, 5, 20, 0⟩ [some ⟨1, 5, 10, 0⟩] = ⟨1, 2, 5, 5, 1, ⟨1, 5, 10, 0⟩⟩ := by
      simp [extentOf, visit, HasLines, missing, extend]
    have s : spreadOf ⟨2, 5, 20, 0⟩ ⟨1, 2, 5, 5, 1, ⟨1, 5, 10, 0⟩⟩ [some ⟨1, 5, 10, 0⟩] = ⟨1, 0, 1, ⟨1, 5, 10, 0⟩⟩ := by
      simp [spreadOf, visit, HasLines, missing, spread, lineDistance]
    have d : directions ⟨2, 5, 20, 0⟩ ⟨1, 5, 10, 0⟩ ⟨1, 5, 10, 0⟩ 1 1 = .ok ((0, 0), (0, 0)) := by
      norm_num [directions, divD, Res.monad_bind_eq, Res.bind_ok]
    unfold SegyTrace.geometry
    rw [if_pos (by norm_num)]
    simp only [firstTrace, Res.monad_bind_eq, Res.bind_ok, e, s, d]
    intro r h
    rw [Res.bind_eq_ok] at h
    obtain ⟨g, hg, -⟩ := h
    rw [SegyGeometry.setup, if_pos rfl, SegyGeometry.setupCube] at hg
    have z : SegyGeometry.stepsOf 0 0 0 (-0) = .nonfinite "division by zero" := by
      norm_num [SegyGeometry.stepsOf, divD, Res.monad_bind_eq]
    simp only [Res.monad_bind_eq, z, Res.bind_eq_ok] at hg
    obtain ⟨_, _, _, _, _, _, _, hg, _⟩ := hg
    cases hg

end Verif
