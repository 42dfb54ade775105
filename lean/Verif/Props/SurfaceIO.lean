import Verif.Lemmas.SurfaceIO
import Verif.Props.SurfaceOps

/-! # Surface files in Irap classic format: what is read back -/

namespace Verif

/-- `v` is written as the code for a missing value. -/
def LooksMissing (v : ℝ) : Prop := |v - 9999900| ≤ 5e-7

theorem roundDec_ne_missing {v : ℝ} (h : ¬ LooksMissing v) : roundDec 6 v ≠ irapMissing := by
  intro e
  have := roundDec_err 6 v
  rw [e] at this
  refine h ?_
  unfold LooksMissing
  rw [abs_sub_comm]
  unfold irapMissing at this
  norm_num at this ⊢
  exact this

theorem writeIrap_type (s : RegSurf) (angle : ℝ) :
    findSurfaceFileType (writeIrap s angle) = .irapClassicAscii := by
  have e : showInt (-996) = ['-', '9', '9', '6'] := by
    unfold showInt
    rw [if_pos (by norm_num)]
    have h1 : natDigits 996 = ['9', '9', '6'] := by
      rw [natDigits, if_neg (by norm_num), natDigits, if_neg (by norm_num), natDigits, if_pos (by norm_num)]
      decide
    exact congrArg _ h1
  obtain ⟨r, hr⟩ : ∃ r, writeIrap s angle = ['-', '9', '9', '6'] ++ ' ' :: r := by
    unfold writeIrap
    rw [e]
    simp only [List.append_assoc, List.cons_append, List.nil_append]
    exact ⟨_, rfl⟩
  rw [hr]
  unfold findSurfaceFileType IStream.openOn IStream.word extractWord
  simp [IStream.good, isSpaceC, List.dropWhile_cons, List.takeWhile_cons]

/-- C84. A surface written with `WriteIrapClassicAsciiSurf` and read with `ReadIrapClassicAsciiSurf`, into
whatever surface: the same number of nodes, the same nodes missing, the values within 5e-7, the coordinates
within 0.005 plus 5e-7 for each cell from the corner, the angle within 5e-7 degrees.

Partial: a value within 5e-7 of 9999900 must not occur, see `irap_valid_becomes_missing`. -/
theorem irap_roundtrip_partial {s : RegSurf} {z : ℕ → ℕ → ℝ} (hz : HasValues s z)
    (hdx : s.dx = spacing s.grid.ni s.lx) (hdy : s.dy = spacing s.grid.nj s.ly)
    (hi : s.grid.ni < 2 ^ 31) (hj : s.grid.nj < 2 ^ 31) (hn : s.grid.data.length < 2 ^ 60)
    (hv : ∀ i j, i < s.grid.ni → j < s.grid.nj → z i j ≠ s.missing → ¬ LooksMissing (z i j))
    (s0 : RegSurf) (angle : ℝ) :
    ∃ s' a', readIrap (writeIrap s angle) s0 = .ok (s', a') ∧
      s'.grid.ni = s.grid.ni ∧ s'.grid.nj = s.grid.nj ∧
      |a' - angle| ≤ Real.pi / 180 * 5e-7 ∧
      ∃ z', HasValues s' z' ∧ ∀ i j, i < s.grid.ni → j < s.grid.nj →
        (z' i j = s'.missing ↔ z i j = s.missing) ∧
        (z i j ≠ s.missing → |z' i j - z i j| ≤ 5e-7) ∧
        |(s'.getXY i j).1 - (s.getXY i j).1| ≤ 0.005 + i * 5e-7 ∧
        |(s'.getXY i j).2 - (s.getXY i j).2| ≤ 0.005 + j * 5e-7 := by
  refine ⟨_, _, readIrap_writeIrap s s0 angle hi hj hz.1 hn, rfl, rfl, ?_, ?_⟩
  · have h := roundDec_err 6 (angle * 180 / Real.pi)
    have e : Real.pi / 180 * roundDec 6 (angle * 180 / Real.pi) - angle
        = Real.pi / 180 * (roundDec 6 (angle * 180 / Real.pi) - angle * 180 / Real.pi) := by
      have := Real.pi_ne_zero
      field_simp
    have hp : (0 : ℝ) < Real.pi / 180 := by have := Real.pi_pos; positivity
    rw [e, abs_mul, abs_of_pos hp]
    refine mul_le_mul_of_nonneg_left (h.trans ?_) hp.le
    norm_num
  · have hback : HasValues (irapBack s) (fun i j => irapValue s (z i j)) := by
      refine ⟨by simp [irapBack, hz.1], fun i j hi' hj' => ?_⟩
      refine get_of_getElem hi' hj' ?_
      have h := holds_getElem hz hi' hj'
      change (s.grid.data.map (irapValue s))[i + j * s.grid.ni]? = _
      rw [List.getElem?_map, h]; rfl
    refine ⟨_, hback, fun i j hi' hj' => ⟨?_, ?_, ?_, ?_⟩⟩
    · constructor
      · intro h
        by_contra hc
        change irapValue s (z i j) = irapMissing at h
        unfold irapValue at h
        rw [if_neg hc] at h
        exact roundDec_ne_missing (hv i j hi' hj' hc) h
      · intro h
        change irapValue s (z i j) = irapMissing
        unfold irapValue
        rw [if_pos h]
    · intro h
      change |irapValue s (z i j) - z i j| ≤ 5e-7
      unfold irapValue
      rw [if_neg h]
      refine (roundDec_err 6 _).trans ?_
      norm_num
    · change |(irapBack s).x_min + i * (irapBack s).dx - (s.x_min + i * s.dx)| ≤ _
      have e : (irapBack s).dx = roundDec 6 s.dx := by
        change spacing s.grid.ni _ = _
        rw [hdx]; exact spacing_back _ _
      rw [e]
      have h1 := abs_le.1 (roundDec_err 2 s.x_min)
      have h2 := abs_le.1 (roundDec_err 6 s.dx)
      change |roundDec 2 s.x_min + _ - _| ≤ _
      have hi0 : (0 : ℝ) ≤ i := Nat.cast_nonneg i
      rw [abs_le]
      constructor <;> nlinarith [mul_le_mul_of_nonneg_left h2.1 hi0, mul_le_mul_of_nonneg_left h2.2 hi0]
    · change |(irapBack s).y_min + j * (irapBack s).dy - (s.y_min + j * s.dy)| ≤ _
      have e : (irapBack s).dy = roundDec 6 s.dy := by
        change spacing s.grid.nj _ = _
        rw [hdy]; exact spacing_back _ _
      rw [e]
      have h1 := abs_le.1 (roundDec_err 2 s.y_min)
      have h2 := abs_le.1 (roundDec_err 6 s.dy)
      change |roundDec 2 s.y_min + _ - _| ≤ _
      have hi0 : (0 : ℝ) ≤ j := Nat.cast_nonneg j
      rw [abs_le]
      constructor <;> nlinarith [mul_le_mul_of_nonneg_left h2.1 hi0, mul_le_mul_of_nonneg_left h2.2 hi0]

/-- C84. The same for the member functions `WriteToFile` and `ReadFromFile`, with the format given or found
from the file. -/
theorem surfaceFile_roundtrip_partial {s : RegSurf} {z : ℕ → ℕ → ℝ} (hz : HasValues s z)
    (hdx : s.dx = spacing s.grid.ni s.lx) (hdy : s.dy = spacing s.grid.nj s.ly)
    (hi : s.grid.ni < 2 ^ 31) (hj : s.grid.nj < 2 ^ 31) (hn : s.grid.data.length < 2 ^ 60)
    (hv : ∀ i j, i < s.grid.ni → j < s.grid.nj → z i j ≠ s.missing → ¬ LooksMissing (z i j))
    (s0 : RegSurf) {format : SurfFormat} (hf : format = .unknown ∨ format = .irapClassicAscii) :
    ∃ s', s0.readFromFile s.writeToFile format = .ok s' ∧
      s'.grid.ni = s.grid.ni ∧ s'.grid.nj = s.grid.nj ∧
      ∃ z', HasValues s' z' ∧ ∀ i j, i < s.grid.ni → j < s.grid.nj →
        (z' i j = s'.missing ↔ z i j = s.missing) ∧
        (z i j ≠ s.missing → |z' i j - z i j| ≤ 5e-7) ∧
        |(s'.getXY i j).1 - (s.getXY i j).1| ≤ 0.005 + i * 5e-7 ∧
        |(s'.getXY i j).2 - (s.getXY i j).2| ≤ 0.005 + j * 5e-7 := by
  have h := readIrap_writeIrap s s0 0.0 hi hj hz.1 hn
  obtain ⟨s', a', h1, h2, h3, -, h4⟩ := irap_roundtrip_partial hz hdx hdy hi hj hn hv s0 0.0
  rw [h] at h1
  injection h1 with h1
  injection h1 with h1 h1'
  subst h1
  refine ⟨irapBack s, ?_, h2, h3, h4⟩
  have ht : (if format = .unknown then findSurfaceFileType s.writeToFile else format)
      = SurfFormat.irapClassicAscii := by
    rcases hf with rfl | rfl
    · rw [if_pos rfl]; exact writeIrap_type s 0.0
    · rfl
  have ha : Real.pi / 180 * roundDec 6 (0.0 * 180 / Real.pi) = 0.0 := by
    have e : (0.0 : ℝ) * 180 / Real.pi = 0 := by norm_num
    rw [e, roundDec_zero]; norm_num
  unfold RegSurf.readFromFile
  dsimp only
  rw [ht, if_pos rfl]
  unfold RegSurf.writeToFile
  rw [h, Res.monad_bind_eq, Res.bind_ok]
  dsimp only
  rw [ha, if_neg (by simp)]

/-- A surface of 2 by 1 nodes. -/
noncomputable def twoNodes (lx a b : ℝ) : RegSurf := RegSurf.ofGrid 0 0 lx 1 ⟨2, 1, [a, b]⟩

theorem twoNodes_values (lx a b : ℝ) : HasValues (twoNodes lx a b) (fun i _ => if i = 0 then a else b) := by
  refine ⟨rfl, fun i j hi hj => get_of_getElem hi hj ?_⟩
  change i < 2 at hi
  change j < 1 at hj
  obtain rfl : j = 0 := by omega
  interval_cases i <;> rfl

/-- The hypotheses of `irap_roundtrip_partial` and `surfaceFile_roundtrip_partial` hold for a surface with a
missing node. -/
example : ∃ (s : RegSurf) (z : ℕ → ℕ → ℝ), HasValues s z ∧ s.dx = spacing s.grid.ni s.lx ∧
    s.dy = spacing s.grid.nj s.ly ∧ s.grid.ni < 2 ^ 31 ∧ s.grid.nj < 2 ^ 31 ∧ s.grid.data.length < 2 ^ 60 ∧
    (∀ i j, i < s.grid.ni → j < s.grid.nj → z i j ≠ s.missing → ¬ LooksMissing (z i j)) ∧
    z 0 0 = s.missing ∧ z 1 0 ≠ s.missing := by
  refine ⟨twoNodes 10 (-999) 3.25, _, twoNodes_values _ _ _, rfl, rfl, by decide, by decide, ?_, ?_, ?_, ?_⟩
  · change 2 < 2 ^ 60; norm_num
  · intro i j hi hj _
    change i < 2 at hi
    unfold LooksMissing
    interval_cases i
    · norm_num [abs_of_neg]
    · norm_num [abs_of_neg]
  · change (-999 : ℝ) = -999.0; norm_num
  · change (3.25 : ℝ) ≠ -999.0; norm_num

/-- C84. The statement without that hypothesis is false: a node with the value 9999900 has a value when it is
written and none when it is read. -/
theorem irap_valid_becomes_missing : ∃ (s : RegSurf) (z : ℕ → ℕ → ℝ), HasValues s z ∧
    s.dx = spacing s.grid.ni s.lx ∧ s.dy = spacing s.grid.nj s.ly ∧ z 0 0 ≠ s.missing ∧
    ∀ s0 : RegSurf, ∃ s' : RegSurf, s0.readFromFile s.writeToFile .unknown = .ok s' ∧
      s'.grid.get 0 0 = .ok s'.missing := by
  refine ⟨twoNodes 10 9999900 3.25, _, twoNodes_values _ _ _, rfl, rfl, ?_, fun s0 =>
    ⟨irapBack (twoNodes 10 9999900 3.25), ?_, ?_⟩⟩
  · change (9999900 : ℝ) ≠ -999.0; norm_num
  · have h := readIrap_writeIrap (twoNodes 10 9999900 3.25) s0 0.0 (by decide) (by decide) rfl
      (by change 2 < 2 ^ 60; norm_num)
    have ha : Real.pi / 180 * roundDec 6 (0.0 * 180 / Real.pi) = 0.0 := by
      have e : (0.0 : ℝ) * 180 / Real.pi = 0 := by norm_num
      rw [e, roundDec_zero]; norm_num
    unfold RegSurf.readFromFile RegSurf.writeToFile
    dsimp only
    rw [if_pos rfl, writeIrap_type, if_pos rfl, h, Res.monad_bind_eq, Res.bind_ok]
    dsimp only
    rw [ha, if_neg (by simp)]
  · refine get_of_getElem (by decide) (by decide) ?_
    change some (irapValue _ (9999900 : ℝ)) = some irapMissing
    unfold irapValue
    rw [if_neg (by change ¬ (9999900 : ℝ) = -999.0; norm_num)]
    have e : (9999900 : ℝ) = irapMissing := by unfold irapMissing; norm_num
    rw [e, roundDec_irapMissing]

/-- C84. Nodes that are less than 5e-7 apart are read back in the same place: the spacing becomes 0, and so
does every interpolation a division by 0. -/
theorem irap_spacing_lost {s : RegSurf} (hg : s.grid.data.length = s.grid.ni * s.grid.nj)
    (hi : s.grid.ni < 2 ^ 31) (hj : s.grid.nj < 2 ^ 31)
    (hn : s.grid.data.length < 2 ^ 60) (hdx : s.dx = spacing s.grid.ni s.lx) (hd : 0 ≤ s.dx)
    (hd2 : s.dx < 5e-7) (s0 : RegSurf) (angle : ℝ) :
    ∃ s' a', readIrap (writeIrap s angle) s0 = .ok (s', a') ∧ s'.dx = 0 ∧
      ∀ x y, s'.findGeneralIndex x y = .nonfinite "division by zero" := by
  refine ⟨_, _, readIrap_writeIrap s s0 angle hi hj hg hn, ?_, ?_⟩
  all_goals
    have e : (irapBack s).dx = 0 := by
      change spacing s.grid.ni _ = _
      rw [hdx, spacing_back, ← hdx]
      have := roundDec_near 6 (v := s.dx) (m := 0) (by
        rw [abs_lt]; constructor <;> norm_num at hd2 ⊢ <;> linarith)
      simpa using this
  · exact e
  · intro x y
    unfold RegSurf.findGeneralIndex
    rw [e]
    unfold divD
    rw [if_pos rfl]
    rfl

end Verif
