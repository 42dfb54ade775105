import Verif.Lemmas.SplineSmooth
import Verif.Props.InterpLinear

/-!
# C100: spline interpolation

The model is `Verif.Interp.interpolate1D` and `interpolate1DExtrap` with the method "spline". What a natural cubic spline is
is said by `NaturalSpline`, in terms of derivatives.
-/

namespace Verif.Interp

theorem interpolate1D_spline (x_in y_in x_out : List ℝ) :
    interpolate1D x_in y_in x_out "spline" = spline1D x_in y_in x_out none := by
  simp [interpolate1D]

theorem interpolate1DExtrap_spline (x_in y_in x_out : List ℝ) (e : ℝ) :
    interpolate1DExtrap x_in y_in x_out "spline" e = spline1D x_in y_in x_out (some e) := by
  simp [interpolate1DExtrap]

theorem nearest_lt {x_in : List ℝ} (h0 : 0 < x_in.length) (hs : x_in.Pairwise (· < ·)) (x : ℝ) :
    (findNearest x x_in).getD 0 < x_in.length := by
  by_cases h : (∀ a ∈ x_in, a < x → a + 1e10 ≤ x)
  · rw [findNearest_far hs h]; simpa using h0
  · push Not at h
    rcases findNearest_cases hs (by omega) (.inr h) with ⟨h, -⟩ | ⟨j, hj, h, -⟩
    · rw [h]; simpa using h0
    · rw [h]; exact hj

variable {x_in y_in : List ℝ}

/-- The values, for places that increase strictly and any place. -/
theorem spline_values (hl : x_in.length = y_in.length) (h3 : 3 ≤ x_in.length) (hs : x_in.Pairwise (· < ·))
    (x_out : List ℝ) (extrap : Option ℝ) :
    spline1D x_in y_in x_out extrap = .ok (x_out.map (splineVal x_in y_in extrap)) := by
  rw [spline1D_eq hl h3 hs]
  exact fillVec_places fun x _ => splineAt_eq hl h3 extrap x (nearest_lt (by omega) hs x)

/-- The piece used near the points is the spline. -/
theorem piece_near (h3 : 3 ≤ x_in.length) (hs : x_in.Pairwise (· < ·)) {x : ℝ}
    (hx : Near x_in x) :
    piece (fn x_in) (fn y_in) x_in.length (min ((findNearest x x_in).getD 0) (x_in.length - 2)) x
      = splineFn (fn x_in) (fn y_in) x_in.length x := by
  symm
  rcases findNearest_cases hs (by omega) (hx.head (by omega)) with ⟨h, hle⟩ | ⟨j, hj, h, h4, h5⟩
  · rw [h]
    simp only [Option.getD_none, Nat.zero_min]
    refine splineFn_region hs (by omega) (.inl rfl) (.inr ?_)
    rw [← fn_eq (by omega)] at hle
    exact hle.trans (fn_le hs (by omega) (by omega))
  · rw [h]
    simp only [Option.getD_some]
    refine splineFn_region hs (by omega) (.inr ?_) ?_
    · rw [← fn_eq (by omega)] at h4
      exact (fn_le hs (by omega) hj).trans h4.le
    · by_cases hjl : j < x_in.length - 2
      · right
        rw [show min j (x_in.length - 2) = j by omega, fn_eq (by omega)]
        exact h5 (j + 1) (by omega) (by omega)
      · left; omega

/-- C100. There is a natural cubic spline through three or more points. -/
theorem spline_exists (hl : x_in.length = y_in.length) (h3 : 3 ≤ x_in.length) (hs : x_in.Pairwise (· < ·)) :
    ∃ s, NaturalSpline x_in y_in s := ⟨_, naturalSpline_exists hl h3 hs⟩

/-- C100. The values are those of the natural cubic spline through the points; with an extrapolation value, this is used
outside the points. -/
theorem spline_spec (hl : x_in.length = y_in.length) (h3 : 3 ≤ x_in.length)
    (hs : x_in.Pairwise (· < ·)) {s : ℝ → ℝ} (hsp : NaturalSpline x_in y_in s) {x_out : List ℝ}
    (hx : ∀ x ∈ x_out, Near x_in x) :
    interpolate1D x_in y_in x_out "spline" = .ok (x_out.map s) ∧
    ∀ e, interpolate1DExtrap x_in y_in x_out "spline" e
      = .ok (x_out.map fun x => if x < x_in[0] ∨ x > x_in[x_in.length - 1] then e else s x) := by
  obtain rfl := spline_unique hl (by omega) hs (naturalSpline_exists hl h3 hs) hsp
  constructor
  · rw [interpolate1D_spline, spline_values hl h3 hs]
    congr 1
    exact List.map_congr_left fun x hxm => piece_near h3 hs (hx x hxm)
  · intro e
    rw [interpolate1DExtrap_spline, spline_values hl h3 hs]
    congr 1
    refine List.map_congr_left fun x hxm => ?_
    simp only [splineVal]
    rw [piece_near h3 hs (hx x hxm)]
    have hout : ((findNearest x x_in = none ∧ x < fn x_in 0) ∨
        ((findNearest x x_in).getD 0 = x_in.length - 1 ∧ x > fn x_in (x_in.length - 1))) ↔
        (x < x_in[0] ∨ x > x_in[x_in.length - 1]) := by
      rw [fn_eq (show 0 < x_in.length by omega), fn_eq (show x_in.length - 1 < x_in.length by omega)]
      have hlt := List.pairwise_iff_getElem.1 hs 0 (x_in.length - 1) (by omega) (by omega) (by omega)
      rcases findNearest_cases hs (by omega) ((hx x hxm).head (by omega)) with ⟨h, hle⟩ | ⟨j, hj, h, h4, h5⟩
      · rw [h]
        simp only [Option.getD_none, true_and]
        constructor
        · rintro (h | ⟨-, h⟩)
          · exact .inl h
          · exact .inr h
        · rintro (h | h)
          · exact .inl h
          · linarith
      · have h0j : x_in[0] ≤ x_in[j] := by
          rw [← fn_eq (show 0 < x_in.length by omega), ← fn_eq hj]; exact fn_le hs (by omega) hj
        rw [h]
        simp only [reduceCtorEq, false_and, false_or, Option.getD_some]
        constructor
        · rintro ⟨-, h⟩; exact .inr h
        · rintro (h | h)
          · linarith
          · refine ⟨?_, h⟩
            by_contra hne
            have := h5 (x_in.length - 1) (by omega) (by omega)
            linarith
    by_cases h : (x < x_in[0] ∨ x > x_in[x_in.length - 1])
    · rw [if_pos h, if_pos (hout.2 h)]
    · rw [if_neg h, if_neg fun h' => h (hout.1 h')]

/-- C100. The points are honoured. -/
theorem spline_exact (hl : x_in.length = y_in.length) (h3 : 3 ≤ x_in.length)
    (hs : x_in.Pairwise (· < ·)) (hgap : ∀ i (h : i + 1 < x_in.length), x_in[i + 1] < x_in[i] + 1e10) :
    interpolate1D x_in y_in x_in "spline" = .ok y_in ∧
    ∀ e, interpolate1DExtrap x_in y_in x_in "spline" e = .ok y_in := by
  have hmono := List.pairwise_iff_getElem.1 hs
  have hnear : ∀ x ∈ x_in, Near x_in x := by
    intro x hx
    obtain ⟨i, hi, rfl⟩ := List.getElem_of_mem hx
    rcases Nat.eq_zero_or_pos i with rfl | h
    · left
      intro a ha
      obtain ⟨m, hm, rfl⟩ := List.getElem_of_mem ha
      rw [← fn_eq hi, ← fn_eq hm]
      exact fn_le hs (by omega) hm
    · right
      have := hgap (i - 1) (by omega)
      simp only [show i - 1 + 1 = i by omega] at this
      exact ⟨x_in[i - 1], List.getElem_mem _, hmono (i - 1) i (by omega) hi (by omega), this⟩
  obtain ⟨s, hsp⟩ := spline_exists hl h3 hs
  obtain ⟨e1, e2⟩ := spline_spec hl h3 hs hsp hnear
  constructor
  · rw [e1]
    congr 1
    refine List.ext_getElem (by simpa using hl) fun i h1 h2 => ?_
    rw [List.getElem_map]
    exact hsp.through i (by simpa using h1) h2
  · intro e
    rw [e2]
    congr 1
    refine List.ext_getElem (by simpa using hl) fun i h1 h2 => ?_
    have hi : i < x_in.length := by simpa using h1
    rw [List.getElem_map, if_neg]
    · exact hsp.through i hi h2
    · rintro (h | h)
      · rw [← fn_eq hi, ← fn_eq (show 0 < x_in.length by omega)] at h
        linarith [fn_le hs (show 0 ≤ i by omega) hi]
      · rw [← fn_eq hi, ← fn_eq (show x_in.length - 1 < x_in.length by omega)] at h
        linarith [fn_le hs (show i ≤ x_in.length - 1 by omega) (show x_in.length - 1 < x_in.length by omega)]

/-- C100. No smooth curve through the points is less curved, and the spline is the only natural one. -/
theorem spline_best (hl : x_in.length = y_in.length) (h3 : 3 ≤ x_in.length) (hs : x_in.Pairwise (· < ·)) {s : ℝ → ℝ}
    (hsp : NaturalSpline x_in y_in s) :
    (∀ t, NaturalSpline x_in y_in t → t = s) ∧
    ∀ g : ℝ → ℝ, ContDiff ℝ 2 g → (∀ i (h : i < x_in.length), g x_in[i] = y_in[i]'(by omega)) →
      ∫ x in x_in[0]..x_in[x_in.length - 1], deriv (deriv s) x ^ 2
        ≤ ∫ x in x_in[0]..x_in[x_in.length - 1], deriv (deriv g) x ^ 2 := by
  refine ⟨fun t ht => spline_unique hl (by omega) hs ht hsp, ?_⟩
  intro g hg hz
  have := spline_least hl (by omega) hs hsp hg fun i h _ => hz i h
  rwa [fn_eq (show 0 < x_in.length by omega), fn_eq (show x_in.length - 1 < x_in.length by omega)] at this

/-- C100. A place that is 1e10 or more above every point below it gets the cubic of the first interval, and the
extrapolation value is not used. -/
theorem spline_far (hl : x_in.length = y_in.length) (h3 : 3 ≤ x_in.length)
    (hs : x_in.Pairwise (· < ·)) {s : ℝ → ℝ} (hsp : NaturalSpline x_in y_in s) {x_out : List ℝ}
    (hx : ∀ x ∈ x_out, x_in[0] < x ∧ ∀ a ∈ x_in, a < x → a + 1e10 ≤ x) :
    ∃ a b c d : ℝ, (∀ x, x ≤ x_in[1] → s x = a + b * x + c * x ^ 2 + d * x ^ 3) ∧
      interpolate1D x_in y_in x_out "spline" = .ok (x_out.map fun x => a + b * x + c * x ^ 2 + d * x ^ 3) ∧
      ∀ e, interpolate1DExtrap x_in y_in x_out "spline" e = .ok (x_out.map fun x => a + b * x + c * x ^ 2 + d * x ^ 3) := by
  obtain rfl := spline_unique hl (by omega) hs (naturalSpline_exists hl h3 hs) hsp
  obtain ⟨a, b, c, d, hpiece⟩ : ∃ a b c d : ℝ, ∀ x, piece (fn x_in) (fn y_in) x_in.length 0 x
      = a + b * x + c * x ^ 2 + d * x ^ 3 :=
    ⟨fn y_in 0 - cC (fn x_in) (fn y_in) x_in.length 0 * fn x_in 0
        + cB (fn x_in) (fn y_in) x_in.length 0 * fn x_in 0 ^ 2 - cA (fn x_in) (fn y_in) x_in.length 0 * fn x_in 0 ^ 3,
      cC (fn x_in) (fn y_in) x_in.length 0 - 2 * cB (fn x_in) (fn y_in) x_in.length 0 * fn x_in 0
        + 3 * cA (fn x_in) (fn y_in) x_in.length 0 * fn x_in 0 ^ 2,
      cB (fn x_in) (fn y_in) x_in.length 0 - 3 * cA (fn x_in) (fn y_in) x_in.length 0 * fn x_in 0,
      cA (fn x_in) (fn y_in) x_in.length 0, fun x => by rw [piece]; ring⟩
  refine ⟨a, b, c, d, fun x h => ?_, ?_, fun e => ?_⟩
  · rw [← hpiece]
    rw [← fn_eq (by omega)] at h
    exact splineFn_region hs (by omega) (.inl rfl) (.inr h)
  · rw [interpolate1D_spline, spline_values hl h3 hs]
    congr 1
    refine List.map_congr_left fun x hxm => ?_
    simp only [splineVal]
    rw [findNearest_far hs (hx x hxm).2]
    simp only [Option.getD_none, Nat.zero_min]
    exact hpiece x
  · rw [interpolate1DExtrap_spline, spline_values hl h3 hs]
    congr 1
    refine List.map_congr_left fun x hxm => ?_
    simp only [splineVal]
    rw [findNearest_far hs (hx x hxm).2]
    have h0 := (hx x hxm).1
    rw [← fn_eq (by omega)] at h0
    simp only [Option.getD_none, Nat.zero_min, true_and]
    rw [if_neg (by rintro (h | ⟨h, -⟩) <;> [linarith; omega])]
    exact hpiece x

/-- C100. With no points the spline throws; with one or two, or different numbers of places and values, the behaviour is
undefined. -/
theorem spline_few (x_out : List ℝ) (extrap : Option ℝ) :
    (∃ w, spline1D [] [] x_out extrap = .throws w) ∧
    (∀ x_in y_in : List ℝ, x_in.length = 1 ∨ x_in.length ≠ y_in.length → ∃ w, spline1D x_in y_in x_out extrap = .ub w) ∧
    ∀ x0 x1 y0 y1 : ℝ, x0 < x1 → ∃ w, spline1D [x0, x1] [y0, y1] x_out extrap = .ub w := by
  refine ⟨⟨_, rfl⟩, ?_, ?_⟩
  · intro x_in y_in h
    by_cases hl : x_in.length = y_in.length
    · have h1 := h.resolve_right (by simpa using hl)
      unfold spline1D
      simp only [Res.monad_bind_eq]
      rw [if_neg (by simpa using hl), if_neg (by omega), h1]
      exact ⟨"read out of range", rfl⟩
    · unfold spline1D
      simp only [Res.monad_bind_eq]
      rw [if_pos (by simpa using hl)]
      exact ⟨_, rfl⟩
  · intro x0 x1 y0 y1 h
    refine ⟨"read out of range", ?_⟩
    have h1 : x1 - x0 ≠ 0 := by linarith
    simp [spline1D, fillVec, stepH, stepB, forRange, forN, rd, wr, divD, h1]

/-- C100. Other methods throw, and so does "linear" with an extrapolation value. -/
theorem interpolate_methods (x_in y_in x_out : List ℝ) (method : String) (e : ℝ) :
    (method ≠ "linear" → method ≠ "spline" → ∃ w, interpolate1D x_in y_in x_out method = .throws w) ∧
    (method ≠ "spline" → ∃ w, interpolate1DExtrap x_in y_in x_out method e = .throws w) := by
  constructor
  · intro h1 h2
    rw [interpolate1D, if_neg h1, if_neg h2]
    exact ⟨_, rfl⟩
  · intro h
    rw [interpolate1DExtrap, if_neg h]
    split <;> exact ⟨_, rfl⟩

theorem findNearest_case : findNearest (2 + 1e10) [0, 1, 2] = none := by
  refine findNearest_far (by norm_num) ?_
  intro a ha hax
  simp only [List.mem_cons, List.not_mem_nil, or_false] at ha
  rcases ha with rfl | rfl | rfl <;> norm_num at *

theorem piece_case (x : ℝ) : piece (fn [0, 1, 2]) (fn [0, 1, 0]) 3 0 x = 3 / 2 * x - 1 / 2 * x ^ 3 := by
  have g0 : gapF (fn [0, 1, 2]) 0 = 1 := by norm_num [gapF, fn]
  have g1 : gapF (fn [0, 1, 2]) 1 = 1 := by norm_num [gapF, fn]
  have j0 : jumpF (fn [0, 1, 2]) (fn [0, 1, 0]) 0 = 6 := by rw [jumpF, g0]; norm_num [fn]
  have j1 : jumpF (fn [0, 1, 2]) (fn [0, 1, 0]) 1 = -6 := by rw [jumpF, g1]; norm_num [fn]
  have u : elimU (fn [0, 1, 2]) 0 = 4 := by rw [elimU, g0, g1]; norm_num
  have v : elimV (fn [0, 1, 2]) (fn [0, 1, 0]) 0 = -12 := by rw [elimV, j0, j1]; norm_num
  have z0 : curv (fn [0, 1, 2]) (fn [0, 1, 0]) 3 0 = 0 := curv_zero
  have z1 : curv (fn [0, 1, 2]) (fn [0, 1, 0]) 3 1 = -3 := by
    rw [curv, if_neg (by norm_num)]
    simp only [backZ]
    norm_num [u, v]
  simp only [piece, cA, cB, cC, Nat.zero_add, z0, z1, g0]
  norm_num [fn]
  ring

/-- C100, violated. Beyond the last point by 1e10, the extrapolation value is not used, and the value is not that of the last
cubic; two equal places give a result that is not finite. -/
theorem spline_violation :
    interpolate1DExtrap [0, 1, 2] [0, 1, 0] [2 + 1e10] "spline" (-999)
      = .ok [3 / 2 * (2 + 1e10) - 1 / 2 * (2 + 1e10) ^ 3] ∧
    interpolate1D [0, 0, 1] [0, 0, 1] [1] "spline" = .nonfinite "division by zero" := by
  constructor
  · rw [interpolate1DExtrap_spline, spline_values (by simp) (by simp) (by norm_num)]
    congr 1
    simp only [List.map_cons, List.map_nil, splineVal, findNearest_case, Option.getD_none, Nat.zero_min, true_and]
    rw [if_neg]
    · congr 1
      exact piece_case _
    · norm_num [fn]
  · rw [interpolate1D_spline]
    norm_num [spline1D, fillVec, stepH, stepB, forRange, forN, rd, wr, divD]

/-- The hypotheses are met by four points. -/
example : interpolate1D [0, 1, 3, 4] [5, 7, 4, 4] [0, 1, 3, 4] "spline" = .ok [5, 7, 4, 4] :=
  (spline_exact (x_in := [0, 1, 3, 4]) (y_in := [5, 7, 4, 4]) (by simp) (by simp) (by norm_num) (by
    intro i h
    have h4 : i + 1 < 4 := by simpa using h
    have h3 : i < 3 := by omega
    interval_cases i <;> norm_num)).1

example : ∃ s, NaturalSpline [0, 1, 2] [0, 1, 0] s ∧ interpolate1D [0, 1, 2] [0, 1, 0] [-1, 1 / 2, 5] "spline"
    = .ok [s (-1), s (1 / 2), s 5] := by
  obtain ⟨s, hs⟩ := spline_exists (x_in := [0, 1, 2]) (y_in := [0, 1, 0]) (by simp) (by simp) (by norm_num)
  refine ⟨s, hs, ?_⟩
  refine (spline_spec (by simp) (by simp) (by norm_num) hs (x_out := [-1, 1 / 2, 5]) ?_).1
  intro x hx
  simp only [List.mem_cons, List.not_mem_nil, or_false] at hx
  rcases hx with rfl | rfl | rfl
  · left; norm_num
  · right; exact ⟨0, by simp, by norm_num, by norm_num⟩
  · right; exact ⟨0, by simp, by norm_num, by norm_num⟩

end Verif.Interp
