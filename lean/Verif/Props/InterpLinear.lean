import Verif.Lemmas.Interpolation

/-!
# C99: linear interpolation

The model is `Verif.Interp.interpolate1D` with the method "linear". The properties do not mention it otherwise: they say
what line the values are on.
-/

namespace Verif.Interp

/-- A place that is not above the first point, or is above some point by less than 1e10. -/
def Near (x_in : List ℝ) (x : ℝ) : Prop := (∀ a ∈ x_in, x ≤ a) ∨ ∃ a ∈ x_in, a < x ∧ x < a + 1e10

theorem Near.head {x_in : List ℝ} (h0 : 0 < x_in.length) {x : ℝ} (h : Near x_in x) :
    x ≤ x_in[0] ∨ ∃ a ∈ x_in, a < x ∧ x < a + 1e10 := h.imp (fun h => h _ (List.getElem_mem _)) id

theorem interpolate1D_linear (x_in y_in x_out : List ℝ) :
    interpolate1D x_in y_in x_out "linear" = linear1D x_in y_in x_out := by
  simp [interpolate1D]

/-- A loop over the places. -/
theorem fillVec_places {x_out : List ℝ} {f : ℝ → Res ℝ} {g : ℝ → ℝ} (h : ∀ x ∈ x_out, f x = .ok (g x)) :
    (fillVec x_out.length fun i => (rd x_out i).bind f) = .ok (x_out.map g) := by
  rw [fillVec_ok (g := fun i => g (x_out.getD i 0))]
  · congr 1
    apply List.ext_getElem <;> simp +contextual [List.getD_eq_getElem?_getD]
  · intro i hi
    rw [rd_ok hi, Res.bind_ok, h _ (List.getElem_mem _)]
    simp [List.getD_eq_getElem?_getD, hi]

/-- The values, for places that increase strictly and any place. -/
theorem linear_values {x_in y_in : List ℝ} (hl : x_in.length = y_in.length) (h2 : 2 ≤ x_in.length)
    (hn : x_in.length < 2 ^ 31) (hs : x_in.Pairwise (· < ·)) (x_out : List ℝ) :
    interpolate1D x_in y_in x_out "linear" = .ok (x_out.map fun x =>
      lineThrough (x_in.getD (min ((findNearest x x_in).getD 0) (x_in.length - 2)) 0)
        (y_in.getD (min ((findNearest x x_in).getD 0) (x_in.length - 2)) 0)
        (x_in.getD (min ((findNearest x x_in).getD 0) (x_in.length - 2) + 1) 0)
        (y_in.getD (min ((findNearest x x_in).getD 0) (x_in.length - 2) + 1) 0) x) := by
  rw [interpolate1D_linear]
  obtain ⟨s, hsd, he⟩ := linear1D_segments hl h2 (by omega) hs x_out
  rw [he]
  refine fillVec_places fun x _ => ?_
  have hj : (findNearest x x_in).getD 0 < x_in.length := by
    by_cases h : (∀ a ∈ x_in, a < x → a + 1e10 ≤ x)
    · rw [findNearest_far hs h]; simp; omega
    · push Not at h
      rcases findNearest_cases hs (by omega) (.inr h) with ⟨h, -⟩ | ⟨j, hj, h, -⟩
      · rw [h]; simp; omega
      · rw [h]; exact hj
  rw [lineAt_ok hl h2 hsd hj rfl]
  have h3 : min ((findNearest x x_in).getD 0) (x_in.length - 2) + 1 < x_in.length := by omega
  have h4 : min ((findNearest x x_in).getD 0) (x_in.length - 2) < x_in.length := by omega
  have h5 : min ((findNearest x x_in).getD 0) (x_in.length - 2) + 1 < y_in.length := by omega
  have h6 : min ((findNearest x x_in).getD 0) (x_in.length - 2) < y_in.length := by omega
  simp only [List.getD_eq_getElem?_getD, List.getElem?_eq_getElem h3, List.getElem?_eq_getElem h4,
    List.getElem?_eq_getElem h5, List.getElem?_eq_getElem h6, Option.getD_some]

theorem getD_lt {l : List ℝ} {i : ℕ} (h : i < l.length) : l.getD i 0 = l[i] := by
  simp [List.getD_eq_getElem?_getD, h]

theorem lineThrough_left (x0 y0 x1 y1 : ℝ) : lineThrough x0 y0 x1 y1 x0 = y0 := by simp [lineThrough]

theorem lineThrough_right {x0 x1 : ℝ} (h : x0 < x1) (y0 y1 : ℝ) : lineThrough x0 y0 x1 y1 x1 = y1 := by
  rw [lineThrough, div_self (by linarith)]; ring

/-- C99. Between two points, the value is on the line through them; before the second point it is on the line through the
first two, after the last but one on the line through the last two. -/
theorem linear_spec {x_in y_in : List ℝ} (hl : x_in.length = y_in.length) (h2 : 2 ≤ x_in.length)
    (hn : x_in.length < 2 ^ 31) (hs : x_in.Pairwise (· < ·)) {x_out : List ℝ} (hx : ∀ x ∈ x_out, Near x_in x) :
    ∃ y_out, interpolate1D x_in y_in x_out "linear" = .ok y_out ∧ y_out.length = x_out.length ∧
      ∀ k (hk : k < x_out.length) (hk' : k < y_out.length) i (hi : i + 1 < x_in.length),
        (i = 0 ∨ x_in[i] ≤ x_out[k]) → (i + 2 = x_in.length ∨ x_out[k] ≤ x_in[i + 1]) →
        y_out[k] = lineThrough x_in[i] (y_in[i]'(by omega)) x_in[i + 1] (y_in[i + 1]'(by omega)) x_out[k] := by
  refine ⟨_, linear_values hl h2 hn hs x_out, by simp, ?_⟩
  intro k hk hk' i hi h0 h1
  have hmono := List.pairwise_iff_getElem.1 hs
  simp only [List.getElem_map]
  generalize hxk : x_out[k] = x at *
  have hnear : Near x_in x := hx _ (by rw [← hxk]; exact List.getElem_mem _)
  have hc := findNearest_cases hs (by omega) (hnear.head (by omega))
  -- the segment used
  obtain ⟨j, hj, hf, hlow, hup⟩ : ∃ j, ∃ hj : j < x_in.length, (findNearest x x_in).getD 0 = j ∧
      (j = 0 ∨ x_in[j] < x) ∧ ∀ m (hm : m < x_in.length), j < m → x ≤ x_in[m] := by
    rcases hc with ⟨h, hle⟩ | ⟨j, hj, h, h3, h4⟩
    · refine ⟨0, by omega, by rw [h]; rfl, .inl rfl, ?_⟩
      intro m hm h0m
      exact hle.trans (hmono 0 m (by omega) hm h0m).le
    · exact ⟨j, hj, by rw [h]; rfl, .inr h3, h4⟩
  rw [hf]
  have hseg : ∀ p (hp : p + 1 < x_in.length), p = min j (x_in.length - 2) → p ≠ i →
      lineThrough (x_in[p]) (y_in[p]'(by omega)) x_in[p + 1] (y_in[p + 1]'(by omega)) x
        = lineThrough x_in[i] (y_in[i]'(by omega)) x_in[i + 1] (y_in[i + 1]'(by omega)) x := by
    intro p hp hpj hpi
    rcases Nat.lt_or_ge p i with h | h
    · -- then `x` is the left end of segment `i`
      have hi0 : i ≠ 0 := by omega
      have e1 : x_in[i] ≤ x := h0.resolve_left hi0
      have e2 : x ≤ x_in[p + 1] := hup (p + 1) hp (by omega)
      have e3 : p + 1 = i := by
        by_contra hne
        have := hmono (p + 1) i hp (by omega) (by omega)
        linarith
      subst e3
      have : x = x_in[p + 1] := le_antisymm e2 e1
      rw [this, lineThrough_left, lineThrough_right (hmono p (p + 1) (by omega) hp (by omega))]
    · have hlt : i < p := by omega
      have e1 : x ≤ x_in[i + 1] := h1.resolve_left (by omega)
      have e0 : x_in[p] ≤ x_in[j] := by
        rcases Nat.lt_or_ge p j with h | h
        · exact (hmono p j (by omega) hj h).le
        · have : p = j := by omega
          subst this; rfl
      have e2 : x_in[j] < x := hlow.resolve_left (by omega)
      have e3 : x_in[i + 1] ≤ x_in[p] := by
        rcases Nat.lt_or_ge (i + 1) p with h | h
        · exact (hmono (i + 1) p hi (by omega) h).le
        · have : i + 1 = p := by omega
          subst this; rfl
      linarith
  have hp1 : min j (x_in.length - 2) + 1 < x_in.length := by omega
  rw [getD_lt hp1, getD_lt (show min j (x_in.length - 2) < x_in.length by omega),
    getD_lt (show min j (x_in.length - 2) < y_in.length by omega),
    getD_lt (show min j (x_in.length - 2) + 1 < y_in.length by omega)]
  by_cases hpi : min j (x_in.length - 2) = i
  · subst hpi; rfl
  · exact hseg _ hp1 rfl hpi

/-- C99. The points are honoured. -/
theorem linear_exact {x_in y_in : List ℝ} (hl : x_in.length = y_in.length) (h2 : 2 ≤ x_in.length)
    (hn : x_in.length < 2 ^ 31) (hs : x_in.Pairwise (· < ·)) {i : ℕ} (hi : i < x_in.length)
    (hgap : ∀ h : 0 < i, x_in[i] < x_in[i - 1] + 1e10) :
    interpolateBetweenPoints x_in y_in x_in[i] = .ok (y_in[i]'(by omega)) := by
  have hmono := List.pairwise_iff_getElem.1 hs
  have hnear : ∀ x ∈ [x_in[i]], Near x_in x := by
    intro x hx
    simp only [List.mem_singleton] at hx
    subst hx
    rcases Nat.eq_zero_or_pos i with rfl | h
    · left
      intro a ha
      obtain ⟨m, hm, rfl⟩ := List.getElem_of_mem ha
      rcases Nat.eq_zero_or_pos m with rfl | h
      · rfl
      · exact (hmono 0 m hi hm h).le
    · right
      exact ⟨x_in[i - 1], List.getElem_mem _, hmono (i - 1) i (by omega) hi (by omega), hgap h⟩
  obtain ⟨ys, he, hlen, hv⟩ := linear_spec hl h2 hn hs hnear
  unfold interpolateBetweenPoints
  simp only [Res.monad_bind_eq, List.length_singleton] at hlen ⊢
  rw [he, Res.bind_ok, rd_ok (show 0 < ys.length by omega)]
  congr 1
  by_cases hlast : i + 1 < x_in.length
  · rw [hv 0 (by simp) (by omega) i hlast (.inr (by simp)) (.inr (by simpa using (hmono i (i + 1) hi hlast (by omega)).le))]
    exact lineThrough_left _ _ _ _
  · have h0 : i - 1 + 1 = i := by omega
    rw [hv 0 (by simp) (by omega) (i - 1) (by omega)
      (.inr (by simpa using (hmono (i - 1) i (by omega) hi (by omega)).le)) (.inl (by omega))]
    simp only [h0, List.getElem_cons_zero]
    exact lineThrough_right (hmono (i - 1) i (by omega) hi (by omega)) _ _

/-- C99. An affine function is reproduced everywhere. -/
theorem linear_affine {x_in : List ℝ} (a b : ℝ) (h2 : 2 ≤ x_in.length) (hn : x_in.length < 2 ^ 31)
    (hs : x_in.Pairwise (· < ·)) (x_out : List ℝ) :
    interpolate1D x_in (x_in.map fun x => a + b * x) x_out "linear" = .ok (x_out.map fun x => a + b * x) := by
  rw [linear_values (by simp) h2 hn hs]
  congr 1
  refine List.map_congr_left fun x _ => ?_
  generalize hp : min ((findNearest x x_in).getD 0) (x_in.length - 2) = p
  have h1 : p + 1 < x_in.length := by omega
  have := List.pairwise_iff_getElem.1 hs p (p + 1) (by omega) h1 (by omega)
  rw [getD_lt h1, getD_lt (show p < x_in.length by omega), getD_lt (show p < (x_in.map _).length by simp; omega),
    getD_lt (show p + 1 < (x_in.map _).length by simp; omega)]
  simp only [List.getElem_map, lineThrough]
  have hne : x_in[p + 1] - x_in[p] ≠ 0 := by linarith
  field_simp
  ring

/-- C99. A place that is 1e10 or more above every point below it is put on the line through the first two points. -/
theorem linear_far {x_in y_in : List ℝ} (hl : x_in.length = y_in.length) (h2 : 2 ≤ x_in.length)
    (hn : x_in.length < 2 ^ 31) (hs : x_in.Pairwise (· < ·)) {x_out : List ℝ}
    (hx : ∀ x ∈ x_out, ∀ a ∈ x_in, a < x → a + 1e10 ≤ x) :
    interpolate1D x_in y_in x_out "linear" =
      .ok (x_out.map fun x => lineThrough x_in[0] (y_in[0]'(by omega)) x_in[1] (y_in[1]'(by omega)) x) := by
  rw [linear_values hl h2 hn hs]
  congr 1
  refine List.map_congr_left fun x hxm => ?_
  rw [findNearest_far hs (hx x hxm)]
  simp only [Option.getD_none, Nat.zero_min, Nat.zero_add]
  rw [getD_lt (show 0 < x_in.length by omega), getD_lt (show 0 < y_in.length by omega),
    getD_lt (show 1 < x_in.length by omega), getD_lt (show 1 < y_in.length by omega)]

/-- C99. With fewer than two points, or different numbers of places and values, the behaviour is undefined. -/
theorem linear_undefined {x_in y_in : List ℝ} (h : x_in.length ≠ y_in.length ∨ x_in.length < 2) (x_out : List ℝ) :
    ∃ w, interpolate1D x_in y_in x_out "linear" = .ub w := by
  rw [interpolate1D_linear]
  unfold linear1D
  simp only [Res.monad_bind_eq]
  by_cases hl : x_in.length = y_in.length
  · rw [if_neg (by simpa using hl)]
    have h2 : x_in.length < 2 := h.resolve_left (by simpa using hl)
    interval_cases hx : x_in.length
    · rw [show subSize 0 1 = 2 ^ 64 - 1 by rfl, forRange_succ (by norm_num)]
      obtain rfl := List.length_eq_zero_iff.1 hx
      exact ⟨_, rfl⟩
    · rw [show subSize 1 1 = 0 by rfl, forRange_empty (le_refl _)]
      exact ⟨"read out of range", rfl⟩
  · rw [if_pos (by simpa using hl)]
    exact ⟨_, rfl⟩

/-- C99, violated. A repeated point spoils the line after it, so that the next point is not honoured; a point repeated at
the start, and two values for one place, give a result that is not finite; a point 1e10 after the one before it is not
honoured. -/
theorem linear_violation :
    interpolateBetweenPoints [0, 1, 1, 2] [0, 1, 1, 0] 2 = .ok 2 ∧
    interpolateBetweenPoints [0, 0, 1] [0, 0, 1] 1 = .nonfinite "a slope that is not finite" ∧
    interpolateBetweenPoints [0, 1, 1, 2] [0, 0, 1, 1] 2 = .nonfinite "a slope that is not finite" ∧
    interpolateBetweenPoints [0, 1, 1 + 1e10] [0, 1, 1] (1 + 1e10) = .ok (1 + 1e10) := by
  refine ⟨?_, ?_, ?_, ?_⟩
  · norm_num [interpolateBetweenPoints, interpolate1D, linear1D, subSize, forRange, forN, segStep, rd, wr, quot, copyLast,
      lineAt, findNearest, nearestLoop, fillVec]
  · norm_num [interpolateBetweenPoints, interpolate1D, linear1D, subSize, forRange, forN, segStep, rd, wr, quot, copyLast,
      lineAt, findNearest, nearestLoop, fillVec]
  · norm_num [interpolateBetweenPoints, interpolate1D, linear1D, subSize, forRange, forN, segStep, rd, wr, quot, copyLast,
      lineAt, findNearest, nearestLoop, fillVec]
  · unfold interpolateBetweenPoints
    rw [linear_far (by simp) (by simp) (by simp) (by norm_num)]
    · simp only [List.map_cons, List.map_nil, Res.monad_bind_eq, Res.bind_ok]
      rw [rd_ok (by simp)]
      simp [lineThrough]
    · intro x hx a ha hax
      simp only [List.mem_singleton] at hx
      subst hx
      simp only [List.mem_cons, List.not_mem_nil, or_false] at ha
      rcases ha with rfl | rfl | rfl <;> norm_num at *

/-- The hypotheses of `linear_spec` and `linear_exact` are met by three points and places before, between and after. -/
example : ∃ y_out, interpolate1D [0, 1, 3] [5, 7, 4] [-1, 0, 2, 3, 10] "linear" = .ok y_out ∧ y_out.length = 5 := by
  obtain ⟨y, h, hl, -⟩ := linear_spec (x_in := [0, 1, 3]) (y_in := [5, 7, 4]) (x_out := [-1, 0, 2, 3, 10]) (by simp)
    (by simp) (by simp) (by norm_num) (by
      intro x hx
      simp only [List.mem_cons, List.not_mem_nil, or_false] at hx
      rcases hx with rfl | rfl | rfl | rfl | rfl
      · left; norm_num
      · left; norm_num
      · right; exact ⟨1, by simp, by norm_num, by norm_num⟩
      · right; exact ⟨1, by simp, by norm_num, by norm_num⟩
      · right; exact ⟨1, by simp, by norm_num, by norm_num⟩)
  exact ⟨y, h, hl⟩

example : interpolateBetweenPoints [0, 1, 3] [5, 7, 4] 1 = .ok 7 :=
  linear_exact (x_in := [0, 1, 3]) (y_in := [5, 7, 4]) (i := 1) (by simp) (by simp) (by simp) (by norm_num) (by simp)
    (by intro _; norm_num)

example : interpolate1D [0, 1] [1, 3] [-5, 7e11] "linear" = .ok [1 + 2 * -5, 1 + 2 * 7e11] := by
  have := linear_affine (x_in := [0, 1]) 1 2 (by simp) (by simp) (by norm_num) [-5, 7e11]
  norm_num at this ⊢
  exact this

end Verif.Interp
