import Verif.Model.Statistics
import Verif.Lemmas.Outcome
import Mathlib.MeasureTheory.Function.L2Space
import Mathlib.MeasureTheory.Integral.Bochner.Basic
import Mathlib.Probability.ProbabilityMassFunction.Integrals
import Mathlib.Probability.Distributions.Uniform
import Mathlib.Algebra.Order.BigOperators.Ring.Finset
import Mathlib.Tactic.Ring
import Mathlib.Tactic.FieldSimp
import Mathlib.Tactic.Linarith
import Mathlib.Tactic.NormNum
import Mathlib.Tactic.IntervalCases

/-!
# C90: statistics of sequences
-/

namespace Verif.Stat

open MeasureTheory

theorem foldl_add {α : Type} (f : α → ℝ) (xs : List α) (s : ℝ) :
    xs.foldl (fun s x => s + f x) s = s + (xs.map f).sum := by
  induction xs generalizing s with
  | nil => simp
  | cons a t ih => rw [List.foldl_cons, ih, List.map_cons, List.sum_cons]; ring

theorem foldl_addM (miss : ℝ → Bool) (f : ℝ → ℝ) (xs : List ℝ) (s : ℝ) :
    xs.foldl (fun s x => if miss x = false then s + f x else s) s
      = s + ((xs.filter fun x => !miss x).map f).sum := by
  induction xs generalizing s with
  | nil => simp
  | cons a t ih =>
    rw [List.foldl_cons, ih]
    cases h : miss a
    · simp [h]; ring
    · simp [h]

theorem sum_eq (xs : List ℝ) : sum xs = xs.sum := by
  have := foldl_add (fun x => x) xs 0.0
  unfold sum
  rw [this, List.map_id']
  norm_num

theorem countM_eq (miss : ℝ → Bool) (xs : List ℝ) : countM miss xs = (xs.filter fun x => !miss x).length := by
  have key : ∀ n, xs.foldl (fun n x => if miss x = false then n + 1 else n) n
      = n + (xs.filter fun x => !miss x).length := by
    induction xs with
    | nil => simp
    | cons a t ih =>
      intro n
      rw [List.foldl_cons, ih]
      cases h : miss a
      · simp [h]; omega
      · simp [h]
  unfold countM
  rw [key, Nat.zero_add]

/-! ## Missing values -/

/-- C90. Missing values are left out: the functions with a test for missing values give what the functions
without it give for the sequence of the values that are not missing. -/
theorem missing_left_out (miss : ℝ → Bool) (xs : List ℝ) (mayThrow : Bool) :
    countM miss xs = count (xs.filter fun x => !miss x) ∧
      sumM miss xs = sum (xs.filter fun x => !miss x) ∧
      meanM miss xs mayThrow = mean (xs.filter fun x => !miss x) mayThrow ∧
      varM miss xs mayThrow = var (xs.filter fun x => !miss x) mayThrow := by
  have h1 : countM miss xs = count (xs.filter fun x => !miss x) := countM_eq miss xs
  have h2 : sumM miss xs = sum (xs.filter fun x => !miss x) := by
    have := foldl_addM miss (fun x => x) xs 0.0
    unfold sumM
    rw [this, sum_eq, List.map_id']
    norm_num
  have h3 : meanM miss xs mayThrow = mean (xs.filter fun x => !miss x) mayThrow := by
    unfold meanM mean
    rw [h1, h2]
  refine ⟨h1, h2, h3, ?_⟩
  unfold varM var
  rw [h1, h3]
  dsimp only
  split
  · rfl
  · split
    · rfl
    · congr 1
      funext m
      rw [foldl_addM miss (fun x => (x - m) * (x - m)), foldl_add fun x => (x - m) * (x - m)]

/-! ## Extremes -/

/-- A missing value: the sequence without it. -/
example : varM (fun x => decide (x = -999)) [1, -999, 3] true = .ok 2 := by
  rw [(missing_left_out _ _ _).2.2.2]
  have e : [1, -999, 3].filter (fun x : ℝ => !decide (x = -999)) = [1, 3] := by norm_num [List.filter]
  rw [e]
  unfold var mean count sum
  norm_num [Res.monad_bind_eq, Res.bind_ok]

theorem maxLoop_spec (miss : ℝ → Bool) (xs : List ℝ) :
    ∀ (pre : List ℝ) (max : ℕ) (top : ℝ), pre[max]? = some top → miss top = false →
      (∀ x ∈ pre, miss x = false → x ≤ top) → (∀ k < max, ∀ x, pre[k]? = some x → miss x = false → x < top) →
      ∃ t, (pre ++ xs)[maxLoop miss pre.length max top xs]? = some t ∧ miss t = false ∧
        (∀ x ∈ pre ++ xs, miss x = false → x ≤ t) ∧
        ∀ k < maxLoop miss pre.length max top xs, ∀ x, (pre ++ xs)[k]? = some x → miss x = false → x < t := by
  induction xs with
  | nil =>
    intro pre max top h1 h2 h3 h4
    rw [List.append_nil]
    exact ⟨top, h1, h2, h3, h4⟩
  | cons a t ih =>
    intro pre max top h1 h2 h3 h4
    have hmax : max < pre.length := by
      by_contra h
      rw [List.getElem?_eq_none (by omega)] at h1
      cases h1
    have e : pre ++ a :: t = (pre ++ [a]) ++ t := by simp
    have hl : (pre ++ [a]).length = pre.length + 1 := by simp
    rw [e, maxLoop, ← hl]
    split
    · rename_i hc
      refine ih (pre ++ [a]) pre.length a (by simp) hc.1 ?_ ?_
      · intro x hx hm
        rw [List.mem_append, List.mem_singleton] at hx
        rcases hx with hx | rfl
        · exact (h3 x hx hm).trans hc.2.le
        · exact le_refl _
      · intro k hk x hx hm
        rw [List.getElem?_append_left hk] at hx
        exact lt_of_le_of_lt (h3 x (List.mem_of_getElem? hx) hm) hc.2
    · rename_i hc
      refine ih (pre ++ [a]) max top (by rw [List.getElem?_append_left hmax]; exact h1) h2 ?_ ?_
      · intro x hx hm
        rw [List.mem_append, List.mem_singleton] at hx
        rcases hx with hx | rfl
        · exact h3 x hx hm
        · exact not_lt.1 fun hlt => hc ⟨hm, hlt⟩
      · intro k hk x hx hm
        rw [List.getElem?_append_left (by omega)] at hx
        exact h4 k hk x hx hm

theorem minLoop_eq (miss : ℝ → Bool) (xs : List ℝ) : ∀ (it min : ℕ) (low : ℝ),
    minLoop miss it min low xs = maxLoop (fun x => miss (-x)) it min (-low) (xs.map fun x => -x) := by
  induction xs with
  | nil => intro it min low; rfl
  | cons a t ih =>
    intro it min low
    rw [List.map_cons, minLoop, maxLoop]
    simp only [neg_neg, gt_iff_lt, neg_lt_neg_iff, ih]

theorem minElementM_eq (miss : ℝ → Bool) (xs : List ℝ) :
    minElementM miss xs = maxElementM (fun x => miss (-x)) (xs.map fun x => -x) := by
  have e1 : ∀ xs : List ℝ, ((xs.map fun x => -x).takeWhile fun x => miss (-x)).length
      = (xs.takeWhile miss).length := by
    intro xs
    induction xs with
    | nil => rfl
    | cons a t ih =>
      rw [List.map_cons, List.takeWhile_cons, List.takeWhile_cons, neg_neg]
      split
      · simp [ih]
      · rfl
  have e2 : ∀ xs : List ℝ, ((xs.map fun x => -x).dropWhile fun x => miss (-x))
      = (xs.dropWhile miss).map fun x => -x := by
    intro xs
    induction xs with
    | nil => rfl
    | cons a t ih =>
      rw [List.map_cons, List.dropWhile_cons, List.dropWhile_cons, neg_neg]
      split
      · exact ih
      · rfl
  unfold minElementM maxElementM
  rw [e1, e2]
  dsimp only
  cases xs.dropWhile miss with
  | nil => rfl
  | cons a t => exact minLoop_eq miss t _ _ _

/-- C90. `MaxElement` finds the first of the greatest elements that are not missing. If all are missing
it gives the end of the sequence. -/
theorem maxElement_spec (miss : ℝ → Bool) (xs : List ℝ) :
    ((∀ x ∈ xs, miss x = true) → maxElementM miss xs = xs.length) ∧
      ((∃ x ∈ xs, miss x = false) → ∃ t, xs[maxElementM miss xs]? = some t ∧ miss t = false ∧
        (∀ x ∈ xs, miss x = false → x ≤ t) ∧
        ∀ k < maxElementM miss xs, ∀ x, xs[k]? = some x → miss x = false → x < t) := by
  have htd := List.takeWhile_append_dropWhile (p := miss) (l := xs)
  have htw : ∀ (l : List ℝ), ∀ x ∈ l.takeWhile miss, miss x = true := by
    intro l
    induction l with
    | nil => intro x hx; simp at hx
    | cons a t ih =>
      intro x hx
      rw [List.takeWhile_cons] at hx
      split at hx
      · rename_i ha
        rw [List.mem_cons] at hx
        rcases hx with rfl | hx
        · exact ha
        · exact ih x hx
      · simp at hx
  constructor
  · intro h
    have h1 : xs.takeWhile miss = xs := by
      have key : ∀ l : List ℝ, (∀ x ∈ l, miss x = true) → l.takeWhile miss = l := by
        intro l
        induction l with
        | nil => intro _; rfl
        | cons a t ih =>
          intro h
          rw [List.takeWhile_cons, if_pos (h a (by simp)), ih fun x hx => h x (by simp [hx])]
      exact key xs h
    have h2 : xs.dropWhile miss = [] := by
      rw [h1] at htd
      exact List.append_right_eq_self.1 htd
    unfold maxElementM
    rw [h2, h1]
  · rintro ⟨y, hy, hmy⟩
    rcases hd : xs.dropWhile miss with _ | ⟨a, rest⟩
    · rw [hd, List.append_nil] at htd
      rw [← htd] at hy
      rw [htw xs y hy] at hmy
      cases hmy
    · have ha : miss a = false := by
        have key : ∀ l : List ℝ, ∀ a r, l.dropWhile miss = a :: r → miss a = false := by
          intro l
          induction l with
          | nil => intro a r h; cases h
          | cons b t ih =>
            intro a r h
            rw [List.dropWhile_cons] at h
            split at h
            · exact ih a r h
            · rename_i hb
              injection h with h _
              subst h
              simpa using hb
        exact key xs a rest hd
      have h := maxLoop_spec miss rest (xs.takeWhile miss ++ [a]) (xs.takeWhile miss).length a (by simp) ha ?_ ?_
      · have e : (xs.takeWhile miss ++ [a]) ++ rest = xs := by
          rw [List.append_assoc, List.singleton_append, ← hd, htd]
        rw [e] at h
        have e2 : maxElementM miss xs
            = maxLoop miss (xs.takeWhile miss ++ [a]).length (xs.takeWhile miss).length a rest := by
          unfold maxElementM
          rw [hd]
          simp
        rw [e2]
        exact h
      · intro x hx hm
        rw [List.mem_append, List.mem_singleton] at hx
        rcases hx with hx | rfl
        · rw [htw xs x hx] at hm; cases hm
        · exact le_refl _
      · intro k hk x hx hm
        rw [List.getElem?_append_left hk] at hx
        rw [htw xs x (List.mem_of_getElem? hx)] at hm
        cases hm

/-- The first element is missing and greater than the others. -/
example : ∃ x ∈ [999, 1, 3, (3 : ℝ)], decide (x = 999) = false := ⟨1, by simp, by norm_num⟩

/-- C90. The same for `MinElement` and the least. -/
theorem minElement_spec (miss : ℝ → Bool) (xs : List ℝ) :
    ((∀ x ∈ xs, miss x = true) → minElementM miss xs = xs.length) ∧
      ((∃ x ∈ xs, miss x = false) → ∃ t, xs[minElementM miss xs]? = some t ∧ miss t = false ∧
        (∀ x ∈ xs, miss x = false → t ≤ x) ∧
        ∀ k < minElementM miss xs, ∀ x, xs[k]? = some x → miss x = false → t < x) := by
  obtain ⟨h1, h2⟩ := maxElement_spec (fun x => miss (-x)) (xs.map fun x => -x)
  rw [minElementM_eq]
  constructor
  · intro h
    rw [h1, List.length_map]
    intro x hx
    obtain ⟨y, hy, rfl⟩ := List.mem_map.1 hx
    rw [neg_neg]
    exact h y hy
  · rintro ⟨y, hy, hmy⟩
    obtain ⟨t, g1, g2, g3, g4⟩ := h2 ⟨-y, List.mem_map_of_mem hy, by rw [neg_neg]; exact hmy⟩
    rw [List.getElem?_map] at g1
    obtain ⟨x, hx, rfl⟩ := Option.map_eq_some_iff.1 g1
    refine ⟨x, hx, by simpa using g2, ?_, ?_⟩
    · intro z hz hm
      have := g3 (-z) (List.mem_map_of_mem hz) (by rw [neg_neg]; exact hm)
      exact neg_le_neg_iff.1 this
    · intro k hk z hz hm
      have := g4 k hk (-z) (by rw [List.getElem?_map, hz]; rfl) (by rw [neg_neg]; exact hm)
      exact neg_lt_neg_iff.1 this

/-! ## Variance and covariance -/

/-- The centred sum of products of two sequences. -/
noncomputable def centred (n : ℕ) (x y : ℕ → ℝ) : ℝ :=
  ∑ i ∈ Finset.range n, (x i - (∑ j ∈ Finset.range n, x j) / n) * (y i - (∑ j ∈ Finset.range n, y j) / n)

theorem sum_map_range (n : ℕ) (f : ℕ → ℝ) : ((List.range n).map f).sum = ∑ i ∈ Finset.range n, f i := by
  rw [← List.sum_toFinset f List.nodup_range, List.toFinset_range]

theorem mean_range {n : ℕ} (hn : n ≠ 0) (x : ℕ → ℝ) (b : Bool) :
    mean ((List.range n).map x) b = .ok ((∑ j ∈ Finset.range n, x j) / n) := by
  unfold mean count
  rw [List.length_map, List.length_range]
  dsimp only
  rw [if_neg hn, sum_eq, sum_map_range]

theorem cov_range {n : ℕ} (hn : 2 ≤ n) (x y : ℕ → ℝ) (b : Bool) :
    cov ((List.range n).map x) ((List.range n).map y) b = .ok (centred n x y / ((n - 1 : ℕ) : ℝ)) := by
  have e : ((List.range n).map x).zip ((List.range n).map y) = (List.range n).map fun i => (x i, y i) := by
    rw [List.zip_map', ]
  unfold cov
  rw [mean_range (by omega), mean_range (by omega), e]
  unfold count
  rw [List.length_map, List.length_range, List.length_map, List.length_range]
  dsimp only
  rw [if_neg (by simp), if_neg (by omega)]
  simp only [Res.monad_bind_eq, Res.bind_ok]
  rw [if_neg (by omega), foldl_add fun p : ℝ × ℝ => (p.1 - (∑ j ∈ Finset.range n, x j) / n)
    * (p.2 - (∑ j ∈ Finset.range n, y j) / n), List.map_map, sum_map_range]
  unfold centred
  simp only [Function.comp]
  norm_num

theorem var_range {n : ℕ} (hn : 2 ≤ n) (x : ℕ → ℝ) (b : Bool) :
    var ((List.range n).map x) b = .ok (centred n x x / ((n - 1 : ℕ) : ℝ)) := by
  unfold var
  rw [mean_range (by omega)]
  unfold count
  rw [List.length_map, List.length_range]
  dsimp only
  rw [if_neg (by omega), if_neg (by omega)]
  simp only [Res.monad_bind_eq, Res.bind_ok]
  rw [foldl_add fun p : ℝ => (p - (∑ j ∈ Finset.range n, x j) / n) * (p - (∑ j ∈ Finset.range n, x j) / n),
    List.map_map, sum_map_range]
  unfold centred
  simp only [Function.comp]
  norm_num

theorem list_as_range (xs : List ℝ) : xs = (List.range xs.length).map fun i => xs.getD i 0 := by
  refine List.ext_getElem? fun i => ?_
  rw [List.getElem?_map]
  by_cases h : i < xs.length
  · rw [List.getElem?_range h, Option.map_some, List.getD_eq_getElem?_getD, List.getElem?_eq_getElem h]
    rfl
  · rw [List.getElem?_eq_none (by omega), List.getElem?_eq_none (by simp; omega)]
    rfl

/-- The centred sum from deviations from any two numbers. -/
theorem centred_eq {n : ℕ} (hn : n ≠ 0) (x y : ℕ → ℝ) (a b : ℝ) :
    centred n x y = ∑ i ∈ Finset.range n, (x i - a) * (y i - b)
      - (∑ i ∈ Finset.range n, ∑ j ∈ Finset.range n, (x i - a) * (y j - b)) / n := by
  have hn' : (n : ℝ) ≠ 0 := Nat.cast_ne_zero.2 hn
  have h1 : ∑ i ∈ Finset.range n, ∑ j ∈ Finset.range n, (x i - a) * (y j - b)
      = (∑ i ∈ Finset.range n, (x i - a)) * ∑ j ∈ Finset.range n, (y j - b) := by
    rw [Finset.sum_mul_sum]
  have hx : ∑ i ∈ Finset.range n, (x i - a) = ∑ i ∈ Finset.range n, x i - n * a := by
    rw [Finset.sum_sub_distrib, Finset.sum_const, Finset.card_range, nsmul_eq_mul]
  have hy : ∑ i ∈ Finset.range n, (y i - b) = ∑ i ∈ Finset.range n, y i - n * b := by
    rw [Finset.sum_sub_distrib, Finset.sum_const, Finset.card_range, nsmul_eq_mul]
  rw [h1]
  unfold centred
  generalize hX : (∑ j ∈ Finset.range n, x j) = X at *
  generalize hY : (∑ j ∈ Finset.range n, y j) = Y at *
  have h2 : ∀ i, (x i - X / n) * (y i - Y / n) = (x i - a) * (y i - b) - (X / n - a) * (y i - b)
      - (Y / n - b) * (x i - a) + (X / n - a) * (Y / n - b) := by intro i; ring
  simp only [h2]
  rw [Finset.sum_add_distrib, Finset.sum_sub_distrib, Finset.sum_sub_distrib, ← Finset.mul_sum,
    ← Finset.mul_sum, Finset.sum_const, Finset.card_range, nsmul_eq_mul, hx, hy]
  field_simp
  ring

/-- C90. The variance of a sequence of two or more numbers is its covariance with itself; it is not negative
and is zero exactly if all numbers are equal; it does not change if a number is added to all, and is
multiplied by the square of a factor. -/
theorem var_spec {xs : List ℝ} (h : 2 ≤ xs.length) (b : Bool) :
    ∃ v, var xs b = .ok v ∧ cov xs xs b = .ok v ∧ 0 ≤ v ∧ (v = 0 ↔ ∀ x ∈ xs, ∀ y ∈ xs, x = y) ∧
      (∀ c, var (xs.map (· + c)) b = .ok v) ∧ ∀ c, var (xs.map (c * ·)) b = .ok (c ^ 2 * v) := by
  have hl := list_as_range xs
  generalize hx : (fun i => xs.getD i 0) = x at hl
  generalize hn : xs.length = n at *
  have hn0 : (n : ℝ) ≠ 0 := Nat.cast_ne_zero.2 (by omega)
  have hn1 : (0 : ℝ) < ((n - 1 : ℕ) : ℝ) := Nat.cast_pos.2 (by omega)
  refine ⟨centred n x x / ((n - 1 : ℕ) : ℝ), ?_, ?_, ?_, ?_, ?_, ?_⟩
  · rw [hl]; exact var_range h x b
  · rw [hl]; exact cov_range h x x b
  · refine div_nonneg (Finset.sum_nonneg fun i _ => mul_self_nonneg _) hn1.le
  · rw [div_eq_zero_iff, or_iff_left hn1.ne']
    unfold centred
    rw [Finset.sum_eq_zero_iff_of_nonneg fun i _ => mul_self_nonneg _]
    have hmem : ∀ z, z ∈ xs ↔ ∃ i ∈ Finset.range n, x i = z := by
      intro z
      rw [hl, List.mem_map]
      simp
    constructor
    · intro hz y hy z hz'
      obtain ⟨i, hi, rfl⟩ := (hmem y).1 hy
      obtain ⟨j, hj, rfl⟩ := (hmem z).1 hz'
      have := mul_self_eq_zero.1 (hz i hi)
      have := mul_self_eq_zero.1 (hz j hj)
      linarith
    · intro hall i hi
      have hc : ∀ j ∈ Finset.range n, x j = x i := fun j hj =>
        hall _ ((hmem _).2 ⟨j, hj, rfl⟩) _ ((hmem _).2 ⟨i, hi, rfl⟩)
      rw [Finset.sum_congr rfl hc, Finset.sum_const, Finset.card_range, nsmul_eq_mul, mul_div_cancel_left₀ _ hn0,
        sub_self, mul_zero]
  · intro c
    rw [hl, List.map_map, var_range h]
    congr 2
    rw [centred_eq (by omega) _ _ c c, centred_eq (by omega) x x 0 0]
    simp only [Function.comp, add_sub_cancel_right, sub_zero]
  · intro c
    rw [hl, List.map_map, var_range h, ← mul_div_assoc]
    congr 2
    unfold centred
    rw [Finset.mul_sum]
    refine Finset.sum_congr rfl fun i _ => ?_
    simp only [Function.comp]
    rw [← Finset.mul_sum]
    ring

/-- C90. The covariance of two sequences is symmetric, and its square is at most the product of the
variances. -/
theorem cov_spec {xs ys : List ℝ} (h : 2 ≤ xs.length) (hl : xs.length = ys.length) (b : Bool) :
    ∃ c v w, cov xs ys b = .ok c ∧ cov ys xs b = .ok c ∧ var xs b = .ok v ∧ var ys b = .ok w ∧ c ^ 2 ≤ v * w := by
  have hx := list_as_range xs
  have hy := list_as_range ys
  generalize (fun i => xs.getD i 0) = x at hx
  generalize (fun i => ys.getD i 0) = y at hy
  rw [← hl] at hy
  generalize xs.length = n at *
  refine ⟨centred n x y / ((n - 1 : ℕ) : ℝ), _, _, ?_, ?_, by rw [hx]; exact var_range h x b,
    by rw [hy]; exact var_range h y b, ?_⟩
  · rw [hx, hy]; exact cov_range h x y b
  · rw [hx, hy, cov_range h y x b]
    congr 2
    unfold centred
    exact Finset.sum_congr rfl fun i _ => mul_comm _ _
  · rw [div_pow, div_mul_div_comm, ← pow_two]
    refine div_le_div_of_nonneg_right ?_ (by positivity)
    have := Finset.sum_mul_sq_le_sq_mul_sq (Finset.range n) (fun i => x i - (∑ j ∈ Finset.range n, x j) / n)
      (fun i => y i - (∑ j ∈ Finset.range n, y j) / n)
    unfold centred
    simpa only [pow_two] using this

/-- Two sequences of three numbers. -/
example : ∃ c v w, cov [1, 2, 4] [0, 5, 1] true = .ok c ∧ cov [0, 5, 1] [1, 2, 4] true = .ok c ∧
    var [1, 2, 4] true = .ok v ∧ var [0, 5, 1] true = .ok w ∧ c ^ 2 ≤ v * w :=
  cov_spec (xs := [1, 2, 4]) (ys := [0, 5, 1]) (by simp) rfl true

/-- C90. The sample covariance of random numbers: if the `i`-th of the first and the `j`-th of the second have
the covariance `C i j`, its expectation is the mean of the `C i i` less the mean of all `C i j`, times
`n / (n - 1)`. -/
theorem cov_expectation {Ω : Type} [MeasurableSpace Ω] {μ : Measure Ω} [IsProbabilityMeasure μ] {n : ℕ}
    (hn : 2 ≤ n) {X Y : ℕ → Ω → ℝ} {mx my : ℝ} {C : ℕ → ℕ → ℝ} (hX : ∀ i < n, MemLp (X i) 2 μ)
    (hY : ∀ i < n, MemLp (Y i) 2 μ)
    (hC : ∀ i < n, ∀ j < n, ∫ ω, (X i ω - mx) * (Y j ω - my) ∂μ = C i j) (b : Bool) :
    ∃ Z : Ω → ℝ, (∀ ω, cov ((List.range n).map (X · ω)) ((List.range n).map (Y · ω)) b = .ok (Z ω)) ∧
      Integrable Z μ ∧ ∫ ω, Z ω ∂μ = ((∑ i ∈ Finset.range n, C i i) / n
        - (∑ i ∈ Finset.range n, ∑ j ∈ Finset.range n, C i j) / n ^ 2) * (n / (n - 1)) := by
  have hn0 : (n : ℝ) ≠ 0 := Nat.cast_ne_zero.2 (by omega)
  have hn1 : (n : ℝ) - 1 ≠ 0 := by
    have : (2 : ℝ) ≤ n := by exact_mod_cast hn
    intro h; linarith
  have hi : ∀ i ∈ Finset.range n, ∀ j ∈ Finset.range n,
      Integrable (fun ω => (X i ω - mx) * (Y j ω - my)) μ := by
    intro i hi j hj
    exact ((hX i (Finset.mem_range.1 hi)).sub (memLp_const mx)).integrable_mul
      ((hY j (Finset.mem_range.1 hj)).sub (memLp_const my))
  refine ⟨fun ω => centred n (X · ω) (Y · ω) / ((n - 1 : ℕ) : ℝ), fun ω => cov_range hn _ _ b, ?_⟩
  have e : (fun ω => centred n (X · ω) (Y · ω) / ((n - 1 : ℕ) : ℝ)) = fun ω =>
      (∑ i ∈ Finset.range n, (X i ω - mx) * (Y i ω - my)
        - (∑ i ∈ Finset.range n, ∑ j ∈ Finset.range n, (X i ω - mx) * (Y j ω - my)) / n)
          / ((n - 1 : ℕ) : ℝ) := by
    funext ω
    rw [centred_eq (by omega) _ _ mx my]
  rw [e]
  have h1 : Integrable (fun ω => ∑ i ∈ Finset.range n, (X i ω - mx) * (Y i ω - my)) μ :=
    integrable_finsetSum _ fun i h => hi i h i h
  have h2 : Integrable (fun ω => ∑ i ∈ Finset.range n, ∑ j ∈ Finset.range n, (X i ω - mx) * (Y j ω - my)) μ :=
    integrable_finsetSum _ fun i h => integrable_finsetSum _ fun j h' => hi i h j h'
  refine ⟨(h1.sub (h2.div_const _)).div_const _, ?_⟩
  rw [integral_div, integral_sub h1 (h2.div_const _), integral_div,
    integral_finsetSum _ fun i h => hi i h i h,
    integral_finsetSum _ fun i h => integrable_finsetSum _ fun j h' => hi i h j h',
    Finset.sum_congr rfl fun i h => hC i (Finset.mem_range.1 h) i (Finset.mem_range.1 h),
    Finset.sum_congr rfl fun i h => (integral_finsetSum _ fun j h' => hi i h j h').trans
      (Finset.sum_congr rfl fun j h' => hC i (Finset.mem_range.1 h) j (Finset.mem_range.1 h')),
    Nat.cast_sub (by omega), Nat.cast_one]
  field_simp

/-- C90. Mean, variance and covariance are unbiased for uncorrelated pairs. -/
theorem cov_unbiased {Ω : Type} [MeasurableSpace Ω] {μ : Measure Ω} [IsProbabilityMeasure μ] {n : ℕ}
    (hn : 2 ≤ n) {X Y : ℕ → Ω → ℝ} {mx my γ : ℝ} (hX : ∀ i < n, MemLp (X i) 2 μ) (hY : ∀ i < n, MemLp (Y i) 2 μ)
    (hC : ∀ i < n, ∀ j < n, ∫ ω, (X i ω - mx) * (Y j ω - my) ∂μ = if i = j then γ else 0) (b : Bool) :
    ∃ Z : Ω → ℝ, (∀ ω, cov ((List.range n).map (X · ω)) ((List.range n).map (Y · ω)) b = .ok (Z ω)) ∧
      Integrable Z μ ∧ ∫ ω, Z ω ∂μ = γ := by
  obtain ⟨Z, h1, h2, h3⟩ := cov_expectation hn hX hY hC b
  refine ⟨Z, h1, h2, h3.trans ?_⟩
  have hn0 : (n : ℝ) ≠ 0 := Nat.cast_ne_zero.2 (by omega)
  have hn1 : (n : ℝ) - 1 ≠ 0 := by
    have : (2 : ℝ) ≤ n := by exact_mod_cast hn
    intro h; linarith
  have e1 : ∀ i ∈ Finset.range n, (∑ j ∈ Finset.range n, if i = j then γ else 0) = γ := by
    intro i hi
    rw [Finset.sum_ite_eq, if_pos hi]
  rw [Finset.sum_congr rfl e1]
  simp only [if_true, Finset.sum_const, Finset.card_range, nsmul_eq_mul]
  field_simp

/-- C90. The variance is unbiased for uncorrelated numbers of the same mean and variance. -/
theorem var_unbiased {Ω : Type} [MeasurableSpace Ω] {μ : Measure Ω} [IsProbabilityMeasure μ] {n : ℕ}
    (hn : 2 ≤ n) {X : ℕ → Ω → ℝ} {m s : ℝ} (hX : ∀ i < n, MemLp (X i) 2 μ)
    (hC : ∀ i < n, ∀ j < n, ∫ ω, (X i ω - m) * (X j ω - m) ∂μ = if i = j then s ^ 2 else 0) (b : Bool) :
    ∃ Z : Ω → ℝ, (∀ ω, var ((List.range n).map (X · ω)) b = .ok (Z ω)) ∧
      Integrable Z μ ∧ ∫ ω, Z ω ∂μ = s ^ 2 := by
  obtain ⟨Z, h1, h2, h3⟩ := cov_unbiased hn hX hX hC b
  refine ⟨Z, fun ω => ?_, h2, h3⟩
  rw [var_range hn, ← h1 ω, cov_range hn]

/-- Two signs. -/
noncomputable def twoSigns (i : ℕ) (ω : Bool × Bool) : ℝ :=
  if i = 0 then (if ω.1 then 1 else -1) else (if ω.2 then 1 else -1)

/-- Two independent signs. -/
example : ∃ Z : Bool × Bool → ℝ, (∀ ω, var ((List.range 2).map (twoSigns · ω)) true = .ok (Z ω)) ∧
    Integrable Z (PMF.uniformOfFintype (Bool × Bool)).toMeasure ∧
    ∫ ω, Z ω ∂(PMF.uniformOfFintype (Bool × Bool)).toMeasure = 1 ^ 2 := by
  refine var_unbiased (n := 2) (m := 0) (s := 1) (le_refl 2) (X := twoSigns) ?_ ?_ true
  · intro i _
    exact MemLp.of_discrete
  · intro i hi j hj
    rw [PMF.integral_eq_sum, Fintype.sum_prod_type, Fintype.sum_bool, Fintype.sum_bool, Fintype.sum_bool]
    interval_cases i <;> interval_cases j <;> norm_num [twoSigns, PMF.uniformOfFintype_apply]

/-- C90. A single pair has no covariance: the function divides 0 by 0, although the variance of a single
number is 0. -/
theorem cov_single (x y : ℝ) (b : Bool) :
    cov [x] [y] b = .nonfinite "division by zero" ∧ var [x] b = .ok 0.0 := by
  constructor
  · unfold cov mean count
    simp [Res.monad_bind_eq, Res.bind_ok]
  · rfl

/-- C90. Without data all three throw, or give 0 if they may not throw. -/
theorem no_data (xs : List ℝ) :
    mean [] true = .throws "No input data" ∧ var [] true = .throws "No input data" ∧
      cov [] [] true = .throws "No input data" ∧ mean [] false = .ok 0.0 ∧ var [] false = .ok 0.0 ∧
      cov [] [] false = .ok 0.0 ∧
      (xs ≠ [] → cov xs [] true = .throws "No input data" ∧ cov xs [] false = .ok 0.0) := by
  refine ⟨rfl, rfl, rfl, rfl, rfl, rfl, fun h => ?_⟩
  have : count xs ≠ count [] := by
    unfold count
    intro e
    exact h (List.length_eq_zero_iff.1 e)
  unfold cov
  dsimp only
  rw [if_pos this, if_pos this]
  exact ⟨rfl, rfl⟩

end Verif.Stat
