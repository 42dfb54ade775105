import Verif.Props.TrendSearch
import Verif.Lemmas.TrendKit
import Mathlib.Analysis.Complex.ExponentialBounds
import Mathlib.Algebra.BigOperators.Group.List.Basic

/-!
# C152: local linear regression
-/

namespace Verif

open Classical

namespace TrendKit

/-- A weighted sum over observations. -/
noncomputable def wsum (l : List Obs) (f : Obs → ℝ) : ℝ := (l.map fun o => f o * o.w).sum

theorem wsum_cons (o : Obs) (l : List Obs) (f : Obs → ℝ) : wsum (o :: l) f = f o * o.w + wsum l f := by
  simp [wsum]

theorem sums_fold : ∀ (l : List Obs) (a : ℝ × ℝ × ℝ × ℝ × ℝ),
    l.foldl (fun a o => (a.1 + o.w, a.2.1 + o.x * o.w, a.2.2.1 + o.x * o.x * o.w, a.2.2.2.1 + o.y * o.w,
      a.2.2.2.2 + o.x * o.y * o.w)) a = (a.1 + wsum l fun _ => 1, a.2.1 + wsum l Obs.x, a.2.2.1 + wsum l fun o => o.x * o.x,
      a.2.2.2.1 + wsum l Obs.y, a.2.2.2.2 + wsum l fun o => o.x * o.y)
  | [], a => by simp [wsum]
  | o :: l, a => by
    rw [List.foldl_cons, sums_fold l]
    simp only [wsum_cons, Prod.mk.injEq]
    exact ⟨by ring, by ring, by ring, by ring, by ring⟩

theorem sums_eq (l : List Obs) : sums l = (wsum l fun _ => 1, wsum l Obs.x, wsum l fun o => o.x * o.x, wsum l Obs.y,
    wsum l fun o => o.x * o.y) := by
  unfold sums
  rw [sums_fold]
  simp

/-- The loss of a line: the weighted squared distances of the observations from it, plus a penalty on its slope. -/
noncomputable def loss (l : List Obs) (a b : ℝ) : ℝ :=
  wsum l (fun o => (o.y - a - b * o.x) * (o.y - a - b * o.x)) + 1e-4 * wsum l (fun o => o.x * o.x) * (b * b)

theorem wsum_square (a b : ℝ) : ∀ l : List Obs, wsum l (fun o => (o.y - a - b * o.x) * (o.y - a - b * o.x)) =
    wsum l (fun o => o.y * o.y) - 2 * a * wsum l Obs.y - 2 * b * wsum l (fun o => o.x * o.y) + a * a * wsum l (fun _ => 1) +
      2 * a * b * wsum l Obs.x + b * b * wsum l (fun o => o.x * o.x)
  | [] => by simp [wsum]
  | o :: l => by
    simp only [wsum_cons, wsum_square a b l]
    ring

theorem wsum_nonneg {l : List Obs} (hw : ∀ o ∈ l, 0 ≤ o.w) {f : Obs → ℝ} (hf : ∀ o, 0 ≤ f o) : 0 ≤ wsum l f := by
  unfold wsum
  refine List.sum_nonneg fun v hv => ?_
  obtain ⟨o, ho, rfl⟩ := List.mem_map.1 hv
  exact mul_nonneg (hf o) (hw o ho)

/-- The fitted value is the value of the line with the least loss. -/
theorem fit_least {l : List Obs} (hw : ∀ o ∈ l, 0 ≤ o.w) {x0 v : ℝ} (h : fit l x0 = some v) :
    ∃ a b, v = a + b * x0 ∧ ∀ a' b', loss l a b ≤ loss l a' b' := by
  unfold fit at h
  rw [sums_eq] at h
  simp only at h
  have k0 := wsum_nonneg hw (f := fun _ => 1) (fun _ => zero_le_one)
  set m0 := wsum l fun _ => 1
  set m1 := wsum l Obs.x with hm1
  set m2 := wsum l fun o => o.x * o.x with hm2
  set c0 := wsum l Obs.y with hc0
  set c1 := wsum l fun o => o.x * o.y with hc1
  by_cases hd : m0 * (m2 * (1 + 1e-4)) - m1 * m1 > 1e-6
  · rw [if_pos hd] at h
    have hv := Option.some.inj h
    have hd0 : 0 < m0 * (m2 * (1 + 1e-4)) - m1 * m1 := lt_trans (by norm_num) hd
    set det := m0 * (m2 * (1 + 1e-4)) - m1 * m1 with hdet
    obtain ⟨a, ha⟩ : ∃ a, a = (m2 * (1 + 1e-4) * c0 + -m1 * c1) / det := ⟨_, rfl⟩
    obtain ⟨b, hb⟩ : ∃ b, b = (-m1 * c0 + m0 * c1) / det := ⟨_, rfl⟩
    have n1 : m0 * a + m1 * b = c0 := by
      rw [ha, hb]
      field_simp
      rw [hdet]
      ring
    have n2 : m1 * a + m2 * (1 + 1e-4) * b = c1 := by
      rw [ha, hb]
      field_simp
      rw [hdet]
      ring
    refine ⟨a, b, ?_, fun a' b' => ?_⟩
    · rw [← hv, ha, hb]
      ring
    · unfold loss
      rw [wsum_square, wsum_square, ← hm1, ← hm2, ← hc0, ← hc1]
      have m0p : 0 < m0 := by
        rcases k0.lt_or_eq with h | h
        · exact h
        · rw [hdet, ← h] at hd0
          nlinarith [mul_self_nonneg m1]
      have key : 0 ≤ m0 * ((a' - a) * (a' - a)) + 2 * m1 * ((a' - a) * (b' - b)) + m2 * (1 + 1e-4) * ((b' - b) * (b' - b)) := by
        have : 0 ≤ m0 * (m0 * ((a' - a) * (a' - a)) + 2 * m1 * ((a' - a) * (b' - b)) + m2 * (1 + 1e-4) * ((b' - b) * (b' - b))) := by
          have e : m0 * (m0 * ((a' - a) * (a' - a)) + 2 * m1 * ((a' - a) * (b' - b)) + m2 * (1 + 1e-4) * ((b' - b) * (b' - b))) =
              (m0 * (a' - a) + m1 * (b' - b)) * (m0 * (a' - a) + m1 * (b' - b)) + det * ((b' - b) * (b' - b)) := by
            rw [hdet]; ring
          rw [e]
          exact add_nonneg (mul_self_nonneg _) (mul_nonneg hd0.le (mul_self_nonneg _))
        exact nonneg_of_mul_nonneg_right this m0p
      rw [← n1, ← n2]
      linarith
  · rw [if_neg hd] at h
    cases h

/-- On a line with slope `b` the fitted value differs by a term that depends on the origin. -/
theorem fit_line {l : List Obs} {c b : ℝ} (hy : ∀ o ∈ l, o.y = c + b * o.x) {x0 v : ℝ} (h : fit l x0 = some v) :
    v = c + b * x0 + b * (1e-4 * wsum l (fun o => o.x * o.x)) * (wsum l Obs.x - x0 * wsum l fun _ => 1) /
      (wsum l (fun _ => 1) * (wsum l (fun o => o.x * o.x) * (1 + 1e-4)) - wsum l Obs.x * wsum l Obs.x) := by
  have e0 : wsum l Obs.y = c * (wsum l fun _ => 1) + b * wsum l Obs.x := by
    clear h
    induction l with
    | nil => simp [wsum]
    | cons o l ih =>
      simp only [wsum_cons]
      rw [ih fun o ho => hy o (List.mem_cons_of_mem _ ho), hy o List.mem_cons_self]
      ring
  have e1 : (wsum l fun o => o.x * o.y) = c * wsum l Obs.x + b * wsum l fun o => o.x * o.x := by
    clear h e0
    induction l with
    | nil => simp [wsum]
    | cons o l ih =>
      simp only [wsum_cons]
      rw [ih fun o ho => hy o (List.mem_cons_of_mem _ ho), hy o List.mem_cons_self]
      ring
  unfold fit at h
  rw [sums_eq] at h
  simp only at h
  rw [e0, e1] at h
  set m0 := wsum l fun _ => 1
  set m1 := wsum l Obs.x
  set m2 := wsum l fun o => o.x * o.x
  by_cases hd : m0 * (m2 * (1 + 1e-4)) - m1 * m1 > 1e-6
  · rw [if_pos hd] at h
    have hv := Option.some.inj h
    have hd0 : m0 * (m2 * (1 + 1e-4)) - m1 * m1 ≠ 0 := (lt_trans (by norm_num) hd).ne'
    rw [← hv, ← add_div, div_eq_iff hd0, add_mul, div_mul_cancel₀ _ hd0]
    ring
  · rw [if_neg hd] at h
    cases h

theorem used_spec {x y w : List ℝ} {order : List ℕ} {b x0 : ℝ} (hy : y.length = x.length) (hw : w.length = x.length)
    (ho : ∀ k ∈ order, k < x.length) : ∀ js : List ℕ, (∀ j ∈ js, j < order.length) →
    ∃ l, used x y w order b x0 js = .ok l ∧ ∀ o ∈ l, ∃ k : ℕ, x[k]? = some o.x ∧ y[k]? = some o.y ∧ o.y ≠ missing ∧
      ∃ wk, w[k]? = some wk ∧ o.w = wk * Real.exp (-0.5 * ((x0 - o.x) * (x0 - o.x) * (1 / (b * b)))) ∧
      (x0 - o.x) * (x0 - o.x) * (1 / (b * b)) < 2 * Real.log 1e5
  | [], _ => ⟨[], rfl, by simp⟩
  | j :: js, h => by
    obtain ⟨l, e, hl⟩ := used_spec (b := b) (x0 := x0) hy hw ho js fun i hi => h i (List.mem_cons_of_mem _ hi)
    have hj := h j List.mem_cons_self
    have hk := ho order[j] (List.getElem_mem hj)
    unfold used
    rw [rd_ok hj, Res.monad_bind_eq, Res.bind_ok, rd_ok hk, Res.monad_bind_eq, Res.bind_ok, rd_ok (hy ▸ hk), Res.monad_bind_eq,
      Res.bind_ok, rd_ok (hw ▸ hk), Res.monad_bind_eq, Res.bind_ok, e, Res.monad_bind_eq, Res.bind_ok]
    refine ⟨_, rfl, ?_⟩
    split_ifs with hc
    · intro o ho'
      rcases List.mem_cons.1 ho' with rfl | ho'
      · exact ⟨order[j], List.getElem?_eq_getElem hk, List.getElem?_eq_getElem (hy ▸ hk), hc.2, _, List.getElem?_eq_getElem (hw ▸ hk), rfl, hc.1⟩
      · exact hl o ho'
    · exact hl

end TrendKit

open TrendKit

/-- **C152 (regression).** For observations with weights that are not negative every place gets a result. It is missing, or the value
there of the line with the least loss for some of the observations that are not missing: the sum of the weighted squared distances
plus a penalty on the slope. The weights are those given times the kernel of the distance. -/
theorem trend_regression {x y w : List ℝ} (hn : 0 < x.length) (hy : y.length = x.length) (hw : w.length = x.length)
    (hw0 : ∀ v ∈ w, 0 ≤ v) (b size x0 : ℝ) :
    ∃ r, regressAt x y w b size x0 = .ok r ∧ ∀ v, r = some v → ∃ l : List Obs, (∀ o ∈ l, ∃ k : ℕ, x[k]? = some o.x ∧ y[k]? = some o.y ∧
      o.y ≠ missing ∧ ∃ wk, w[k]? = some wk ∧ o.w = wk * Real.exp (-0.5 * ((x0 - o.x) * (x0 - o.x) * (1 / (b * b)))) ∧
      (x0 - o.x) * (x0 - o.x) * (1 / (b * b)) < 2 * Real.log 1e5) ∧ size < (l.map Obs.w).sum ∧
      ∃ α β, v = α + β * x0 ∧ ∀ α' β', loss l α β ≤ loss l α' β' := by
  obtain ⟨s1, s2, s3, -, -, -⟩ := trend_sort x
  have hlen : 0 < (sortOrderAndRank x).1.length := by omega
  obtain ⟨lo, e1, h1, -⟩ := trend_lower s1 hlen (x0 - √(Real.log 1e5) * b)
  obtain ⟨up, e2, h2, -⟩ := trend_upper s1 hlen (x0 + √(Real.log 1e5) * b)
  have lo2 : (sortOrderAndRank x).2.1.length = x.length := by rw [s3.length_eq, List.length_range]
  obtain ⟨l, e, hl⟩ := used_spec (order := (sortOrderAndRank x).2.1) (b := b) (x0 := x0) hy hw
    (fun k hk => List.mem_range.1 (s3.subset hk)) (List.range' lo (up + 1 - lo)) (fun j hj => by
      rw [List.mem_range'_1] at hj
      omega)
  unfold regressAt
  simp only
  rw [e1, Res.monad_bind_eq, Res.bind_ok, e2, Res.monad_bind_eq, Res.bind_ok, e, Res.monad_bind_eq, Res.bind_ok]
  refine ⟨_, rfl, fun v hv => ⟨l, hl, ?_⟩⟩
  by_cases hs : (l.map Obs.w).sum > size
  · rw [if_pos hs] at hv
    refine ⟨hs, fit_least (fun o ho => ?_) hv⟩
    obtain ⟨k, -, -, -, wk, hwk, e, -⟩ := hl o ho
    rw [e]
    exact mul_nonneg (hw0 wk (List.mem_of_getElem? hwk)) (Real.exp_pos _).le
  · rw [if_neg hs] at hv
    cases hv

/-- **C152 (constants).** If all observations that are not missing are equal, every result that is not missing is equal to them. -/
theorem trend_regression_constant {x y w : List ℝ} (hn : 0 < x.length) (hy : y.length = x.length) (hw : w.length = x.length)
    {c : ℝ} (hc : ∀ u ∈ y, u ≠ missing → u = c) (b size x0 : ℝ) {v : ℝ} (hv : regressAt x y w b size x0 = .ok (some v)) : v = c := by
  obtain ⟨s1, s2, s3, -, -, -⟩ := trend_sort x
  have hlen : 0 < (sortOrderAndRank x).1.length := by omega
  obtain ⟨lo, e1, h1, -⟩ := trend_lower s1 hlen (x0 - √(Real.log 1e5) * b)
  obtain ⟨up, e2, h2, -⟩ := trend_upper s1 hlen (x0 + √(Real.log 1e5) * b)
  have lo2 : (sortOrderAndRank x).2.1.length = x.length := by rw [s3.length_eq, List.length_range]
  obtain ⟨l, e, hl⟩ := used_spec (order := (sortOrderAndRank x).2.1) (b := b) (x0 := x0) hy hw
    (fun k hk => List.mem_range.1 (s3.subset hk)) (List.range' lo (up + 1 - lo)) (fun j hj => by
      rw [List.mem_range'_1] at hj
      omega)
  unfold regressAt at hv
  simp only at hv
  rw [e1, Res.monad_bind_eq, Res.bind_ok, e2, Res.monad_bind_eq, Res.bind_ok, e, Res.monad_bind_eq, Res.bind_ok] at hv
  injection hv with hv
  by_cases hs : (l.map Obs.w).sum > size
  · rw [if_pos hs] at hv
    have := fit_line (c := c) (b := 0) (fun o ho => by
      obtain ⟨k, -, h2, h3, -⟩ := hl o ho
      rw [hc o.y (List.mem_of_getElem? h2) h3]
      ring) hv
    rw [this]
    ring
  · rw [if_neg hs] at hv
    cases hv

namespace TrendKit

theorem sort_sorted {x : List ℝ} (hx : x.Pairwise (· ≤ ·)) : (sortOrderAndRank x).1 = x ∧ (sortOrderAndRank x).2.1 = List.range x.length := by
  have e : ((x.zip (List.range x.length)).mergeSort fun a b => decide (pairLe a b)) = x.zip (List.range x.length) := by
    refine List.mergeSort_of_pairwise ?_
    rw [List.pairwise_iff_getElem]
    intro i j hi hj hij
    rw [List.length_zip, List.length_range, min_self] at hi hj
    rw [List.getElem_zip, List.getElem_zip, List.getElem_range, List.getElem_range]
    refine decide_eq_true ?_
    rcases (List.pairwise_iff_getElem.1 hx i j hi hj hij).lt_or_eq with h | h
    · exact .inl h
    · exact .inr ⟨h, hij.le⟩
  unfold sortOrderAndRank
  simp only
  rw [e]
  exact ⟨List.map_fst_zip (by rw [List.length_range]), List.map_snd_zip (by rw [List.length_range])⟩

theorem log_1e5 : 8 < Real.log 1e5 ∧ Real.log 1e5 < 16 := by
  have h1 := Real.exp_one_gt_d9
  have h2 := Real.exp_one_lt_d9
  constructor
  · rw [Real.lt_log_iff_exp_lt (by norm_num), show (8 : ℝ) = (8 : ℕ) * 1 by norm_num, Real.exp_nat_mul]
    calc Real.exp 1 ^ 8 ≤ 2.7182818286 ^ 8 := pow_le_pow_left₀ (Real.exp_pos _).le h2.le 8
      _ < 1e5 := by norm_num
  · rw [Real.log_lt_iff_lt_exp (by norm_num), show (16 : ℝ) = (16 : ℕ) * 1 by norm_num, Real.exp_nat_mul]
    calc (1e5 : ℝ) < 2.7182818283 ^ 16 := by norm_num
      _ ≤ Real.exp 1 ^ 16 := pow_le_pow_left₀ (by norm_num) h1.le 16

theorem reach : 1 < √(Real.log 1e5) ∧ √(Real.log 1e5) < 4 := by
  obtain ⟨h1, h2⟩ := log_1e5
  constructor
  · rw [Real.lt_sqrt (by norm_num)]; linarith
  · rw [Real.sqrt_lt' (by norm_num)]; linarith

theorem used_step {x y w : List ℝ} {n : ℕ} {b x0 : ℝ} {j : ℕ} {js : List ℕ} {l : List Obs} (hj : j < n) {u v t : ℝ} (hx : x[j]? = some u)
    (hy : y[j]? = some v) (hw : w[j]? = some t) (hl : used x y w (List.range n) b x0 js = .ok l)
    (hd : (x0 - u) * (x0 - u) * (1 / (b * b)) < 2 * Real.log 1e5) (hm : v ≠ missing) :
    used x y w (List.range n) b x0 (j :: js) = .ok (⟨u, v, t * Real.exp (-0.5 * ((x0 - u) * (x0 - u) * (1 / (b * b))))⟩ :: l) := by
  unfold used
  rw [rd_eq_ok.2 (List.getElem?_range hj), Res.monad_bind_eq, Res.bind_ok, rd_eq_ok.2 hx, Res.monad_bind_eq, Res.bind_ok, rd_eq_ok.2 hy,
    Res.monad_bind_eq, Res.bind_ok, rd_eq_ok.2 hw, Res.monad_bind_eq, Res.bind_ok, hl, Res.monad_bind_eq, Res.bind_ok]
  simp only
  rw [if_pos ⟨hd, hm⟩]

theorem ne_missing {v : ℝ} (h : 0 ≤ v) : v ≠ missing := fun hc => by rw [hc] at h; norm_num [missing] at h

/-- Three observations at `p - 1`, `p` and `p + 1` with value equal to the distance from `p` plus 1, used at `p + 2`. -/
theorem regress_three (p : ℝ) : ∃ w : List ℝ, w.length = 3 ∧ (∀ v ∈ w, 0 ≤ v) ∧
    regressAt [p - 1, p, p + 1] [0, 1, 2] w 10 0 (p + 2) = .ok (fit [⟨p - 1, 0, 1⟩, ⟨p, 1, 1⟩, ⟨p + 1, 2, 1⟩] (p + 2)) := by
  obtain ⟨r1, r2⟩ := reach
  obtain ⟨g1, g2⟩ := log_1e5
  have d : ∀ q : ℝ, Real.exp (-(-0.5 * q)) * Real.exp (-0.5 * q) = 1 := fun q => by
    rw [← Real.exp_add, neg_add_cancel, Real.exp_zero]
  have hs : [p - 1, p, p + 1].Pairwise (· ≤ ·) := by norm_num; linarith
  obtain ⟨e1, e2⟩ := sort_sorted hs
  let k : ℝ → ℝ := fun u => Real.exp (-(-0.5 * ((p + 2 - u) * (p + 2 - u) * (1 / (10 * 10)))))
  have kd : ∀ u : ℝ, k u * Real.exp (-0.5 * ((p + 2 - u) * (p + 2 - u) * (1 / (10 * 10)))) = 1 := fun u => d _
  have kp : ∀ u : ℝ, 0 ≤ k u := fun u => (Real.exp_pos _).le
  refine ⟨[k (p - 1), k p, k (p + 1)], rfl, by
    intro v hv
    simp only [List.mem_cons, List.not_mem_nil, or_false] at hv
    rcases hv with rfl | rfl | rfl <;> exact kp _, ?_⟩
  obtain ⟨lo, b1, -, l1, -⟩ := trend_lower hs (by simp) (p + 2 - √(Real.log 1e5) * 10)
  have hlo : lo = 0 := l1 (by simp only [List.getElem_cons_zero]; linarith)
  obtain ⟨up, b2, -, -, u2, -⟩ := trend_upper hs (by simp) (p + 2 + √(Real.log 1e5) * 10)
  have hup : up = 2 := u2 (by simp only [List.getElem_cons_zero]; linarith) (by
    simp only [List.length_cons, List.length_nil, Nat.reduceAdd, Nat.add_one_sub_one, List.getElem_cons_succ, List.getElem_cons_zero]
    linarith)
  subst hlo hup
  have q2 := used_step (x := [p - 1, p, p + 1]) (y := [0, 1, 2]) (w := [k (p - 1), k p, k (p + 1)]) (n := 3) (b := 10) (x0 := p + 2) (j := 2)
    (js := []) (l := []) (by omega) (u := p + 1) rfl (v := 2) rfl rfl rfl (by
      rw [show p + 2 - (p + 1) = 1 by ring]; linarith) (ne_missing (by norm_num))
  have q1 := used_step (j := 1) (by omega) (u := p) rfl (v := 1) rfl rfl q2 (by
      rw [show p + 2 - p = 2 by ring]; linarith) (ne_missing (by norm_num))
  have q0 := used_step (j := 0) (by omega) (u := p - 1) rfl (v := 0) rfl rfl q1 (by
      rw [show p + 2 - (p - 1) = 3 by ring]; linarith) (ne_missing (by norm_num))
  rw [kd, kd, kd] at q0
  unfold regressAt
  simp only
  rw [e1, e2, b1, Res.monad_bind_eq, Res.bind_ok, b2, Res.monad_bind_eq, Res.bind_ok]
  have : List.range' 0 (2 + 1 - 0) = [0, 1, 2] := rfl
  rw [this]
  have h3 : [p - 1, p, p + 1].length = 3 := rfl
  rw [h3, q0, Res.monad_bind_eq, Res.bind_ok, if_pos (by norm_num)]

end TrendKit

/-- **C152 (violation, lines).** Three observations on a line with slope 1 and a place on its other side: the line gives 3. With
observations around the origin the result is almost 3; with the same observations, and the place, moved by 1000, it is below 1.02, little
above the mean of the observations, which is 1. -/
theorem trend_regression_violation :
    (∃ w : List ℝ, w.length = 3 ∧ (∀ v ∈ w, 0 ≤ v) ∧ ∃ v, regressAt [0 - 1, 0, 0 + 1] [0, 1, 2] w 10 0 (0 + 2) = .ok (some v) ∧ 2.999 < v) ∧
    (∃ w : List ℝ, w.length = 3 ∧ (∀ v ∈ w, 0 ≤ v) ∧
      ∃ v, regressAt [1000 - 1, 1000, 1000 + 1] [0, 1, 2] w 10 0 (1000 + 2) = .ok (some v) ∧ v < 1.02) := by
  constructor
  · obtain ⟨w, h1, h2, e⟩ := regress_three 0
    refine ⟨w, h1, h2, ?_⟩
    rw [e]
    unfold fit
    rw [sums_eq]
    simp only [wsum, List.map_cons, List.map_nil, List.sum_cons, List.sum_nil]
    rw [if_pos (by norm_num)]
    exact ⟨_, rfl, by norm_num⟩
  · obtain ⟨w, h1, h2, e⟩ := regress_three 1000
    refine ⟨w, h1, h2, ?_⟩
    rw [e]
    unfold fit
    rw [sums_eq]
    simp only [wsum, List.map_cons, List.map_nil, List.sum_cons, List.sum_nil]
    rw [if_pos (by norm_num)]
    exact ⟨_, rfl, by norm_num⟩

/-- **C152 (violation, order).** The result depends on the order of the observations: of two observations at one place, only the second
is used although both have the same weight. -/
theorem trend_regression_order : ∃ k : ℝ, 0 ≤ k ∧ ∃ u v : ℝ, u ≠ v ∧
    regressAt [0, 0, 4] [0, 1, 0] [k, k, 1] 1 0 4 = .ok (some u) ∧ regressAt [0, 0, 4] [1, 0, 0] [k, k, 1] 1 0 4 = .ok (some v) := by
  obtain ⟨r1, r2⟩ := reach
  obtain ⟨g1, g2⟩ := log_1e5
  have hs : [(0 : ℝ), 0, 4].Pairwise (· ≤ ·) := by norm_num
  obtain ⟨e1, e2⟩ := sort_sorted hs
  obtain ⟨lo, b1, hlo, -, l2⟩ := trend_lower hs (by simp) (4 - √(Real.log 1e5) * 1)
  obtain ⟨a1, a2⟩ := l2 (by simp only [List.getElem_cons_zero]; linarith)
  have hlo1 : lo = 1 := by
    simp only [List.length_cons, List.length_nil] at hlo
    have : lo = 0 ∨ lo = 1 ∨ lo = 2 := by omega
    rcases this with rfl | rfl | rfl
    · have := a2 1 (by simp) (by omega)
      simp only [List.getElem_cons_succ, List.getElem_cons_zero] at this
      linarith
    · rfl
    · simp only [List.getElem_cons_succ, List.getElem_cons_zero] at a1
      linarith
  obtain ⟨up, b2, -, -, u2, -⟩ := trend_upper hs (by simp) (4 + √(Real.log 1e5) * 1)
  have hup : up = 2 := u2 (by simp only [List.getElem_cons_zero]; linarith) (by
    simp only [List.length_cons, List.length_nil, Nat.reduceAdd, Nat.add_one_sub_one, List.getElem_cons_succ, List.getElem_cons_zero]
    linarith)
  subst hlo1 hup
  have val : ∀ y0 y1 : ℝ, 0 ≤ y1 → regressAt [0, 0, 4] [y0, y1, 0] [Real.exp 8, Real.exp 8, 1] 1 0 4 =
      .ok (some (1.6e-3 * y1 / 16.0032)) := by
    intro y0 y1 hy1
    have q2 := used_step (x := [0, 0, 4]) (y := [y0, y1, 0]) (w := [Real.exp 8, Real.exp 8, 1]) (n := 3) (b := 1) (x0 := 4) (j := 2)
      (js := []) (l := []) (by omega) (u := 4) rfl (v := 0) rfl rfl rfl (by
        rw [sub_self]; linarith) (ne_missing (le_refl _))
    have q1 := used_step (j := 1) (by omega) (u := 0) rfl (v := y1) rfl rfl q2 (by
      norm_num; norm_num at g1; linarith) (ne_missing hy1)
    have k1 : Real.exp 8 * Real.exp (-0.5 * ((4 - 0) * (4 - 0) * (1 / (1 * 1)))) = 1 := by
      rw [← Real.exp_add, Real.exp_eq_one_iff]; norm_num
    have k2 : 1 * Real.exp (-0.5 * ((4 - 4) * (4 - 4) * (1 / (1 * 1)))) = 1 := by
      rw [one_mul, Real.exp_eq_one_iff]; norm_num
    rw [k1, k2] at q1
    unfold regressAt
    simp only
    rw [e1, e2, b1, Res.monad_bind_eq, Res.bind_ok, b2, Res.monad_bind_eq, Res.bind_ok]
    have : List.range' 1 (2 + 1 - 1) = [1, 2] := rfl
    rw [this]
    have h3 : [(0 : ℝ), 0, 4].length = 3 := rfl
    rw [h3, q1, Res.monad_bind_eq, Res.bind_ok, if_pos (by norm_num)]
    unfold fit
    rw [sums_eq]
    simp only [wsum, List.map_cons, List.map_nil, List.sum_cons, List.sum_nil]
    rw [if_pos (by norm_num)]
    congr 2
    ring
  refine ⟨Real.exp 8, (Real.exp_pos _).le, _, _, ?_, val 0 1 zero_le_one, val 1 0 (le_refl _)⟩
  norm_num

/-- Observations that meet the hypotheses, with a result. -/
theorem trend_regression_example : ∃ w : List ℝ, w.length = 3 ∧ (∀ v ∈ w, 0 ≤ v) ∧ ∃ v,
    regressAt [0 - 1, 0, 0 + 1] [0, 1, 2] w 10 0 (0 + 2) = .ok (some v) := by
  obtain ⟨⟨w, h1, h2, v, h3, -⟩, -⟩ := trend_regression_violation
  exact ⟨w, h1, h2, v, h3⟩

end Verif
