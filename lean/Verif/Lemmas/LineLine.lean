import Verif.Lemmas.Geometry

/-!
# Lemmas on the nearest points of two lines

The squared distance of the points with parameters `s` and `t` is `W + a s² + c t² - 2 b s t + 2 d s - 2 e t`. A pair is least if and
only if neither partial derivative, `a s - b t + d` and `c t - b s - e`, goes down in an admissible direction.
-/

namespace Verif.Geo

/-- The parameters that two ends allow. -/
def Range2 (e1 e2 : Bool) (t : ℝ) : Prop := (e1 = true → 0 ≤ t) ∧ (e2 = true → t ≤ 1)

theorem range2_zero (e1 e2 : Bool) : Range2 e1 e2 0 := ⟨fun _ => le_rfl, fun _ => zero_le_one⟩

theorem range2_one (e1 e2 : Bool) : Range2 e1 e2 1 := ⟨fun _ => zero_le_one, fun _ => le_rfl⟩

theorem quotOrZero_ok {n d : ℝ} (h : d ≠ 0) : Line.quotOrZero n d = .ok (n / d) := by
  unfold Line.quotOrZero
  by_cases h1 : n = 0
  · rw [if_pos (by rw [h1]; norm_num), h1]
    norm_num
  · rw [if_neg (by norm_num; exact h1), fdiv_ok h]

/-- The first stage: the best `s` when `t` is free. -/
theorem nearStart_spec {e1 e2 : Bool} {a b c d e : ℝ} (hc : 0 < c) (hD : 0 ≤ a * c - b * b) (hp : a * c - b * b = 0 → c * d = b * e) :
    ∃ s0, (let q := Line.nearStart e1 e2 a b c d e
      0 < q.sd ∧ 0 < q.td ∧ q.sn / q.sd = s0 ∧ q.tn / q.td = (e + b * s0) / c) ∧
      Range2 e1 e2 s0 ∧ ∀ s, Range2 e1 e2 s → 0 ≤ (a * s0 - b * ((e + b * s0) / c) + d) * (s - s0) := by
  have hg : ∀ s0 k : ℝ, (a * s0 - b * ((e + b * s0) / c) + d) * k = ((a * c - b * b) * s0 + (c * d - b * e)) * k / c := by
    intro s0 k
    field_simp
    ring
  unfold Line.nearStart
  by_cases h0 : a * c - b * b = 0
  · refine ⟨0, ?_, range2_zero _ _, fun s _ => ?_⟩
    · simp only [if_pos h0]
      refine ⟨one_pos, hc, by norm_num, by norm_num⟩
    · rw [hg, h0, hp h0]
      simp
  · have hD' : 0 < a * c - b * b := lt_of_le_of_ne hD (Ne.symm h0)
    by_cases h1 : e1 = true ∧ b * e - c * d < 0
    · refine ⟨0, ?_, range2_zero _ _, fun s hs => ?_⟩
      · simp only [if_neg h0, if_pos h1]
        exact ⟨hD', hc, by norm_num, by norm_num⟩
      · rw [hg]
        have := hs.1 h1.1
        have h2 : 0 ≤ (c * d - b * e) * s := mul_nonneg (by linarith [h1.2]) this
        apply div_nonneg _ hc.le
        nlinarith
    · by_cases h2 : e2 = true ∧ b * e - c * d > a * c - b * b
      · refine ⟨1, ?_, range2_one _ _, fun s hs => ?_⟩
        · simp only [if_neg h0, if_neg h1, if_pos h2]
          exact ⟨hD', hc, div_self h0, by norm_num⟩
        · rw [hg]
          have := hs.2 h2.1
          apply div_nonneg _ hc.le
          exact mul_nonneg_of_nonpos_of_nonpos (by linarith [h2.2]) (by linarith)
      · refine ⟨(b * e - c * d) / (a * c - b * b), ?_, ⟨fun he => ?_, fun he => ?_⟩, fun s hs => ?_⟩
        · simp only [if_neg h0, if_neg h1, if_neg h2]
          refine ⟨hD', hD', trivial, ?_⟩
          rw [div_eq_div_iff h0 hc.ne', add_mul, mul_assoc, div_mul_cancel₀ _ h0]
          ring
        · apply div_nonneg _ hD'.le
          by_contra hcon
          exact h1 ⟨he, by linarith⟩
        · rw [div_le_one hD']
          by_contra hcon
          exact h2 ⟨he, by linarith⟩
        · rw [hg, mul_div_cancel₀ _ h0]
          simp

/-- The best `s` for a given `t`, as the code finds it; `n` is `-d` or `-d + b`. -/
theorem clamp_spec {e1 e2 : Bool} {a n sd : ℝ} (ha : 0 ≤ a) (h0 : a = 0 → n = 0) (hsd : 0 < sd) {q : Line.Quots}
    (hq1 : e1 = true ∧ n < 0 → q.sn = 0 ∧ q.sd = sd) (hq2 : ¬ (e1 = true ∧ n < 0) → e2 = true ∧ n > a → q.sn = sd ∧ q.sd = sd)
    (hq3 : ¬ (e1 = true ∧ n < 0) → ¬ (e2 = true ∧ n > a) → q.sn = n ∧ q.sd = a) :
    ∃ s1, Line.quotOrZero q.sn q.sd = .ok s1 ∧ Range2 e1 e2 s1 ∧ ∀ s, Range2 e1 e2 s → 0 ≤ (a * s1 - n) * (s - s1) := by
  by_cases h1 : e1 = true ∧ n < 0
  · obtain ⟨h2, h3⟩ := hq1 h1
    refine ⟨0, by rw [h2, h3, quotOrZero_ok hsd.ne', zero_div], range2_zero _ _, fun s hs => ?_⟩
    have := hs.1 h1.1
    exact mul_nonneg (by linarith [h1.2]) (by linarith)
  · by_cases h2 : e2 = true ∧ n > a
    · obtain ⟨h3, h4⟩ := hq2 h1 h2
      refine ⟨1, by rw [h3, h4, quotOrZero_ok hsd.ne', div_self hsd.ne'], range2_one _ _, fun s hs => ?_⟩
      have := hs.2 h2.1
      exact mul_nonneg_of_nonpos_of_nonpos (by linarith [h2.2]) (by linarith)
    · obtain ⟨h3, h4⟩ := hq3 h1 h2
      by_cases h5 : a = 0
      · refine ⟨0, ?_, range2_zero _ _, fun s hs => ?_⟩
        · rw [h3, h0 h5]
          unfold Line.quotOrZero
          rw [if_pos (by norm_num)]
          norm_num
        · rw [h5, h0 h5]
          simp
      · have ha' : 0 < a := lt_of_le_of_ne ha (Ne.symm h5)
        refine ⟨n / a, by rw [h3, h4, quotOrZero_ok h5], ⟨fun he => ?_, fun he => ?_⟩, fun s hs => ?_⟩
        · apply div_nonneg _ ha
          by_contra hcon
          exact h1 ⟨he, by linarith⟩
        · rw [div_le_one ha']
          by_contra hcon
          exact h2 ⟨he, by linarith⟩
        · rw [mul_div_cancel₀ _ h5]
          simp

/-- Moving `s` from its best value for free `t` to its best value for the clamped `t` does not change the side `t` is clamped on. -/
theorem clamp_side {a b c m δ : ℝ} (hc : 0 < c) (hD : 0 ≤ a * c - b * b) (h : 0 ≤ (-(b * (m / c)) - a * δ) * δ) :
    (m < 0 → m + b * δ ≤ 0) ∧ (0 < m → 0 ≤ m + b * δ) := by
  have h1 : 0 ≤ (-(b * m) - a * c * δ) * δ := by
    have : (-(b * m) - a * c * δ) * δ = c * ((-(b * (m / c)) - a * δ) * δ) := by
      field_simp
    rw [this]
    exact mul_nonneg hc.le h
  have h2 : (b * δ) * (m + b * δ) ≤ 0 := by nlinarith [mul_nonneg hD (sq_nonneg δ)]
  constructor <;>
  · intro hm
    by_contra hcon
    push Not at hcon
    nlinarith

/-- Both stages: the parameters found satisfy the conditions for a least distance. -/
theorem near_spec {e1 e2 f1 f2 : Bool} {a b c d e : ℝ} (ha : 0 ≤ a) (hc : 0 < c) (hD : 0 ≤ a * c - b * b)
    (hp : a * c - b * b = 0 → c * d = b * e) (h0 : a = 0 → b = 0 ∧ d = 0) :
    ∃ s t, (let q := Line.nearEnd e1 e2 f1 f2 a b d (Line.nearStart e1 e2 a b c d e)
      Line.quotOrZero q.sn q.sd = .ok s ∧ Line.quotOrZero q.tn q.td = .ok t) ∧ Range2 e1 e2 s ∧ Range2 f1 f2 t ∧
      (∀ s', Range2 e1 e2 s' → 0 ≤ (a * s - b * t + d) * (s' - s)) ∧ (∀ t', Range2 f1 f2 t' → 0 ≤ (c * t - b * s - e) * (t' - t)) := by
  obtain ⟨s0, ⟨h1, h2, h3, h4⟩, h5, h6⟩ := nearStart_spec (e1 := e1) (e2 := e2) hc hD hp
  set q := Line.nearStart e1 e2 a b c d e with hq
  unfold Line.nearEnd
  by_cases k1 : f1 = true ∧ q.tn < 0
  · have hm : e + b * s0 < 0 := by
      have : q.tn / q.td < 0 := div_neg_of_neg_of_pos k1.2 h2
      rw [h4, div_lt_iff₀ hc] at this
      linarith
    simp only [if_pos k1]
    obtain ⟨s1, g1, g2, g3⟩ := clamp_spec (e1 := e1) (e2 := e2) (a := a) (n := -d) (sd := q.sd) ha
      (fun h => by rw [(h0 h).2]; simp) h1
      (q := if e1 = true ∧ -d < 0 then ⟨0, q.sd, 0, q.td⟩ else if e2 = true ∧ -d > a then ⟨q.sd, q.sd, 0, q.td⟩ else ⟨-d, a, 0, q.td⟩)
      (fun h => by rw [if_pos h]; exact ⟨rfl, rfl⟩) (fun h h' => by rw [if_neg h, if_pos h']; exact ⟨rfl, rfl⟩)
      (fun h h' => by rw [if_neg h, if_neg h']; exact ⟨rfl, rfl⟩)
    refine ⟨s1, 0, ⟨g1, ?_⟩, g2, range2_zero _ _, fun s' hs' => ?_, fun t' ht' => ?_⟩
    · have : (if e1 = true ∧ -d < 0 then (⟨0, q.sd, 0, q.td⟩ : Line.Quots) else
          if e2 = true ∧ -d > a then ⟨q.sd, q.sd, 0, q.td⟩ else ⟨-d, a, 0, q.td⟩).tn = 0 := by
        split_ifs <;> rfl
      unfold Line.quotOrZero
      rw [this, if_pos (by norm_num)]
      norm_num
    · have := g3 s' hs'
      have e1' : a * s1 - b * 0 + d = a * s1 - -d := by ring
      rw [e1']
      exact this
    · have k2 := h6 s1 g2
      have k3 := g3 s0 h5
      have k4 := (clamp_side (a := a) (b := b) (m := e + b * s0) (δ := s1 - s0) hc hD (by nlinarith)).1 hm
      have := ht'.1 k1.1
      exact mul_nonneg (by nlinarith) (by linarith)
  · by_cases k2 : f2 = true ∧ q.tn > q.td
    · have hm : 0 < e + b * s0 - c := by
        have : 1 < q.tn / q.td := by rw [lt_div_iff₀ h2]; linarith [k2.2]
        rw [h4, lt_div_iff₀ hc] at this
        linarith
      simp only [if_neg k1, if_pos k2]
      obtain ⟨s1, g1, g2, g3⟩ := clamp_spec (e1 := e1) (e2 := e2) (a := a) (n := -d + b) (sd := q.sd) ha
        (fun h => by rw [(h0 h).2, (h0 h).1]; simp) h1
        (q := if e1 = true ∧ -d + b < 0 then ⟨0, q.sd, q.td, q.td⟩ else if e2 = true ∧ -d + b > a then ⟨q.sd, q.sd, q.td, q.td⟩
          else ⟨-d + b, a, q.td, q.td⟩)
        (fun h => by rw [if_pos h]; exact ⟨rfl, rfl⟩) (fun h h' => by rw [if_neg h, if_pos h']; exact ⟨rfl, rfl⟩)
        (fun h h' => by rw [if_neg h, if_neg h']; exact ⟨rfl, rfl⟩)
      refine ⟨s1, 1, ⟨g1, ?_⟩, g2, range2_one _ _, fun s' hs' => ?_, fun t' ht' => ?_⟩
      · have e1' : (if e1 = true ∧ -d + b < 0 then (⟨0, q.sd, q.td, q.td⟩ : Line.Quots) else if e2 = true ∧ -d + b > a then
            ⟨q.sd, q.sd, q.td, q.td⟩ else ⟨-d + b, a, q.td, q.td⟩).tn = q.td := by split_ifs <;> rfl
        have e2' : (if e1 = true ∧ -d + b < 0 then (⟨0, q.sd, q.td, q.td⟩ : Line.Quots) else if e2 = true ∧ -d + b > a then
            ⟨q.sd, q.sd, q.td, q.td⟩ else ⟨-d + b, a, q.td, q.td⟩).td = q.td := by split_ifs <;> rfl
        rw [e1', e2', quotOrZero_ok h2.ne', div_self h2.ne']
      · have := g3 s' hs'
        have e1' : a * s1 - b * 1 + d = a * s1 - (-d + b) := by ring
        rw [e1']
        exact this
      · have k3 := h6 s1 g2
        have k4 := g3 s0 h5
        have k5 := (clamp_side (a := a) (b := b) (m := e + b * s0 - c) (δ := s1 - s0) hc hD (by
          have : b * ((e + b * s0 - c) / c) = b * ((e + b * s0) / c) - b := by
            field_simp
          rw [this]
          nlinarith)).2 hm
        have := ht'.2 k2.1
        exact mul_nonneg_of_nonpos_of_nonpos (by nlinarith) (by linarith)
    · simp only [if_neg k1, if_neg k2]
      refine ⟨s0, (e + b * s0) / c, ⟨by rw [quotOrZero_ok h1.ne', h3], by rw [quotOrZero_ok h2.ne', h4]⟩, h5,
        ⟨fun hf => ?_, fun hf => ?_⟩, h6, fun t' _ => ?_⟩
      · rw [← h4]
        apply div_nonneg _ h2.le
        by_contra hcon
        exact k1 ⟨hf, by linarith⟩
      · rw [← h4, div_le_one h2]
        by_contra hcon
        exact k2 ⟨hf, by linarith⟩
      · rw [mul_div_cancel₀ _ hc.ne']
        simp

end Verif.Geo
