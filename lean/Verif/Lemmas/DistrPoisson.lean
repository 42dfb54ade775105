import Verif.Lemmas.DistrBinom
import Mathlib.Analysis.Normed.Algebra.Exponential
import Mathlib.Analysis.SpecialFunctions.Exponential
import Mathlib.Analysis.Complex.ExponentialBounds

/-! Helper lemmas: the Poisson distribution. -/

namespace Verif.Poisson

open Spec MeasureTheory ProbabilityTheory Set Filter Distr CovTable
open scoped Nat

/-- The Poisson probabilities. -/
noncomputable def w (l : ℝ) (j : ℕ) : ℝ := Real.exp (-l) * (l ^ j / j !)

theorem w_nonneg {l : ℝ} (h : 0 ≤ l) (j : ℕ) : 0 ≤ w l j := by
  unfold w
  positivity

theorem w_hasSum (l : ℝ) : HasSum (w l) 1 := by
  have h := (NormedSpace.expSeries_div_hasSum_exp (𝔸 := ℝ) l).mul_left (Real.exp (-l))
  rw [← Real.exp_eq_exp_ℝ, ← Real.exp_add, neg_add_cancel, Real.exp_zero] at h
  exact h

theorem w_sum_le {l : ℝ} (h : 0 ≤ l) (m : ℕ) : ∑ j ∈ Finset.range m, w l j ≤ 1 :=
  sum_le_hasSum _ (fun j _ => w_nonneg h j) (w_hasSum l)

theorem w_succ {l : ℝ} (j : ℕ) : l * w l j / ((j : ℝ) + 1) = w l (j + 1) := by
  unfold w
  rw [Nat.factorial_succ, pow_succ]
  have : (j ! : ℝ) ≠ 0 := by positivity
  push_cast
  field_simp

/-- Cumulated probabilities. -/
noncomputable def c (l : ℝ) (k : ℕ) : ℝ := ∑ j ∈ Finset.range (k + 1), w l j

theorem c_mono {l : ℝ} (h : 0 ≤ l) : Monotone (c l) := fun i j hij => by
  have := iF_mono (w_nonneg h) (show (i : ℤ) ≤ j by exact_mod_cast hij)
  rwa [iF_nat, iF_nat] at this

/-- The tail. -/
theorem c_ge {l : ℝ} (h : 0 ≤ l) (k : ℕ) : 1 - Real.exp l / 2 ^ (k + 1) ≤ c l k := by
  have h1 := (hasSum_nat_add_iff' (k + 1)).2 (w_hasSum l)
  have h2 := (hasSum_nat_add_iff' (k + 1)).2 (w_hasSum (2 * l))
  have h3 : 0 ≤ ∑ j ∈ Finset.range (k + 1), w (2 * l) j :=
    Finset.sum_nonneg fun j _ => w_nonneg (by linarith) j
  have key := hasSum_le (f := fun j => w l (j + (k + 1)))
    (g := fun j => Real.exp l / 2 ^ (k + 1) * w (2 * l) (j + (k + 1))) (fun j => by
      unfold w
      rw [mul_pow, show Real.exp l / 2 ^ (k + 1) * (Real.exp (-(2 * l)) *
        (2 ^ (j + (k + 1)) * l ^ (j + (k + 1)) / (j + (k + 1))!))
        = 2 ^ j * ((Real.exp l * Real.exp (-(2 * l))) * (l ^ (j + (k + 1)) / (j + (k + 1))!)) by
          rw [pow_add 2 j (k + 1)]; field_simp, ← Real.exp_add, show l + -(2 * l) = -l by ring]
      refine le_mul_of_one_le_left (by positivity) (one_le_pow₀ (by norm_num))) h1 (h2.mul_left _)
  unfold c
  have : 0 ≤ Real.exp l / 2 ^ (k + 1) := by positivity
  nlinarith

theorem c_lim {l : ℝ} {u : ℝ} (hu : u < 1) : ∃ k, u ≤ c l k := by
  have := (w_hasSum l).tendsto_sum_nat
  obtain ⟨k, hk⟩ := ((this.comp (tendsto_add_atTop_nat 1)).eventually (lt_mem_nhds hu)).exists
  exact ⟨k, le_of_lt hk⟩

theorem draw_loop {l u : ℝ} (m : ℕ) (hm : u ≤ c l m) (hlt : ∀ k < m, c l k < u) :
    untilLoop (drawRound l) (u, Real.exp (-l), 0)
      = .ok ((m : ℤ), u - (c l m - w l m), w l m, (m : ℤ)) := by
  have key : ∀ d x, x + d = m → untilLoop (drawRound l) (u - (c l x - w l x), w l x, (x : ℤ))
      = .ok ((m : ℤ), u - (c l m - w l m), w l m, (m : ℤ)) := by
    intro d
    induction d with
    | zero =>
      intro x hx
      have hx : x = m := by omega
      subst hx
      rw [untilLoop_unfold]
      unfold drawRound
      have : ¬ (u - (c l x - w l x) > w l x) := by
        have : u ≤ c l x := hm
        linarith
      simp only [this, if_false, Res.bind_ok]
    | succ d ih =>
      intro x hx
      rw [untilLoop_unfold]
      unfold drawRound
      have h1 := hlt x (by omega)
      have hgt : u - (c l x - w l x) > w l x := by linarith
      have e1 : fdiv (l * w l x) (((x : ℤ) + 1 : ℤ) : ℝ) = .ok (w l (x + 1)) := by
        rw [fdiv_ok (by push_cast; positivity), ← w_succ]
        push_cast
        rfl
      simp only [hgt, if_true, Res.monad_bind_eq, e1, Res.bind_ok]
      have e2 : u - (c l x - w l x) - w l x = u - (c l (x + 1) - w l (x + 1)) := by
        unfold c
        rw [Finset.sum_range_succ _ (x + 1)]
        ring
      rw [e2, show ((x : ℤ) + 1) = ((x + 1 : ℕ) : ℤ) by push_cast; rfl]
      exact ih (x + 1) (by omega)
  have := key m 0 (by omega)
  have e : u - (c l 0 - w l 0) = u := by simp [c]
  have e0 : w l 0 = Real.exp (-l) := by simp [w]
  rw [e, e0] at this
  exact this

theorem draw_small {l : ℝ} (hl : l < 10) {σ : Type} (unif : σ → Res (ℝ × σ)) {s s' : σ} {u : ℝ}
    (e : unif s = .ok (u, s')) (m : ℕ) (hm : u ≤ c l m) (hlt : ∀ k < m, c l k < u) :
    (create l).draw unif s = .ok ((m : ℤ), s') := by
  unfold draw
  rw [show (create l).lambda = l from rfl, if_pos hl]
  simp only [Res.monad_bind_eq, e, Res.bind_ok]
  rw [show (create l).expMean = Real.exp (-l) from rfl, draw_loop m hm hlt]
  rfl

theorem draws {l : ℝ} (h0 : 0 ≤ l) (hl : l < 10) : ∃ ν : Measure ℤ, IsProbabilityMeasure ν ∧
    (∀ k : ℕ, ν.real {(k : ℤ)} = Real.exp (-l) * l ^ k / k !) ∧ DrawsHaveLaw (create l).draw ν := by
  classical
  let q : ℝ → ℤ := fun u => if h : ∃ k, u ≤ c l k then (Nat.find h : ℤ) else 0
  obtain ⟨ν, hν, hk, -, hd⟩ := intDraws (q := q) (w_nonneg h0) (w_sum_le h0) (Or.inl fun u hu0 hu1 k => by
    have h := c_lim (l := l) hu1
    simp only [q, h, dif_pos]
    rcases lt_or_ge k 0 with hk | hk
    · rw [iF_neg hk]
      constructor
      · intro h; omega
      · intro h; linarith
    · obtain ⟨n, rfl⟩ := Int.eq_ofNat_of_zero_le hk
      rw [iF_nat]
      constructor
      · intro hle
        have : Nat.find h ≤ n := by exact_mod_cast hle
        exact (Nat.find_spec h).trans (c_mono h0 this)
      · intro hle
        exact_mod_cast Nat.find_min' h hle)
  refine ⟨ν, hν, fun k => ?_, hd _ fun unif s s' u e hu0 hu1 => ?_⟩
  · rw [hk, if_neg (by omega), Int.toNat_natCast]
    unfold w
    ring
  · have h := c_lim (l := l) hu1
    simp only [q, h, dif_pos]
    exact draw_small hl unif e _ (Nat.find_spec h) fun k hk => not_le.1 (Nat.find_min h hk)

/-- The number of rounds. -/
theorem draw_rounds {l : ℝ} (h0 : 0 ≤ l) (hl : l < 10) {u : ℝ} (hu : u ≤ 1 - 2⁻¹ ^ 52) :
    ∃ m : ℕ, m < 70 ∧ u ≤ c l m ∧ ∀ k < m, c l k < u := by
  classical
  have h69 : u ≤ c l 68 := by
    refine hu.trans (le_trans ?_ (c_ge h0 68))
    have h1 : Real.exp l ≤ Real.exp 1 ^ 10 := by
      rw [← Real.exp_nat_mul]
      exact Real.exp_le_exp.2 (by push_cast; linarith)
    have h2 : Real.exp 1 ^ 10 ≤ 2.7182818286 ^ 10 :=
      pow_le_pow_left₀ (Real.exp_pos 1).le Real.exp_one_lt_d9.le 10
    have h3 : Real.exp l / 2 ^ (68 + 1) ≤ 2⁻¹ ^ 52 := by
      rw [div_le_iff₀ (by positivity)]
      refine (h1.trans h2).trans ?_
      norm_num
    linarith
  have h : ∃ k, u ≤ c l k := ⟨68, h69⟩
  refine ⟨Nat.find h, ?_, Nat.find_spec h, fun k hk => not_le.1 (Nat.find_min h hk)⟩
  have := Nat.find_min' h h69
  omega

theorem fac12 : 12 ! = 479001600 := by norm_num [Nat.factorial]

theorem fac_le {i : ℕ} (hi : i ≤ 11) (h12 : 12 ! = 479001600) :
    (((i + 1) ! : ℕ) : ℤ) ≤ 479001600 := by
  have hle : (((i + 1) ! : ℕ) : ℤ) ≤ ((12 ! : ℕ) : ℤ) := Int.ofNat_le.2 (Nat.factorial_le (by omega))
  rwa [h12, Nat.cast_ofNat] at hle

theorem int32_ok {z : ℤ} (h0 : 0 ≤ z) (h1 : z ≤ 479001600) : int32 z = .ok z := by
  unfold int32
  exact if_pos ⟨by linarith, by linarith⟩

theorem round_ok {x i f i' f' : ℤ} (hix : i < x) (h1 : int32 (i + 1) = .ok i')
    (h2 : int32 (f * i') = .ok f') : facRound x (i, f) = .ok (none, i', f') := by
  unfold facRound
  simp only [hix, if_true, Res.monad_bind_eq, h1, Res.bind_ok, h2]

theorem fac_step {x : ℤ} {i : ℕ} (hi : i ≤ 11) (hix : (i : ℤ) < x) :
    facRound x ((i : ℤ), ((i ! : ℕ) : ℤ)) = .ok (none, ((i + 1 : ℕ) : ℤ), (((i + 1) ! : ℕ) : ℤ)) := by
  have h : ((i ! : ℕ) : ℤ) * ((i + 1 : ℕ) : ℤ) = (((i + 1) ! : ℕ) : ℤ) := by
    rw [Nat.factorial_succ, Nat.cast_mul, mul_comm]
  refine round_ok hix ?_ ?_
  · rw [show ((i : ℤ) + 1) = ((i + 1 : ℕ) : ℤ) from (Nat.cast_succ i).symm]
    exact int32_ok (Int.natCast_nonneg _) (by omega)
  · rw [h]
    exact int32_ok (Int.natCast_nonneg _) (fac_le hi fac12)

theorem fac_loop (x : ℤ) (hx : x ≤ 12) : ∀ d i : ℕ, 1 ≤ i → (i : ℤ) + d = max x i →
    ∃ j : ℤ, untilLoop (facRound x) ((i : ℤ), ((i ! : ℕ) : ℤ)) = .ok ((), j, (((i + d) ! : ℕ) : ℤ)) := by
  intro d
  induction d with
  | zero =>
    intro i hi h
    refine ⟨i, ?_⟩
    rw [untilLoop_unfold]
    unfold facRound
    simp only [show ¬ ((i : ℤ) < x) by omega, if_false, Res.bind_ok, Nat.add_zero]
  | succ d ih =>
    intro i hi h
    obtain ⟨j, e⟩ := ih (i + 1) (by omega) (by push_cast; omega)
    refine ⟨j, ?_⟩
    rw [untilLoop_unfold, fac_step (by omega) (by omega), Res.bind_ok, show i + (d + 1) = i + 1 + d by omega]
    exact e

theorem fac_ok {k : ℕ} (hk : k ≤ 12) : fac k = .ok (k ! : ℕ) := by
  unfold fac
  rcases Nat.eq_zero_or_pos k with rfl | hpos
  · obtain ⟨j, e⟩ := fac_loop 0 (by norm_num) 0 1 le_rfl (by norm_num)
    simp only [Nat.cast_one, Nat.factorial_one] at e
    rw [Nat.cast_zero, Res.monad_bind_eq, e, Res.bind_ok]
    rfl
  · obtain ⟨j, e⟩ := fac_loop k (by omega) (k - 1) 1 le_rfl (by omega)
    rw [show 1 + (k - 1) = k by omega] at e
    simp only [Nat.cast_one, Nat.factorial_one] at e
    rw [Res.monad_bind_eq, e, Res.bind_ok]

theorem fac_last {x i f : ℤ} (hi : i = 12) (hf : f = 479001600) (hx : 13 ≤ x) :
    facRound x (i, f) = .ub "int overflow" := by
  unfold facRound
  have e1 : int32 (i + 1) = .ok (i + 1) := if_pos (by omega)
  have e2 : int32 (f * (i + 1)) = .ub "int overflow" := if_neg (by subst hi hf; norm_num)
  simp only [show i < x by omega, if_true, Res.monad_bind_eq, e1, Res.bind_ok, e2]
  rfl

theorem fac_ub {x : ℤ} (hx : 13 ≤ x) : fac x = .ub "int overflow" := by
  have key : ∀ d i : ℕ, 1 ≤ i → i + d = 12 →
      untilLoop (facRound x) ((i : ℤ), ((i ! : ℕ) : ℤ)) = .ub "int overflow" := by
    intro d
    induction d with
    | zero =>
      intro i hi h
      have hi12 : i = 12 := by omega
      have hf : i ! = 479001600 := by rw [hi12, fac12]
      rw [untilLoop_unfold, fac_last (by omega) (by omega) hx]
      rfl
    | succ d ih =>
      intro i hi h
      rw [untilLoop_unfold, fac_step (by omega) (by omega), Res.bind_ok]
      exact ih (i + 1) (by omega) (by omega)
  unfold fac
  have := key 11 1 le_rfl rfl
  simp only [Nat.cast_one, Nat.factorial_one] at this
  rw [Res.monad_bind_eq, this]
  rfl

theorem pdf_ok {l : ℝ} (hl : 0 < l) {k : ℕ} (hk : k ≤ 12) :
    (create l).pdf k = .ok (Real.exp (-l) * l ^ k / k !) := by
  unfold pdf
  have e : flog l = .ok (Real.log l) := if_neg (not_le.2 hl)
  rw [show (create l).lambda = l from rfl]
  simp only [Res.monad_bind_eq, fac_ok hk, Res.bind_ok, e]
  have hf : (((k ! : ℕ) : ℤ) : ℝ) ≠ 0 := by
    rw [Int.cast_natCast]
    positivity
  rw [fdiv_ok hf, Int.cast_natCast, Int.cast_natCast, sub_eq_add_neg, Real.exp_add, ← Real.log_pow,
    Real.exp_log (pow_pos hl k), mul_comm]

/-- `Quantile` for a level above `Cdf(0)`, if all values of `Cdf` are below the level. -/
theorem quantile_ub {l : ℝ} {gammp : ℝ → ℝ → Res ℝ} {q : ℝ} (hq : 0 < q)
    (hg : ∀ k : ℕ, k ≤ 12 → ∃ y, gammp (k + 1) l = .ok y ∧ y < q) :
    (create l).quantile gammp q = .ub "int overflow" := by
  have key : ∀ d i : ℕ, i + d = 13 →
      untilLoop ((create l).quantileRound gammp q) (i : ℤ) = .ub "int overflow" := by
    intro d
    induction d with
    | zero =>
      intro i hi
      rw [untilLoop_unfold]
      unfold quantileRound cdf
      simp only [Res.monad_bind_eq, fac_ub (show 13 ≤ (i : ℤ) by omega)]
      rfl
    | succ d ih =>
      intro i hi
      rw [untilLoop_unfold]
      unfold quantileRound cdf
      obtain ⟨y, ey, hyq⟩ := hg i (by omega)
      rw [show (i : ℝ) + 1 = (i : ℤ) + 1.0 by rw [lit.2.1, Int.cast_natCast]] at ey
      have hf : (1 : ℝ) ≤ (((i ! : ℕ) : ℤ) : ℝ) := by
        rw [Int.cast_natCast]
        exact_mod_cast Nat.factorial_pos i
      rw [show (create l).lambda = l from rfl]
      simp only [Res.monad_bind_eq, fac_ok (show i ≤ 12 by omega), Res.bind_ok, ey,
        fdiv_ok (show (((i ! : ℕ) : ℤ) : ℝ) ≠ 0 by linarith)]
      have hlt : y / (((i ! : ℕ) : ℤ) : ℝ) < q := by
        rw [div_lt_iff₀ (by linarith)]
        nlinarith
      have e1 : int32 ((i : ℤ) + 1) = .ok (i + 1) := if_pos (by omega)
      simp only [hlt, if_true, e1, Res.bind_ok]
      rw [show ((i : ℤ) + 1) = ((i + 1 : ℕ) : ℤ) by push_cast; rfl]
      exact ih (i + 1) (by omega)
  unfold quantile
  have := key 13 0 rfl
  rw [Nat.cast_zero] at this
  rw [Res.monad_bind_eq, this]
  rfl

end Verif.Poisson

namespace Verif.Poisson

open CovTable

/-- Every number the round returns is non-negative. -/
def NN {σ : Type} (r : Res (Option ℤ × σ)) : Prop := ∀ k s', r = .ok (some k, s') → 0 ≤ k

theorem nn_bind {σ α : Type} {r : Res α} {f : α → Res (Option ℤ × σ)} (h : ∀ a, NN (f a)) :
    NN (r.bind f) := by
  intro k s' e
  obtain ⟨a, _, e⟩ := Res.bind_eq_ok.1 e
  exact h a k s' e

theorem nn_ite {σ : Type} {c : Prop} [Decidable c] {r r' : Res (Option ℤ × σ)} (h : c → NN r)
    (h' : ¬ c → NN r') : NN (if c then r else r') := by
  split_ifs with hc
  · exact h hc
  · exact h' hc

theorem nn_none {σ : Type} (s : σ) : NN (.ok (none, s)) := by
  intro k s' e
  have := congrArg Prod.fst (Res.ok.inj e)
  cases this

theorem nn_some {σ : Type} {k : ℤ} (hk : 0 ≤ k) (s : σ) : NN (.ok (some k, s)) := by
  intro k' s' e
  rw [← Option.some.inj (congrArg Prod.fst (Res.ok.inj e))]
  exact hk

theorem nn_int32 {σ : Type} {k : ℤ} (hk : 0 ≤ k) {s : σ} :
    NN ((int32 k).bind fun k => .ok (some k, s)) := by
  unfold int32
  split_ifs
  · exact nn_some hk s
  · intro k s' e
    cases e

theorem ptrs_nonneg {σ : Type} {l : ℝ} (hl : 10 ≤ l) (unif : σ → Res (ℝ × σ))
    (hu : ∀ s u s', unif s = .ok (u, s') → 0 ≤ u ∧ u < 1) (s s' : σ) (k : ℤ)
    (h : (create l).ptrsRound unif s = .ok (some k, s')) : 0 ≤ k := by
  have hs : fsqrt l = .ok √l := if_neg (by linarith)
  set r := √l with hr
  have hr2 : r * r = l := Real.mul_self_sqrt (by linarith)
  have hr0 : 0 ≤ r := Real.sqrt_nonneg l
  have hr1 : 3.16 ≤ r := by
    by_contra hlt
    push Not at hlt
    nlinarith
  set b : ℝ := 0.931 + 2.53 * r with hb
  set a : ℝ := -0.059 + 0.02483 * b with ha
  have hb0 : 8.9 ≤ b := by rw [hb]; linarith
  have ha0 : 0 < a := by rw [ha]; linarith
  have eb : (create l).b = .ok b := by
    show ((fsqrt l).bind fun s => Res.ok (0.931 + 2.53 * s)) = _
    rw [hs, Res.bind_ok]
  have ea : (create l).a = .ok a := by
    show ((fsqrt l).bind fun s => Res.ok (-0.059 + 0.02483 * (0.931 + 2.53 * s))) = _
    rw [hs, Res.bind_ok]
  set vr : ℝ := 0.9277 - 3.6224 / (b - 2) with hvr
  have ev : (create l).vr = .ok vr := by
    show ((fsqrt l).bind fun s => (fdiv 3.6224 (0.931 + 2.53 * s - 2)).bind fun q => Res.ok (0.9277 - q)) = _
    rw [hs, Res.bind_ok, Distr.fdiv_ok (by linarith), Res.bind_ok]
  have hvr0 : 0 < vr := by
    have : 3.6224 / (b - 2) < 0.9 := by
      rw [div_lt_iff₀ (by linarith)]
      linarith
    rw [hvr]
    linarith
  unfold ptrsRound at h
  rw [Res.monad_bind_eq, Res.bind_eq_ok] at h
  obtain ⟨⟨v, s1⟩, e1, h⟩ := h
  have hv := hu _ _ _ e1
  rw [show (create l).lambda = l from rfl] at h
  simp only [Res.monad_bind_eq, ev, ea, eb, Res.bind_ok] at h
  by_cases hq : v ≤ 0.86 * vr
  · rw [if_pos hq, Distr.fdiv_ok hvr0.ne', Res.bind_ok] at h
    set u := v / vr - 0.43 with hudef
    have hu1 : -0.43 ≤ u := by
      have : 0 ≤ v / vr := div_nonneg hv.1 hvr0.le
      linarith
    have hu2 : u ≤ 0.43 := by
      have : v / vr ≤ 0.86 := by rwa [div_le_iff₀ hvr0]
      linarith
    have habs : |u| ≤ 0.43 := abs_le.2 ⟨hu1, hu2⟩
    have hd : 0.07 ≤ 0.5 - |u| := by linarith
    rw [Distr.fdiv_ok (by linarith), Res.bind_ok, Res.bind_eq_ok] at h
    obtain ⟨k', e2, h⟩ := h
    have hk : k' = k := by
      have := Res.ok.inj h
      exact Option.some.inj (congrArg Prod.fst this)
    subst hk
    unfold floorInt int32 at e2
    split_ifs at e2
    have hk' := Res.ok.inj e2
    rw [← hk']
    refine Int.floor_nonneg.2 ?_
    have ht : 2 * a / (0.5 - |u|) ≤ 2 * a / 0.07 :=
      div_le_div_of_nonneg_left (by linarith) (by norm_num) hd
    have ht0 : 0 ≤ 2 * a / (0.5 - |u|) := div_nonneg (by linarith) (by linarith)
    have key : (2 * a / 0.07 + b) * 0.43 ≤ l + 0.445 := by
      rw [ha, hb, ← hr2]
      norm_num
      nlinarith
    set t := 2 * a / (0.5 - |u|)
    have h1 : -((t + b) * 0.43) ≤ (t + b) * u := by nlinarith
    nlinarith
  · rw [if_neg hq] at h
    revert h
    refine nn_ite (fun _ => nn_bind fun x => ?_) (fun _ => nn_bind fun q => nn_bind fun x => ?_) k s'
    all_goals
      refine nn_ite (fun _ => nn_none _) fun _ => nn_bind fun t => nn_bind fun ia => nn_bind fun t' =>
        nn_bind fun v' => nn_ite (fun h10 => nn_bind fun smu => nn_bind fun l1 => nn_bind fun l2 =>
          nn_ite (fun _ => nn_int32 (by omega)) fun _ => nn_none _) fun _ =>
        nn_ite (fun h0 => nn_bind fun l1 => nn_bind fun l2 => nn_bind fun c =>
          nn_ite (fun _ => nn_some h0 _) fun _ => nn_none _) fun _ => nn_none _

theorem draw_nonneg {σ : Type} (l : ℝ) (unif : σ → Res (ℝ × σ))
    (hu : ∀ s u s', unif s = .ok (u, s') → 0 ≤ u ∧ u < 1) (s s' : σ) (k : ℤ)
    (h : (create l).draw unif s = .ok (k, s')) : 0 ≤ k := by
  unfold draw at h
  split_ifs at h with hl
  · rw [Res.monad_bind_eq, Res.bind_eq_ok] at h
    obtain ⟨⟨u, s1⟩, _, h⟩ := h
    simp only [Res.monad_bind_eq] at h
    rw [Res.bind_eq_ok] at h
    obtain ⟨⟨k', s2⟩, e, h⟩ := h
    have hk : k' = k := congrArg Prod.fst (Res.ok.inj h)
    rw [← hk]
    refine untilLoop_inv (P := fun s => 0 ≤ s.2.2) (Q := fun k _ => 0 ≤ k) ?_ (le_refl (0 : ℤ)) e
    rintro ⟨u, p, x⟩ hx o s' e'
    unfold drawRound at e'
    split_ifs at e'
    · rw [Res.monad_bind_eq, Res.bind_eq_ok] at e'
      obtain ⟨p', _, e'⟩ := e'
      have := Res.ok.inj e'
      rw [Prod.mk.injEq] at this
      obtain ⟨rfl, rfl⟩ := this
      have hx : 0 ≤ x := hx
      show 0 ≤ x + 1
      omega
    · have := Res.ok.inj e'
      rw [Prod.mk.injEq] at this
      obtain ⟨rfl, rfl⟩ := this
      exact hx
  · refine untilLoop_inv (P := fun _ => True) (Q := fun k _ => 0 ≤ k) ?_ trivial h
    intro s _ o s' e
    cases o with
    | none => trivial
    | some k => exact ptrs_nonneg (not_lt.1 hl) unif hu s s' k e

end Verif.Poisson
