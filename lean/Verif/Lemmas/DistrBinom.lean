import Verif.Model.DistrInt
import Verif.Lemmas.DistrDisc
import Mathlib.Algebra.BigOperators.NatAntidiagonal
import Mathlib.Data.Nat.Choose.Sum

/-! Helper lemmas: laws on the integers from probabilities; the binomial distribution. -/

namespace Verif.Distr

open Spec MeasureTheory ProbabilityTheory Set Filter

/-- A law on the integers with given probabilities, and draws with this law. The number made from `u` is
the least one whose cumulated probability is `u` or more, or more than `u`. -/
theorem intDraws {w : ℕ → ℝ} (hw : ∀ j, 0 ≤ w j) (hs : ∀ m, ∑ j ∈ Finset.range m, w j ≤ 1) {q : ℝ → ℤ}
    (hq : (∀ u, 0 < u → u < 1 → ∀ k, (q u ≤ k ↔ u ≤ iF w k)) ∨
      (∀ u, 0 < u → u < 1 → ∀ k, (q u ≤ k ↔ u < iF w k))) :
    ∃ ν : Measure ℤ, IsProbabilityMeasure ν ∧ (∀ k, ν.real {k} = if k < 0 then 0 else w k.toNat) ∧
      (∀ k, ν.real (Iic k) = iF w k) ∧
      ∀ draw : ∀ {σ : Type}, (σ → Res (ℝ × σ)) → σ → Res (ℤ × σ),
        (∀ {σ : Type} (unif : σ → Res (ℝ × σ)) (s s' : σ) (u : ℝ), unif s = .ok (u, s') → 0 < u →
          u < 1 → draw unif s = .ok (q u, s')) → DrawsHaveLaw draw ν := by
  obtain ⟨q', hqm, hqq, hI, hk⟩ := intLaw (q := q) (F := iF w) (iF_nonneg hw) (iF_le_one hs)
    (fun k => by
      rcases hq with hq | hq
      · have : {u | u ∈ Ioo (0 : ℝ) 1 ∧ q u ≤ k} = Ioo 0 1 ∩ Iic (iF w k) := by
          ext u
          constructor
          · rintro ⟨hu, h⟩
            exact ⟨hu, (hq u hu.1 hu.2 k).1 h⟩
          · rintro ⟨hu, h⟩
            exact ⟨hu, (hq u hu.1 hu.2 k).2 h⟩
        rw [this]
        exact measurableSet_Ioo.inter measurableSet_Iic
      · have : {u | u ∈ Ioo (0 : ℝ) 1 ∧ q u ≤ k} = Ioo 0 1 ∩ Iio (iF w k) := by
          ext u
          constructor
          · rintro ⟨hu, h⟩
            exact ⟨hu, (hq u hu.1 hu.2 k).1 h⟩
          · rintro ⟨hu, h⟩
            exact ⟨hu, (hq u hu.1 hu.2 k).2 h⟩
        rw [this]
        exact measurableSet_Ioo.inter measurableSet_Iio)
    (fun k => by
      rcases hq with hq | hq
      · filter_upwards [ae_unif] with u hu
        exact hq u hu.1 hu.2 k
      · have hne : ∀ᵐ u ∂unif, u ≠ iF w k := ae_restrict_of_ae (by rw [ae_iff]; simp)
        filter_upwards [ae_unif, hne] with u hu hu'
        rw [hq u hu.1 hu.2 k]
        exact ⟨le_of_lt, fun h => lt_of_le_of_ne h hu'⟩)
  refine ⟨unif.map q', Measure.isProbabilityMeasure_map hqm.aemeasurable, fun k => ?_, hI,
    fun draw h => drawsHaveLaw_of hqm fun un s s' u e h0 h1 => ?_⟩
  · rw [hk, iF_sub]
  · rw [hqq u h0 h1]
    exact h un s s' u e h0 h1

end Verif.Distr

namespace Verif.Binomial

open Spec MeasureTheory ProbabilityTheory Set Filter Distr CovTable

/-- The binomial probabilities. -/
noncomputable def w (N : ℕ) (p : ℝ) (j : ℕ) : ℝ := N.choose j * (p ^ j * (1 - p) ^ (N - j))

theorem w_nonneg {N : ℕ} {p : ℝ} (h0 : 0 ≤ p) (h1 : p ≤ 1) (j : ℕ) : 0 ≤ w N p j := by
  have : 0 ≤ 1 - p := by linarith
  unfold w
  positivity

theorem w_sum (N : ℕ) (p : ℝ) : ∑ j ∈ Finset.range (N + 1), w N p j = 1 := by
  have := add_pow p (1 - p) N
  rw [add_sub_cancel, one_pow] at this
  rw [this]
  refine Finset.sum_congr rfl fun j _ => ?_
  unfold w
  ring

theorem w_big {N : ℕ} {p : ℝ} {j : ℕ} (h : N < j) : w N p j = 0 := by
  unfold w
  rw [Nat.choose_eq_zero_of_lt h]
  simp

theorem w_sum_big {N : ℕ} (p : ℝ) {m : ℕ} (h : N + 1 ≤ m) : ∑ j ∈ Finset.range m, w N p j = 1 := by
  rw [← w_sum N p]
  symm
  refine Finset.sum_subset (Finset.range_subset_range.2 h) fun j _ hj => w_big ?_
  simp at hj
  omega

theorem w_sum_le {N : ℕ} {p : ℝ} (h0 : 0 ≤ p) (h1 : p ≤ 1) (m : ℕ) :
    ∑ j ∈ Finset.range m, w N p j ≤ 1 := by
  rw [← w_sum_big p (le_max_left (N + 1) m)]
  exact Finset.sum_le_sum_of_subset_of_nonneg (Finset.range_subset_range.2 (le_max_right _ _))
    fun j _ _ => w_nonneg h0 h1 j

/-- Cumulated probabilities. -/
noncomputable def c (N : ℕ) (p : ℝ) (k : ℕ) : ℝ := ∑ j ∈ Finset.range (k + 1), w N p j

section

variable {bico : ℤ → ℤ → Res ℝ} {N : ℕ} {p : ℝ}
  (hb : ∀ k : ℕ, k ≤ N → bico N k = .ok (N.choose k)) (h0 : 0 ≤ p) (h1 : p ≤ 1)

include hb h0 h1

theorem pdfOf_ok {k : ℕ} (hk : k ≤ N) : pdfOf bico N p k = .ok (w N p k) := by
  unfold pdfOf w
  rw [if_neg (by push Not; constructor <;> [positivity; exact_mod_cast hk])]
  simp only [lit.1, lit.2.1]
  rcases eq_or_lt_of_le h1 with rfl | h1'
  · rcases eq_or_lt_of_le hk with rfl | hk'
    · rw [if_pos ⟨rfl, rfl⟩]
      simp
    · rw [if_neg (fun h => by have := h.2; omega), if_neg (by simp), if_pos ⟨rfl, by exact_mod_cast hk'⟩,
        sub_self, zero_pow (by omega)]
      simp
  · rw [if_neg (fun h => h1'.ne h.1)]
    rcases eq_or_lt_of_le h0 with rfl | h0'
    · rcases Nat.eq_zero_or_pos k with rfl | hk'
      · rw [if_pos ⟨rfl, rfl⟩]
        simp
      · rw [if_neg (fun h => by have := h.2; omega), if_neg (by simp), if_pos ⟨rfl, by exact_mod_cast hk'⟩,
          zero_pow (by omega)]
        simp
    · rw [if_neg (fun h => h0'.ne' h.1), if_neg (fun h => h1'.ne h.1), if_neg (fun h => h0'.ne' h.1),
        hb k hk]
      have hq : 0 < 1 - p := by linarith
      have e1 : flog p = .ok (Real.log p) := if_neg (not_le.2 h0')
      have e2 : flog (1 - p) = .ok (Real.log (1 - p)) := if_neg (not_le.2 hq)
      simp only [Res.monad_bind_eq, Res.bind_ok, e1, e2]
      congr 2
      rw [Real.exp_add]
      congr 1
      · rw [Int.cast_natCast, ← Real.log_pow, Real.exp_log (pow_pos h0' k)]
      · rw [Int.cast_natCast, Int.cast_natCast, ← Nat.cast_sub hk, ← Real.log_pow,
          Real.exp_log (pow_pos hq _)]

theorem create_ok (hN : N < 2 ^ 31 - 1) :
    create bico N p = .ok ⟨N, p, (List.range (N + 1)).map (c N p)⟩ := by
  unfold create
  have e1 : int32 ((N : ℤ) + 1) = .ok (N + 1) := if_pos (by omega)
  have e0 := pdfOf_ok hb h0 h1 (Nat.zero_le N)
  rw [Nat.cast_zero] at e0
  simp only [Res.monad_bind_eq, e1, Res.bind_ok, e0]
  rw [if_neg (by omega), show ((N : ℤ) + 1).toNat = N + 1 by omega]
  have e2 : wrInt (List.replicate (N + 1) 0.0) 0 (w N p 0)
      = .ok ((List.replicate (N + 1) 0.0).set 0 (w N p 0)) := by
    unfold wrInt
    rw [if_neg (by omega)]
    exact wr_ok (by simp) _
  rw [e2, Res.bind_ok]
  have := forRange_sat (fun j (l : List ℝ) => l.length = N + 1 ∧ ∀ i < j, l[i]? = some (c N p i))
    (show 1 ≤ N + 1 by omega) (body := createRound bico N p)
    (s := (List.replicate (N + 1) 0.0).set 0 (w N p 0)) (by
      refine ⟨by simp, fun i hi => ?_⟩
      have : i = 0 := by omega
      subst this
      rw [List.getElem?_set_self (by simp)]
      simp [c]) (by
      rintro i l hi1 hi2 ⟨hl, hv⟩
      unfold createRound
      have r1 : rdInt l ((i : ℤ) - 1) = .ok (c N p (i - 1)) := by
        unfold rdInt
        rw [if_neg (by omega), show ((i : ℤ) - 1).toNat = i - 1 by omega, rd_eq_ok]
        exact hv _ (by omega)
      simp only [Res.monad_bind_eq, r1, Res.bind_ok, pdfOf_ok hb h0 h1 (show i ≤ N by omega)]
      unfold wrInt
      rw [if_neg (by omega), Int.toNat_natCast, wr_ok (by omega), Res.sat_ok]
      refine ⟨by simp [hl], fun k hk => ?_⟩
      rw [List.getElem?_set]
      split_ifs with hik hl'
      · subst hik
        have : c N p (i - 1) + w N p i = c N p i := by
          unfold c
          rw [Finset.sum_range_succ _ i, show i - 1 + 1 = i by omega]
        rw [this]
      · omega
      · exact hv k (by omega))
  obtain ⟨l, e, hl, hv⟩ := this
  have el : l = (List.range (N + 1)).map (c N p) := by
    refine List.ext_getElem? fun i => ?_
    rcases lt_or_ge i (N + 1) with hi | hi
    · rw [hv i hi, List.getElem?_map, List.getElem?_range hi]
      rfl
    · rw [List.getElem?_eq_none (by rw [hl]; exact hi), List.getElem?_eq_none (by simpa using hi)]
  rw [e, Res.bind_ok, el]

end

section

variable {N : ℕ} {p : ℝ} (h0 : 0 ≤ p) (h1 : p ≤ 1)

/-- The object. -/
noncomputable def obj (N : ℕ) (p : ℝ) : Binomial := ⟨N, p, (List.range (N + 1)).map (c N p)⟩

theorem rd_c {k : ℕ} (hk : k ≤ N) : rdInt (obj N p).cdfTable k = .ok (c N p k) := by
  unfold rdInt obj
  rw [if_neg (by omega), Int.toNat_natCast, rd_eq_ok, List.getElem?_map,
    List.getElem?_range (by omega)]
  rfl

theorem c_top : c N p N = 1 := w_sum N p

include h0 h1 in
theorem c_mono : Monotone (c N p) := fun i j hij => by
  have := iF_mono (w_nonneg (N := N) h0 h1) (show (i : ℤ) ≤ j by exact_mod_cast hij)
  rwa [iF_nat, iF_nat] at this

theorem loop_ok (hN : N ≤ 2 ^ 30) (q : ℝ) : ∀ (d low high : ℕ), high - low ≤ d → low < high → high ≤ N →
    (low = 0 ∨ c N p low ≤ q) → (high = N ∨ q < c N p high) →
    ∃ m : ℕ, untilLoop ((obj N p).quantileRound q) ((low : ℤ), (high : ℤ)) = .ok ((), (m : ℤ), ((m + 1 : ℕ) : ℤ)) ∧
      m + 1 ≤ N ∧ (m = 0 ∨ c N p m ≤ q) ∧ (m + 1 = N ∨ q < c N p (m + 1)) := by
  intro d
  induction d with
  | zero => intro low high h1 h2; omega
  | succ d ih =>
    intro low high hd hlt hle hl hh
    rw [untilLoop_unfold]
    unfold quantileRound
    by_cases hgt : (high : ℤ) - low > 1
    · have e1 : int32 ((high : ℤ) + low) = .ok (high + low) := if_pos (by omega)
      have e2 : ((high : ℤ) + low) >>> 1 = (((high + low) / 2 : ℕ) : ℤ) := by
        rw [Int.shiftRight_eq_div_pow]
        norm_num
      simp only [hgt, if_true, Res.monad_bind_eq, e1, Res.bind_ok, e2, rd_c (p := p) (show (high + low) / 2 ≤ N by omega)]
      by_cases hc : c N p ((high + low) / 2) ≤ q
      · simp only [hc, if_true]
        exact ih _ _ (by omega) (by omega) hle (Or.inr hc) hh
      · simp only [hc, if_false]
        exact ih _ _ (by omega) (by omega) (by omega) hl (Or.inr (not_le.1 hc))
    · simp only [hgt, if_false, Res.bind_ok]
      have : high = low + 1 := by omega
      subst this
      exact ⟨low, rfl, hle, hl, hh⟩

include h0 h1

theorem quantile_lt (hN : N ≤ 2 ^ 30) {q : ℝ} (hq1 : q < 1) :
    ∃ m : ℕ, (obj N p).quantile q = .ok m ∧ q < c N p m ∧ ∀ k < m, c N p k ≤ q := by
  rcases Nat.eq_zero_or_pos N with rfl | hpos
  · refine ⟨0, ?_, by rw [c_top]; exact hq1, by simp⟩
    unfold quantile
    rw [untilLoop_unfold]
    simp [quantileRound, obj, Res.bind, Bind.bind]
  · obtain ⟨m, e, hm, hl, hh⟩ := loop_ok (p := p) hN q N 0 N (by omega) hpos le_rfl (Or.inl rfl) (Or.inl rfl)
    have hhq : q < c N p (m + 1) := by
      rcases hh with h | h
      · rw [h, c_top]
        exact hq1
      · exact h
    unfold quantile
    rw [show ((obj N p).n) = (N : ℤ) from rfl]
    rw [Nat.cast_zero] at e
    simp only [Res.monad_bind_eq, e, Res.bind_ok]
    rw [if_neg (by omega), rd_c hm, rd_c (show m ≤ N by omega), Res.bind_ok, if_pos hhq, Res.bind_ok]
    by_cases hc : c N p m ≤ q
    · rw [if_pos hc]
      exact ⟨m + 1, rfl, hhq, fun k hk => (c_mono h0 h1 (by omega)).trans hc⟩
    · rw [if_neg hc]
      rcases hl with rfl | h
      · exact ⟨0, rfl, not_le.1 hc, by simp⟩
      · exact absurd h hc

theorem quantile_ge (hN : N ≤ 2 ^ 30) (hpos : 0 < N) {q : ℝ} (hq1 : 1 ≤ q) :
    (obj N p).quantile q = .ok ((N - 1 : ℕ) : ℤ) := by
  obtain ⟨m, e, hm, hl, hh⟩ := loop_ok (p := p) hN q N 0 N (by omega) hpos le_rfl (Or.inl rfl) (Or.inl rfl)
  have hle : c N p (m + 1) ≤ q := ((c_mono h0 h1 hm).trans (c_top (p := p)).le).trans hq1
  have hmN : m + 1 = N := by
    rcases hh with h | h
    · exact h
    · linarith
  unfold quantile
  rw [show ((obj N p).n) = (N : ℤ) from rfl]
  rw [Nat.cast_zero] at e
  simp only [Res.monad_bind_eq, e, Res.bind_ok]
  rw [if_neg (by omega), rd_c hm, Res.bind_ok, if_neg (not_lt.2 hle)]
  congr 2
  omega

end

end Verif.Binomial
