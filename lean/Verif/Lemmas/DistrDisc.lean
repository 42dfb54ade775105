import Verif.Lemmas.DistrCont
import Verif.Lemmas.Loop
import Verif.Lemmas.Fft1D

/-! Helper lemmas: distributions of integers. -/

namespace Verif.Distr

open Spec MeasureTheory ProbabilityTheory Set Filter

/-- An integer made from a uniform number: its law. -/
theorem intLaw {q : ℝ → ℤ} {F : ℤ → ℝ} (h0 : ∀ k, 0 ≤ F k) (h1 : ∀ k, F k ≤ 1)
    (hm : ∀ k, MeasurableSet {u | u ∈ Ioo (0 : ℝ) 1 ∧ q u ≤ k})
    (hae : ∀ k, ∀ᵐ u ∂unif, (q u ≤ k ↔ u ≤ F k)) :
    ∃ q' : ℝ → ℤ, Measurable q' ∧ (∀ u, 0 < u → u < 1 → q' u = q u) ∧
      (∀ k, (unif.map q').real (Iic k) = F k) ∧ ∀ k, (unif.map q').real {k} = F k - F (k - 1) := by
  classical
  let q' : ℝ → ℤ := fun u => if u ∈ Ioo (0 : ℝ) 1 then q u else 0
  have hq' : Measurable q' := by
    refine measurable_of_Iic fun k => ?_
    have : q' ⁻¹' Iic k = {u | u ∈ Ioo (0 : ℝ) 1 ∧ q u ≤ k} ∪ ((Ioo (0 : ℝ) 1)ᶜ ∩ {_u | 0 ≤ k}) := by
      ext u
      by_cases hu : u ∈ Ioo (0 : ℝ) 1
      · simp only [q', mem_preimage, hu, if_true, mem_Iic, mem_union, mem_setOf_eq, true_and,
          mem_inter_iff, mem_compl_iff, not_true, false_and, or_false]
      · simp only [q', mem_preimage, hu, if_false, mem_Iic, mem_union, mem_setOf_eq, false_and,
          mem_inter_iff, mem_compl_iff, not_false_iff, true_and, false_or]
    rw [this]
    exact (hm k).union (measurableSet_Ioo.compl.inter (by exact MeasurableSet.const _))
  have : IsProbabilityMeasure (unif.map q') := Measure.isProbabilityMeasure_map hq'.aemeasurable
  have hI : ∀ k, (unif.map q').real (Iic k) = F k := by
    intro k
    rw [Measure.real, Measure.map_apply hq' measurableSet_Iic]
    have : (q' ⁻¹' Iic k : Set ℝ) =ᵐ[unif] Iic (F k) := by
      filter_upwards [ae_unif, hae k] with u hu hk
      refine propext ?_
      show q' u ≤ k ↔ u ≤ F k
      rw [← hk]
      have : u ∈ Ioo (0 : ℝ) 1 := hu
      simp only [q', this, if_true]
    rw [measure_congr this, unif_le (h1 k), ENNReal.toReal_ofReal (h0 k)]
  refine ⟨q', hq', fun u h0 h1 => ?_, hI, fun k => ?_⟩
  · have : u ∈ Ioo (0 : ℝ) 1 := ⟨h0, h1⟩
    simp only [q', this, if_true]
  · have e : (Iic k : Set ℤ) = Iic (k - 1) ∪ {k} := by
      ext x
      simp only [mem_Iic, mem_union, mem_singleton_iff]
      omega
    have := measureReal_union (μ := unif.map q') (s₁ := Iic (k - 1)) (s₂ := {k})
      (by rw [Set.disjoint_singleton_right]; simp) (measurableSet_singleton k)
    rw [← e, hI, hI] at this
    linarith

/-- The distribution function made of the probabilities `w`. -/
noncomputable def iF (w : ℕ → ℝ) (k : ℤ) : ℝ := if k < 0 then 0 else ∑ j ∈ Finset.range (k.toNat + 1), w j

section

variable {w : ℕ → ℝ} (hw : ∀ j, 0 ≤ w j) (hs : ∀ m, ∑ j ∈ Finset.range m, w j ≤ 1)

theorem iF_neg {k : ℤ} (h : k < 0) : iF w k = 0 := if_pos h

theorem iF_nat (k : ℕ) : iF w k = ∑ j ∈ Finset.range (k + 1), w j := by
  unfold iF
  rw [if_neg (by omega)]
  simp

theorem iF_sub (k : ℤ) : iF w k - iF w (k - 1) = if k < 0 then 0 else w k.toNat := by
  rcases lt_or_ge k 0 with hk | hk
  · rw [iF_neg hk, iF_neg (by omega), if_pos hk, sub_zero]
  · rw [if_neg (by omega)]
    obtain ⟨n, rfl⟩ := Int.eq_ofNat_of_zero_le hk
    rw [iF_nat, Finset.sum_range_succ]
    rcases Nat.eq_zero_or_pos n with rfl | hn
    · rw [iF_neg (by norm_num)]
      simp
    · rw [show ((n : ℤ) - 1) = ((n - 1 : ℕ) : ℤ) by omega, iF_nat, show n - 1 + 1 = n by omega]
      simp

include hw

theorem iF_nonneg (k : ℤ) : 0 ≤ iF w k := by
  unfold iF
  split_ifs
  · exact le_rfl
  · exact Finset.sum_nonneg fun j _ => hw j

theorem iF_mono : Monotone (iF w) := by
  intro k l h
  unfold iF
  split_ifs with h1 h2 h2
  · exact le_rfl
  · exact Finset.sum_nonneg fun j _ => hw j
  · omega
  · exact Finset.sum_le_sum_of_subset_of_nonneg (Finset.range_subset_range.2 (by omega))
      fun j _ _ => hw j

omit hw
include hs

theorem iF_le_one (k : ℤ) : iF w k ≤ 1 := by
  unfold iF
  split_ifs
  · exact zero_le_one
  · exact hs _

end

end Verif.Distr

namespace Verif.GeneralDiscrete

open Spec MeasureTheory ProbabilityTheory Set Filter Distr

theorem normalizeHist_ok (hist : List ℝ) (h : hist.sum ≠ 0) :
    normalizeHist hist = .ok (hist.map (· / hist.sum)) := by
  have e1 : (forRange 0 hist.length (fun i sum => (rd hist i).bind fun h => .ok (sum + h)) 0.0)
      = Res.ok hist.sum := by
    have := forRange_sat (fun j (s : ℝ) => s = (hist.take j).sum) (Nat.zero_le hist.length)
      (body := fun i sum => (rd hist i).bind fun h => .ok (sum + h)) (s := 0.0) (by norm_num)
      (by
        rintro i s - hi rfl
        rw [rd_ok hi, Res.bind_ok, Res.sat_ok, List.sum_take_succ _ _ hi])
    obtain ⟨s, e, hs⟩ := this
    rw [e, hs, List.take_length]
  unfold normalizeHist
  simp only [Res.monad_bind_eq]
  rw [e1, Res.bind_ok]
  have e2 := forRange_map_sat (fun _ x => x / hist.sum) hist.length hist le_rfl
  obtain ⟨b, e, hl, hb⟩ := e2
  have : b = hist.map (· / hist.sum) := by
    refine List.ext_getElem? fun i => ?_
    rw [hb, List.getElem?_map]
    split_ifs with hi
    · rfl
    · rw [List.getElem?_eq_none (by omega)]
      rfl
  rw [← this, ← e]
  refine forRange_congr fun i s _ _ => ?_
  simp only [fdiv_ok h, Res.bind_ok]

/-- The probabilities. -/
noncomputable def w (hist : List ℝ) (j : ℕ) : ℝ := hist.getD j 0

theorem take_sum (hist : List ℝ) (k : ℕ) : (hist.take k).sum = ∑ j ∈ Finset.range k, w hist j := by
  induction k with
  | zero => simp
  | succ k ih =>
    rw [Finset.sum_range_succ, ← ih]
    rcases lt_or_ge k hist.length with h | h
    · rw [List.sum_take_succ _ _ h]
      simp [w, h]
    · rw [List.take_of_length_le h, List.take_of_length_le (by omega)]
      simp [w, h]

theorem makeCumHist_ok (hist : List ℝ) :
    makeCumHist hist = .ok ((List.range hist.length).map fun i => ∑ j ∈ Finset.range (i + 1), w hist j) := by
  unfold makeCumHist
  simp only [Res.monad_bind_eq]
  have := forRange_sat (fun j (s : ℝ × List ℝ) => s.1 = (hist.take j).sum ∧ s.2.length = hist.length ∧
      ∀ i < j, s.2[i]? = some (∑ j ∈ Finset.range (i + 1), w hist j)) (Nat.zero_le hist.length)
    (body := fun i (s : ℝ × List ℝ) => (rd hist i).bind fun h => (wr s.2 i (s.1 + h)).bind fun cum =>
      .ok (s.1 + h, cum)) (s := (0.0, List.replicate hist.length 0.0)) (by
        refine ⟨by norm_num, by simp, by simp⟩)
    (by
      rintro i ⟨s, c⟩ - hi ⟨h1, h2, h3⟩
      simp only at h1 h2 h3
      have e : s + hist[i] = (hist.take (i + 1)).sum := by rw [h1, List.sum_take_succ _ _ hi]
      simp only [rd_ok hi, Res.bind_ok, wr_ok (show i < c.length by omega), Res.sat_ok]
      refine ⟨e, by rw [List.length_set, h2], fun k hk => ?_⟩
      rw [List.getElem?_set]
      split_ifs with hik hl
      · rw [e, take_sum, hik]
      · omega
      · exact h3 k (by omega))
  obtain ⟨⟨s, c⟩, e, h1, h2, h3⟩ := this
  simp only at h1 h2 h3
  rw [e, Res.bind_ok]
  congr 1
  refine List.ext_getElem? fun i => ?_
  rcases lt_or_ge i hist.length with hi | hi
  · rw [h3 i hi, List.getElem?_map, List.getElem?_range hi]
    rfl
  · rw [List.getElem?_eq_none (by rw [h2]; exact hi), List.getElem?_eq_none (by simpa using hi)]

theorem quantile_ok (d : GeneralDiscrete) (n : ℕ) (c : ℕ → ℝ) (hd : d.cumHist = (List.range n).map c)
    (p : ℝ) (m : ℕ) (hm : m < n) (hp : p ≤ c m) (hlt : ∀ i < m, c i < p) : d.quantile p = .ok m := by
  have hrd : ∀ i < n, rd d.cumHist i = .ok (c i) := fun i hi => by
    rw [rd_eq_ok, hd, List.getElem?_map, List.getElem?_range hi]
    rfl
  have key : ∀ j i, i + j = m → untilLoop (d.quantileRound p) i = .ok ((m : ℤ), m) := by
    intro j
    induction j with
    | zero =>
      rintro i rfl
      rw [untilLoop_unfold]
      unfold quantileRound
      have hp' : ¬ c i < p := not_lt.2 hp
      simp only [Res.monad_bind_eq, Nat.add_zero, hrd i hm, Res.bind_ok, hp', if_false]
    | succ j ih =>
      intro i hi
      rw [untilLoop_unfold]
      unfold quantileRound
      simp only [Res.monad_bind_eq, hrd i (by omega), Res.bind_ok, hlt i (by omega), if_true]
      exact ih (i + 1) (by omega)
  unfold quantile
  rw [Res.monad_bind_eq, key m 0 (by omega)]
  rfl

theorem describes (hist : List ℝ) (hpos : ∀ x ∈ hist, 0 ≤ x) (hsum : 0 < hist.sum) :
    ∃ d, create hist = .ok d ∧ ∃ ν : Measure ℤ,
      (∀ k : ℕ, ν.real {(k : ℤ)} = hist.getD k 0 / hist.sum) ∧
      DescribesInt ν {k | 0 ≤ k ∧ k < hist.length} (drawQuantile d.quantile) d.pdf d.cdf d.quantile := by
  set S := hist.sum with hS
  set h' := hist.map (· / S) with hh
  have hw' : ∀ j, w h' j = hist.getD j 0 / S := by
    intro j
    simp only [w, hh, List.getD_eq_getElem?_getD, List.getElem?_map]
    cases hist[j]? <;> simp
  have hw0 : ∀ j, 0 ≤ w h' j := by
    intro j
    rw [hw']
    refine div_nonneg ?_ hsum.le
    rcases lt_or_ge j hist.length with hj | hj
    · simpa [hj] using hpos _ (List.getElem_mem hj)
    · simp [hj]
  have hlen : h'.length = hist.length := by simp [hh]
  have hsum' : h'.sum = 1 := by
    rw [hh, show (fun x : ℝ => x / S) = fun x => x * S⁻¹ from funext fun x => div_eq_mul_inv _ _,
      List.sum_map_mul_right, List.map_id']
    exact mul_inv_cancel₀ hsum.ne'
  have hall : ∀ k, h'.length ≤ k → ∑ j ∈ Finset.range k, w h' j = 1 := by
    intro k hk
    rw [← take_sum, List.take_of_length_le hk, hsum']
  have hs : ∀ m, ∑ j ∈ Finset.range m, w h' j ≤ 1 := by
    intro m
    rw [← hall (max m h'.length) (le_max_right _ _)]
    exact Finset.sum_le_sum_of_subset_of_nonneg (Finset.range_subset_range.2 (le_max_left _ _))
      fun j _ _ => hw0 j
  have hn : 0 < hist.length := by
    rcases hist with _ | ⟨x, t⟩
    · simp [hS] at hsum
    · simp
  set c : ℕ → ℝ := fun i => ∑ j ∈ Finset.range (i + 1), w h' j with hc
  let d : GeneralDiscrete := ⟨h', (List.range hist.length).map c⟩
  have hcreate : create hist = .ok d := by
    unfold create
    simp only [Res.monad_bind_eq, normalizeHist_ok hist hsum.ne', Res.bind_ok]
    rw [makeCumHist_ok, hlen]
    rfl
  have hmono : Monotone c := fun i j hij => by
    have := iF_mono hw0 (show (i : ℤ) ≤ j by exact_mod_cast hij)
    rwa [iF_nat, iF_nat] at this
  have hex : ∀ p : ℝ, p ≤ 1 → ∃ m, p ≤ c m := fun p hp =>
    ⟨hist.length - 1, by rw [hc]; simp only; rwa [hall _ (by omega)]⟩
  classical
  let q : ℝ → ℤ := fun p => if h : ∃ m, p ≤ c m then (Nat.find h : ℤ) else 0
  have hq : ∀ p, p ≤ 1 → d.quantile p = .ok (q p) := by
    intro p hp
    have h := hex p hp
    simp only [q, h, dif_pos]
    refine quantile_ok d hist.length c rfl p _ ?_ (Nat.find_spec h) fun i hi => not_le.1 (Nat.find_min h hi)
    have := Nat.find_min' h (m := hist.length - 1) (by rw [hc]; simp only; rwa [hall _ (by omega)])
    omega
  have hg : ∀ p, 0 < p → p ≤ 1 → ∀ k, (q p ≤ k ↔ p ≤ iF (w h') k) := by
    intro p h0 h1 k
    have h := hex p h1
    simp only [q, h, dif_pos]
    rcases lt_or_ge k 0 with hk | hk
    · rw [iF_neg hk]
      constructor
      · intro h; omega
      · intro h; linarith
    · obtain ⟨n, rfl⟩ := Int.eq_ofNat_of_zero_le hk
      rw [iF_nat]
      constructor
      · intro hle
        have : Nat.find h ≤ n := by exact_mod_cast hle
        exact (Nat.find_spec h).trans (hmono this)
      · intro hle
        exact_mod_cast Nat.find_min' h hle
  obtain ⟨q', hqm, hqq, hI, hk⟩ := intLaw (q := q) (F := iF (w h')) (iF_nonneg hw0) (iF_le_one hs)
    (fun k => by
      have : {u | u ∈ Ioo (0 : ℝ) 1 ∧ q u ≤ k} = Ioo 0 1 ∩ Iic (iF (w h') k) := by
        ext u
        constructor
        · rintro ⟨hu, h⟩
          exact ⟨hu, (hg u hu.1 hu.2.le k).1 h⟩
        · rintro ⟨hu, h⟩
          exact ⟨hu, (hg u hu.1 hu.2.le k).2 h⟩
      rw [this]
      exact measurableSet_Ioo.inter measurableSet_Iic)
    (fun k => by
      filter_upwards [ae_unif] with u hu
      exact hg u hu.1 hu.2.le k)
  refine ⟨d, hcreate, unif.map q', fun k => ?_, Measure.isProbabilityMeasure_map hqm.aemeasurable,
    drawQuantile_law hqm fun u h0 h1 => ?_, ?_, ?_, ?_⟩
  · rw [hk, iF_sub, if_neg (by omega), Int.toNat_natCast, hw']
  · rw [hqq u h0 h1, hq u h1.le]
  · rintro k ⟨h0, h1⟩
    obtain ⟨n, rfl⟩ := Int.eq_ofNat_of_zero_le h0
    rw [hk, iF_sub, if_neg (by omega)]
    unfold pdf
    rw [if_neg (by omega), Int.toNat_natCast, rd_getD (by show n < h'.length; omega)]
    rfl
  · rintro k ⟨h0, h1⟩
    obtain ⟨n, rfl⟩ := Int.eq_ofNat_of_zero_le h0
    rw [hI, iF_nat]
    unfold cdf
    rw [if_neg (by omega), Int.toNat_natCast, rd_eq_ok]
    show ((List.range hist.length).map c)[n]? = _
    rw [List.getElem?_map, List.getElem?_range (by omega)]
    rfl
  · intro p h0 h1
    refine ⟨q p, hq p h1, ?_, fun k hk => ?_⟩
    · show p ≤ _
      rw [hI]
      exact (hg p h0 h1 _).1 le_rfl
    · have hk : p ≤ _ := hk
      rw [hI] at hk
      exact (hg p h0 h1 k).2 hk

end Verif.GeneralDiscrete
