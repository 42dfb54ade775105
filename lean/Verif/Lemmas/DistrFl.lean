import Verif.Model.DistrFl
import Verif.Lemmas.Corr1DFl
import Verif.Lemmas.FlEval
import Verif.Lemmas.DistrDisc
import Mathlib.Data.List.GetD

/-! Helper lemmas: histograms in double arithmetic. -/

namespace Verif

open scoped Fl
open Fl

namespace Ieee

variable {p : ℕ} {emin : ℤ}

theorem rnd_idem (hp : 1 ≤ p) (x : ℝ) : rnd p emin (rnd p emin x) = rnd p emin x := by
  by_cases h0 : x = 0
  · rw [h0, rnd_zero, rnd_zero]
  have hx : 0 < |x| := abs_pos.2 h0
  have hpos := two_zpow_pos (expo p emin x)
  have h1 : |x| < 2 ^ (expo p emin x + p) := by
    refine ((Int.lt_zpow_iff_log_lt (b := 2) (by norm_num) hx).2 ?_)
    unfold expo
    have := le_max_left (Int.log 2 |x| - (p - 1)) emin
    omega
  have h2 : |x / 2 ^ expo p emin x| < 2 ^ p := by
    rw [abs_div, abs_of_pos hpos, div_lt_iff₀ hpos, ← zpow_natCast, ← zpow_add₀ (by norm_num), add_comm]
    exact h1
  have h3 : |rne (x / 2 ^ expo p emin x)| ≤ 2 ^ p := by
    rw [abs_lt] at h2
    rw [abs_le]
    have e1 : rne ((2 ^ p : ℤ) : ℝ) = 2 ^ p := rne_int _
    have e2 : rne ((-(2 ^ p) : ℤ) : ℝ) = -(2 ^ p) := rne_int _
    constructor
    · rw [← e2]; exact rne_mono (by push_cast; exact h2.1.le)
    · rw [← e1]; exact rne_mono (by push_cast; exact h2.2.le)
  rw [show rnd p emin x = (rne (x / 2 ^ expo p emin x) : ℝ) * 2 ^ expo p emin x from rfl]
  exact rnd_rep hp h3 (le_max_right _ _)

end Ieee

theorem rnd64_idem (x : ℝ) : rnd64 (rnd64 x) = rnd64 x := Ieee.rnd_idem (by norm_num) x

/-! ### `Uniform::Quantile` -/

theorem rnd64_grid (x : ℝ) : ∃ m : ℤ, rnd64 x = m * 2 ^ (-1074 : ℤ) := by
  have h : (-1074 : ℤ) ≤ Ieee.expo 53 (-1074) x := le_max_right _ _
  obtain ⟨k, hk⟩ := Int.eq_ofNat_of_zero_le (show 0 ≤ Ieee.expo 53 (-1074) x - (-1074) by omega)
  refine ⟨Ieee.rne (x / 2 ^ Ieee.expo 53 (-1074) x) * 2 ^ k, ?_⟩
  rw [show rnd64 x = (Ieee.rne (x / 2 ^ Ieee.expo 53 (-1074) x) : ℝ) * 2 ^ Ieee.expo 53 (-1074) x from rfl]
  have e : Ieee.expo 53 (-1074) x = k + (-1074) := by omega
  rw [show (2 : ℝ) ^ Ieee.expo 53 (-1074) x = 2 ^ k * 2 ^ (-1074 : ℤ) by
    rw [e, zpow_add₀ (by norm_num), zpow_natCast]]
  push_cast
  ring

/-- A difference of doubles is a double or large enough for the relative rounding error. -/
theorem sub_double {lo hi : ℝ} (hlo : rnd64 lo = lo) (hhi : rnd64 hi = hi) (h : lo ≤ hi) :
    rnd64 (hi - lo) = hi - lo ∨ (2 : ℝ) ^ (-1022 : ℤ) ≤ hi - lo := by
  rcases lt_or_ge (hi - lo) ((2 : ℝ) ^ (-1022 : ℤ)) with hs | hs
  · left
    obtain ⟨a, ha⟩ := rnd64_grid lo
    obtain ⟨b, hb⟩ := rnd64_grid hi
    rw [hlo] at ha
    rw [hhi] at hb
    have e : hi - lo = ((b - a : ℤ) : ℝ) * 2 ^ (-1074 : ℤ) := by rw [ha, hb]; push_cast; ring
    have hp : (0 : ℝ) < 2 ^ (-1074 : ℤ) := Ieee.two_zpow_pos _
    have h1 : b - a < 2 ^ 52 := by
      rw [e, show (-1022 : ℤ) = 52 + (-1074) by norm_num, zpow_add₀ (by norm_num)] at hs
      have := lt_of_mul_lt_mul_right hs hp.le
      exact_mod_cast this
    have h0 : 0 ≤ b - a := by
      have : (0 : ℝ) ≤ ((b - a : ℤ) : ℝ) := by
        by_contra hc
        have := mul_neg_of_neg_of_pos (not_le.1 hc) hp
        linarith only [this, e, h]
      exact_mod_cast this
    rw [e]
    exact Ieee.rnd_rep (by norm_num) (by rw [abs_of_nonneg h0]; linarith) le_rfl
  · exact .inr hs

theorem rnd64_le_tiny {x : ℝ} (hx : (2 : ℝ) ^ (-1022 : ℤ) ≤ x) : rnd64 x ≤ x * (1 + 2⁻¹ ^ 53) := by
  have h0 : 0 < x := lt_of_lt_of_le (Ieee.two_zpow_pos _) hx
  have := Ieee.rnd_rel (p := 53) (emin := -1074) (x := x) (by rw [abs_of_pos h0]; exact hx)
  rw [abs_of_pos h0, abs_le] at this
  have h2 := this.2
  unfold rnd64
  linarith only [h2]

theorem uniform_step {lo hi z : ℝ} (hlo : rnd64 lo = lo) (hhi : rnd64 hi = hi) (h : lo ≤ hi) (h0 : 0 ≤ z)
    (h1 : z ≤ 1 - 2⁻¹ ^ 52) : z *ᶠ (hi -ᶠ lo) ≤ hi - lo := by
  unfold Fl.mul Fl.sub
  have hD : 0 ≤ hi - lo := by linarith only [h]
  have hz1 : z ≤ 1 := h1.trans (by norm_num)
  rcases sub_double hlo hhi h with e | hs
  · rw [e]
    calc rnd64 (z * (hi - lo)) ≤ rnd64 (hi - lo) := rnd64_mono (mul_le_of_le_one_left hD hz1)
      _ = hi - lo := e
  · have hr := rnd64_le_tiny hs
    generalize hi - lo = D at *
    have hr0 := rnd64_nonneg hD
    rcases lt_or_ge (z * rnd64 D) ((2 : ℝ) ^ (-1022 : ℤ)) with ht | ht
    · refine le_trans (rnd64_mono ht.le) ?_
      have : rnd64 ((2 : ℝ) ^ (-1022 : ℤ)) = (2 : ℝ) ^ (-1022 : ℤ) := by
        have := Ieee.rnd_rep (p := 53) (emin := -1074) (m := 1) (k := -1022) (by norm_num) (by norm_num) (by norm_num)
        rw [Int.cast_one, one_mul] at this
        exact this
      rw [this]
      exact hs
    · refine (rnd64_le_tiny ht).trans ?_
      have h3 : z * rnd64 D ≤ (1 - 2⁻¹ ^ 52) * (D * (1 + 2⁻¹ ^ 53)) :=
        mul_le_mul h1 hr hr0 (by norm_num)
      have h4 : z * rnd64 D * (1 + 2⁻¹ ^ 53) ≤ (1 - 2⁻¹ ^ 52) * (D * (1 + 2⁻¹ ^ 53)) * (1 + 2⁻¹ ^ 53) :=
        mul_le_mul_of_nonneg_right h3 (by norm_num)
      have h5 : (1 - 2⁻¹ ^ 52 : ℝ) * (1 + 2⁻¹ ^ 53) * (1 + 2⁻¹ ^ 53) ≤ 1 := by norm_num
      have h6 := mul_le_mul_of_nonneg_left h5 hD
      linarith only [h4, h6]

/-! ### Sums -/

/-- Sum of the first numbers of a sequence, rounded in every step. -/
noncomputable def fsum (h : ℕ → ℝ) : ℕ → ℝ
  | 0 => 0
  | i + 1 => fsum h i +ᶠ h i

theorem fsum_double (h : ℕ → ℝ) (i : ℕ) : rnd64 (fsum h i) = fsum h i := by
  cases i with
  | zero => exact rnd64_zero
  | succ i => exact rnd64_idem _

theorem fsum_le_succ {h : ℕ → ℝ} (hh : ∀ i, 0 ≤ h i) (i : ℕ) : fsum h i ≤ fsum h (i + 1) := by
  rw [← fsum_double h i]
  exact rnd64_mono (le_add_of_nonneg_right (hh i))

theorem fsum_mono {h : ℕ → ℝ} (hh : ∀ i, 0 ≤ h i) : Monotone (fsum h) := monotone_nat_of_le_succ (fsum_le_succ hh)

/-- Zero, or not too small. -/
def Sizable (x : ℝ) : Prop := x = 0 ∨ 2⁻¹ ^ 900 ≤ x

theorem Sizable.nonneg {x : ℝ} (h : Sizable x) : 0 ≤ x := by
  rcases h with h | h
  · exact h.ge
  · exact le_trans (by positivity) h

theorem Sizable.add {x y : ℝ} (hx : Sizable x) (hy : Sizable y) : Sizable (x + y) := by
  rcases hx with rfl | hx
  · rwa [zero_add]
  · exact .inr (hx.trans (le_add_of_nonneg_right hy.nonneg))

theorem Fl.Rel.rnd0 {a x' x : ℝ} (h : Rel a x' x) (ha : a ≤ 1 / 2) (hx : Sizable x) : Rel (a + u) (rnd64 x') x := by
  rcases hx with rfl | hx
  · have : x' = 0 := by
      have := h.2
      simpa using this
    rw [this, rnd64_zero]
    exact ⟨le_rfl, by simp⟩
  · exact h.rnd ha hx

/-- Sum with rounding of numbers that are known up to a relative error. -/
theorem fsum_rel {h' h : ℕ → ℝ} {a : ℝ} (ha0 : 0 ≤ a) (hrel : ∀ i, Rel a (h' i) (h i)) (hs : ∀ i, Sizable (h i))
    (i : ℕ) (ha : a + i * u ≤ 1 / 2) :
    Rel (a + i * u) (fsum h' i) (∑ j ∈ Finset.range i, h j) ∧ Sizable (∑ j ∈ Finset.range i, h j) := by
  induction i with
  | zero =>
    simp only [fsum, Finset.sum_range_zero]
    exact ⟨⟨le_rfl, by simp⟩, .inl rfl⟩
  | succ i ih =>
    have hu := u_pos
    push_cast at ha
    have hlt : a + i * u ≤ 1 / 2 := by nlinarith
    obtain ⟨h1, h2⟩ := ih hlt
    rw [Finset.sum_range_succ]
    refine ⟨?_, h2.add (hs i)⟩
    have h3 := (h1.add ((hrel i).mono (le_add_of_nonneg_right (by positivity)))).rnd0 hlt (h2.add (hs i))
    refine h3.mono ?_
    push_cast
    linarith

/-- Division by a number known up to a relative error. -/
theorem Fl.Rel.div {b x s' s : ℝ} (hx : 0 ≤ x) (hs : Rel b s' s) (hs0 : 0 < s) (hb0 : 0 ≤ b) (hb : b ≤ 1 / 2) :
    Rel (2 * b) (x / s') (x / s) := by
  have h1 : 1 / 2 * s ≤ s' := le_trans (mul_le_mul_of_nonneg_right (by linarith) hs.1) hs.ge
  have h2 : 0 < s' := by linarith
  refine ⟨div_nonneg hx hs0.le, ?_⟩
  have e : x / s' - x / s = x / s * ((s - s') / s') := by field_simp
  have h3 : |(s - s') / s'| ≤ 2 * b := by
    rw [abs_div, abs_of_pos h2, div_le_iff₀ h2, abs_sub_comm]
    refine hs.2.trans ?_
    nlinarith
  rw [e, abs_mul, abs_of_nonneg (div_nonneg hx hs0.le), mul_comm]
  exact mul_le_mul_of_nonneg_right h3 (div_nonneg hx hs0.le)

namespace GeneralDiscrete

theorem normalizeHistFl_ok (hist : List ℝ) (h : fsum (w hist) hist.length ≠ 0) :
    normalizeHistFl hist = .ok (hist.map (· /ᶠ fsum (w hist) hist.length)) := by
  have e1 : (forRange 0 hist.length (fun i sum => (rd hist i).bind fun h => .ok (sum +ᶠ h)) 0.0)
      = Res.ok (fsum (w hist) hist.length) := by
    have := forRange_sat (fun j (s : ℝ) => s = fsum (w hist) j) (Nat.zero_le hist.length)
      (body := fun i sum => (rd hist i).bind fun h => .ok (sum +ᶠ h)) (s := 0.0) (by norm_num [fsum])
      (by
        rintro i s - hi rfl
        rw [rd_ok hi, Res.bind_ok, Res.sat_ok, fsum]
        simp [w, hi])
    obtain ⟨s, e, hs⟩ := this
    rw [e, hs]
  unfold normalizeHistFl
  simp only [Res.monad_bind_eq]
  rw [e1, Res.bind_ok]
  have e2 := forRange_map_sat (fun _ x => x /ᶠ fsum (w hist) hist.length) hist.length hist le_rfl
  obtain ⟨b, e, hl, hb⟩ := e2
  have : b = hist.map (· /ᶠ fsum (w hist) hist.length) := by
    refine List.ext_getElem? fun i => ?_
    rw [hb, List.getElem?_map]
    split_ifs with hi
    · rfl
    · rw [List.getElem?_eq_none (by omega)]
      rfl
  rw [← this, ← e]
  refine forRange_congr fun i s _ _ => ?_
  simp only [fdivFl, if_neg h, Res.bind_ok]

theorem makeCumHistFl_ok (hist : List ℝ) :
    makeCumHistFl hist = .ok ((List.range hist.length).map fun i => fsum (w hist) (i + 1)) := by
  unfold makeCumHistFl
  simp only [Res.monad_bind_eq]
  have := forRange_sat (fun j (s : ℝ × List ℝ) => s.1 = fsum (w hist) j ∧ s.2.length = hist.length ∧
      ∀ i < j, s.2[i]? = some (fsum (w hist) (i + 1))) (Nat.zero_le hist.length)
    (body := fun i (s : ℝ × List ℝ) => (rd hist i).bind fun h => (wr s.2 i (s.1 +ᶠ h)).bind fun cum =>
      .ok (s.1 +ᶠ h, cum)) (s := (0.0, List.replicate hist.length 0.0)) (by
        refine ⟨by norm_num [fsum], by simp, by simp⟩)
    (by
      rintro i ⟨s, c⟩ - hi ⟨h1, h2, h3⟩
      simp only at h1 h2 h3
      have e : s +ᶠ hist[i] = fsum (w hist) (i + 1) := by rw [h1, fsum]; simp [w, hi]
      simp only [rd_ok hi, Res.bind_ok, wr_ok (show i < c.length by omega), Res.sat_ok]
      refine ⟨e, by rw [List.length_set, h2], fun k hk => ?_⟩
      rw [List.getElem?_set]
      split_ifs with hik hl
      · rw [e, hik]
      · omega
      · exact h3 k (by omega))
  obtain ⟨⟨s, c⟩, e, h1, h2, h3⟩ := this
  simp only at h1 h2 h3
  rw [e, Res.bind_ok]
  congr 1
  refine List.ext_getElem? fun i => ?_
  rcases lt_or_ge i hist.length with hi | hi
  · rw [h3 i hi, List.getElem?_map, List.getElem?_range hi]
    rfl
  · rw [List.getElem?_eq_none (by rw [h2]; exact hi), List.getElem?_eq_none (by simpa using hi)]

/-- The object, if the weights do not add up to zero. -/
theorem createFl_ok (hist : List ℝ) (h : fsum (w hist) hist.length ≠ 0) :
    createFl hist = .ok ⟨hist.map (· /ᶠ fsum (w hist) hist.length), (List.range hist.length).map fun i =>
      fsum (w (hist.map (· /ᶠ fsum (w hist) hist.length))) (i + 1)⟩ := by
  unfold createFl
  simp only [Res.monad_bind_eq]
  rw [normalizeHistFl_ok hist h, Res.bind_ok, makeCumHistFl_ok, Res.bind_ok]
  simp

/-- `Quantile` with an argument that no cumulated weight reaches. -/
theorem quantile_past (d : GeneralDiscrete) (n : ℕ) (c : ℕ → ℝ) (hd : d.cumHist = (List.range n).map c)
    (p : ℝ) (hlt : ∀ i < n, c i < p) : d.quantile p = .ub "read out of range" := by
  have hrd : ∀ i < n, rd d.cumHist i = .ok (c i) := fun i hi => by
    rw [rd_eq_ok, hd, List.getElem?_map, List.getElem?_range hi]
    rfl
  have hn : rd d.cumHist n = .ub "read out of range" := by
    unfold rd
    rw [hd, List.getElem?_eq_none (by simp)]
  have key : ∀ j i, i + j = n → untilLoop (d.quantileRound p) i = .ub "read out of range" := by
    intro j
    induction j with
    | zero =>
      rintro i rfl
      rw [untilLoop_unfold]
      unfold quantileRound
      simp only [Res.monad_bind_eq, Nat.add_zero] at hn ⊢
      rw [hn]
      rfl
    | succ j ih =>
      intro i hi
      rw [untilLoop_unfold]
      unfold quantileRound
      simp only [Res.monad_bind_eq, hrd i (by omega), Res.bind_ok, hlt i (by omega), if_true]
      exact ih (i + 1) (by omega)
  unfold quantile
  rw [Res.monad_bind_eq, key n 0 (by omega)]
  rfl

section

variable (hist : List ℝ)

/-- Weights of the rounded, normalised histogram. -/
noncomputable def w' (j : ℕ) : ℝ := w (hist.map (· /ᶠ fsum (w hist) hist.length)) j

theorem w'_eq (j : ℕ) : w' hist j = w hist j /ᶠ fsum (w hist) hist.length := by
  unfold w' w
  rcases lt_or_ge j hist.length with h | h
  · simp [h]
  · rw [List.getD_eq_default _ _ (by simpa using h), List.getD_eq_default _ _ h]
    unfold Fl.div
    rw [zero_div, rnd64_zero]

variable {hist} (hn : hist.length ≤ 2 ^ 20) (hw : ∀ x ∈ hist, x = 0 ∨ (2⁻¹ : ℝ) ^ 400 ≤ x ∧ x ≤ 2 ^ 400)
  (hs : 0 < hist.sum)

include hw in
theorem w_cases (j : ℕ) : w hist j = 0 ∨ (2⁻¹ : ℝ) ^ 400 ≤ w hist j ∧ w hist j ≤ 2 ^ 400 := by
  unfold w
  rcases lt_or_ge j hist.length with h | h
  · rw [List.getD_eq_getElem _ _ h]
    exact hw _ (List.getElem_mem h)
  · exact .inl (List.getD_eq_default _ _ h)

include hw in
theorem w_sizable (j : ℕ) : Sizable (w hist j) := by
  rcases w_cases hw j with h | h
  · exact .inl h
  · exact .inr ((half_anti (by norm_num)).trans h.1)

include hn hw in
theorem sum_le : hist.sum ≤ 2 ^ 420 := by
  have h : hist.sum = ∑ j ∈ Finset.range hist.length, w hist j := by rw [← take_sum, List.take_length]
  rw [h]
  have h1 : ∑ j ∈ Finset.range hist.length, w hist j ≤ ∑ _j ∈ Finset.range hist.length, (2 : ℝ) ^ 400 := by
    refine Finset.sum_le_sum fun j _ => ?_
    rcases w_cases hw j with h | h
    · rw [h]; positivity
    · exact h.2
  refine h1.trans ?_
  rw [Finset.sum_const, Finset.card_range, nsmul_eq_mul, show 420 = 20 + 400 from rfl, pow_add (2 : ℝ) 20 400]
  exact mul_le_mul_of_nonneg_right (by exact_mod_cast hn) (by positivity)

include hn in
theorem nu_le : (3 * (hist.length : ℝ) + 1) * u ≤ 1 / 2 := by
  have : (hist.length : ℝ) ≤ 1048576 := by exact_mod_cast hn
  rw [u_eq]
  linarith

include hn hw in
theorem fsum_sum : Rel (hist.length * u) (fsum (w hist) hist.length) hist.sum := by
  have h := nu_le hn
  have hu := u_pos
  have := (fsum_rel (h' := w hist) le_rfl (fun i => Rel.refl (w_sizable hw i).nonneg) (w_sizable hw) hist.length
    (by nlinarith [Nat.cast_nonneg (α := ℝ) hist.length])).1
  rw [zero_add, ← take_sum, List.take_length] at this
  exact this

include hw hs in
theorem q_sizable (hn : hist.length ≤ 2 ^ 20) (j : ℕ) : Sizable (w hist j / hist.sum) := by
  rcases w_cases hw j with h0 | h0
  · left
    rw [h0, zero_div]
  · right
    rw [le_div_iff₀ hs]
    refine le_trans (mul_le_mul_of_nonneg_left (sum_le hn hw) (by positivity)) (le_trans ?_ h0.1)
    rw [show 900 = 400 + 80 + 420 from rfl, pow_add, pow_add, mul_assoc, ← mul_pow]
    have e : (2⁻¹ * 2 : ℝ) = 1 := by norm_num
    rw [e, one_pow, mul_one]
    exact mul_le_of_le_one_right (by positivity) (pow_le_one₀ (by norm_num) (by norm_num))

include hn hw hs in
theorem w'_rel (j : ℕ) : Rel ((2 * hist.length + 1) * u) (w' hist j) (w hist j / hist.sum) := by
  have h := nu_le hn
  have hu := u_pos
  have hn0 := Nat.cast_nonneg (α := ℝ) hist.length
  have h1 := Rel.div (w_sizable hw j).nonneg (fsum_sum hn hw) hs (by positivity) (by nlinarith)
  rw [w'_eq]
  exact (h1.rnd0 (by nlinarith) (q_sizable hw hs hn j)).mono (by linarith)

include hn hw hs in
theorem cum_rel (i : ℕ) (hi : i ≤ hist.length) :
    |fsum (w' hist) i - (hist.take i).sum / hist.sum| ≤ (3 * hist.length + 1) * u := by
  have h := nu_le hn
  have hu := u_pos
  have hn0 := Nat.cast_nonneg (α := ℝ) hist.length
  have hi' : (i : ℝ) ≤ hist.length := by exact_mod_cast hi
  have h1 := (fsum_rel (by positivity) (w'_rel hn hw hs) (q_sizable hw hs hn) i (by nlinarith)).1
  rw [← Finset.sum_div, ← take_sum] at h1
  have h2 : (hist.take i).sum / hist.sum ≤ 1 := by
    rw [div_le_one hs, ← List.sum_take_add_sum_drop hist i]
    refine le_add_of_nonneg_right (List.sum_nonneg fun x hx => ?_)
    rcases hw x (List.mem_of_mem_drop hx) with h | h
    · exact h.ge
    · exact le_trans (by positivity) h.1
  refine h1.2.trans ?_
  have h3 : ((2 * (hist.length : ℝ) + 1) * u + i * u) * ((hist.take i).sum / hist.sum)
      ≤ ((2 * (hist.length : ℝ) + 1) * u + i * u) * 1 := mul_le_mul_of_nonneg_left h2 (by positivity)
  nlinarith

include hn hw hs in
theorem createFl_spec :
    ∃ d, createFl hist = .ok d ∧
      (∀ i < hist.length, ∃ q, d.pdf i = .ok q ∧
        |q - hist.getD i 0 / hist.sum| ≤ (2 * (hist.length : ℝ) + 1) * u * (hist.getD i 0 / hist.sum)) ∧
      (∀ i < hist.length, ∃ c, d.cdf i = .ok c ∧
        |c - (hist.take (i + 1)).sum / hist.sum| ≤ (3 * (hist.length : ℝ) + 1) * u) ∧
      ∀ p, p ≤ 1 - (3 * (hist.length : ℝ) + 1) * u → ∃ k : ℕ, k < hist.length ∧ d.quantile p = .ok k ∧
        p ≤ (hist.take (k + 1)).sum / hist.sum + (3 * (hist.length : ℝ) + 1) * u ∧
        (0 < p → (hist.take k).sum / hist.sum - (3 * (hist.length : ℝ) + 1) * u < p ∧ 0 < hist.getD k 0) ∧
        (p ≤ 0 → k = 0) := by
  have hS : fsum (w hist) hist.length ≠ 0 := by
    have h1 := (fsum_sum hn hw).ge
    have h2 := nu_le hn
    have hu := u_pos
    have hn0 := Nat.cast_nonneg (α := ℝ) hist.length
    have h3 : 1 / 2 * hist.sum ≤ (1 - hist.length * u) * hist.sum :=
      mul_le_mul_of_nonneg_right (by nlinarith) hs.le
    intro h0
    rw [h0] at h1
    linarith
  have hc := createFl_ok hist hS
  refine ⟨_, hc, fun i hi => ?_, fun i hi => ?_, fun p hp => ?_⟩
  · refine ⟨w' hist i, ?_, (w'_rel hn hw hs i).2⟩
    unfold pdf
    rw [if_neg (by omega), rd_eq_ok]
    simp [w', w, hi]
  · refine ⟨fsum (w' hist) (i + 1), ?_, cum_rel hn hw hs (i + 1) hi⟩
    unfold cdf
    rw [if_neg (by omega), rd_eq_ok]
    simp [hi]
    rfl
  · have hlen : 0 < hist.length := by
      rcases List.eq_nil_or_concat hist with h | ⟨l, x, h⟩
      · rw [h] at hs; simp at hs
      · rw [h]; simp
    have hlast : p ≤ fsum (w' hist) (hist.length - 1 + 1) := by
      have h1 := cum_rel hn hw hs hist.length le_rfl
      rw [List.take_length, div_self hs.ne', abs_le] at h1
      rw [Nat.sub_add_cancel hlen]
      linarith [h1.1]
    classical
    have hex : ∃ m, p ≤ fsum (w' hist) (m + 1) := ⟨_, hlast⟩
    have hk : p ≤ fsum (w' hist) (Nat.find hex + 1) := Nat.find_spec hex
    have hlt : ∀ i < Nat.find hex, fsum (w' hist) (i + 1) < p := fun i hi => not_le.1 (Nat.find_min hex hi)
    have hkn : Nat.find hex < hist.length := by
      have := Nat.find_min' hex hlast
      omega
    generalize Nat.find hex = k at hk hlt hkn
    refine ⟨k, hkn, quantile_ok _ hist.length (fun i => fsum (w' hist) (i + 1)) rfl p k hkn hk hlt, ?_, fun hp0 => ⟨?_, ?_⟩, fun hp0 => ?_⟩
    · have h1 := cum_rel hn hw hs (k + 1) hkn
      rw [abs_le] at h1
      linarith [h1.2]
    · have h1 := cum_rel hn hw hs k hkn.le
      rw [abs_le] at h1
      have h2 : fsum (w' hist) k < p := by
        cases k with
        | zero => exact hp0
        | succ k => exact hlt k (by omega)
      linarith [h1.1]
    · have h0 : 0 ≤ w hist k := (w_sizable hw k).nonneg
      refine lt_of_le_of_ne h0 fun e => ?_
      have e' : w' hist k = 0 := by
        rw [w'_eq, show w hist k = 0 from e.symm]
        unfold Fl.div
        rw [zero_div, rnd64_zero]
      have e2 : fsum (w' hist) (k + 1) = fsum (w' hist) k := by
        rw [fsum, e']
        unfold Fl.add
        rw [add_zero, fsum_double]
      rw [e2] at hk
      have h2 : fsum (w' hist) k < p := by
        cases k with
        | zero => exact hp0
        | succ k => exact hlt k (by omega)
      linarith
    · by_contra hk0
      have h1 := hlt 0 (by omega)
      have h2 : 0 ≤ fsum (w' hist) (0 + 1) := by
        have := fsum_mono (h := w' hist) (fun i => (w'_rel hn hw hs i).nonneg (by
          have h2 := nu_le hn
          have hu := u_pos
          have hn0 := Nat.cast_nonneg (α := ℝ) hist.length
          nlinarith)) (Nat.zero_le (0 + 1))
        exact this
      linarith

end

end GeneralDiscrete

end Verif
