import Verif.Model.Beta
import Verif.Spec.Beta
import Verif.Lemmas.Loop
import Verif.Lemmas.CovLookup
import Mathlib.Analysis.SpecialFunctions.Pow.Real
import Mathlib.Algebra.BigOperators.Field

/-! Helper lemmas: the tables of the beta distribution. -/

namespace Verif.BetaD

open Real Finset CovTable

/-- The probability of the cells before cell `k`. -/
noncomputable def cum (a b : ℝ) (n k : ℕ) : ℝ := ∑ j ∈ range k, prob a b n j

variable {a b : ℝ} {n : ℕ}

theorem centre {i : ℕ} (h : i < n) : 0 < ((i : ℝ) + 1 / 2) / n ∧ ((i : ℝ) + 1 / 2) / n < 1 := by
  have hn : (0 : ℝ) < n := by exact_mod_cast (by omega : 0 < n)
  have hi : (i : ℝ) + 1 ≤ n := by exact_mod_cast h
  constructor
  · positivity
  · rw [div_lt_one hn]
    linarith

theorem dens_pos {t : ℝ} (h0 : 0 < t) (h1 : t < 1) : 0 < dens a b t :=
  mul_pos (rpow_pos_of_pos h0 _) (rpow_pos_of_pos (by linarith) _)

theorem wt_pos {i : ℕ} (h : i < n) : 0 < wt a b n i := dens_pos (centre h).1 (centre h).2

theorem total_pos (hn : 0 < n) : 0 < ∑ j ∈ range n, wt a b n j :=
  sum_pos (fun _ hi => wt_pos (mem_range.1 hi)) (nonempty_range_iff.2 (by omega))

theorem prob_pos {i : ℕ} (h : i < n) : 0 < prob a b n i := div_pos (wt_pos h) (total_pos (by omega))

theorem cum_zero : cum a b n 0 = 0 := by simp [cum]

theorem cum_succ (k : ℕ) : cum a b n (k + 1) = cum a b n k + prob a b n k := by
  unfold cum
  rw [sum_range_succ]

theorem cum_top (hn : 0 < n) : cum a b n n = 1 := by
  unfold cum prob
  rw [← Finset.sum_div, div_self (total_pos hn).ne']

theorem cum_lt {j k : ℕ} (h : j < k) (hk : k ≤ n) : cum a b n j < cum a b n k := by
  unfold cum
  rw [← sum_range_add_sum_Ico _ h.le]
  have : 0 < ∑ i ∈ Ico j k, prob a b n i :=
    sum_pos (fun i hi => prob_pos (by have := (mem_Ico.1 hi).2; omega)) (nonempty_Ico.2 h)
  linarith

/-! ## Tables -/

/-- The first `i` of the `n` elements. -/
def Tab (l : List ℝ) (n : ℕ) (f : ℕ → ℝ) (i : ℕ) : Prop := l.length = n ∧ ∀ j < i, l[j]? = some (f j)

theorem Tab.rd {l : List ℝ} {f : ℕ → ℝ} {i j : ℕ} (h : Tab l n f i) (hj : j < i) : rd l j = .ok (f j) := by
  unfold Verif.rd
  rw [h.2 j hj]

theorem Tab.start (n : ℕ) (x : ℝ) (f : ℕ → ℝ) : Tab (List.replicate n x) n f 0 := ⟨List.length_replicate, by simp⟩

theorem Tab.set {l : List ℝ} {f : ℕ → ℝ} {i : ℕ} (h : Tab l n f i) (hi : i < n) {x : ℝ} (hx : x = f i) :
    Tab (l.set i x) n f (i + 1) := by
  refine ⟨by rw [List.length_set, h.1], fun j hj => ?_⟩
  rw [List.getElem?_set]
  by_cases e : i = j
  · subst e
    rw [if_pos rfl, if_pos (by rw [h.1]; exact hi), hx]
  · rw [if_neg e]
    exact h.2 j (by omega)

theorem Tab.wr {l : List ℝ} {f : ℕ → ℝ} {i : ℕ} (h : Tab l n f i) (hi : i < n) (x : ℝ) :
    wr l i x = .ok (l.set i x) := wr_ok (by rw [h.1]; exact hi) x

theorem logLoop_sat (a b : ℝ) (n : ℕ) : ∀ m0 : ℝ,
    (forRange 0 n (logStep a b n) (List.replicate n 0.0, m0)).Sat fun s => Tab s.1 n (fun j => log (wt a b n j)) n := by
  intro m0
  refine forRange_sat (fun i (s : List ℝ × ℝ) => Tab s.1 n (fun j => log (wt a b n j)) i) (Nat.zero_le n) (Tab.start n _ _) ?_
  rintro i ⟨l, m⟩ - hi h
  have hn : (n : ℝ) ≠ 0 := by exact_mod_cast (by omega : n ≠ 0)
  have e : ((i : ℝ) + 0.5) / n = (i + 1 / 2) / n := by norm_num
  have hc := centre hi
  unfold logStep
  simp only [Res.monad_bind_eq, fdiv, if_neg hn, Res.bind_ok, flog, e, if_neg (not_le.2 hc.1),
    if_neg (not_le.2 (show 0 < 1 - ((i : ℝ) + 1 / 2) / n by linarith [hc.2])), h.wr hi, Res.sat_ok]
  refine h.set hi ?_
  unfold wt dens
  rw [Real.log_mul (rpow_pos_of_pos hc.1 _).ne' (rpow_pos_of_pos (by linarith) _).ne', Real.log_rpow hc.1,
    Real.log_rpow (by linarith)]
  norm_num

theorem expLoop_sat {l : List ℝ} (h : Tab l n (fun j => log (wt a b n j)) n) (m : ℝ) :
    (forRange 0 n (expStep l m) (List.replicate n 0.0, 0.0)).Sat fun s =>
      Tab s.1 n (fun j => wt a b n j * exp (-m)) n ∧ s.2 = (∑ j ∈ range n, wt a b n j) * exp (-m) := by
  refine forRange_sat (fun i (s : List ℝ × ℝ) => Tab s.1 n (fun j => wt a b n j * exp (-m)) i ∧
    s.2 = (∑ j ∈ range i, wt a b n j) * exp (-m)) (Nat.zero_le n) ⟨Tab.start n _ _, by norm_num⟩ ?_
  rintro i ⟨p, t⟩ - hi ⟨h1, h2⟩
  have e : exp (log (wt a b n i) - m) = wt a b n i * exp (-m) := by
    rw [sub_eq_add_neg, exp_add, exp_log (wt_pos hi)]
  unfold expStep
  simp only [Res.monad_bind_eq, h.rd hi, Res.bind_ok, h1.wr hi, Res.sat_ok]
  refine ⟨h1.set hi e, ?_⟩
  simp only at h2
  rw [h2, e, sum_range_succ, add_mul]

theorem computePdfAndCdf_sat (hn : 0 < n) {dx : ℝ} (hdx : 0 < dx) :
    (computePdfAndCdf a b n dx).Sat fun s =>
      Tab s.1 n (fun j => prob a b n j / dx) n ∧ Tab s.2 n (fun j => cum a b n (j + 1)) n := by
  unfold computePdfAndCdf
  refine (logLoop_sat a b n _).bind ?_
  rintro ⟨l, m⟩ hl
  refine (expLoop_sat hl m).bind ?_
  rintro ⟨p, t⟩ ⟨hp, ht⟩
  simp only at hp ht hl
  have hW := total_pos (a := a) (b := b) hn
  have htp : 0 < t := by rw [ht]; positivity
  have htd : t * dx ≠ 0 := by positivity
  have e1 : ∀ i, wt a b n i * exp (-m) * (1.0 / t) = prob a b n i := by
    intro i
    have := exp_pos (-m)
    rw [ht]
    unfold prob
    norm_num
    field_simp
  have e2 : ∀ i, wt a b n i * exp (-m) * (1.0 / (t * dx)) = prob a b n i / dx := by
    intro i
    rw [← e1]
    field_simp
  simp only [Res.monad_bind_eq, fdiv, if_neg htp.ne', if_neg htd, Res.bind_ok, hp.rd hn]
  rw [(Tab.start n 0.0 fun j => cum a b n (j + 1)).wr hn, Res.bind_ok, wr_ok (by rw [hp.1]; exact hn), Res.bind_ok]
  refine (forRange_sat (fun i s => (s.1.length = n ∧ (∀ j < i, s.1[j]? = some (prob a b n j / dx)) ∧
    ∀ j, i ≤ j → j < n → s.1[j]? = some (wt a b n j * exp (-m))) ∧ Tab s.2 n (fun j => cum a b n (j + 1)) i) hn ?_ ?_).mono ?_
  · refine ⟨⟨by rw [List.length_set, hp.1], ?_, ?_⟩, (Tab.start n 0.0 fun j => cum a b n (j + 1)).set hn ?_⟩
    · intro j hj
      obtain rfl : j = 0 := by omega
      rw [List.getElem?_set, if_pos rfl, if_pos (by rw [hp.1]; exact hn), e2]
    · intro j hj1 hj2
      rw [List.getElem?_set, if_neg (by omega)]
      exact hp.2 j hj2
    · rw [e1, cum_succ, cum_zero, zero_add]
  · rintro i ⟨p', c⟩ h1 hi ⟨⟨h2, h3, h4⟩, h5⟩
    simp only at h2 h3 h4 h5
    have e3 : rd p' i = .ok (wt a b n i * exp (-m)) := by
      unfold rd
      rw [h4 i le_rfl hi]
    unfold cumStep
    simp only [Res.monad_bind_eq, h5.rd (show i - 1 < i by omega), Res.bind_ok, e3, h5.wr hi,
      wr_ok (show i < p'.length by rw [h2]; exact hi), Res.sat_ok]
    refine ⟨⟨by rw [List.length_set, h2], fun j hj => ?_, fun j hj1 hj2 => ?_⟩, h5.set hi ?_⟩
    · rw [List.getElem?_set]
      by_cases e : i = j
      · subst e
        rw [if_pos rfl, if_pos (by rw [h2]; exact hi), e2]
      · rw [if_neg e]
        exact h3 j (by omega)
    · rw [List.getElem?_set, if_neg (by omega)]
      exact h4 j (by omega) hj2
    · rw [e1, cum_succ i, show i - 1 + 1 = i by omega]
  · rintro s ⟨⟨h1, h2, -⟩, h3⟩
    exact ⟨⟨h1, h2⟩, h3⟩

/-! ## Piecewise linear functions -/

/-- The function with values `v 0`, `v 1`, ... at 0, 1, ... that is linear between them. -/
noncomputable def lin (v : ℕ → ℝ) (s : ℝ) : ℝ := (1 - (s - ⌊s⌋₊)) * v ⌊s⌋₊ + (s - ⌊s⌋₊) * v (⌊s⌋₊ + 1)

theorem lin_nat (v : ℕ → ℝ) (k : ℕ) : lin v k = v k := by
  unfold lin
  rw [Nat.floor_natCast]
  ring

/-- In a cell, both ends included. -/
theorem lin_cell (v : ℕ → ℝ) {k : ℕ} {s : ℝ} (h0 : (k : ℝ) ≤ s) (h1 : s ≤ k + 1) :
    lin v s = (1 - (s - k)) * v k + (s - k) * v (k + 1) := by
  rcases h1.lt_or_eq with h | rfl
  · have : ⌊s⌋₊ = k := (Nat.floor_eq_iff (le_trans (Nat.cast_nonneg k) h0)).2 ⟨h0, h⟩
    unfold lin
    rw [this]
  · have := lin_nat v (k + 1)
    push_cast at this
    rw [this]
    ring

theorem lin_lt {v : ℕ → ℝ} (hv : ∀ k < n, v k < v (k + 1)) {s t : ℝ} (h0 : 0 ≤ s) (hst : s < t) (ht : t ≤ n) :
    lin v s < lin v t := by
  have hm : ∀ i j : ℕ, i ≤ j → j ≤ n → v i ≤ v j := by
    intro i j hij
    induction j, hij using Nat.le_induction with
    | base => intro _; exact le_rfl
    | succ j _ ih => intro hj; exact (ih (by omega)).trans (hv j (by omega)).le
  have hk : ⌊s⌋₊ < n := by
    rw [Nat.floor_lt h0]
    linarith
  have e1 := Nat.floor_le h0
  have e2 := Nat.lt_floor_add_one s
  have hvk := hv _ hk
  set k := ⌊s⌋₊
  rcases le_or_gt t (k + 1) with h | h
  · rw [lin_cell v e1 e2.le, lin_cell v (by linarith) h]
    nlinarith
  · have h3 : lin v s < v (k + 1) := by
      rw [lin_cell v e1 e2.le]
      nlinarith
    have ht0 : 0 ≤ t := by linarith
    have e3 := Nat.floor_le ht0
    have e4 := Nat.lt_floor_add_one t
    have hj : k + 1 ≤ ⌊t⌋₊ := by
      rw [Nat.le_floor_iff ht0]
      push_cast
      exact h.le
    refine h3.trans_le ?_
    rcases (Nat.floor_le_of_le ht).lt_or_eq with hlt | heq
    · have h5 := hm _ _ hj hlt.le
      have h6 := hv _ hlt
      rw [lin_cell v e3 e4.le]
      set j := ⌊t⌋₊
      nlinarith
    · have : t = n := le_antisymm ht (by rw [← heq]; exact e3)
      rw [this, lin_nat]
      exact hm _ _ (by omega) le_rfl

theorem lin_mono {v : ℕ → ℝ} (hv : ∀ k < n, v k < v (k + 1)) {s t : ℝ} (h0 : 0 ≤ s) (hst : s ≤ t) (ht : t ≤ n) :
    lin v s ≤ lin v t := by
  rcases hst.lt_or_eq with h | rfl
  · exact (lin_lt hv h0 h ht).le
  · exact le_rfl

/-! ## The table of quantiles -/

theorem search_eq {c : List ℝ} {v : ℕ → ℝ} (h : Tab c n v n) {t : ℝ} {k : ℕ} (hk : k + 1 ≤ n) (htop : t ≤ v (n - 1)) :
    ∃ k', untilLoop (searchStep c n t) k = .ok ((), k') ∧ k ≤ k' ∧ k' < n ∧ t ≤ v k' ∧ ∀ j, k ≤ j → j < k' → v j < t := by
  obtain ⟨m, hm⟩ : ∃ m, n = k + 1 + m := ⟨n - (k + 1), by omega⟩
  induction m generalizing k with
  | zero =>
    refine ⟨k, ?_, le_rfl, by omega, ?_, fun j h1 h2 => by omega⟩
    · rw [untilLoop_unfold]
      unfold searchStep
      simp only [Res.monad_bind_eq, h.rd (show k < n by omega), Res.bind_ok]
      rw [if_neg (by omega)]
      rfl
    · rw [show k = n - 1 by omega]
      exact htop
  | succ m ih =>
    rw [untilLoop_unfold]
    unfold searchStep
    simp only [Res.monad_bind_eq, h.rd (show k < n by omega), Res.bind_ok]
    by_cases hc : v k < t
    · rw [if_pos ⟨hc, by omega⟩, Res.bind_ok]
      obtain ⟨k', h1, h2, h3, h4, h5⟩ := ih (k := k + 1) (by omega) (by omega)
      refine ⟨k', h1, by omega, h3, h4, fun j hj1 hj2 => ?_⟩
      rcases hj1.lt_or_eq with hj | rfl
      · exact h5 j hj hj2
      · exact hc
    · rw [if_neg (fun hh => hc hh.1), Res.bind_ok]
      exact ⟨k, rfl, le_rfl, by omega, not_lt.1 hc, fun j h1 h2 => by omega⟩

/-- The entries of the table: where the distribution function, on the scale of cells, is `(i + 1)/n`. -/
def IsQuant (a b : ℝ) (n : ℕ) (minVal dx : ℝ) (i : ℕ) (q : ℝ) : Prop :=
  ∃ s : ℝ, 0 ≤ s ∧ s ≤ n ∧ q = minVal + s * dx ∧ lin (cum a b n) s = ((i : ℝ) + 1) / n

theorem computeQuantile_sat (hn : 0 < n) {c : List ℝ} (h : Tab c n (fun j => cum a b n (j + 1)) n) (minVal dx : ℝ) :
    (computeQuantile minVal dx n c).Sat fun l => ∃ q, Tab l n q n ∧ ∀ i < n, IsQuant a b n minVal dx i (q i) := by
  have hnr : (0 : ℝ) < n := by exact_mod_cast hn
  have hnz : (n : ℝ) ≠ 0 := hnr.ne'
  unfold computeQuantile
  simp only [Res.monad_bind_eq, fdiv, if_neg hnz, Res.bind_ok]
  refine Res.Sat.bind (P := fun s => s.table.length = n ∧ ∀ j < n, ∃ q, s.table[j]? = some q ∧ IsQuant a b n minVal dx j q) ?_ ?_
  · refine (forRange_sat (fun i s => (s.table.length = n ∧ ∀ j < i, ∃ q, s.table[j]? = some q ∧ IsQuant a b n minVal dx j q) ∧
      s.k < n ∧ (s.k = 0 → s.lowP = 0 ∧ s.lowX = minVal) ∧ ∀ j < s.k, cum a b n (j + 1) < ((i : ℝ) + 1) / n)
      (Nat.zero_le n) ?_ ?_).mono fun s hs => hs.1
    · refine ⟨⟨List.length_replicate, by simp⟩, hn, fun _ => ⟨by norm_num, rfl⟩, by simp⟩
    · rintro i s - hi ⟨⟨h1, h2⟩, h3, h4, h5⟩
      have et : 1.0 / (n : ℝ) * (i + 1) = (i + 1) / n := by
        norm_num
        ring
      have htop : ((i : ℝ) + 1) / n ≤ cum a b n (n - 1 + 1) := by
        rw [show n - 1 + 1 = n by omega, cum_top hn, div_le_one hnr]
        exact_mod_cast hi
      obtain ⟨k, e, hk1, hk2, hk3, hk4⟩ := search_eq h (k := s.k) (by omega) htop
      have hall : ∀ j < k, cum a b n (j + 1) < ((i : ℝ) + 1) / n := by
        intro j hj
        rcases lt_or_ge j s.k with hh | hh
        · exact h5 j hh
        · exact hk4 j hh hj
      have hlow : cum a b n k < ((i : ℝ) + 1) / n := by
        rcases Nat.eq_zero_or_pos k with rfl | hp
        · rw [cum_zero]
          positivity
        · have := hall (k - 1) (by omega)
          rwa [show k - 1 + 1 = k by omega] at this
      have hlt := cum_lt (a := a) (b := b) (Nat.lt_succ_self k) (by omega : k + 1 ≤ n)
      have elow : (if k > 0 then (rd c (k - 1)).bind fun c => Res.ok (c, minVal + k * dx) else .ok (s.lowP, s.lowX)) =
          .ok (cum a b n k, minVal + k * dx) := by
        split_ifs with hp
        · rw [h.rd (show k - 1 < n by omega), Res.bind_ok, show k - 1 + 1 = k by omega]
        · obtain rfl : k = 0 := by omega
          obtain ⟨h6, h7⟩ := h4 (by omega)
          rw [h6, h7, cum_zero]
          norm_num
      unfold quantStep
      simp only [Res.monad_bind_eq, et, e, Res.bind_ok, elow, if_neg (show ¬ k ≥ n by omega), h.rd hk2, fdiv,
        if_neg (not_le.2 hlt), if_neg (sub_pos.2 hlt).ne', wr_ok (show i < s.table.length by rw [h1]; exact hi), Res.sat_ok]
      set w := (((i : ℝ) + 1) / n - cum a b n k) / (cum a b n (k + 1) - cum a b n k) with hw
      have hd : 0 < cum a b n (k + 1) - cum a b n k := sub_pos.2 hlt
      have hw0 : 0 < w := div_pos (by linarith) hd
      have hw1 : w ≤ 1 := by
        rw [hw, div_le_one hd]
        linarith
      refine ⟨⟨by rw [List.length_set, h1], fun j hj => ?_⟩, hk2, fun hk => ?_, fun j hj => ?_⟩
      · rw [List.getElem?_set]
        by_cases ej : i = j
        · subst ej
          rw [if_pos rfl, if_pos (by rw [h1]; exact hi)]
          refine ⟨_, rfl, k + w, by positivity, ?_, by ring, ?_⟩
          · have : ((k : ℝ) + 1) ≤ n := by exact_mod_cast hk2
            linarith
          · rw [lin_cell (k := k) _ (by linarith) (by linarith)]
            have : w * (cum a b n (k + 1) - cum a b n k) = ((i : ℝ) + 1) / n - cum a b n k := by
              rw [hw, div_mul_cancel₀ _ hd.ne']
            linarith
        · rw [if_neg ej]
          exact h2 j (by omega)
      · subst hk
        rw [cum_zero]
        norm_num
      · refine (hall j hj).trans_le ?_
        gcongr
        linarith
  · rintro s ⟨h1, h2⟩
    refine (Res.sat_ok _ _).2 ?_
    choose! q hq using h2
    exact ⟨q, ⟨h1, fun j hj => (hq j hj).1⟩, fun j hj => (hq j hj).2⟩

end Verif.BetaD
