import Verif.Model.SegyValues
import Verif.Lemmas.Outcome
import Mathlib.Data.List.Nodup
import Mathlib.Data.List.Perm.Basic
import Mathlib.Data.List.Pairwise

/-!
# C155: samples of traces
-/

namespace Verif

namespace SegyValues

/-- A trace has one number for each sample from its start to its stop. -/
def Trace.Whole (t : Trace) : Prop := t.data.length = t.stop + 1 - t.start ∧ t.start ≤ t.stop + 1

theorem Trace.copies (indata : List ℝ) (s n : ℕ) (h : s + n ≤ indata.length) :
    forRange 0 n (Trace.copyOne indata s) (List.replicate n 0) = .ok ((indata.drop s).take n) := by
  have key : (forRange 0 n (Trace.copyOne indata s) (List.replicate n 0)).Sat
      (fun d => d.length = n ∧ ∀ k, k < n → d[k]? = indata[s + k]?) := by
    refine forRange_sat (fun i (d : List ℝ) => d.length = n ∧ ∀ k, k < i → d[k]? = indata[s + k]?) (by omega)
      ⟨by simp, by intro k hk; omega⟩ ?_
    rintro i d - hi ⟨hl, hd⟩
    unfold Trace.copyOne
    rw [Res.monad_bind_eq, rd_ok (by omega), Res.bind_ok, wr_ok (by omega), Res.sat_ok]
    refine ⟨by simp [hl], ?_⟩
    intro k hk
    rw [List.getElem?_set]
    by_cases e : i = k
    · subst e
      rw [if_pos rfl, if_pos (by omega), List.getElem?_eq_getElem]
    · rw [if_neg e]; exact hd k (by omega)
  obtain ⟨d, e, hl, hd⟩ := key
  rw [e]
  congr 1
  apply List.ext_getElem?
  intro k
  by_cases hk : k < n
  · rw [hd k hk, List.getElem?_take, if_pos hk, List.getElem?_drop]
  · rw [List.getElem?_eq_none (by omega), List.getElem?_take, if_neg hk]

/-- A trace made of numbers for the samples `jStart` to `jEnd` gives back each of them, and the missing value elsewhere. -/
theorem segy_trace_of_data (indata : List ℝ) {jStart jEnd : ℕ} (h : jStart ≤ jEnd) (hl : jEnd < indata.length) :
    ∃ t, Trace.ofData indata jStart jEnd = .ok t ∧ t.Whole ∧ t.start = jStart ∧ t.stop = jEnd ∧
      ∀ j, t.value j = .ok (if hj : jStart ≤ j ∧ j ≤ jEnd then indata[j]'(by omega) else -99999) := by
  unfold Trace.ofData
  rw [if_neg (by omega), Res.monad_bind_eq, Trace.copies _ _ _ (by omega), Res.bind_ok]
  refine ⟨_, rfl, ⟨?_, ?_⟩, rfl, rfl, ?_⟩
  · simp only [List.length_take, List.length_drop]; omega
  · simp only; omega
  · intro j
    unfold Trace.value
    simp only
    by_cases hj : jStart ≤ j ∧ j ≤ jEnd
    · rw [if_neg (by omega), dif_pos hj, rd_eq_ok, List.getElem?_take, if_pos (by omega), List.getElem?_drop,
        show jStart + (j - jStart) = j by omega, List.getElem?_eq_getElem]
    · rw [if_pos (by omega), dif_neg hj]
      rfl

/-- Too few numbers: the constructor reads beyond them. -/
theorem segy_trace_of_data_short (indata : List ℝ) {jStart jEnd : ℕ} (h : jStart ≤ jEnd) (hl : indata.length ≤ jEnd) :
    Trace.ofData indata jStart jEnd = .ub "read out of range" ∨ Trace.ofData indata jStart jEnd = .ub "write out of range" := by
  have key : ∀ n lo (d : List ℝ), indata.length < jStart + lo + n → n ≠ 0 →
      (forN n lo (Trace.copyOne indata jStart) d = .ub "read out of range" ∨
        forN n lo (Trace.copyOne indata jStart) d = .ub "write out of range") := by
    intro n
    induction n with
    | zero => intro _ _ _ h; exact absurd rfl h
    | succ n ih =>
      intro lo d hd _
      unfold forN
      unfold Trace.copyOne
      by_cases hr : jStart + lo < indata.length
      · rw [Res.monad_bind_eq, rd_ok hr, Res.bind_ok]
        by_cases hw : lo < d.length
        · rw [wr_ok hw, Res.bind_ok]
          exact ih (lo + 1) _ (by omega) (by omega)
        · right
          simp [wr, hw]
      · left
        simp [rd, List.getElem?_eq_none (Nat.le_of_not_lt hr)]
  unfold Trace.ofData
  rw [if_neg (by omega)]
  simp only [Res.monad_bind_eq]
  unfold forRange
  rcases key (jEnd + 1 - jStart - 0) 0 (List.replicate (jEnd + 1 - jStart) 0) (by omega) (by omega) with e | e
  · left; rw [e]; rfl
  · right; rw [e]; rfl

/-- A trace made of a header has no samples. -/
theorem segy_trace_of_header (keep : Bool) (j : ℕ) :
    (Trace.ofHeader keep).Whole ∧ (Trace.ofHeader keep).value j = .ok (-99999) := by
  refine ⟨⟨rfl, by simp [Trace.ofHeader]⟩, ?_⟩
  unfold Trace.value Trace.ofHeader
  rw [if_pos (by simp only; omega)]
  rfl

/-- The legal index is the sample of the trace closest to the given one. -/
theorem segy_legal_index (t : Trace) (h : t.start ≤ t.stop) (j : ℕ) :
    t.start ≤ t.legalIndex j ∧ t.legalIndex j ≤ t.stop ∧
      ∀ k, t.start ≤ k → k ≤ t.stop → |(t.legalIndex j : ℤ) - j| ≤ |(k : ℤ) - j| := by
  unfold Trace.legalIndex
  split_ifs with h1 h2
  · refine ⟨le_rfl, h, ?_⟩
    intro k hk _
    rw [abs_of_nonneg (by omega), abs_of_nonneg (by omega)]
    omega
  · refine ⟨h, le_rfl, ?_⟩
    intro k _ hk
    rw [abs_of_nonpos (by omega), abs_of_nonpos (by omega)]
    omega
  · refine ⟨by omega, by omega, ?_⟩
    intro k _ _
    simp

/-- A trace with a header is copied. -/
theorem segy_trace_copy (t : Trace) (h : t.header = true) : t.copy = .ok t := by
  simp [Trace.copy, h]

/-- A trace made of numbers cannot be copied: its header, which it does not have, is read. -/
theorem segy_trace_copy_violation (indata : List ℝ) {jStart jEnd : ℕ} (h : jStart ≤ jEnd) (hl : jEnd < indata.length) :
    ∃ t, Trace.ofData indata jStart jEnd = .ok t ∧ t.copy = .ub "null pointer" := by
  unfold Trace.ofData
  rw [if_neg (by omega), Res.monad_bind_eq, Trace.copies _ _ _ (by omega), Res.bind_ok]
  exact ⟨_, rfl, rfl⟩

theorem addValues (t : Trace) (h : t.Whole) (r : List ℝ) :
    forRange t.start (t.stop + 1) (addValue t) r = .ok (r ++ t.data) := by
  have key := forRange_sat (fun i s => s = r ++ t.data.take (i - t.start)) h.2 (body := addValue t) (s := r) (by simp) (by
    rintro i s h1 h2 rfl
    unfold addValue Trace.value
    rw [if_neg (by omega), Res.monad_bind_eq, rd_ok (by have := h.1; omega), Res.bind_ok, Res.sat_ok, List.append_assoc,
      show i + 1 - t.start = i - t.start + 1 by omega, List.take_add_one, List.getElem?_eq_getElem (by have := h.1; omega)]
    rfl)
  obtain ⟨s, e, rfl⟩ := key
  rw [e, List.take_of_length_le (by have := h.1; omega)]

/-- All values are the samples of the traces that are there, one trace after the other. -/
theorem segy_all_values (ts : List (Option Trace)) (h : ∀ t, some t ∈ ts → t.Whole) :
    allValues ts = .ok ((ts.filterMap id).flatMap Trace.data) := by
  have key : ∀ (ts : List (Option Trace)), (∀ t, some t ∈ ts → t.Whole) → ∀ r,
      allValuesFrom ts r = .ok (r ++ (ts.filterMap id).flatMap Trace.data) := by
    intro ts
    induction ts with
    | nil => intro _ r; simp [allValuesFrom]
    | cons a l ih =>
      intro h r
      have hl : ∀ t, some t ∈ l → t.Whole := fun t ht => h t (List.mem_cons_of_mem _ ht)
      cases a with
      | none => simp only [allValuesFrom]; rw [ih hl]; simp
      | some t =>
        simp only [allValuesFrom]
        rw [Res.monad_bind_eq, addValues t (h t List.mem_cons_self), Res.bind_ok, ih hl]
        simp [List.append_assoc]
  unfold allValues
  rw [key ts h []]
  simp

/-- The longest trace: no trace has more samples, and one has as many, if there is one. -/
theorem segy_longest (ts : List (Option Trace)) (h : ∀ t, some t ∈ ts → t.Whole) :
    (∀ t, some t ∈ ts → t.data.length ≤ longest ts 0) ∧
      (longest ts 0 = 0 ∨ ∃ t, some t ∈ ts ∧ t.data.length = longest ts 0) := by
  have key : ∀ (ts : List (Option Trace)), (∀ t, some t ∈ ts → t.Whole) → ∀ m,
      m ≤ longest ts m ∧ (∀ t, some t ∈ ts → t.data.length ≤ longest ts m) ∧
        (longest ts m = m ∨ ∃ t, some t ∈ ts ∧ t.data.length = longest ts m) := by
    intro ts
    induction ts with
    | nil => intro _ m; simp [longest]
    | cons a l ih =>
      intro h m
      have hl : ∀ t, some t ∈ l → t.Whole := fun t ht => h t (List.mem_cons_of_mem _ ht)
      cases a with
      | none =>
        obtain ⟨h1, h2, h3⟩ := ih hl m
        refine ⟨h1, ?_, ?_⟩
        · intro t ht
          exact h2 t (by simpa using ht)
        · rcases h3 with e | ⟨t, ht, e⟩
          · exact Or.inl e
          · exact Or.inr ⟨t, List.mem_cons_of_mem _ ht, e⟩
      | some t =>
        have hw := (h t List.mem_cons_self).1
        obtain ⟨h1, h2, h3⟩ := ih hl (max m (t.stop + 1 - t.start))
        simp only [longest]
        refine ⟨le_trans (le_max_left _ _) h1, ?_, ?_⟩
        · intro s hs
          rcases List.mem_cons.1 hs with e | e
          · cases e
            rw [hw]; exact le_trans (le_max_right _ _) h1
          · exact h2 s e
        · rcases h3 with e | ⟨s, hs, e⟩
          · rcases le_total m (t.stop + 1 - t.start) with hm | hm
            · right
              exact ⟨t, List.mem_cons_self, by rw [e, hw, max_eq_right hm]⟩
            · left; rw [e, max_eq_left hm]
          · exact Or.inr ⟨s, List.mem_cons_of_mem _ hs, e⟩
  obtain ⟨-, h2, h3⟩ := key ts h 0
  exact ⟨h2, h3⟩

/-- A case: samples 1 to 2 of three numbers. -/
example : ∃ t, Trace.ofData [5, 6, 7] 1 2 = .ok t ∧ t.value 2 = .ok 7 ∧ t.value 0 = .ok (-99999) := by
  obtain ⟨t, h, -, -, -, hv⟩ := segy_trace_of_data [5, 6, 7] (jStart := 1) (jEnd := 2) (by norm_num) (by norm_num)
  exact ⟨t, h, by rw [hv]; simp, by rw [hv]; simp⟩

/-- A case: a table with an empty place. -/
theorem segy_traces_example :
    allValues [none, some ⟨1, 2, [6, 7], false⟩, some ⟨0, 0, [5], true⟩] = .ok [6, 7, 5] := by
  rw [segy_all_values]
  · simp
  · intro t ht
    simp at ht
    rcases ht with rfl | rfl <;> simp [Trace.Whole]

end SegyValues

end Verif
