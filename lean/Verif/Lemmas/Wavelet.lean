import Verif.Model.Wavelet
import Verif.Lemmas.Outcome

/-!
# Loops that fill a list
-/

namespace Verif
namespace Wavelet

/-- A loop that writes `v i` to place `i + c`. -/
theorem fill {n lo hi c : ℕ} {v : ℕ → ℝ} {body : ℕ → List ℝ → Res (List ℝ)} {a : List ℝ} (ha : a.length = n)
    (hle : lo ≤ hi) (hc : hi + c ≤ n)
    (h : ∀ i a, lo ≤ i → i < hi → a.length = n → body i a = wr a (i + c) (v i)) :
    ∃ r, forRange lo hi body a = .ok r ∧ r.length = n ∧
      ∀ j, r[j]? = if lo + c ≤ j ∧ j < hi + c then some (v (j - c)) else a[j]? := by
  have := forRange_sat (lo := lo) (hi := hi) (body := body) (s := a)
    (fun k (r : List ℝ) => r.length = n ∧
      ∀ j, r[j]? = if lo + c ≤ j ∧ j < k + c then some (v (j - c)) else a[j]?)
    hle ⟨ha, fun j => by rw [if_neg (by omega)]⟩ ?_
  · exact this
  · rintro k r h1 h2 ⟨hl, hr⟩
    rw [h k r h1 h2 hl, wr_ok (by omega)]
    refine ⟨_, rfl, by rw [List.length_set, hl], fun j => ?_⟩
    rw [List.getElem?_set]
    by_cases hj : k + c = j
    · subst hj
      rw [if_pos rfl, if_pos (by omega), if_pos (by omega), Nat.add_sub_cancel]
    · rw [if_neg hj, hr]
      by_cases h3 : lo + c ≤ j ∧ j < k + c
      · rw [if_pos h3, if_pos (by omega)]
      · rw [if_neg h3, if_neg (by omega)]

/-- A loop that writes behind the end of the list. -/
theorem fill_ub {n lo hi c i0 : ℕ} {v : ℕ → ℝ} {body : ℕ → List ℝ → Res (List ℝ)} (hlo : lo ≤ i0) (hhi : i0 < hi)
    (hc : n ≤ i0 + c) (h : ∀ i a, lo ≤ i → i < hi → a.length = n → body i a = wr a (i + c) (v i)) :
    ∀ a : List ℝ, a.length = n → ∃ e, forRange lo hi body a = .ub e := by
  obtain ⟨k, rfl⟩ : ∃ k, i0 = lo + k := ⟨i0 - lo, by omega⟩
  induction k generalizing lo with
  | zero =>
    intro a ha
    rw [forRange_succ (by omega), h lo a le_rfl (by omega) ha]
    unfold wr
    rw [if_neg (by omega)]
    exact ⟨_, rfl⟩
  | succ k ih =>
    intro a ha
    rw [forRange_succ (by omega), h lo a le_rfl (by omega) ha]
    unfold wr
    split_ifs
    · rw [Res.bind_ok]
      refine ih (lo := lo + 1) (fun i a h1 h2 h3 => h i a (by omega) h2 h3) (by omega) (by omega) (by omega) _ ?_
      rw [List.length_set, ha]
    · exact ⟨_, rfl⟩

theorem getD_lt {l : List ℝ} {i : ℕ} (h : i < l.length) : l.getD i 0 = l[i] := by simp [h]

theorem time_eq (w : Wavelet) (i : ℕ) : w.time i = ((i : ℝ) - ((w.data.length / 2 : ℕ) : ℝ)) * w.dt := by
  unfold time center
  rw [Int.cast_sub, Int.cast_natCast, Int.cast_natCast]

end Wavelet
end Verif
