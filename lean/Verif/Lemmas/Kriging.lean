import Verif.Model.Kriging
import Verif.Lemmas.Outcome
import Mathlib.Algebra.BigOperators.Fin
import Mathlib.Tactic.Ring
import Mathlib.Tactic.Linarith
import Mathlib.Tactic.NormNum

/-! Helper lemmas for kriging. -/

namespace Verif

theorem forRange_sat_or_ub {σ : Type} (I : ℕ → σ → Prop) {lo hi : ℕ} (hle : lo ≤ hi) {body : ℕ → σ → Res σ} {s : σ}
    (h0 : I lo s)
    (hstep : ∀ i s, lo ≤ i → i < hi → I i s → (body i s).Sat (I (i + 1)) ∨ ∃ w, body i s = .ub w) :
    (forRange lo hi body s).Sat (I hi) ∨ ∃ w, forRange lo hi body s = .ub w := by
  obtain ⟨n, rfl⟩ := Nat.exists_eq_add_of_le hle
  unfold forRange
  rw [Nat.add_sub_cancel_left]
  induction n generalizing lo s with
  | zero => exact Or.inl ((Res.sat_ok _ _).2 h0)
  | succ n ih =>
    rw [forN]
    rcases hstep lo s (le_refl _) (by omega) h0 with ⟨s', hs', hI⟩ | ⟨w, hw⟩
    · rw [hs', Res.bind_ok, show lo + (n + 1) = lo + 1 + n by omega]
      exact ih hI (by omega) fun i t h1 h2 => hstep i t (by omega) (by omega)
    · rw [hw]
      exact Or.inr ⟨w, rfl⟩

theorem fillSymm_ok {n : ℕ} {f : ℕ → ℕ → Res ℝ} {g : ℕ → ℕ → ℝ}
    (h : ∀ i < n, ∀ j ≤ i, f i j = .ok (g i j)) :
    ∃ K : SymMat, fillSymm n f = .ok K ∧ ∀ a < n, ∀ b < n, K a b = g (max a b) (min a b) := by
  unfold fillSymm
  have key := forRange_sat (lo := 0) (hi := n)
    (body := fun i K => forRange 0 (i + 1) (fun j K => (f i j).bind fun v => .ok (SymMat.set K j i v)) K)
    (s := fun _ _ => 0)
    (fun i (K : SymMat) => ∀ a b, max a b < i → K a b = g (max a b) (min a b)) (Nat.zero_le n)
    (by intro a b h; omega) ?_
  · obtain ⟨K, hK, hI⟩ := key
    exact ⟨K, hK, fun a ha b hb => hI a b (by omega)⟩
  · intro i K _ hi hI
    refine (forRange_sat (lo := 0) (hi := i + 1)
      (fun j (K : SymMat) => (∀ a b, max a b < i → K a b = g (max a b) (min a b)) ∧
        ∀ a b, max a b = i → min a b < j → K a b = g (max a b) (min a b)) (Nat.zero_le _)
      ⟨hI, by intro a b _ h; omega⟩ ?_).mono ?_
    · intro j K _ hj hJ
      rw [h i hi j (by omega), Res.bind_ok, Res.sat_ok]
      constructor
      · intro a b hab
        unfold SymMat.set
        rw [if_neg (by omega)]
        exact hJ.1 a b hab
      · intro a b hab hm
        unfold SymMat.set
        by_cases hc : min a b = j
        · rw [if_pos (by omega), hab, hc]
        · rw [if_neg (by omega)]
          exact hJ.2 a b hab (by omega)
    · intro K hJ a b hab
      by_cases hc : max a b = i
      · exact hJ.2 a b hc (by omega)
      · exact hJ.1 a b (by omega)

theorem fillVec_ok {n : ℕ} {f : ℕ → Res ℝ} {g : ℕ → ℝ} (h : ∀ i < n, f i = .ok (g i)) :
    fillVec n f = .ok ((List.range n).map g) := by
  unfold fillVec
  have key := forRange_sat (lo := 0) (hi := n)
    (body := fun i k => (f i).bind fun v => wr k i v) (s := List.replicate n (0 : ℝ))
    (fun i (k : List ℝ) => k.length = n ∧ ∀ a < i, k[a]? = some (g a)) (Nat.zero_le n)
    ⟨by simp, by intro a h; omega⟩ ?_
  · obtain ⟨k, hk, hl, hI⟩ := key
    rw [hk]
    congr 1
    refine List.ext_getElem? fun a => ?_
    by_cases ha : a < n
    · rw [hI a ha, List.getElem?_map, List.getElem?_range ha]
      rfl
    · rw [List.getElem?_eq_none (by omega), List.getElem?_eq_none (by simp; omega)]
  · intro i k _ hi hI
    rw [h i hi, Res.bind_ok, wr, if_pos (by omega), Res.sat_ok]
    refine ⟨by simp [hI.1], fun a ha => ?_⟩
    rw [List.getElem?_set]
    split
    · rename_i e
      subst e
      rw [if_pos (by omega)]
    · exact hI.2 a (by omega)

/-! ### Positions that satisfy a predicate -/

theorem range_filter_rank (p : ℕ → Bool) {n k : ℕ} (hk : k < n) (hp : p k = true) :
    ((List.range n).filter p)[((List.range k).filter p).length]? = some k := by
  induction n with
  | zero => omega
  | succ n ih =>
    rw [List.range_succ, List.filter_append]
    by_cases hkn : k = n
    · subst hkn
      rw [List.getElem?_append_right (le_refl _), Nat.sub_self, List.filter_cons, if_pos hp]
      rfl
    · have := ih (by omega)
      rw [List.getElem?_append_left]
      · exact this
      · by_contra hc
        rw [List.getElem?_eq_none (by omega)] at this
        cases this

theorem range_filter_rank_inv (p : ℕ → Bool) {n k a : ℕ} (h : ((List.range n).filter p)[a]? = some k) :
    k < n ∧ p k = true ∧ ((List.range k).filter p).length = a := by
  have hmem := List.mem_of_getElem? h
  rw [List.mem_filter, List.mem_range] at hmem
  refine ⟨hmem.1, hmem.2, ?_⟩
  have h2 := range_filter_rank p hmem.1 hmem.2
  have hnd : ((List.range n).filter p).Nodup := List.nodup_range.filter _
  obtain ⟨h3, e3⟩ := List.getElem?_eq_some_iff.1 h
  obtain ⟨h4, e4⟩ := List.getElem?_eq_some_iff.1 h2
  exact (hnd.getElem_inj_iff (hi := h4) (hj := h3)).1 (e4.trans e3.symm)

theorem range_filter_succ (p : ℕ → Bool) (n : ℕ) :
    (List.range (n + 1)).filter p = (List.range n).filter p ++ if p n = true then [n] else [] := by
  rw [List.range_succ, List.filter_append, List.filter_cons]
  rfl

theorem range_filter_length_le (p : ℕ → Bool) {k n : ℕ} (h : k ≤ n) :
    ((List.range k).filter p).length ≤ ((List.range n).filter p).length := by
  obtain ⟨d, rfl⟩ := Nat.exists_eq_add_of_le h
  rw [List.range_add, List.filter_append, List.length_append]
  omega

/-! ### The steps of `Krig1D` -/

section K1
variable {field obs : List ℝ} {is_known : List Bool} {dx : ℝ}

theorem rd_known {i : ℕ} (h : i < is_known.length) : rd is_known i = .ok (is_known.getD i false) := by
  unfold rd
  rw [List.getD_eq_getElem?_getD, List.getElem?_eq_getElem h]
  rfl

theorem rd_getD {l : List ℝ} {i : ℕ} (h : i < l.length) : rd l i = .ok (l.getD i 0) := by
  unfold rd
  rw [List.getD_eq_getElem?_getD, List.getElem?_eq_getElem h]
  rfl

theorem residual_ok (hl : field.length = is_known.length)
    (ho : obs.length = ((List.range is_known.length).filter fun i => is_known.getD i false).length) :
    ∃ r, forRange 0 is_known.length (Krig1.residualStep field obs is_known) (List.replicate obs.length 0, 0)
        = .ok (r, obs.length) ∧ r.length = obs.length ∧
      ∀ a i, ((List.range is_known.length).filter fun i => is_known.getD i false)[a]? = some i →
        r.getD a 0 = obs.getD a 0 - field.getD i 0 := by
  have key := forRange_sat (lo := 0) (hi := is_known.length)
    (body := Krig1.residualStep field obs is_known) (s := (List.replicate obs.length 0, 0))
    (fun k st => st.1.length = obs.length ∧
      st.2 = ((List.range k).filter fun i => is_known.getD i false).length ∧
      ∀ a i, ((List.range k).filter fun i => is_known.getD i false)[a]? = some i →
        st.1.getD a 0 = obs.getD a 0 - field.getD i 0) (Nat.zero_le _) ⟨by simp, by simp, by simp⟩ ?_
  · obtain ⟨⟨r, j⟩, hr, hI1, hI2, hI3⟩ := key
    refine ⟨r, ?_, hI1, hI3⟩
    rw [hr]
    dsimp only at hI2
    rw [hI2, ho]
  · intro k st _ hk ⟨h1, h2, h3⟩
    unfold Krig1.residualStep
    rw [rd_known hk]
    simp only [Res.monad_bind_eq, Res.bind_ok]
    rw [range_filter_succ]
    by_cases hkn : is_known.getD k false = true
    · have hlt : st.2 < obs.length := by
        have := range_filter_length_le (fun i => is_known.getD i false) (show k + 1 ≤ is_known.length by omega)
        rw [range_filter_succ, if_pos hkn, List.length_append, ← h2, ← ho] at this
        simpa using this
      rw [if_pos hkn, rd_getD hlt, Res.bind_ok, rd_getD (by omega), Res.bind_ok, wr, if_pos (by omega), Res.bind_ok,
        Res.sat_ok, if_pos hkn]
      refine ⟨by simp [h1], by simp [h2], ?_⟩
      intro a i hai
      by_cases ha : a = st.2
      · subst ha
        rw [h2, List.getElem?_append_right (le_refl _), Nat.sub_self] at hai
        obtain rfl : k = i := by simpa using hai
        rw [List.getD_eq_getElem?_getD, List.getElem?_set_self (by omega)]
        rfl
      · have : a < ((List.range k).filter fun i => is_known.getD i false).length := by
          by_contra hc
          rw [List.getElem?_eq_none] at hai
          · cases hai
          · rw [List.length_append, List.length_singleton]
            omega
        rw [List.getElem?_append_left this] at hai
        rw [← h3 a i hai, List.getD_eq_getElem?_getD, List.getElem?_set_ne (fun e => ha e.symm),
          List.getD_eq_getElem?_getD]
    · rw [if_neg hkn, Res.sat_ok, if_neg hkn, List.append_nil]
      exact ⟨h1, h2, h3⟩

theorem split_ok :
    forRange 0 is_known.length (Krig1.splitStep is_known dx) ([], [])
      = .ok (((List.range is_known.length).filter fun i => is_known.getD i false).map (fun i : ℕ => i * dx),
          ((List.range is_known.length).filter fun i => !is_known.getD i false).map (fun i : ℕ => i * dx)) := by
  have key := forRange_sat (lo := 0) (hi := is_known.length)
    (body := Krig1.splitStep is_known dx) (s := ([], []))
    (fun k st => st = (((List.range k).filter fun i => is_known.getD i false).map (fun i : ℕ => (i : ℝ) * dx),
      ((List.range k).filter fun i => !is_known.getD i false).map (fun i : ℕ => (i : ℝ) * dx))) (Nat.zero_le _)
    (by simp) ?_
  · obtain ⟨st, hr, hI⟩ := key
    rw [hr, hI]
  · intro k st _ hk h
    unfold Krig1.splitStep
    rw [rd_known hk]
    simp only [Res.monad_bind_eq, Res.bind_ok]
    rw [range_filter_succ, range_filter_succ, h]
    by_cases hkn : is_known.getD k false = true
    · rw [if_pos hkn, Res.sat_ok, if_pos hkn, if_neg (by rw [hkn]; decide)]
      simp
    · rw [if_neg hkn, Res.sat_ok, if_neg hkn, if_pos (by rw [Bool.not_eq_true _ |>.mp hkn]; decide)]
      simp

end K1

theorem getD_map_mul {l : List ℕ} {a i : ℕ} (dx : ℝ) (h : l[a]? = some i) :
    rd (l.map (fun i : ℕ => (i : ℝ) * dx)) a = .ok (i * dx) := by
  unfold rd
  rw [List.getElem?_map, h]
  rfl

theorem toMatrix_congr {K : SymMat} {n : ℕ} {M : Matrix (Fin n) (Fin n) ℝ} (h : ∀ a b : Fin n, K a b = M a b) :
    K.toMatrix n = M := by
  ext a b
  exact h a b

theorem dotList_ofFn {n : ℕ} (g : ℕ → ℝ) (x : Fin n → ℝ) :
    dotList ((List.range n).map g) (List.ofFn x) = ∑ a : Fin n, g a * x a := by
  have e : (List.range n).map g = List.ofFn fun a : Fin n => g a := by
    refine List.ext_getElem (by simp) fun i h1 h2 => ?_
    simp
  unfold dotList
  rw [e]
  have e2 : List.zipWith (· * ·) (List.ofFn fun a : Fin n => g a) (List.ofFn x) = List.ofFn fun a : Fin n => g a * x a := by
    refine List.ext_getElem (by simp) fun i h1 h2 => ?_
    simp
  rw [e2, List.sum_ofFn]

end Verif
