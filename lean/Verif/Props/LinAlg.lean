import Verif.Model.LinAlg
import Verif.Lemmas.PostNormal

/-!
# Small functions of the linear algebra
-/

namespace Verif

open LinAlg

theorem getD_get {l : List ℝ} {i : ℕ} (h : i < l.length) : l.getD i 0 = l[i] := by
  simp [h]

/-- `FindLargestElement` returns an element that no other exceeds; minus infinity if there is none. -/
theorem findLargest_spec (v : List ℝ) : (v = [] → findLargest v = .ok none) ∧
    (v ≠ [] → ∃ x ∈ v, findLargest v = .ok (some x) ∧ ∀ y ∈ v, y ≤ x) := by
  constructor
  · rintro rfl
    rfl
  · intro hv
    obtain ⟨t, e, ht⟩ := forRange_sat (fun j (m : Option ℝ) => (j = 0 → m = none) ∧ (0 < j → ∃ x ∈ v, m = some x ∧ ∀ y ∈ v.take j, y ≤ x))
      (Nat.zero_le v.length) (body := fun i (m : Option ℝ) => (rd v i).bind fun x => .ok (match m with
        | none => some x
        | some y => if x > y then some x else some y)) (s := none) ⟨fun _ => rfl, fun h => absurd h (lt_irrefl 0)⟩ (by
      intro i m _ hi ⟨h0, h1⟩
      rw [rd_getD hi, Res.bind_ok, Res.sat_ok]
      refine ⟨fun h => absurd h (Nat.succ_ne_zero i), fun _ => ?_⟩
      have hmem : v.getD i 0 ∈ v := by
        rw [getD_get hi]
        exact List.getElem_mem hi
      have ht : v.take (i + 1) = v.take i ++ [v.getD i 0] := by
        rw [getD_get hi, List.take_append_getElem hi]
      rcases Nat.eq_zero_or_pos i with hz | hp
      · subst hz
        rw [h0 rfl]
        refine ⟨_, hmem, rfl, fun y hy => ?_⟩
        rw [ht] at hy
        simp only [List.take_zero, List.nil_append, List.mem_singleton] at hy
        exact hy.le
      · obtain ⟨x, hx, rfl, hmax⟩ := h1 hp
        by_cases hgt : v.getD i 0 > x
        · refine ⟨_, hmem, by simp only [if_pos hgt], fun y hy => ?_⟩
          rw [ht, List.mem_append, List.mem_singleton] at hy
          rcases hy with hy | rfl
          · exact (hmax y hy).trans hgt.le
          · exact le_rfl
        · refine ⟨x, hx, by simp only [if_neg hgt], fun y hy => ?_⟩
          rw [ht, List.mem_append, List.mem_singleton] at hy
          rcases hy with hy | rfl
          · exact hmax y hy
          · exact not_lt.1 hgt)
    obtain ⟨x, hx, rfl, hmax⟩ := ht.2 (List.length_pos_iff.2 hv)
    rw [List.take_length] at hmax
    exact ⟨x, hx, e, hmax⟩

/-- `IdentityMatrix`. -/
theorem identityMatrix_spec (n : ℕ) : ∃ I, identityMatrix n = .ok I ∧ ∀ a b, I a b = if a = b ∧ a < n then 1 else 0 := by
  have hz : (0.0 : ℝ) = 0 := by norm_num
  have ho : (1.0 : ℝ) = 1 := by norm_num
  have inner : ∀ (i : ℕ) (A : ℕ → ℕ → ℝ), (∀ a b, A a b = 0) →
      (forRange 0 n (fun j (A : ℕ → ℕ → ℝ) => .ok (fun a b => if a = i ∧ b = j then 0.0 else A a b)) A).Sat fun A' : ℕ → ℕ → ℝ => ∀ a b, A' a b = 0 := by
    intro i A hA
    refine forRange_inv (fun A' : ℕ → ℕ → ℝ => ∀ a b, A' a b = 0) hA fun j A' _ _ h => ?_
    rw [Res.sat_ok]
    intro a b
    dsimp only
    rw [h a b, hz, ite_self]
  obtain ⟨Z, e, hZ⟩ := forRange_inv (lo := 0) (hi := n) (fun A' : ℕ → ℕ → ℝ => ∀ a b, A' a b = 0) (s := fun _ _ => 0) (fun _ _ => rfl)
    (body := fun i A => forRange 0 n (fun j (A : ℕ → ℕ → ℝ) => .ok (fun a b => if a = i ∧ b = j then 0.0 else A a b)) A)
    fun i A _ _ h => inner i A h
  obtain ⟨I, e', hI⟩ := forRange_sat (fun j (A : ℕ → ℕ → ℝ) => ∀ a b, A a b = if a = b ∧ a < j then 1 else 0) (Nat.zero_le n)
    (body := fun i (A : ℕ → ℕ → ℝ) => .ok (fun a b => if a = i ∧ b = i then 1.0 else A a b)) (s := Z) (by simp [hZ]) (by
      intro i A _ hi h
      rw [Res.sat_ok]
      intro a b
      dsimp only
      rw [h a b, ho]
      by_cases h1 : a = i ∧ b = i
      · rw [if_pos h1, if_pos ⟨h1.1.trans h1.2.symm, by omega⟩]
      · rw [if_neg h1]
        by_cases h2 : a = b ∧ a < i
        · rw [if_pos h2, if_pos ⟨h2.1, by omega⟩]
        · rw [if_neg h2, if_neg (by omega)])
  refine ⟨I, ?_, hI⟩
  unfold identityMatrix
  rw [e, Res.monad_bind_eq, Res.bind_ok, e']

/-- One column of `Sort3x3`. -/
theorem sortCols_ok (evec : ℕ → ℕ → ℝ) (idx : List ℤ) (j : ℕ) (H : ℕ → ℕ → ℝ) {c : ℕ} (hc : c < 3) (hr : rd idx j = .ok (c : ℤ)) :
    forRange 0 3 (fun k (H : ℕ → ℕ → ℝ) => (sortCol evec idx j k).bind fun v => .ok (fun a b => if a = k ∧ b = j then v else H a b)) H =
      .ok (fun a b => if b = j ∧ a < 3 then evec a c else H a b) := by
  have hs : ∀ k, sortCol evec idx j k = .ok (evec k c) := by
    intro k
    unfold sortCol
    rw [hr, Res.monad_bind_eq, Res.bind_ok, if_neg (by omega)]
    simp
  simp only [hs, Res.bind_ok]
  obtain ⟨M, e, hM⟩ := forRange_sat (fun k (M : ℕ → ℕ → ℝ) => ∀ a b, M a b = if b = j ∧ a < k then evec a c else H a b) (Nat.zero_le 3)
    (body := fun k (H : ℕ → ℕ → ℝ) => .ok (fun a b => if a = k ∧ b = j then evec k c else H a b)) (s := H) (by simp) (by
      intro k M _ _ h
      rw [Res.sat_ok]
      intro a b
      dsimp only
      rw [h a b]
      by_cases h1 : a = k ∧ b = j
      · rw [if_pos h1, if_pos ⟨h1.2, by omega⟩, h1.1]
      · rw [if_neg h1]
        by_cases h2 : b = j ∧ a < k
        · rw [if_pos h2, if_pos ⟨h2.1, by omega⟩]
        · rw [if_neg h2, if_neg (by omega)])
  rw [e]
  congr 1
  funext a b
  exact hM a b

theorem sortCols_ub (evec : ℕ → ℕ → ℝ) (idx : List ℤ) (j : ℕ) (H : ℕ → ℕ → ℝ) (hr : rd idx j = .ok (-1)) :
    ∃ w, forRange 0 3 (fun k (H : ℕ → ℕ → ℝ) => (sortCol evec idx j k).bind fun v => .ok (fun a b => if a = k ∧ b = j then v else H a b)) H =
      .ub w := by
  have hs : sortCol evec idx j 0 = .ub "index outside a matrix" := by
    unfold sortCol
    rw [hr, Res.monad_bind_eq, Res.bind_ok, if_pos (by omega)]
  rw [forRange_succ (by norm_num), hs]
  exact ⟨_, rfl⟩

/-- The candidates of `Sort3x3` for place `j`. -/
def SortAllowed (j : ℕ) (i0 i1 : ℤ) (i : ℕ) : Prop := j = 0 ∨ (j = 1 ∧ (i : ℤ) ≠ i0) ∨ (j = 2 ∧ (i : ℤ) ≠ i0 ∧ (i : ℤ) ≠ i1)

open Classical in
/-- One place of `Sort3x3`: the largest candidate, if one exceeds the start value. -/
theorem sortPick_ok {eval : List ℝ} (he : eval.length = 3) {idx : List ℤ} (hl : idx.length = 3) {j : ℕ} (hj : j < 3) (M : ℝ) :
    (forRange 0 3 (sortPick eval j) (M, idx) = .ok (M, idx) ∧ ∀ i < 3, SortAllowed j (idx.getD 0 0) (idx.getD 1 0) i → eval.getD i 0 ≤ M) ∨
    ∃ c < 3, SortAllowed j (idx.getD 0 0) (idx.getD 1 0) c ∧ forRange 0 3 (sortPick eval j) (M, idx) = .ok (eval.getD c 0, idx.set j (c : ℤ)) ∧
      M < eval.getD c 0 ∧ ∀ i < 3, SortAllowed j (idx.getD 0 0) (idx.getD 1 0) i → eval.getD i 0 ≤ eval.getD c 0 := by
  obtain ⟨x0, x1, x2, rfl⟩ : ∃ x0 x1 x2, idx = [x0, x1, x2] := List.length_eq_three.1 hl
  have rds : ∀ (st : ℝ × List ℤ) (i : ℕ), i < 3 → (st.2 = [x0, x1, x2] ∨ ∃ c : ℤ, st.2 = [x0, x1, x2].set j c) →
      sortPick eval j i st = if SortAllowed j x0 x1 i then (if eval.getD i 0 > st.1 then Res.ok (eval.getD i 0, st.2.set j (i : ℤ)) else Res.ok st) else Res.ok st := by
    intro st i hi hst
    have hcond : ∀ y0 y1 y2 : ℤ, st.2 = [y0, y1, y2] → (j ≠ 0 → y0 = x0) → (j = 2 → y1 = x1) →
        sortPick eval j i st = if SortAllowed j x0 x1 i then (if eval.getD i 0 > st.1 then Res.ok (eval.getD i 0, st.2.set j (i : ℤ)) else Res.ok st) else Res.ok st := by
      intro y0 y1 y2 hy h0 h1
      have e1 : rd st.2 0 = .ok y0 := by rw [hy]; rfl
      have e2 : rd st.2 1 = .ok y1 := by rw [hy]; rfl
      have e3 : wr st.2 j (i : ℤ) = .ok (st.2.set j (i : ℤ)) := by
        unfold wr
        rw [if_pos (by rw [hy]; exact hj)]
      have hA : (j = 0 ∨ (j = 1 ∧ (i : ℤ) ≠ y0) ∨ (j = 2 ∧ (i : ℤ) ≠ y0 ∧ (i : ℤ) ≠ y1)) ↔ SortAllowed j x0 x1 i := by
        unfold SortAllowed
        rcases (show j = 0 ∨ j = 1 ∨ j = 2 by omega) with rfl | rfl | rfl
        · simp
        · rw [h0 (by norm_num)]
          simp
        · rw [h0 (by norm_num), h1 rfl]
      unfold sortPick
      rw [e1, e2, rd_getD (by omega), e3]
      simp only [Res.monad_bind_eq, Res.bind_ok, hA]
    rcases hst with h | ⟨c, h⟩
    · exact hcond x0 x1 x2 h (fun _ => rfl) fun _ => rfl
    · rcases (show j = 0 ∨ j = 1 ∨ j = 2 by omega) with rfl | rfl | rfl
      · exact hcond c x1 x2 h (by simp) (by simp)
      · exact hcond x0 c x2 h (by simp) (by simp)
      · exact hcond x0 x1 c h (by simp) (by simp)
  obtain ⟨t, e, ht⟩ := forRange_sat (fun k (st : ℝ × List ℤ) =>
      (st = (M, [x0, x1, x2]) ∧ ∀ i < k, SortAllowed j x0 x1 i → eval.getD i 0 ≤ M) ∨
      ∃ c < k, SortAllowed j x0 x1 c ∧ st = (eval.getD c 0, [x0, x1, x2].set j (c : ℤ)) ∧ M < eval.getD c 0 ∧
        ∀ i < k, SortAllowed j x0 x1 i → eval.getD i 0 ≤ eval.getD c 0) (Nat.zero_le 3) (body := sortPick eval j) (s := (M, [x0, x1, x2]))
    (Or.inl ⟨rfl, by simp⟩) (by
      intro i st _ hi h
      rw [rds st i hi (by
        rcases h with ⟨rfl, -⟩ | ⟨c, -, -, rfl, -⟩
        · exact Or.inl rfl
        · exact Or.inr ⟨c, rfl⟩)]
      by_cases hA : SortAllowed j x0 x1 i
      · rw [if_pos hA]
        rcases h with ⟨rfl, h⟩ | ⟨c, hc, hcA, rfl, hM, h⟩
        · by_cases hgt : eval.getD i 0 > M
          · rw [if_pos hgt, Res.sat_ok]
            refine Or.inr ⟨i, by omega, hA, rfl, hgt, fun k hk hkA => ?_⟩
            rcases (show k < i ∨ k = i by omega) with hk | rfl
            · exact (h k hk hkA).trans hgt.le
            · exact le_rfl
          · rw [if_neg hgt, Res.sat_ok]
            refine Or.inl ⟨rfl, fun k hk hkA => ?_⟩
            rcases (show k < i ∨ k = i by omega) with hk | rfl
            · exact h k hk hkA
            · exact not_lt.1 hgt
        · by_cases hgt : eval.getD i 0 > eval.getD c 0
          · rw [if_pos hgt, Res.sat_ok]
            refine Or.inr ⟨i, by omega, hA, by simp, hM.trans hgt, fun k hk hkA => ?_⟩
            rcases (show k < i ∨ k = i by omega) with hk | rfl
            · exact (h k hk hkA).trans hgt.le
            · exact le_rfl
          · rw [if_neg hgt, Res.sat_ok]
            refine Or.inr ⟨c, by omega, hcA, rfl, hM, fun k hk hkA => ?_⟩
            rcases (show k < i ∨ k = i by omega) with hk | rfl
            · exact h k hk hkA
            · exact not_lt.1 hgt
      · rw [if_neg hA, Res.sat_ok]
        rcases h with ⟨rfl, h⟩ | ⟨c, hc, hcA, rfl, hM, h⟩
        · refine Or.inl ⟨rfl, fun k hk hkA => ?_⟩
          rcases (show k < i ∨ k = i by omega) with hk | rfl
          · exact h k hk hkA
          · exact absurd hkA hA
        · refine Or.inr ⟨c, by omega, hcA, rfl, hM, fun k hk hkA => ?_⟩
          rcases (show k < i ∨ k = i by omega) with hk | rfl
          · exact h k hk hkA
          · exact absurd hkA hA)
  rcases ht with ⟨rfl, h⟩ | ⟨c, hc, hcA, rfl, hM, h⟩
  · exact Or.inl ⟨e, h⟩
  · exact Or.inr ⟨c, hc, hcA, e, hM, h⟩

/-- One turn of `Sort3x3`. -/
theorem sortStep_ok {eval : List ℝ} (he : eval.length = 3) (evec : ℕ → ℕ → ℝ) {idx : List ℤ} (hl : idx.length = 3) {j : ℕ} (hj : j < 3)
    (hu : idx.getD j 0 = -1) (h1 : List ℝ) (hh : h1.length = 3) (H : ℕ → ℕ → ℝ) :
    ((∃ w, sortStep eval evec j (idx, h1, H) = .ub w) ∧
      ∀ i < 3, SortAllowed j (idx.getD 0 0) (idx.getD 1 0) i → eval.getD i 0 ≤ -100000) ∨
    ∃ c < 3, SortAllowed j (idx.getD 0 0) (idx.getD 1 0) c ∧
      sortStep eval evec j (idx, h1, H) = .ok (idx.set j (c : ℤ), h1.set j (eval.getD c 0), fun a b => if b = j ∧ a < 3 then evec a c else H a b) ∧
      -100000 < eval.getD c 0 ∧ ∀ i < 3, SortAllowed j (idx.getD 0 0) (idx.getD 1 0) i → eval.getD i 0 ≤ eval.getD c 0 := by
  have hz : (-100000.0 : ℝ) = -100000 := by norm_num
  unfold sortStep
  have hw : ∀ v : ℝ, wr h1 j v = .ok (h1.set j v) := fun v => by
    unfold wr
    rw [if_pos (by omega)]
  rcases sortPick_ok he hl hj (-100000.0) with ⟨e, h⟩ | ⟨c, hc, hcA, e, hM, h⟩
  · refine Or.inl ⟨?_, fun i hi hA => hz ▸ h i hi hA⟩
    obtain ⟨w, e2⟩ := sortCols_ub evec idx j H (by
      unfold rd
      rw [← hu]
      simp [hl, hj])
    refine ⟨w, ?_⟩
    simp only [e, Res.monad_bind_eq, Res.bind_ok, hw, e2, Res.bind_ub]
  · refine Or.inr ⟨c, hc, hcA, ?_, hz ▸ hM, h⟩
    simp only [e, Res.monad_bind_eq, Res.bind_ok, hw]
    rw [sortCols_ok evec (idx.set j (c : ℤ)) j H hc (by
      unfold rd
      simp [hl, hj])]
    rfl

/-- `Sort3x3` with eigenvalues above -100000 sorts them, the largest first, and the columns of the matrix in the same way. If one is not
above, the matrix is read outside its memory. -/
theorem sort3x3_spec {eval : List ℝ} (he : eval.length = 3) (evec : ℕ → ℕ → ℝ) :
    ((∀ i < 3, -100000 < eval.getD i 0) → ∃ (σ : Equiv.Perm (Fin 3)) (H : ℕ → ℕ → ℝ),
      sort3x3 eval evec = .ok (List.ofFn (fun j => eval.getD (σ j) 0), H) ∧ (∀ (k j : Fin 3), H k j = evec k (σ j)) ∧
      ∀ j k : Fin 3, j ≤ k → eval.getD (σ k) 0 ≤ eval.getD (σ j) 0) ∧
    ((∃ i < 3, eval.getD i 0 ≤ -100000) → ∃ w, sort3x3 eval evec = .ub w) := by
  have main : ((∃ w, sort3x3 eval evec = .ub w) ∧ ∃ i < 3, eval.getD i 0 ≤ -100000) ∨
      ((∀ i < 3, -100000 < eval.getD i 0) ∧ ∃ (σ : Equiv.Perm (Fin 3)) (H : ℕ → ℕ → ℝ),
      sort3x3 eval evec = .ok (List.ofFn (fun j => eval.getD (σ j) 0), H) ∧ (∀ (k j : Fin 3), H k j = evec k (σ j)) ∧
      ∀ j k : Fin 3, j ≤ k → eval.getD (σ k) 0 ≤ eval.getD (σ j) 0) := by
    unfold sort3x3
    rw [forRange_succ (by norm_num)]
    rcases sortStep_ok he evec (idx := [-1, -1, -1]) rfl (j := 0) (by norm_num) rfl [0, 0, 0] rfl (fun _ _ => 0) with
      ⟨⟨w, e⟩, h⟩ | ⟨c0, hc0, hA0, e0, hM0, hmax0⟩
    · rw [e]
      exact Or.inl ⟨⟨w, rfl⟩, 0, by norm_num, h 0 (by norm_num) (Or.inl rfl)⟩
    rw [e0, Res.bind_ok, forRange_succ (by norm_num)]
    simp only [List.set_cons_zero]
    rcases sortStep_ok he evec (idx := [(c0 : ℤ), -1, -1]) rfl (j := 1) (by norm_num) rfl [eval.getD c0 0, 0, 0] rfl
      (fun a b => if b = 0 ∧ a < 3 then evec a c0 else 0) with ⟨⟨w, e⟩, h⟩ | ⟨c1, hc1, hA1, e1, hM1, hmax1⟩
    · rw [e]
      obtain ⟨i, hi, hne⟩ : ∃ i < 3, i ≠ c0 := by
        rcases Nat.eq_zero_or_pos c0 with h0 | h0
        · exact ⟨1, by norm_num, by omega⟩
        · exact ⟨0, by norm_num, by omega⟩
      exact Or.inl ⟨⟨w, rfl⟩, i, hi, h i hi (Or.inr (Or.inl ⟨rfl, by simpa using hne⟩))⟩
    rw [e1, Res.bind_ok, forRange_succ (by norm_num)]
    simp only [List.set_cons_zero, List.set_cons_succ]
    have h10 : c1 ≠ c0 := by
      unfold SortAllowed at hA1
      simpa using hA1
    rcases sortStep_ok he evec (idx := [(c0 : ℤ), c1, -1]) rfl (j := 2) (by norm_num) rfl [eval.getD c0 0, eval.getD c1 0, 0] rfl
      (fun a b => if b = 1 ∧ a < 3 then evec a c1 else if b = 0 ∧ a < 3 then evec a c0 else 0) with ⟨⟨w, e⟩, h⟩ | ⟨c2, hc2, hA2, e2, hM2, hmax2⟩
    · rw [e]
      obtain ⟨i, hi, hne⟩ : ∃ i < 3, i ≠ c0 ∧ i ≠ c1 := by
        rcases (show (c0 ≠ 0 ∧ c1 ≠ 0) ∨ (c0 ≠ 1 ∧ c1 ≠ 1) ∨ (c0 ≠ 2 ∧ c1 ≠ 2) by omega) with h | h | h
        · exact ⟨0, by norm_num, by omega⟩
        · exact ⟨1, by norm_num, by omega⟩
        · exact ⟨2, by norm_num, by omega⟩
      exact Or.inl ⟨⟨w, rfl⟩, i, hi, h i hi (Or.inr (Or.inr ⟨rfl, by simpa using hne⟩))⟩
    rw [e2, Res.bind_ok, forRange_empty (by norm_num)]
    simp only [List.set_cons_zero, List.set_cons_succ, Res.monad_bind_eq, Res.bind_ok]
    have h2 : c2 ≠ c0 ∧ c2 ≠ c1 := by
      unfold SortAllowed at hA2
      simpa using hA2
    right
    let f : Fin 3 → Fin 3 := ![⟨c0, hc0⟩, ⟨c1, hc1⟩, ⟨c2, hc2⟩]
    have hinj : Function.Injective f := by
      intro a b hab
      have := congrArg Fin.val hab
      fin_cases a <;> fin_cases b <;> simp [f] at this ⊢ <;> omega
    have hbij : Function.Bijective f := Finite.injective_iff_bijective.1 hinj
    have m1 : eval.getD c1 0 ≤ eval.getD c0 0 := hmax0 c1 hc1 (Or.inl rfl)
    have m2 : eval.getD c2 0 ≤ eval.getD c1 0 := hmax1 c2 hc2 (Or.inr (Or.inl ⟨rfl, by simpa using h2.1⟩))
    refine ⟨fun i hi => ?_, Equiv.ofBijective f hbij, _, rfl, fun k j => ?_, fun j k hjk => ?_⟩
    · obtain ⟨j, hj⟩ := hbij.2 ⟨i, hi⟩
      have hj' : ((f j : Fin 3) : ℕ) = i := congrArg Fin.val hj
      fin_cases j
      · have : c0 = i := hj'
        exact this ▸ hM0
      · have : c1 = i := hj'
        exact this ▸ hM1
      · have : c2 = i := hj'
        exact this ▸ hM2
    · fin_cases j
      · simp [f]
      · simp [f]
      · simp [f]
    · fin_cases j <;> fin_cases k
      · exact le_rfl
      · exact m1
      · exact m2.trans m1
      · exact absurd hjk (by decide)
      · exact le_rfl
      · exact m2
      · exact absurd hjk (by decide)
      · exact absurd hjk (by decide)
      · exact le_rfl
  constructor
  · intro h
    rcases main with ⟨-, i, hi, hle⟩ | ⟨-, h2⟩
    · exact absurd (h i hi) (not_lt.2 hle)
    · exact h2
  · rintro ⟨i, hi, hle⟩
    rcases main with ⟨h2, -⟩ | ⟨h, -⟩
    · exact h2
    · exact absurd (h i hi) (not_lt.2 hle)

example : (∀ i < 3, (-100000 : ℝ) < ([1, 3, 2] : List ℝ).getD i 0) ∧ ∃ i < 3, ([1, -200000, 2] : List ℝ).getD i 0 ≤ (-100000 : ℝ) := by
  refine ⟨fun i hi => ?_, 1, by norm_num, by norm_num⟩
  interval_cases i <;> norm_num

end Verif
