import Verif.Lemmas.Krig2DBlocks

/-! Helper lemmas: the data of the blocks. -/

namespace Verif

theorem toInt32_floor {x : ℝ} (h1 : -2 ^ 31 ≤ x) (h2 : x < 2 ^ 31) : toInt32 ⌊x⌋ = .ok ⌊x⌋ := by
  unfold toInt32
  rw [if_pos]
  constructor
  · rw [Int.le_floor]
    push_cast
    norm_num at h1 ⊢
    exact h1
  · rw [Int.floor_lt]
    push_cast
    norm_num at h2 ⊢
    exact h2

theorem toInt32_ceil {x : ℝ} (h1 : -2 ^ 31 ≤ x) (h2 : x ≤ 2 ^ 31 - 1) : toInt32 ⌈x⌉ = .ok ⌈x⌉ := by
  unfold toInt32
  rw [if_pos]
  constructor
  · have : (-2 ^ 31 : ℝ) ≤ (⌈x⌉ : ℝ) := h1.trans (Int.le_ceil x)
    exact_mod_cast this
  · have h3 : ⌈x⌉ ≤ 2 ^ 31 - 1 := by
      rw [Int.ceil_le]
      push_cast
      norm_num at h2 ⊢
      exact h2
    omega

/-- The search ends with a number between half of `P` and twice `P`. -/
theorem search_ok (count : ℕ → ℕ → ℕ → ℕ → ℕ) {rx ry : ℤ} {nx ny i0 i1 j0 j1 n_target : ℕ} {P : ℝ} (hP : 0 ≤ P)
    (hrx : 0 ≤ rx) (hry : 0 ≤ ry) {M N : ℕ} (hi0 : i0 ≤ M) (hi1 : i1 ≤ M) (hj0 : j0 ≤ N) (hj1 : j1 ≤ N)
    (hbx : (M : ℝ) + 2 * P * rx + 1 < 2 ^ 31) (hby : (N : ℝ) + 2 * P * ry + 1 < 2 ^ 31) :
    ∃ r s, untilLoop (searchStep count rx ry nx ny i0 i1 j0 j1 n_target 0.05) (P / 2, 2 * P) = .ok (r, s) ∧
      P / 2 ≤ r ∧ r ≤ 2 * P := by
  have key : ∀ (k : ℕ) (a b : ℝ), P / 2 ≤ a → a ≤ b → b ≤ 2 * P → b - a < 0.05 * 2 ^ k →
      ∃ r s, untilLoop (searchStep count rx ry nx ny i0 i1 j0 j1 n_target 0.05) (a, b) = .ok (r, s) ∧
        P / 2 ≤ r ∧ r ≤ 2 * P := by
    intro k
    induction k with
    | zero =>
      intro a b h1 h2 h3 h4
      rw [untilLoop_unfold]
      unfold searchStep
      rw [if_pos (by norm_num at h4 ⊢; exact h4), Res.bind_ok]
      exact ⟨_, _, rfl, by dsimp only; linarith, by dsimp only; linarith⟩
    | succ k ih =>
      intro a b h1 h2 h3 h4
      rw [untilLoop_unfold]
      unfold searchStep
      dsimp only
      by_cases hw : b - a < 0.05
      · rw [if_pos hw, Res.bind_ok]
        exact ⟨_, _, rfl, by linarith, by linarith⟩
      rw [if_neg hw]
      have hQ0 : 0 ≤ (b + a) / 2 := by linarith
      have hQ1 : (b + a) / 2 ≤ 2 * P := by linarith
      have hrx' : (0 : ℝ) ≤ rx := by exact_mod_cast hrx
      have hry' : (0 : ℝ) ≤ ry := by exact_mod_cast hry
      have mx : (b + a) / 2 * rx ≤ 2 * P * rx := mul_le_mul_of_nonneg_right hQ1 hrx'
      have my : (b + a) / 2 * ry ≤ 2 * P * ry := mul_le_mul_of_nonneg_right hQ1 hry'
      have mx0 : 0 ≤ (b + a) / 2 * rx := mul_nonneg hQ0 hrx'
      have my0 : 0 ≤ (b + a) / 2 * ry := mul_nonneg hQ0 hry'
      have c1 : (i0 : ℝ) ≤ M := by exact_mod_cast hi0
      have c2 : (i1 : ℝ) ≤ M := by exact_mod_cast hi1
      have c3 : (j0 : ℝ) ≤ N := by exact_mod_cast hj0
      have c4 : (j1 : ℝ) ≤ N := by exact_mod_cast hj1
      have p1 : (0 : ℝ) ≤ i0 := Nat.cast_nonneg _
      have p2 : (0 : ℝ) ≤ i1 := Nat.cast_nonneg _
      have p3 : (0 : ℝ) ≤ j0 := Nat.cast_nonneg _
      have p4 : (0 : ℝ) ≤ j1 := Nat.cast_nonneg _
      simp only [Res.monad_bind_eq]
      rw [toInt32_floor (by linarith) (by linarith), Res.bind_ok, toInt32_floor (by linarith) (by linarith), Res.bind_ok,
        toInt32_floor (by linarith) (by linarith), Res.bind_ok, toInt32_floor (by linarith) (by linarith), Res.bind_ok]
      rw [pow_succ] at h4
      split
      · rw [Res.bind_ok]
        exact ih _ _ (by linarith) (by linarith) h3 (by linarith)
      · split
        · rw [Res.bind_ok]
          exact ih _ _ h1 (by linarith) (by linarith) (by linarith)
        · rw [Res.bind_ok]
          exact ⟨_, _, rfl, by linarith, by linarith⟩
  obtain ⟨k, hk⟩ := pow_unbounded_of_one_lt ((2 * P - P / 2) / 0.05) (one_lt_two)
  refine key k _ _ le_rfl (by linarith) le_rfl ?_
  rw [div_lt_iff₀ (by norm_num)] at hk
  linarith

/-- The data of a block are chosen by bounds, at least half of `P` and at most twice `P` ranges outside the block. -/
theorem blockData_ok {D : Type} (count : ℕ → ℕ → ℕ → ℕ → ℕ) (select : ℕ → ℕ → ℕ → ℕ → D) {P : ℝ} {rx ry : ℤ}
    {nx ny nxb nyb n_target i j : ℕ} (hP : 0 ≤ P) (hrx : 0 ≤ rx) (hry : 0 ≤ ry) {M N : ℕ} (hi : (i + 1) * nxb ≤ M)
    (hj : (j + 1) * nyb ≤ N) (hbx : (M : ℝ) + 2 * P * rx + 1 < 2 ^ 31) (hby : (N : ℝ) + 2 * P * ry + 1 < 2 ^ 31)
    (hnx : nx < 2 ^ 31) (hny : ny < 2 ^ 31) :
    ∃ i0 i1 j0 j1 : ℕ, blockData count select P rx ry nx ny nxb nyb n_target i j = .ok (select i0 i1 j0 j1) ∧
      (∀ x : ℝ, 0 ≤ x → ((i * nxb : ℕ) : ℝ) - P / 2 * rx ≤ x → (i0 : ℝ) ≤ x) ∧
      (∀ x : ℝ, x ≤ nx → x ≤ (((i + 1) * nxb : ℕ) : ℝ) + P / 2 * rx → x ≤ i1) ∧
      (i1 : ℝ) ≤ (((i + 1) * nxb : ℕ) : ℝ) + 2 * P * rx + 1 ∧ ((i * nxb : ℕ) : ℝ) - 2 * P * rx - 1 ≤ i0 ∧
      (∀ x : ℝ, 0 ≤ x → ((j * nyb : ℕ) : ℝ) - P / 2 * ry ≤ x → (j0 : ℝ) ≤ x) ∧
      (∀ x : ℝ, x ≤ ny → x ≤ (((j + 1) * nyb : ℕ) : ℝ) + P / 2 * ry → x ≤ j1) ∧
      (j1 : ℝ) ≤ (((j + 1) * nyb : ℕ) : ℝ) + 2 * P * ry + 1 ∧ ((j * nyb : ℕ) : ℝ) - 2 * P * ry - 1 ≤ j0 := by
  have hi' : i * nxb ≤ M := (Nat.mul_le_mul_right _ (Nat.le_succ i)).trans hi
  have hj' : j * nyb ≤ N := (Nat.mul_le_mul_right _ (Nat.le_succ j)).trans hj
  obtain ⟨r, s, hr, hr1, hr2⟩ := search_ok count (nx := nx) (ny := ny) (n_target := n_target) hP hrx hry (M := M) (N := N)
    (i0 := i * nxb) (i1 := min ((i + 1) * nxb) nx) (j0 := j * nyb) (j1 := min ((j + 1) * nyb) ny)
    hi' ((min_le_left _ _).trans hi) hj' ((min_le_left _ _).trans hj) hbx hby
  have one : ∀ (M m n nb : ℕ) (ρ : ℤ), 0 ≤ ρ → (m + 1) * nb ≤ M → m * nb ≤ M → (M : ℝ) + 2 * P * ρ + 1 < 2 ^ 31 → n < 2 ^ 31 →
      ∃ a b : ℤ, toInt32 ⌊((m * nb : ℕ) : ℝ) - r * ρ⌋ = .ok a ∧ toInt32 ⌈(((m + 1) * nb : ℕ) : ℝ) + r * ρ⌉ = .ok b ∧
        (∀ x : ℝ, 0 ≤ x → ((m * nb : ℕ) : ℝ) - P / 2 * ρ ≤ x → (sizeOf32 (max a 0) : ℝ) ≤ x) ∧
        (∀ x : ℝ, x ≤ n → x ≤ (((m + 1) * nb : ℕ) : ℝ) + P / 2 * ρ → x ≤ sizeOf32 (min b n)) ∧
        (sizeOf32 (min b n) : ℝ) ≤ (((m + 1) * nb : ℕ) : ℝ) + 2 * P * ρ + 1 ∧
        ((m * nb : ℕ) : ℝ) - 2 * P * ρ - 1 ≤ sizeOf32 (max a 0) := by
    intro M m n nb ρ hρ h1 h2 hb hn
    have hρ' : (0 : ℝ) ≤ ρ := by exact_mod_cast hρ
    have m1 : r * ρ ≤ 2 * P * ρ := mul_le_mul_of_nonneg_right hr2 hρ'
    have m2 : P / 2 * ρ ≤ r * ρ := mul_le_mul_of_nonneg_right hr1 hρ'
    have m3 : 0 ≤ P / 2 * ρ := by positivity
    have c1 : (((m + 1) * nb : ℕ) : ℝ) ≤ M := by exact_mod_cast h1
    have c2 : ((m * nb : ℕ) : ℝ) ≤ M := by exact_mod_cast h2
    have p1 : (0 : ℝ) ≤ (((m + 1) * nb : ℕ) : ℝ) := Nat.cast_nonneg _
    have p2 : (0 : ℝ) ≤ ((m * nb : ℕ) : ℝ) := Nat.cast_nonneg _
    have f1 := toInt32_floor (x := ((m * nb : ℕ) : ℝ) - r * ρ) (by linarith) (by linarith)
    have f2 := toInt32_ceil (x := (((m + 1) * nb : ℕ) : ℝ) + r * ρ) (by linarith) (by linarith)
    have sz : ∀ z : ℤ, 0 ≤ z → z < 2 ^ 31 → (sizeOf32 z : ℤ) = z := by
      intro z h0 h1
      unfold sizeOf32
      rw [Int.toNat_of_nonneg (Int.emod_nonneg _ (by norm_num)), Int.emod_eq_of_lt h0 (by omega)]
    have g1 : ⌊((m * nb : ℕ) : ℝ) - r * ρ⌋ < 2 ^ 31 := by
      rw [Int.floor_lt]
      push_cast at *
      linarith
    have g2 : 0 ≤ ⌈(((m + 1) * nb : ℕ) : ℝ) + r * ρ⌉ := by
      refine Int.ceil_nonneg ?_
      linarith
    refine ⟨_, _, f1, f2, ?_, ?_, ?_, ?_⟩
    · intro x hx0 hx
      have e : ((sizeOf32 (max ⌊((m * nb : ℕ) : ℝ) - r * ρ⌋ 0) : ℤ) : ℝ) = max (⌊((m * nb : ℕ) : ℝ) - r * ρ⌋ : ℝ) 0 := by
        rw [sz _ (le_max_right _ _) (max_lt g1 (by norm_num)), Int.cast_max, Int.cast_zero]
      rw [Int.cast_natCast] at e
      rw [e]
      exact max_le ((Int.floor_le _).trans (by linarith)) hx0
    · intro x hxn hx
      have e : ((sizeOf32 (min ⌈(((m + 1) * nb : ℕ) : ℝ) + r * ρ⌉ n) : ℤ) : ℝ) = min (⌈(((m + 1) * nb : ℕ) : ℝ) + r * ρ⌉ : ℝ) n := by
        rw [sz _ (le_min g2 (by omega)) (lt_of_le_of_lt (min_le_right _ _) (by omega)), Int.cast_min, Int.cast_natCast]
      rw [Int.cast_natCast] at e
      rw [e]
      exact le_min (le_trans (by linarith) (Int.le_ceil _)) hxn
    · have e := sz _ (le_min g2 (Int.natCast_nonneg n)) (lt_of_le_of_lt (min_le_right _ _) (by omega))
      have e1 : (sizeOf32 (min ⌈(((m + 1) * nb : ℕ) : ℝ) + r * ρ⌉ n) : ℤ) ≤ ⌈(((m + 1) * nb : ℕ) : ℝ) + r * ρ⌉ :=
        e.le.trans (min_le_left _ _)
      have e2 : (sizeOf32 (min ⌈(((m + 1) * nb : ℕ) : ℝ) + r * ρ⌉ n) : ℝ) ≤ ⌈(((m + 1) * nb : ℕ) : ℝ) + r * ρ⌉ := by
        exact_mod_cast e1
      have := Int.ceil_lt_add_one ((((m + 1) * nb : ℕ) : ℝ) + r * ρ)
      linarith
    · have e := sz _ (le_max_right ⌊((m * nb : ℕ) : ℝ) - r * ρ⌋ 0) (max_lt g1 (by norm_num))
      have e1 : ⌊((m * nb : ℕ) : ℝ) - r * ρ⌋ ≤ (sizeOf32 (max ⌊((m * nb : ℕ) : ℝ) - r * ρ⌋ 0) : ℤ) :=
        (le_max_left _ _).trans e.ge
      have e2 : (⌊((m * nb : ℕ) : ℝ) - r * ρ⌋ : ℝ) ≤ (sizeOf32 (max ⌊((m * nb : ℕ) : ℝ) - r * ρ⌋ 0) : ℝ) := by
        exact_mod_cast e1
      have := Int.sub_one_lt_floor (((m * nb : ℕ) : ℝ) - r * ρ)
      linarith
  obtain ⟨a, b, e1, e2, q1, q2, q3, q4⟩ := one M i nx nxb rx hrx hi hi' hbx hnx
  obtain ⟨a', b', e1', e2', q1', q2', q3', q4'⟩ := one N j ny nyb ry hry hj hj' hby hny
  refine ⟨_, _, _, _, ?_, q1, q2, q3, q4, q1', q2', q3', q4'⟩
  unfold blockData
  simp only [Res.monad_bind_eq]
  rw [hr, Res.bind_ok]
  dsimp only
  rw [e1, Res.bind_ok, e2, Res.bind_ok, e1', Res.bind_ok, e2', Res.bind_ok]

theorem addData_fresh {d : List Datum} {i j : ℤ} {v : ℝ} (hv : v ≠ 99999) (h : (i, j) ∉ d.map Datum.loc) :
    addData d i j v = d ++ [⟨i, j, v, 1⟩] := by
  rw [addData_eq d i j hv]
  induction d with
  | nil => rfl
  | cons e d ih =>
    rw [List.map_cons, List.mem_cons, not_or] at h
    rw [insData, if_neg, ih h.2, List.cons_append]
    rintro ⟨rfl, rfl⟩
    exact h.1 rfl

/-- The data of a block are a part of the data, in the same order. -/
theorem addDataToBlock_eq {d : List Datum} (hd : (d.map Datum.loc).Nodup) (i0 i1 j0 j1 : ℕ) :
    findMeanValues (addDataToBlock d [] i0 i1 j0 j1)
      = (d.filter fun e => e.inBlock i0 i1 j0 j1 ∧ e.value ≠ 99999).map fun e => { e with count := 1 } := by
  have key : ∀ (l acc : List Datum), (l.map Datum.loc).Nodup → (∀ e ∈ l, e.loc ∉ acc.map Datum.loc) →
      l.foldl (fun b e => if e.inBlock i0 i1 j0 j1 = true then addData b e.i e.j e.value else b) acc
        = acc ++ (l.filter fun e => e.inBlock i0 i1 j0 j1 ∧ e.value ≠ 99999).map fun e => { e with count := 1 } := by
    intro l
    induction l with
    | nil => intro acc _ _; simp
    | cons e l ih =>
      intro acc hl ha
      rw [List.map_cons, List.nodup_cons] at hl
      rw [List.foldl_cons]
      by_cases hb : e.inBlock i0 i1 j0 j1 = true
      · rw [if_pos hb]
        by_cases hv : e.value = 99999
        · rw [hv, addData_missing, ih acc hl.2 fun f hf => ha f (List.mem_cons_of_mem _ hf),
            List.filter_cons_of_neg (by simp [hv])]
        · rw [addData_fresh hv (ha e List.mem_cons_self), ih _ hl.2, List.filter_cons_of_pos (by simp [hb, hv]),
            List.map_cons, List.append_assoc]
          · rfl
          · intro f hf hc
            rw [List.map_append, List.mem_append] at hc
            rcases hc with hc | hc
            · exact ha f (List.mem_cons_of_mem _ hf) hc
            · rw [List.map_cons, List.map_nil, List.mem_singleton] at hc
              exact hl.1 (List.mem_map.2 ⟨f, hf, hc⟩)
      · rw [if_neg hb, ih acc hl.2 fun f hf => ha f (List.mem_cons_of_mem _ hf),
            List.filter_cons_of_neg (by simp [hb])]
  unfold addDataToBlock
  rw [key d [] hd (by simp), List.nil_append]
  unfold findMeanValues
  rw [List.map_map]
  refine List.map_congr_left fun e _ => ?_
  simp

/-- Fewer data keep the correlation matrix positive definite. -/
theorem nodeCorr_sub {c : ℤ → ℤ → ℝ} {d D : List Datum} (hD : (D.map Datum.loc).Nodup)
    (hs : ∀ x ∈ D, ∃ e ∈ d, e.loc = x.loc) (h : (nodeCorr c d).PosDef) : (nodeCorr c D).PosDef := by
  have hσ : ∀ a : Fin D.length, ∃ b : Fin d.length, d[b].loc = D[a].loc := by
    intro a
    obtain ⟨e, he, hl⟩ := hs D[a] (List.getElem_mem _)
    obtain ⟨b, hb, rfl⟩ := List.getElem_of_mem he
    exact ⟨⟨b, hb⟩, hl⟩
  choose σ hσ using hσ
  have hinj : Function.Injective σ := by
    intro a b hab
    rw [List.nodup_iff_injective_get] at hD
    have := @hD ⟨a, by rw [List.length_map]; exact a.2⟩ ⟨b, by rw [List.length_map]; exact b.2⟩ (by
      simp only [List.get_eq_getElem, List.getElem_map]
      have e1 := hσ a
      rw [hab, hσ b] at e1
      exact e1.symm)
    exact Fin.ext (by simpa using this)
  have := h.submatrix (e := σ) hinj
  convert this using 1
  ext a b
  unfold nodeCorr
  rw [Matrix.submatrix_apply, Matrix.of_apply, Matrix.of_apply]
  have e : ∀ a : Fin D.length, D[a].i = d[σ a].i ∧ D[a].j = d[σ a].j := by
    intro a
    have := hσ a
    unfold Datum.loc at this
    rw [Prod.mk.injEq] at this
    exact ⟨this.1.symm, this.2.symm⟩
  rw [(e a).1, (e a).2, (e b).1, (e b).2]

/-- Changing the counts changes nothing. -/
theorem krigged_count {c : ℤ → ℤ → ℝ} (T : ℕ → ℕ → ℝ) (d : List Datum) (i j : ℕ) :
    krigged c T (d.map fun e => { e with count := 1 }) i j = krigged c T d i j := by
  have h : ∀ (D : List Datum), D = (d.map fun e => { e with count := 1 }) → krigged c T D i j = krigged c T d i j := by
    intro D hD
    have hl : D.length = d.length := by rw [hD, List.length_map]
    have e : ∀ a : Fin D.length, D[a].i = d[Fin.cast hl a].i ∧ D[a].j = d[Fin.cast hl a].j ∧ D[a].value = d[Fin.cast hl a].value := by
      intro a
      have : D[a] = { d[Fin.cast hl a] with count := 1 } := by
        subst hD
        exact List.getElem_map _
      rw [this]
      exact ⟨rfl, rfl, rfl⟩
    unfold krigged
    have hM : nodeCorr c D = (nodeCorr c d).submatrix (finCongr hl) (finCongr hl) := by
      ext a b
      unfold nodeCorr
      rw [Matrix.submatrix_apply, Matrix.of_apply, Matrix.of_apply, (e a).1, (e a).2.1, (e b).1, (e b).2.1]
      rfl
    have hR : nodeRes T D = nodeRes T d ∘ finCongr hl := by
      funext a
      unfold nodeRes
      rw [(e a).1, (e a).2.1, (e a).2.2]
      rfl
    rw [hM, hR, Matrix.inv_submatrix_equiv, Matrix.submatrix_mulVec_equiv]
    refine Fintype.sum_equiv (finCongr hl) _ _ fun a => ?_
    rw [(e a).1, (e a).2.1]
    simp only [Function.comp_apply, Function.comp_assoc, Equiv.self_comp_symm, Function.comp_id]
    rfl
  exact h _ rfl

theorem cellsPerBlock_mul (n m : ℕ) (hm : 0 < m) : m * cellsPerBlock n m ≤ 2 * n ∧ n ≤ m * cellsPerBlock n m + m / 2 := by
  have hm' : (0 : ℝ) < m := by exact_mod_cast hm
  have h0 : (0 : ℝ) ≤ (n : ℝ) / m + 0.5 := by positivity
  have hf : 0 ≤ ⌊(n : ℝ) / m + 0.5⌋ := Int.floor_nonneg.2 h0
  have hc : ((cellsPerBlock n m : ℕ) : ℤ) = ⌊(n : ℝ) / m + 0.5⌋ := by
    unfold cellsPerBlock
    exact Int.toNat_of_nonneg hf
  have hc' : ((cellsPerBlock n m : ℕ) : ℝ) = (⌊(n : ℝ) / m + 0.5⌋ : ℝ) := by exact_mod_cast hc
  have h1 : ((cellsPerBlock n m : ℕ) : ℝ) ≤ (n : ℝ) / m + 0.5 := hc' ▸ Int.floor_le _
  have h2 : (n : ℝ) / m + 0.5 < ((cellsPerBlock n m : ℕ) : ℝ) + 1 := hc' ▸ Int.lt_floor_add_one _
  have e1 : (m : ℝ) * (n / m) = n := by field_simp
  constructor
  · rcases Nat.eq_zero_or_pos (cellsPerBlock n m) with h | h
    · rw [h]; simp
    · have h3 : (1 : ℝ) ≤ ((cellsPerBlock n m : ℕ) : ℝ) := by exact_mod_cast h
      have h4 : ((cellsPerBlock n m : ℕ) : ℝ) ≤ 2 * (n / m) := by linarith
      have h5 := mul_le_mul_of_nonneg_left h4 hm'.le
      have h6 : ((m * cellsPerBlock n m : ℕ) : ℝ) ≤ ((2 * n : ℕ) : ℝ) := by
        push_cast
        linarith
      exact_mod_cast h6
  · have h3 : (n : ℝ) / m < ((cellsPerBlock n m : ℕ) : ℝ) + 1 / 2 := by linarith
    have h5 := mul_lt_mul_of_pos_left h3 hm'
    have h6 : ((2 * n : ℕ) : ℝ) < ((2 * (m * cellsPerBlock n m) + m : ℕ) : ℝ) := by
      push_cast
      linarith
    have h7 : 2 * n < 2 * (m * cellsPerBlock n m) + m := by exact_mod_cast h6
    omega

/-- The list of all blocks, with any property of their data. -/
theorem blockList_ok {D : Type} {m n : ℕ} (f : ℕ → ℕ → Res D) (R : ℕ → ℕ → D → Prop)
    (hf : ∀ i < m, ∀ j < n, (f i j).Sat (R i j)) :
    (forRange 0 m (fun i blocks => forRange 0 n (fun j blocks => do
      let d ← f i j
      .ok (blocks ++ [((i, j), d)])) blocks) ([] : List ((ℕ × ℕ) × D))).Sat fun L =>
      (L.map Prod.fst).Nodup ∧ (∀ b, b ∈ L.map Prod.fst ↔ b.1 < m ∧ b.2 < n) ∧ ∀ b ∈ L, R b.1.1 b.1.2 b.2 := by
  have key := forRange_sat (lo := 0) (hi := m) (s := ([] : List ((ℕ × ℕ) × D)))
    (body := fun i blocks => forRange 0 n (fun j blocks => (f i j).bind fun d => .ok (blocks ++ [((i, j), d)])) blocks)
    (fun i L => (L.map Prod.fst).Nodup ∧ (∀ b, b ∈ L.map Prod.fst ↔ b.1 < i ∧ b.2 < n) ∧ ∀ b ∈ L, R b.1.1 b.1.2 b.2)
    (Nat.zero_le _) ⟨by simp, by simp, by simp⟩ ?_
  · exact key
  · rintro i L - hi ⟨h1, h2, h3⟩
    have key2 := forRange_sat (lo := 0) (hi := n) (s := L)
      (body := fun j blocks => (f i j).bind fun d => .ok (blocks ++ [((i, j), d)]))
      (fun j L => (L.map Prod.fst).Nodup ∧ (∀ b, b ∈ L.map Prod.fst ↔ (b.1 < i ∧ b.2 < n) ∨ (b.1 = i ∧ b.2 < j)) ∧
        ∀ b ∈ L, R b.1.1 b.1.2 b.2) (Nat.zero_le _) ⟨h1, by simpa using h2, h3⟩ ?_
    · refine key2.mono ?_
      rintro L' ⟨k1, k2, k3⟩
      refine ⟨k1, fun b => ?_, k3⟩
      rw [k2]
      omega
    · rintro j L' - hj ⟨k1, k2, k3⟩
      refine Res.Sat.bind (hf i hi j hj) fun d hd => ?_
      rw [Res.sat_ok]
      refine ⟨?_, ?_, ?_⟩
      · rw [List.map_append, List.nodup_append]
        refine ⟨k1, by simp, ?_⟩
        intro a ha b hb
        simp only [List.map_cons, List.map_nil, List.mem_singleton] at hb
        rw [k2] at ha
        rintro rfl
        subst hb
        dsimp only at ha
        omega
      · intro b
        rw [List.map_append, List.mem_append, k2]
        simp only [List.map_cons, List.map_nil, List.mem_singleton, Prod.ext_iff]
        omega
      · intro b hb
        rcases List.mem_append.1 hb with hb | hb
        · exact k3 b hb
        · rw [List.mem_singleton] at hb
          subst hb
          exact hd

end Verif
