import Verif.Lemmas.Krig2DBlock

/-! Helper lemmas: all blocks of kriging from data at nodes. -/

namespace Verif

open Grid2D

/-- The nodes of a block. -/
def BlockHas (nx ny nxb nyb n_blocks_x n_blocks_y : ℕ) (b : ℕ × ℕ) (i j : ℕ) : Prop :=
  b.1 * nxb ≤ i ∧ i < blockEnd b.1 n_blocks_x nxb nx ∧ b.2 * nyb ≤ j ∧ j < blockEnd b.2 n_blocks_y nyb ny

theorem block1_disjoint {n nb m b b' i : ℕ} (hb : b < n) (hb' : b' < n) (h1 : b * nb ≤ i) (h2 : i < blockEnd b n nb m)
    (h1' : b' * nb ≤ i) (h2' : i < blockEnd b' n nb m) : b = b' := by
  by_contra hne
  have key : ∀ p q : ℕ, p < q → q < n → i < blockEnd p n nb m → q * nb ≤ i → False := by
    intro p q hpq hq hi hi'
    unfold blockEnd at hi
    rw [if_neg (by omega)] at hi
    have := lt_of_lt_of_le hi (min_le_left _ _)
    have h3 : (p + 1) * nb ≤ q * nb := Nat.mul_le_mul_right _ hpq
    omega
  rcases Nat.lt_or_gt_of_ne hne with h | h
  · exact key b b' h hb' h2 h1'
  · exact key b' b h hb h2' h1

theorem block1_cover {n nb m i : ℕ} (hn : 0 < n) (hi : i < m) : ∃ b < n, b * nb ≤ i ∧ i < blockEnd b n nb m := by
  by_cases h : (n - 1) * nb ≤ i
  · refine ⟨n - 1, by omega, h, ?_⟩
    unfold blockEnd
    rwa [if_pos rfl]
  · push Not at h
    have hnb : 0 < nb := by
      rcases Nat.eq_zero_or_pos nb with rfl | h'
      · simp at h
      · exact h'
    have hlt : i / nb < n - 1 := (Nat.div_lt_iff_lt_mul hnb).2 h
    refine ⟨i / nb, by omega, Nat.div_mul_le_self i nb, ?_⟩
    unfold blockEnd
    rw [if_neg (by omega), lt_min_iff]
    refine ⟨?_, hi⟩
    have := Nat.lt_div_mul_add (a := i) hnb
    rw [Nat.add_mul, Nat.one_mul]
    exact this

theorem blockHas_disjoint {nx ny nxb nyb n_blocks_x n_blocks_y : ℕ} {b b' : ℕ × ℕ} {i j : ℕ}
    (hb : b.1 < n_blocks_x ∧ b.2 < n_blocks_y) (hb' : b'.1 < n_blocks_x ∧ b'.2 < n_blocks_y)
    (h : BlockHas nx ny nxb nyb n_blocks_x n_blocks_y b i j) (h' : BlockHas nx ny nxb nyb n_blocks_x n_blocks_y b' i j) :
    b = b' :=
  Prod.ext (block1_disjoint hb.1 hb'.1 h.1 h.2.1 h'.1 h'.2.1)
    (block1_disjoint hb.2 hb'.2 h.2.2.1 h.2.2.2 h'.2.2.1 h'.2.2.2)

theorem blockHas_cover {nx ny nxb nyb n_blocks_x n_blocks_y : ℕ} (hx : 0 < n_blocks_x) (hy : 0 < n_blocks_y) {i j : ℕ}
    (hi : i < nx) (hj : j < ny) :
    ∃ b : ℕ × ℕ, b.1 < n_blocks_x ∧ b.2 < n_blocks_y ∧ BlockHas nx ny nxb nyb n_blocks_x n_blocks_y b i j := by
  obtain ⟨bx, h1, h2, h3⟩ := block1_cover (nb := nxb) hx hi
  obtain ⟨by_, h1', h2', h3'⟩ := block1_cover (nb := nyb) hy hj
  exact ⟨(bx, by_), h1, h1', h2, h3, h2', h3'⟩

section
variable {nx ny : ℕ} {c : ℤ → ℤ → ℝ} {cov : CovTable} {T0 : ℕ → ℕ → ℝ} {trend_orig : Grid2D ℝ}
  {nxb nyb n_blocks_x n_blocks_y : ℕ} {gr : Bool}

/-- A block without data does nothing. -/
theorem krigBlock_nil (bx by_ : ℕ) (st : Grid2D ℝ × Grid2D ℝ) :
    krigBlockNodal trend_orig [] cov bx by_ nxb nyb n_blocks_x n_blocks_y gr st = .ok st := by
  unfold krigBlockNodal
  dsimp only
  rw [if_neg (by simp)]

/-- All the blocks of a list. -/
theorem overBlocks_ok (hnx : nx < 2 ^ 31) (hny : ny < 2 ^ 31) (hs : ∀ x y, c (-x) (-y) = c x y)
    (hc : ∀ x y : ℤ, |x| < nx → |y| < ny → cov.getCov x y = .ok (c x y)) (hT0 : Holds nx ny T0 trend_orig)
    (L : List ((ℕ × ℕ) × List Datum)) (hL : (L.map Prod.fst).Nodup)
    (hLb : ∀ b ∈ L, b.1.1 < n_blocks_x ∧ b.1.2 < n_blocks_y) (hd : ∀ b ∈ L, DataIn nx ny b.2)
    {T F : ℕ → ℕ → ℝ} {st : Grid2D ℝ × Grid2D ℝ} (hT : Holds nx ny T st.1) (hF : Holds nx ny F st.2)
    (hF0 : ∀ b ∈ L, ∀ i < nx, ∀ j < ny, BlockHas nx ny nxb nyb n_blocks_x n_blocks_y b.1 i j → F i j = 0) :
    ((∃ b ∈ L, b.2 ≠ [] ∧ ¬ (nodeCorr c b.2).PosDef) →
      ∃ msg, overBlocks (fun bx by_ db => krigBlockNodal trend_orig db cov bx by_ nxb nyb n_blocks_x n_blocks_y gr) L st
        = .throws msg) ∧
    ((∀ b ∈ L, b.2 ≠ [] → (nodeCorr c b.2).PosDef) →
      (overBlocks (fun bx by_ db => krigBlockNodal trend_orig db cov bx by_ nxb nyb n_blocks_x n_blocks_y gr) L st).Sat
        fun st' => ∃ T', Holds nx ny T' st'.1 ∧
          (∀ b ∈ L, ∀ i < nx, ∀ j < ny, BlockHas nx ny nxb nyb n_blocks_x n_blocks_y b.1 i j →
            T' i j = if b.2 = [] then T i j else (if gr = true then 0 else T i j) + krigged c T0 b.2 i j) ∧
          ∀ i < nx, ∀ j < ny, (∀ b ∈ L, ¬ BlockHas nx ny nxb nyb n_blocks_x n_blocks_y b.1 i j) → T' i j = T i j) := by
  classical
  induction L generalizing T F st with
  | nil =>
    refine ⟨by rintro ⟨b, hb, -⟩; simp at hb, fun _ => ?_⟩
    rw [overBlocks, Res.sat_ok]
    exact ⟨T, hT, by simp, fun _ _ _ _ _ => rfl⟩
  | cons b L ih =>
    rw [List.map_cons, List.nodup_cons] at hL
    have hLb' : ∀ b ∈ L, b.1.1 < n_blocks_x ∧ b.1.2 < n_blocks_y := fun a ha => hLb a (List.mem_cons_of_mem _ ha)
    have hdis : ∀ a ∈ L, ∀ i j, BlockHas nx ny nxb nyb n_blocks_x n_blocks_y a.1 i j →
        ¬ BlockHas nx ny nxb nyb n_blocks_x n_blocks_y b.1 i j := by
      intro a ha i j h1 h2
      have := blockHas_disjoint (hLb' a ha) (hLb b List.mem_cons_self) h1 h2
      exact hL.1 (this ▸ List.mem_map.2 ⟨a, ha, rfl⟩)
    rw [overBlocks]
    by_cases h0 : b.2 = []
    · have hstep : krigBlockNodal trend_orig b.2 cov b.1.1 b.1.2 nxb nyb n_blocks_x n_blocks_y gr st = .ok st := by
        rw [h0]
        exact krigBlock_nil _ _ _
      rw [hstep, Res.bind_ok]
      obtain ⟨i1, i2⟩ := ih hL.2 hLb' (fun a ha => hd a (List.mem_cons_of_mem _ ha)) hT hF
        (fun a ha => hF0 a (List.mem_cons_of_mem _ ha))
      constructor
      · rintro ⟨a, ha, ha1, ha2⟩
        rcases List.mem_cons.1 ha with rfl | ha
        · exact absurd h0 ha1
        · exact i1 ⟨a, ha, ha1, ha2⟩
      · intro hp
        refine (i2 fun a ha => hp a (List.mem_cons_of_mem _ ha)).mono ?_
        rintro st' ⟨T', hT', k1, k2⟩
        refine ⟨T', hT', ?_, fun i hi j hj hn => k2 i hi j hj fun a ha => hn a (List.mem_cons_of_mem _ ha)⟩
        intro a ha i hi j hj hB
        rcases List.mem_cons.1 ha with rfl | ha
        · rw [if_pos h0]
          exact k2 i hi j hj fun a' ha' h => hdis a' ha' i j h hB
        · exact k1 a ha i hi j hj hB
    · obtain ⟨k1, k2⟩ := krigBlock_ok hnx hny (hd b List.mem_cons_self) hs hc hT0 hT hF h0 gr
        (BlockHas nx ny nxb nyb n_blocks_x n_blocks_y b.1) (fun i j => Iff.rfl) (hF0 b List.mem_cons_self)
      by_cases hp : (nodeCorr c b.2).PosDef
      · obtain ⟨st1, hst1, hT1, F1, hF1, hF1'⟩ := k2 hp
        rw [hst1, Res.bind_ok]
        obtain ⟨i1, i2⟩ := ih hL.2 hLb' (fun a ha => hd a (List.mem_cons_of_mem _ ha)) hT1 hF1 (by
          intro a ha i hi j hj hB
          rw [hF1' i hi j hj (hdis a ha i j hB)]
          exact hF0 a (List.mem_cons_of_mem _ ha) i hi j hj hB)
        constructor
        · rintro ⟨a, ha, ha1, ha2⟩
          rcases List.mem_cons.1 ha with rfl | ha
          · exact absurd hp ha2
          · exact i1 ⟨a, ha, ha1, ha2⟩
        · intro hp'
          refine (i2 fun a ha => hp' a (List.mem_cons_of_mem _ ha)).mono ?_
          rintro st' ⟨T', hT', m1, m2⟩
          refine ⟨T', hT', ?_, ?_⟩
          · intro a ha i hi j hj hB
            rcases List.mem_cons.1 ha with rfl | ha
            · rw [if_neg h0, m2 i hi j hj fun a' ha' h => hdis a' ha' i j h hB, if_pos hB]
            · rw [m1 a ha i hi j hj hB]
              simp only [if_neg (hdis a ha i j hB)]
          · intro i hi j hj hn
            rw [m2 i hi j hj fun a ha => hn a (List.mem_cons_of_mem _ ha), if_neg (hn b List.mem_cons_self)]
      · obtain ⟨msg, hm⟩ := k1 hp
        rw [hm]
        constructor
        · intro _
          exact ⟨msg, rfl⟩
        · intro h
          exact absurd (h b List.mem_cons_self h0) hp

end

theorem cellsPerBlock_one (n : ℕ) : cellsPerBlock n 1 = n := by
  unfold cellsPerBlock
  rw [show ((n : ℝ) / ((1 : ℕ) : ℝ) + 0.5) = (n : ℝ) + 1 / 2 by norm_num, Int.floor_natCast_add,
    show ⌊(1 / 2 : ℝ)⌋ = 0 by rw [Int.floor_eq_zero_iff]; norm_num]
  simp

end Verif
