import Verif.Lemmas.Krig2DSelect

/-! Helper lemmas: the number of blocks. -/

namespace Verif

theorem toUnsigned_ok {bound : ℕ} {x : ℝ} (h1 : 0 ≤ x) (h2 : x < bound) :
    ∃ n : ℕ, toUnsigned bound x = .ok n ∧ (n : ℤ) = ⌊x⌋ := by
  unfold toUnsigned
  rw [if_pos ⟨by linarith, h2⟩]
  refine ⟨_, rfl, ?_⟩
  unfold truncZ
  rw [if_pos h1, Int.toNat_of_nonneg (Int.floor_nonneg.2 h1)]

theorem blocksFor_ok {length S R : ℝ} (hSR : 0 < S * R) (h : length / (S * R) < 2 ^ 32) :
    ∃ n, blocksFor length S R = .ok n ∧ 1 ≤ n := by
  unfold blocksFor
  simp only [Res.monad_bind_eq]
  rw [divD, if_neg hSR.ne', Res.bind_ok]
  obtain ⟨n, hn, hf⟩ := toUnsigned_ok (bound := 2 ^ 32) (x := max 1.0 (1.0 * length / (S * R)))
    (le_trans (by norm_num) (le_max_left _ _)) (by
      push_cast
      refine max_lt (by norm_num) ?_
      rw [show (1.0 : ℝ) = 1 by norm_num, one_mul]
      norm_num at h ⊢
      exact h)
  refine ⟨n, hn, ?_⟩
  have : (1 : ℤ) ≤ ⌊max (1.0 : ℝ) (1.0 * length / (S * R))⌋ := by
    rw [Int.le_floor]
    refine le_trans (by norm_num) (le_max_left _ _)
  omega

section
variable {nx ny n_data : ℕ} {ax ay dx dy P : ℝ}

/-- The search for the best size of the blocks ends well. -/
theorem findOptimalBlockP_ok' (hdx : 0 < dx) (hdy : 0 < dy) (hP : 0 ≤ P) (hnx : 1 ≤ nx) (hny : 1 ≤ ny)
    (hnx' : nx < 2 ^ 31) (hny' : ny < 2 ^ 31)
    (h : n_data ≤ 200 ∨ (1 ≤ ax ∧ 1 ≤ ay ∧ 5 * nx * ay < 2 ^ 32 ∧ 5 * ny * ax < 2 ^ 32 ∧
      n_data * ax * ay * (2 * P + 5 + nx) ^ 2 < 2 ^ 64)) :
    ∃ nbx nby nd, findOptimalBlockP nx ny (ax * dx) (ay * dy) dx dy n_data P = .ok (nbx, nby, nd) ∧ 1 ≤ nbx ∧ 1 ≤ nby ∧
      (n_data ≤ 200 → nbx = 10 ∧ nby = 10) := by
  unfold findOptimalBlockP
  dsimp only
  by_cases hn : n_data > 200
  swap
  · rw [if_neg hn]
    exact ⟨10, 10, n_data, rfl, by norm_num, by norm_num, fun _ => ⟨rfl, rfl⟩⟩
  rw [if_pos hn]
  rcases h with h | ⟨hax', hay', hbx', hby', hnd⟩
  · omega
  have hnx1 : (1 : ℝ) ≤ nx := by exact_mod_cast hnx
  have hny1 : (1 : ℝ) ≤ ny := by exact_mod_cast hny
  have hRx : 0 < ax * dx := by positivity
  have hRy : 0 < ay * dy := by positivity
  simp only [Res.monad_bind_eq]
  rw [divD, if_neg hRx.ne', Res.bind_ok, divD, if_neg hRy.ne', Res.bind_ok, divD, if_neg (by positivity), Res.bind_ok, divD,
    if_neg (by positivity), Res.bind_ok]
  rw [show 5 * dx / (ax * dx) = 5 / (ax : ℝ) by field_simp, show 5 * dy / (ay * dy) = 5 / (ay : ℝ) by field_simp,
    show nx * dx / (5 * (ax * dx)) = nx / (5 * (ax : ℝ)) by field_simp,
    show ny * dy / (5 * (ay * dy)) = ny / (5 * (ay : ℝ)) by field_simp]
  set lo : ℝ := 1 / (5 * ax * ay) with hlo
  have hlo0 : 0 < lo := by positivity
  have hxy : (1 : ℝ) ≤ ax * ay := one_le_mul_of_one_le_of_one_le hax' hay'
  have l1 : lo ≤ 5 / ax := by
    rw [hlo, div_le_div_iff₀ (by positivity) (by positivity)]
    nlinarith
  have l2 : lo ≤ nx / (5 * ax) := by
    rw [hlo, div_le_div_iff₀ (by positivity) (by positivity)]
    have : (ax : ℝ) ≤ nx * ay * ax := le_mul_of_one_le_left (by linarith) (one_le_mul_of_one_le_of_one_le hnx1 hay')
    linarith
  have l3 : lo ≤ ny / (5 * ay) := by
    rw [hlo, div_le_div_iff₀ (by positivity) (by positivity)]
    have : (ay : ℝ) ≤ ny * ax * ay := le_mul_of_one_le_left (by linarith) (one_le_mul_of_one_le_of_one_le hny1 hax')
    linarith
  have u1 : (5 : ℝ) / ax ≤ 5 := div_le_self (by norm_num) hax'
  have u2 : (5 : ℝ) / ay ≤ 5 := div_le_self (by norm_num) hay'
  have u3 : (nx : ℝ) / (5 * ax) ≤ nx := div_le_self (by linarith) (by linarith)
  have a1 : lo ≤ max (5 / (ax : ℝ)) (5 / ay) := le_max_of_le_left l1
  have a2 : max (5 / (ax : ℝ)) (5 / ay) ≤ 5 + nx := max_le (by linarith) (by linarith)
  have b1 : lo ≤ min (nx / (5 * (ax : ℝ))) (ny / (5 * ay)) := le_min l2 l3
  have b2 : min (nx / (5 * (ax : ℝ))) (ny / (5 * ay)) ≤ 5 + nx := (min_le_left _ _).trans (by linarith)
  generalize max (5 / (ax : ℝ)) (5 / ay) = Smin at a1 a2
  generalize min (nx / (5 * (ax : ℝ))) (ny / (5 * ay)) = Smax at b1 b2
  have blk : ∀ S : ℝ, lo ≤ S → (∃ n, blocksFor (nx * dx) S (ax * dx) = .ok n ∧ 1 ≤ n) ∧
      ∃ n, blocksFor (ny * dy) S (ay * dy) = .ok n ∧ 1 ≤ n := by
    intro S hS
    have hS0 : 0 < S := hlo0.trans_le hS
    have h1 : 1 ≤ S * (5 * ax * ay) := by
      rw [hlo, div_le_iff₀ (by positivity)] at hS
      exact hS
    constructor
    · refine blocksFor_ok (by positivity) ?_
      rw [show nx * dx / (S * (ax * dx)) = nx / (S * ax) by field_simp]
      refine lt_of_le_of_lt ?_ hbx'
      rw [div_le_iff₀ (by positivity)]
      have := le_mul_of_one_le_right (by linarith : (0 : ℝ) ≤ nx) h1
      linarith
    · refine blocksFor_ok (by positivity) ?_
      rw [show ny * dy / (S * (ay * dy)) = ny / (S * ay) by field_simp]
      refine lt_of_le_of_lt ?_ hby'
      rw [div_le_iff₀ (by positivity)]
      have := le_mul_of_one_le_right (by linarith : (0 : ℝ) ≤ ny) h1
      linarith
  have key := forRange_sat (lo := 0) (hi := 201) (s := (Smax, (none : Option ℝ), n_data))
    (body := optimalStep nx ny n_data (ax * dx) (ay * dy) (nx * dx) (ny * dy) (dx * dy) (nx * dx * (ny * dy))
      (ax * dx * (ay * dy)) P Smin Smax) (fun _ st => lo ≤ st.1) (by norm_num) b1 (by
    intro k st _ hk hst
    unfold optimalStep
    dsimp only
    have hk' : (k : ℝ) ≤ 200 := by exact_mod_cast (by omega : k ≤ 200)
    have hk0 : (0 : ℝ) ≤ k := Nat.cast_nonneg _
    have ht0 : 0 ≤ (k : ℝ) / 200 := by positivity
    have ht1 : (k : ℝ) / 200 ≤ 1 := by rw [div_le_one (by norm_num)]; exact hk'
    have eS : Smin + k * (Smax - Smin) / 200 = (1 - (k : ℝ) / 200) * Smin + (k : ℝ) / 200 * Smax := by ring
    have s1 : lo ≤ Smin + k * (Smax - Smin) / 200 := by
      rw [eS]
      nlinarith
    have s2 : Smin + k * (Smax - Smin) / 200 ≤ 5 + nx := by
      rw [eS]
      nlinarith
    generalize Smin + k * (Smax - Smin) / 200 = S at s1 s2
    have hS0 : 0 < S := hlo0.trans_le s1
    have hv : dx * dy ≤ max (ax * dx * (ay * dy) * S * S) (dx * dy) := le_max_right _ _
    have hv0 : 0 < dx * dy := by positivity
    generalize max (ax * dx * (ay * dy) * S * S) (dx * dy) = vol at hv
    have hvol : 0 < vol := hv0.trans_le hv
    simp only [Res.monad_bind_eq]
    rw [divD, if_neg hvol.ne', Res.bind_ok]
    obtain ⟨Ns, hNs, -⟩ := toUnsigned_ok (bound := 2 ^ 64) (x := nx * dx * (ny * dy) / vol) (by positivity) (by
      have h1 : nx * dx * (ny * dy) / vol ≤ nx * ny := by
        rw [div_le_iff₀ hvol]
        have := mul_le_mul_of_nonneg_left hv (by positivity : (0 : ℝ) ≤ nx * ny)
        linarith
      refine lt_of_le_of_lt h1 ?_
      have : nx * ny < 2 ^ 64 := by
        calc nx * ny ≤ 2 ^ 31 * 2 ^ 31 := Nat.mul_le_mul hnx'.le hny'.le
          _ < 2 ^ 64 := by norm_num
      exact_mod_cast this)
    rw [hNs, Res.bind_ok, divD, if_neg (by positivity), Res.bind_ok]
    obtain ⟨nd, hnd', -⟩ := toUnsigned_ok (bound := 2 ^ 64)
      (x := n_data * (ax * dx * (ay * dy) * (2 * P + S) * (2 * P + S) / (nx * dx * (ny * dy)))) (by positivity) (by
      have e : ax * dx * (ay * dy) * (2 * P + S) * (2 * P + S) / (nx * dx * (ny * dy))
          = ax * ay * (2 * P + S) ^ 2 / (nx * ny) := by field_simp
      rw [e]
      have h1 : ax * ay * (2 * P + S) ^ 2 / (nx * ny) ≤ ax * ay * (2 * P + 5 + nx) ^ 2 := by
        have h2 : (2 * P + S) ^ 2 ≤ (2 * P + 5 + nx) ^ 2 := by
          refine pow_le_pow_left₀ (by positivity) (by linarith) 2
        refine (div_le_self (by positivity) (one_le_mul_of_one_le_of_one_le hnx1 hny1)).trans ?_
        exact mul_le_mul_of_nonneg_left h2 (by positivity)
      refine lt_of_le_of_lt (mul_le_mul_of_nonneg_left h1 (Nat.cast_nonneg _)) ?_
      push_cast
      linarith)
    rw [hnd', Res.bind_ok]
    obtain ⟨⟨n1, e1, -⟩, n2, e2, -⟩ := blk S s1
    rw [e1, Res.bind_ok, e2, Res.bind_ok]
    split
    · rw [Res.sat_ok]
      exact s1
    · rw [Res.sat_ok]
      exact hst)
  obtain ⟨st, hst, hst'⟩ := key
  rw [hst, Res.bind_ok]
  obtain ⟨⟨n1, e1, p1⟩, n2, e2, p2⟩ := blk st.1 hst'
  rw [e1, Res.bind_ok, e2, Res.bind_ok]
  exact ⟨n1, n2, _, rfl, p1, p2, fun h => by omega⟩

theorem findOptimalBlockP_ok {ax ay : ℕ} (hdx : 0 < dx) (hdy : 0 < dy) (hP : 0 ≤ P) (hnx : 1 ≤ nx) (hny : 1 ≤ ny)
    (hnx' : nx < 2 ^ 31) (hny' : ny < 2 ^ 31)
    (h : n_data ≤ 200 ∨ (1 ≤ ax ∧ 1 ≤ ay ∧ 5 * nx * ay < 2 ^ 32 ∧ 5 * ny * ax < 2 ^ 32 ∧
      (n_data : ℝ) * ax * ay * (2 * P + 5 + nx) ^ 2 < 2 ^ 64)) :
    ∃ nbx nby nd, findOptimalBlockP nx ny (ax * dx) (ay * dy) dx dy n_data P = .ok (nbx, nby, nd) ∧ 1 ≤ nbx ∧ 1 ≤ nby ∧
      (n_data ≤ 200 → nbx = 10 ∧ nby = 10) := by
  refine findOptimalBlockP_ok' hdx hdy hP hnx hny hnx' hny' ?_
  rcases h with h | ⟨h1, h2, h3, h4, h5⟩
  · exact .inl h
  · exact .inr ⟨by exact_mod_cast h1, by exact_mod_cast h2, by exact_mod_cast h3, by exact_mod_cast h4, h5⟩

end

end Verif
