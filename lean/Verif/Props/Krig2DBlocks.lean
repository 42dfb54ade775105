import Verif.Lemmas.Krig2DOptimal
import Verif.Props.Krig2D

/-!
# C95: kriging in two dimensions, in blocks

The setting is that of C94, with `krig_all` false, which is the default. The ranges of the covariance table are `ax`
and `ay` nodes.
-/

namespace Verif

/-- The extra conditions for kriging in blocks: at least one node, data as they come from the constructor, ranges of a
whole number of nodes, and numbers that are not too large. -/
structure BlockTask (dx dy : ℝ) (cov : CovTable) (trend : Grid2D ℝ) (d : List Datum) (P : ℝ) (ax ay : ℕ) : Prop where
  hdx : 0 < dx
  hdy : 0 < dy
  hP : 0 ≤ P
  hni : 1 ≤ trend.ni
  hnj : 1 ≤ trend.nj
  /-- the data of the constructor, C93 -/
  count : ∀ e ∈ d, e.count = 1
  rangeX : cov.getRangeX = .ok (ax * dx)
  rangeY : cov.getRangeY = .ok (ay * dy)
  /-- no overflow -/
  boundX : 2 * (trend.ni : ℝ) + 2 * P * ax + 1 < 2 ^ 31
  boundY : 2 * (trend.nj : ℝ) + 2 * P * ay + 1 < 2 ^ 31
  shortX : ax < 2 ^ 31
  shortY : ay < 2 ^ 31
  /-- with many data, the ranges are not zero -/
  many : d.length ≤ 200 ∨ (1 ≤ ax ∧ 1 ≤ ay ∧ 5 * trend.ni * ay < 2 ^ 32 ∧ 5 * trend.nj * ax < 2 ^ 32 ∧
    (d.length : ℝ) * ax * ay * (2 * P + 5 + trend.ni) ^ 2 < 2 ^ 64)

/-- In one direction with `n` nodes, made into `m` blocks of `nb` nodes (the last block may be longer): the data from
`lo` to `hi` are used for the node `i`. They include the data at most `P/2` ranges from the node, and if the node is
beyond `m * nb`, at most `P/2` ranges from there; they are at most a block and `2 P` ranges away. -/
structure Window (n m nb : ℕ) (P : ℝ) (a i : ℕ) (lo hi : ℤ) : Prop where
  nearLo : ∀ x : ℤ, 0 ≤ x → (i : ℝ) - P / 2 * a ≤ x → lo ≤ x
  nearHi : ∀ x : ℤ, x < n → (x : ℝ) ≤ min (i : ℝ) ((m * nb : ℕ) : ℝ) + P / 2 * a → x ≤ hi
  farLo : min (i : ℝ) ((m * nb : ℕ) : ℝ) - (nb + 2 * P * a + 1) ≤ lo
  farHi : (hi : ℝ) ≤ min (i : ℝ) ((m * nb : ℕ) : ℝ) + nb + 2 * P * a + 1

theorem Window.ofBlock {n m nb a b i : ℕ} {P : ℝ} {lo hi : ℤ} (hb : b < m) (h1 : b * nb ≤ i) (h2 : i < blockEnd b m nb n)
    (k1 : ∀ x : ℤ, 0 ≤ x → ((b * nb : ℕ) : ℝ) - P / 2 * a ≤ x → lo ≤ x)
    (k2 : ∀ x : ℤ, x < n → (x : ℝ) ≤ (((b + 1) * nb : ℕ) : ℝ) + P / 2 * a → x ≤ hi)
    (k3 : (hi : ℝ) ≤ (((b + 1) * nb : ℕ) : ℝ) + 2 * P * a + 1) (k4 : ((b * nb : ℕ) : ℝ) - 2 * P * a - 1 ≤ lo) :
    Window n m nb P a i lo hi := by
  have h1' : ((b * nb : ℕ) : ℝ) ≤ (i : ℝ) := by exact_mod_cast h1
  have hm : min (i : ℝ) ((m * nb : ℕ) : ℝ) ≤ (((b + 1) * nb : ℕ) : ℝ) := by
    unfold blockEnd at h2
    split at h2
    · have : m = b + 1 := by omega
      rw [this]
      exact min_le_right _ _
    · refine (min_le_left _ _).trans ?_
      exact_mod_cast (h2.trans_le (min_le_left _ _)).le
  have e : (((b + 1) * nb : ℕ) : ℝ) = ((b * nb : ℕ) : ℝ) + nb := by push_cast; ring
  have hm' : ((b * nb : ℕ) : ℝ) ≤ min (i : ℝ) ((m * nb : ℕ) : ℝ) :=
    le_min h1' (by exact_mod_cast Nat.mul_le_mul_right nb hb.le)
  exact ⟨fun x hx hx' => k1 x hx (by linarith), fun x hx hx' => k2 x hx (by linarith), by linarith, by linarith⟩

section
variable {v : Variogram} {dx dy : ℝ} {cov : CovTable} {trend : Grid2D ℝ} {T : ℕ → ℕ → ℝ} {d : List Datum} {P : ℝ} {ax ay : ℕ}

theorem KrigTask.covSteps (h : KrigTask v dx dy cov trend T d) : cov.dx = dx ∧ cov.dy = dy := by
  obtain ⟨nx, ny, h1, h2, h3, h4, h5, hc⟩ := h.table
  unfold CovTable.create at hc
  simp only [Res.monad_bind_eq] at hc
  obtain ⟨a, -, hc⟩ := Res.bind_eq_ok.1 hc
  obtain ⟨b, -, hc⟩ := Res.bind_eq_ok.1 hc
  split at hc
  · cases hc
  · obtain ⟨c, -, hc⟩ := Res.bind_eq_ok.1 hc
    rw [← Res.ok.inj hc]
    exact ⟨rfl, rfl⟩

/-- The data between bounds in both directions. -/
noncomputable def dataWithin (d : List Datum) (i0 i1 j0 j1 : ℤ) : List Datum :=
  d.filter fun e => i0 ≤ e.i ∧ e.i ≤ i1 ∧ j0 ≤ e.j ∧ e.j ≤ j1 ∧ e.value ≠ 99999

/-- The data of the blocks. -/
theorem krigBlocks_ok (h : KrigTask v dx dy cov trend T d) (hb : BlockTask dx dy cov trend d P ax ay) :
    ∃ (nbx nby : ℕ) (L : List ((ℕ × ℕ) × List Datum)), 1 ≤ nbx ∧ 1 ≤ nby ∧ (d.length ≤ 200 → nbx = 10 ∧ nby = 10) ∧
      krigBlocks (countDataInBlock d) (fun i0 i1 j0 j1 => findMeanValues (addDataToBlock d [] i0 i1 j0 j1))
        (findMeanValues d) d.length trend.ni trend.nj (ax * dx) (ay * dy) cov.dx cov.dy P false = .ok (nbx, nby, L) ∧
      (L.map Prod.fst).Nodup ∧ (∀ b, b ∈ L.map Prod.fst ↔ b.1 < nbx ∧ b.2 < nby) ∧
      ∀ b ∈ L, ∃ i0 i1 j0 j1 : ℤ, (b.2 = dataWithin d i0 i1 j0 j1 ∨ (nbx = 1 ∧ nby = 1 ∧ b.2 = d)) ∧
        (∀ i, b.1.1 * cellsPerBlock trend.ni nbx ≤ i → i < blockEnd b.1.1 nbx (cellsPerBlock trend.ni nbx) trend.ni →
          Window trend.ni nbx (cellsPerBlock trend.ni nbx) P ax i i0 i1) ∧
        ∀ j, b.1.2 * cellsPerBlock trend.nj nby ≤ j → j < blockEnd b.1.2 nby (cellsPerBlock trend.nj nby) trend.nj →
          Window trend.nj nby (cellsPerBlock trend.nj nby) P ay j j0 j1 := by
  obtain ⟨nbx, nby, nd, e0, hbx, hby, h200⟩ := findOptimalBlockP_ok (P := P) hb.hdx hb.hdy hb.hP hb.hni hb.hnj h.small.1 h.small.2 hb.many
  have tx : toInt32 (truncZ (ax : ℝ)) = .ok (ax : ℤ) := by
    unfold truncZ
    rw [if_pos (Nat.cast_nonneg _), Int.floor_natCast, toInt32, if_pos ⟨by omega, by exact_mod_cast hb.shortX⟩]
  have ty : toInt32 (truncZ (ay : ℝ)) = .ok (ay : ℤ) := by
    unfold truncZ
    rw [if_pos (Nat.cast_nonneg _), Int.floor_natCast, toInt32, if_pos ⟨by omega, by exact_mod_cast hb.shortY⟩]
  have hstart : krigBlocks (countDataInBlock d) (fun i0 i1 j0 j1 => findMeanValues (addDataToBlock d [] i0 i1 j0 j1))
        (findMeanValues d) d.length trend.ni trend.nj (ax * dx) (ay * dy) cov.dx cov.dy P false
      = (if nbx > 1 ∨ nby > 1 then
          forRange 0 nbx (fun i blocks => forRange 0 nby (fun j blocks => do
            let d ← blockData (countDataInBlock d) (fun i0 i1 j0 j1 => findMeanValues (addDataToBlock d [] i0 i1 j0 j1))
              P ax ay trend.ni trend.nj (cellsPerBlock trend.ni nbx) (cellsPerBlock trend.nj nby) (min nd 100000) i j
            .ok (blocks ++ [((i, j), d)])) blocks) []
        else .ok [((0, 0), findMeanValues d)]).bind fun blocks => .ok (nbx, nby, blocks) := by
    unfold krigBlocks findOptimalDataInBlock
    simp only [Res.monad_bind_eq]
    rw [if_neg (by decide), h.covSteps.1, h.covSteps.2, e0, Res.bind_ok]
    dsimp only
    rw [divD, if_neg hb.hdx.ne', Res.bind_ok, divD, if_neg hb.hdy.ne', mul_div_cancel_right₀ _ hb.hdx.ne', mul_div_cancel_right₀ _ hb.hdy.ne',
      tx, Res.bind_ok, Res.bind_ok, ty, Res.bind_ok]
  rw [hstart]
  have hmean : findMeanValues d = d := by
    unfold findMeanValues
    conv_rhs => rw [← List.map_id d]
    refine List.map_congr_left fun e he => ?_
    have := hb.count e he
    cases e
    simp only at this
    subst this
    simp
  by_cases hm : nbx > 1 ∨ nby > 1
  · rw [if_pos hm]
    have key := blockList_ok (m := nbx) (n := nby) (fun i j => blockData (countDataInBlock d)
        (fun i0 i1 j0 j1 => findMeanValues (addDataToBlock d [] i0 i1 j0 j1))
        P ax ay trend.ni trend.nj (cellsPerBlock trend.ni nbx) (cellsPerBlock trend.nj nby) (min nd 100000) i j)
      (fun bx by_ D => ∃ i0 i1 j0 j1 : ℤ, D = dataWithin d i0 i1 j0 j1 ∧
        (∀ i, bx * cellsPerBlock trend.ni nbx ≤ i → i < blockEnd bx nbx (cellsPerBlock trend.ni nbx) trend.ni →
          Window trend.ni nbx (cellsPerBlock trend.ni nbx) P ax i i0 i1) ∧
        ∀ j, by_ * cellsPerBlock trend.nj nby ≤ j → j < blockEnd by_ nby (cellsPerBlock trend.nj nby) trend.nj →
          Window trend.nj nby (cellsPerBlock trend.nj nby) P ay j j0 j1) ?_
    · obtain ⟨L, hL, h1, h2, h3⟩ := key
      refine ⟨nbx, nby, L, hbx, hby, h200, ?_, h1, h2, ?_⟩
      · rw [hL, Res.bind_ok]
      · intro b hb'
        obtain ⟨i0, i1, j0, j1, q1, q2, q3⟩ := h3 b hb'
        exact ⟨i0, i1, j0, j1, .inl q1, q2, q3⟩
    · intro bx hbx' by_ hby'
      have mx : (bx + 1) * cellsPerBlock trend.ni nbx ≤ 2 * trend.ni :=
        (Nat.mul_le_mul_right _ hbx').trans (cellsPerBlock_mul trend.ni nbx hbx).1
      have my : (by_ + 1) * cellsPerBlock trend.nj nby ≤ 2 * trend.nj :=
        (Nat.mul_le_mul_right _ hby').trans (cellsPerBlock_mul trend.nj nby hby).1
      obtain ⟨i0, i1, j0, j1, q0, q1, q2, q3, q4, r1, r2, r3, r4⟩ := blockData_ok (countDataInBlock d)
        (fun i0 i1 j0 j1 => findMeanValues (addDataToBlock d [] i0 i1 j0 j1)) (n_target := min nd 100000) hb.hP
        (Int.natCast_nonneg ax) (Int.natCast_nonneg ay) mx my (by have := hb.boundX; push_cast; exact this)
        (by have := hb.boundY; push_cast; exact this) h.small.1 h.small.2
      rw [q0, Res.sat_ok]
      rw [Int.cast_natCast] at q1 q2 q3 q4 r1 r2 r3 r4
      refine ⟨i0, i1, j0, j1, ?_, ?_, ?_⟩
      · rw [addDataToBlock_eq h.dataIn.nodup]
        unfold dataWithin
        have hfil : (d.filter fun e : Datum => e.inBlock i0 i1 j0 j1 ∧ e.value ≠ 99999)
            = d.filter fun e : Datum => (i0 : ℤ) ≤ e.i ∧ e.i ≤ i1 ∧ (j0 : ℤ) ≤ e.j ∧ e.j ≤ j1 ∧ e.value ≠ 99999 := by
          refine List.filter_congr fun e he => ?_
          obtain ⟨a1, a2, a3, a4⟩ := h.inside e he
          have s1 := h.small.1
          have s2 := h.small.2
          have sz : ∀ z : ℤ, 0 ≤ z → z < 2 ^ 31 → (sizeOf32 z : ℤ) = z := by
            intro z h0 h1
            unfold sizeOf32
            rw [Int.toNat_of_nonneg (Int.emod_nonneg _ (by norm_num)), Int.emod_eq_of_lt h0 (by omega)]
          have z1 := sz e.i a1 (by omega)
          have z2 := sz e.j a3 (by omega)
          rw [decide_eq_decide]
          unfold Datum.inBlock
          rw [decide_eq_true_iff]
          have : (sizeOf32 e.i ≤ i1 ∧ sizeOf32 e.i ≥ i0 ∧ sizeOf32 e.j ≤ j1 ∧ sizeOf32 e.j ≥ j0)
              ↔ ((i0 : ℤ) ≤ e.i ∧ e.i ≤ i1 ∧ (j0 : ℤ) ≤ e.j ∧ e.j ≤ j1) := by omega
          rw [this]
          tauto
        rw [hfil]
        conv_rhs => rw [← List.map_id (d.filter _)]
        refine List.map_congr_left fun e he => ?_
        have := hb.count e (List.mem_filter.1 he).1
        cases e
        simp only at this
        subst this
        rfl
      · intro i hi hi'
        exact Window.ofBlock hbx' hi hi' (fun x hx hx' => by exact_mod_cast q1 x (by exact_mod_cast hx) hx')
          (fun x hx hx' => by exact_mod_cast q2 x (by exact_mod_cast hx.le) hx') (by exact_mod_cast q3) (by exact_mod_cast q4)
      · intro j hj hj'
        exact Window.ofBlock hby' hj hj' (fun x hx hx' => by exact_mod_cast r1 x (by exact_mod_cast hx) hx')
          (fun x hx hx' => by exact_mod_cast r2 x (by exact_mod_cast hx.le) hx') (by exact_mod_cast r3) (by exact_mod_cast r4)
  · rw [if_neg hm, Res.bind_ok]
    obtain rfl : nbx = 1 := by omega
    obtain rfl : nby = 1 := by omega
    refine ⟨1, 1, _, le_refl _, le_refl _, h200, rfl, by simp, ?_, ?_⟩
    · intro b
      simp [Prod.ext_iff]
    · intro b hb'
      rw [List.mem_singleton] at hb'
      subst hb'
      have w : ∀ (n a i : ℕ), i < n → Window n 1 n P a i 0 n := by
        intro n a i hi
        have hi' : (i : ℝ) ≤ n := by exact_mod_cast hi.le
        have p : 0 ≤ 2 * P * a := by have := hb.hP; positivity
        refine ⟨fun x hx _ => hx, fun x hx _ => hx.le, ?_, ?_⟩
        · have := min_le_left (i : ℝ) ((1 * n : ℕ) : ℝ)
          push_cast at this ⊢
          linarith
        · have : (0 : ℝ) ≤ min (i : ℝ) ((1 * n : ℕ) : ℝ) := le_min (Nat.cast_nonneg _) (Nat.cast_nonneg _)
          push_cast at this ⊢
          linarith
      refine ⟨0, trend.ni, 0, trend.nj, .inr ⟨rfl, rfl, hmean⟩, ?_, ?_⟩
      · intro i _ hi
        rw [cellsPerBlock_one]
        exact w _ _ _ (by simpa [blockEnd] using hi)
      · intro i _ hi
        rw [cellsPerBlock_one]
        exact w _ _ _ (by simpa [blockEnd] using hi)

/-- The whole outcome in blocks. -/
theorem krig2D_inBlocks (h : KrigTask v dx dy cov trend T d) (hb : BlockTask dx dy cov trend d P ax ay)
    (hK : (dataCorr v dx dy d).PosDef) :
    ∃ (nbx nby : ℕ) (D : ℕ → ℕ → List Datum), 1 ≤ nbx ∧ 1 ≤ nby ∧ (d.length ≤ 200 → nbx = 10 ∧ nby = 10) ∧
      (∀ i < trend.ni, ∀ j < trend.nj, ∃ i0 i1 j0 j1 : ℤ,
        (D i j = dataWithin d i0 i1 j0 j1 ∨ (nbx = 1 ∧ nby = 1 ∧ D i j = d)) ∧
        Window trend.ni nbx (cellsPerBlock trend.ni nbx) P ax i i0 i1 ∧
        Window trend.nj nby (cellsPerBlock trend.nj nby) P ay j j0 j1 ∧ (nodeCorr (fun x y => v.corr2 (x * dx) (y * dy)) (D i j)).PosDef) ∧
      ∀ (gr : Bool) (sort : BlockSort (List Datum)), (∀ l, (sort l).Perm l) →
        ∃ out, krig2DNodal sort trend d cov gr false P = .ok out ∧
          Grid2D.Holds trend.ni trend.nj (fun i j => if D i j = [] then T i j else
            (if gr = true then 0 else T i j) + krigged (fun x y => v.corr2 (x * dx) (y * dy)) T (D i j) i j) out := by
  obtain ⟨nbx, nby, L, hbx, hby, h200, e0, hL1, hL2, hL3⟩ := krigBlocks_ok h hb
  have hsub : ∀ b ∈ L, b.2.Sublist d := by
    intro b hb'
    obtain ⟨i0, i1, j0, j1, q | ⟨-, -, q⟩, -⟩ := hL3 b hb'
    · rw [q]; exact List.filter_sublist
    · rw [q]
  have hin : ∀ b ∈ L, DataIn trend.ni trend.nj b.2 := fun b hb' =>
    ⟨fun e he => h.inside e ((hsub b hb').subset he), h.dataIn.nodup.sublist ((hsub b hb').map Datum.loc)⟩
  have hpd : ∀ b ∈ L, (nodeCorr (fun x y => v.corr2 (x * dx) (y * dy)) b.2).PosDef := fun b hb' =>
    nodeCorr_sub (hin b hb').nodup (fun x hx => ⟨x, (hsub b hb').subset hx, rfl⟩) hK
  have hlb : ∀ b ∈ L, b.1.1 < nbx ∧ b.1.2 < nby := fun b hb' => (hL2 b.1).1 (List.mem_map.2 ⟨b, hb', rfl⟩)
  have hcov : ∀ i j, i < trend.ni → j < trend.nj → ∃ b ∈ L,
      BlockHas trend.ni trend.nj (cellsPerBlock trend.ni nbx) (cellsPerBlock trend.nj nby) nbx nby b.1 i j := by
    intro i j hi hj
    obtain ⟨b, b1, b2, b3⟩ := blockHas_cover (nxb := cellsPerBlock trend.ni nbx) (nyb := cellsPerBlock trend.nj nby) hbx hby hi hj
    obtain ⟨b', hb', rfl⟩ := List.mem_map.1 ((hL2 b).2 ⟨b1, b2⟩)
    exact ⟨b', hb', b3⟩
  choose B hB1 hB2 using hcov
  refine ⟨nbx, nby, fun i j => if hij : i < trend.ni ∧ j < trend.nj then (B i j hij.1 hij.2).2 else [], hbx, hby, h200, ?_, ?_⟩
  · intro i hi j hj
    obtain ⟨i0, i1, j0, j1, q1, q2, q3⟩ := hL3 _ (hB1 i j hi hj)
    dsimp only
    rw [dif_pos ⟨hi, hj⟩]
    have hBH := hB2 i j hi hj
    exact ⟨i0, i1, j0, j1, q1, q2 i hBH.1 hBH.2.1, q3 j hBH.2.2.1 hBH.2.2.2, hpd _ (hB1 i j hi hj)⟩
  · intro gr sort hsort
    have hp := hsort L
    obtain ⟨-, k2⟩ := overBlocks_ok (gr := gr) (n_blocks_x := nbx) (n_blocks_y := nby) (nxb := cellsPerBlock trend.ni nbx)
      (nyb := cellsPerBlock trend.nj nby) (L := sort L) h.small.1 h.small.2 (corr2_even v dx dy) h.lookup h.filled
      ((hp.map Prod.fst).nodup_iff.2 hL1) (fun b hb' => hlb b (hp.mem_iff.1 hb')) (fun b hb' => hin b (hp.mem_iff.1 hb'))
      (st := (trend, Grid2D.mk' trend.ni trend.nj 0)) h.filled (Grid2D.Holds.mk' 0) (by intros; rfl)
    obtain ⟨st, hst, T', hT', e, -⟩ := k2 fun b hb' _ => hpd b (hp.mem_iff.1 hb')
    refine ⟨st.1, ?_, hT'.congr fun i hi j hj => ?_⟩
    · unfold krig2DNodal
      simp only [Res.monad_bind_eq]
      rw [hb.rangeX, Res.bind_ok, hb.rangeY, Res.bind_ok, if_neg (by decide), e0, Res.bind_ok]
      dsimp only
      rw [hst, Res.bind_ok]
    · rw [e _ (hp.mem_iff.2 (hB1 i j hi hj)) i hi j hj (hB2 i j hi hj)]
      simp only [dif_pos (show i < trend.ni ∧ j < trend.nj from ⟨hi, hj⟩)]

theorem cellsPerBlock_round (n m : ℕ) (hm : 0 < m) : m * cellsPerBlock n m ≤ n + m / 2 := by
  have hm' : (0 : ℝ) < m := by exact_mod_cast hm
  have h0 : (0 : ℝ) ≤ (n : ℝ) / m + 0.5 := by positivity
  have hc : ((cellsPerBlock n m : ℕ) : ℤ) = ⌊(n : ℝ) / m + 0.5⌋ := by
    unfold cellsPerBlock
    exact Int.toNat_of_nonneg (Int.floor_nonneg.2 h0)
  have hc' : ((cellsPerBlock n m : ℕ) : ℝ) = (⌊(n : ℝ) / m + 0.5⌋ : ℝ) := by exact_mod_cast hc
  have h1 : ((cellsPerBlock n m : ℕ) : ℝ) ≤ (n : ℝ) / m + 1 / 2 := by
    have := Int.floor_le ((n : ℝ) / m + 0.5)
    rw [hc']
    linarith
  have h5 := mul_le_mul_of_nonneg_left h1 hm'.le
  have e1 : (m : ℝ) * (n / m) = n := by field_simp
  have h6 : ((2 * (m * cellsPerBlock n m) : ℕ) : ℝ) ≤ ((2 * n + m : ℕ) : ℝ) := by
    push_cast
    linarith
  have h7 : 2 * (m * cellsPerBlock n m) ≤ 2 * n + m := by exact_mod_cast h6
  omega

/-- **C95.** Kriging in blocks, the default. If the correlation matrix of all data is positive definite, the function
succeeds, whatever the order of the blocks; nodes are kriged from the data in a window around them, and a node without
such data keeps the trend. -/
theorem krig2D_blocks (h : KrigTask v dx dy cov trend T d) (hb : BlockTask dx dy cov trend d P ax ay)
    (hK : (dataCorr v dx dy d).PosDef) :
    ∃ (nbx nby nxb nyb : ℕ) (D : ℕ → ℕ → List Datum), 1 ≤ nbx ∧ 1 ≤ nby ∧ (d.length ≤ 200 → nbx = 10 ∧ nby = 10) ∧
      (trend.ni ≤ nbx * nxb + nbx / 2 ∧ nbx * nxb ≤ trend.ni + nbx / 2) ∧
      (trend.nj ≤ nby * nyb + nby / 2 ∧ nby * nyb ≤ trend.nj + nby / 2) ∧
      (∀ i < trend.ni, ∀ j < trend.nj, ∃ i0 i1 j0 j1 : ℤ,
        (D i j = dataWithin d i0 i1 j0 j1 ∨ (nbx = 1 ∧ nby = 1 ∧ D i j = d)) ∧
        Window trend.ni nbx nxb P ax i i0 i1 ∧ Window trend.nj nby nyb P ay j j0 j1) ∧
      ∀ (gr : Bool) (sort : BlockSort (List Datum)), (∀ l, (sort l).Perm l) →
        ∃ out, krig2DNodal sort trend d cov gr false P = .ok out ∧ out.ni = trend.ni ∧ out.nj = trend.nj ∧
          ∀ i < trend.ni, ∀ j < trend.nj, (D i j = [] → out.get i j = .ok (T i j)) ∧
            (D i j ≠ [] → ∀ w : Fin (D i j).length → ℝ,
              (∀ a : Fin (D i j).length, ∑ b : Fin (D i j).length,
                v.corr2 (((D i j)[a].i - (D i j)[b].i : ℤ) * dx) (((D i j)[a].j - (D i j)[b].j : ℤ) * dy) * w b
                = v.corr2 (((D i j)[a].i - i : ℤ) * dx) (((D i j)[a].j - j : ℤ) * dy)) →
              out.get i j = .ok ((if gr = true then 0 else T i j)
                + ∑ a : Fin (D i j).length, w a * ((D i j)[a].value - T (D i j)[a].i.toNat (D i j)[a].j.toNat))) := by
  obtain ⟨nbx, nby, D, hbx, hby, h200, hD, hout⟩ := krig2D_inBlocks h hb hK
  refine ⟨nbx, nby, cellsPerBlock trend.ni nbx, cellsPerBlock trend.nj nby, D, hbx, hby, h200,
    ⟨(cellsPerBlock_mul _ _ hbx).2, cellsPerBlock_round _ _ hbx⟩, ⟨(cellsPerBlock_mul _ _ hby).2, cellsPerBlock_round _ _ hby⟩, ?_, ?_⟩
  · intro i hi j hj
    obtain ⟨i0, i1, j0, j1, q1, q2, q3, -⟩ := hD i hi j hj
    exact ⟨i0, i1, j0, j1, q1, q2, q3⟩
  · intro gr sort hsort
    obtain ⟨out, ho, hT⟩ := hout gr sort hsort
    refine ⟨out, ho, hT.1, hT.2.1, fun i hi j hj => ⟨fun h0 => ?_, fun h0 w hw => ?_⟩⟩
    · rw [hT.get hi hj, if_pos h0]
    · rw [hT.get hi hj, if_neg h0]
      obtain ⟨i0, i1, j0, j1, -, -, -, hp⟩ := hD i hi j hj
      congr 2
      exact dot_inv_mulVec hp (w := w)
        (k := fun a => v.corr2 (((D i j)[a].i - i : ℤ) * dx) (((D i j)[a].j - j : ℤ) * dy)) (funext hw) _

/-- **C95.** Data are honoured if the part of the grid that is left over when it is divided into blocks is not longer
than `P/2` ranges. With up to 200 data there are ten blocks in each direction, and up to four nodes are left over. -/
theorem krig2D_blocks_honours (h : KrigTask v dx dy cov trend T d) (hb : BlockTask dx dy cov trend d P ax ay)
    (hK : (dataCorr v dx dy d).PosDef) (hl : d.length ≤ 200) (hx : 4 ≤ P / 2 * ax) (hy : 4 ≤ P / 2 * ay) (gr : Bool)
    {sort : BlockSort (List Datum)} (hsort : ∀ l, (sort l).Perm l) :
    ∃ out, krig2DNodal sort trend d cov gr false P = .ok out ∧
      ∀ e ∈ d, e.value ≠ 99999 → ∀ i j : ℕ, e.i = i → e.j = j →
        out.get i j = .ok (if gr = true then e.value - T i j else e.value) := by
  obtain ⟨nbx, nby, D, hbx, hby, h200, hD, hout⟩ := krig2D_inBlocks h hb hK
  obtain ⟨rfl, rfl⟩ := h200 hl
  obtain ⟨out, ho, hT⟩ := hout gr sort hsort
  refine ⟨out, ho, ?_⟩
  intro e he hv i j hi hj
  obtain ⟨b1, b2, b3, b4⟩ := h.inside e he
  have hi' : i < trend.ni := by omega
  have hj' : j < trend.nj := by omega
  obtain ⟨i0, i1, j0, j1, q1, q2, q3, hp⟩ := hD i hi' j hj'
  have hmem : e ∈ D i j := by
    rcases q1 with q1 | ⟨q1, -⟩
    swap
    · omega
    rw [q1]
    unfold dataWithin
    rw [List.mem_filter]
    have hPx : 0 ≤ P / 2 * ax := by linarith
    have hPy : 0 ≤ P / 2 * ay := by linarith
    have hI : (i : ℝ) ≤ min (i : ℝ) ((10 * cellsPerBlock trend.ni 10 : ℕ) : ℝ) + P / 2 * ax := by
      have c := (cellsPerBlock_mul trend.ni 10 (by norm_num)).2
      have : (i : ℝ) ≤ ((10 * cellsPerBlock trend.ni 10 : ℕ) : ℝ) + 4 := by exact_mod_cast (by omega)
      rcases min_choice (i : ℝ) ((10 * cellsPerBlock trend.ni 10 : ℕ) : ℝ) with hm | hm <;> rw [hm] <;> linarith
    have hJ : (j : ℝ) ≤ min (j : ℝ) ((10 * cellsPerBlock trend.nj 10 : ℕ) : ℝ) + P / 2 * ay := by
      have c := (cellsPerBlock_mul trend.nj 10 (by norm_num)).2
      have : (j : ℝ) ≤ ((10 * cellsPerBlock trend.nj 10 : ℕ) : ℝ) + 4 := by exact_mod_cast (by omega)
      rcases min_choice (j : ℝ) ((10 * cellsPerBlock trend.nj 10 : ℕ) : ℝ) with hm | hm <;> rw [hm] <;> linarith
    refine ⟨he, ?_⟩
    rw [decide_eq_true_iff, hi, hj]
    refine ⟨q2.nearLo _ (by omega) (by push_cast; linarith), q2.nearHi _ (by omega) (by push_cast at hI ⊢; exact hI),
      q3.nearLo _ (by omega) (by push_cast; linarith), q3.nearHi _ (by omega) (by push_cast at hJ ⊢; exact hJ), hv⟩
  have hne : D i j ≠ [] := List.ne_nil_of_mem hmem
  have hsub : (D i j).Sublist d := by
    rcases q1 with q1 | ⟨-, -, q1⟩
    · rw [q1]; exact List.filter_sublist
    · rw [q1]
  have hin : DataIn trend.ni trend.nj (D i j) :=
    ⟨fun e he => h.inside e (hsub.subset he), h.dataIn.nodup.sublist (hsub.map Datum.loc)⟩
  rw [hT.get hi' hj', if_neg hne]
  obtain ⟨a, ha, rfl⟩ := List.getElem_of_mem hmem
  have := krigged_data (c := fun x y => v.corr2 (x * dx) (y * dy)) (corr2_even v dx dy) hin hp T ⟨a, ha⟩
  rw [show (D i j)[(⟨a, ha⟩ : Fin (D i j).length)].i = (i : ℤ) from hi, show (D i j)[(⟨a, ha⟩ : Fin (D i j).length)].j = (j : ℤ) from hj,
    Int.toNat_natCast, Int.toNat_natCast] at this
  rw [this]
  unfold nodeRes
  rw [show (D i j)[(⟨a, ha⟩ : Fin (D i j).length)].i = (i : ℤ) from hi, show (D i j)[(⟨a, ha⟩ : Fin (D i j).length)].j = (j : ℤ) from hj,
    Int.toNat_natCast, Int.toNat_natCast, show (D i j)[(⟨a, ha⟩ : Fin (D i j).length)] = (D i j)[a] from rfl]
  cases gr
  · rw [if_neg (by decide), if_neg (by decide), add_sub_cancel]
  · rw [if_pos rfl, if_pos rfl, zero_add]

/-- **C95.** If `P/2` ranges are as long as the grid, blocks make no difference. -/
theorem krig2D_blocks_all (h : KrigTask v dx dy cov trend T d) (hb : BlockTask dx dy cov trend d P ax ay)
    (hK : (dataCorr v dx dy d).PosDef) (h0 : d ≠ []) (hv : ∀ e ∈ d, e.value ≠ 99999) (hx : (trend.ni : ℝ) ≤ P / 2 * ax)
    (hy : (trend.nj : ℝ) ≤ P / 2 * ay) (gr : Bool)
    {sort sort' : BlockSort (List Datum)} (hsort : ∀ l, (sort l).Perm l) (hsort' : ∀ l, (sort' l).Perm l) (P' : ℝ) :
    ∃ out out', krig2DNodal sort trend d cov gr false P = .ok out ∧ krig2DNodal sort' trend d cov gr true P' = .ok out' ∧
      ∀ i < trend.ni, ∀ j < trend.nj, out.get i j = out'.get i j := by
  obtain ⟨nbx, nby, D, hbx, hby, h200, hD, hout⟩ := krig2D_inBlocks h hb hK
  obtain ⟨out, ho, hT⟩ := hout gr sort hsort
  obtain ⟨out', ho', hT'⟩ := (krig2D_all hsort' h gr P' h0).2 hK
  refine ⟨out, out', ho, ho', ?_⟩
  intro i hi j hj
  rw [hT.get hi hj, hT'.get hi hj]
  have hDd : D i j = d := by
    obtain ⟨i0, i1, j0, j1, q1 | ⟨-, -, q1⟩, q2, q3, -⟩ := hD i hi j hj
    swap
    · exact q1
    rw [q1]
    unfold dataWithin
    refine List.filter_eq_self.2 fun e he => ?_
    obtain ⟨b1, b2, b3, b4⟩ := h.inside e he
    have hi' : (i : ℝ) ≤ trend.ni := by exact_mod_cast hi.le
    have hj' : (j : ℝ) ≤ trend.nj := by exact_mod_cast hj.le
    have c1 : (0 : ℝ) ≤ e.i := by exact_mod_cast b1
    have c2 : (e.i : ℝ) ≤ trend.ni := by exact_mod_cast b2.le
    have c3 : (0 : ℝ) ≤ e.j := by exact_mod_cast b3
    have c4 : (e.j : ℝ) ≤ trend.nj := by exact_mod_cast b4.le
    have m1 : (0 : ℝ) ≤ min (i : ℝ) ((nbx * cellsPerBlock trend.ni nbx : ℕ) : ℝ) := le_min (Nat.cast_nonneg _) (Nat.cast_nonneg _)
    have m2 : (0 : ℝ) ≤ min (j : ℝ) ((nby * cellsPerBlock trend.nj nby : ℕ) : ℝ) := le_min (Nat.cast_nonneg _) (Nat.cast_nonneg _)
    rw [decide_eq_true_iff]
    exact ⟨q2.nearLo _ b1 (by linarith), q2.nearHi _ b2 (by linarith), q3.nearLo _ b3 (by linarith),
      q3.nearHi _ b4 (by linarith), hv e he⟩
  simp only [hDd, if_neg h0]

/-- The ranges of a table are whole numbers of nodes: the largest of its lags with a correlation of at least 0.05. -/
theorem KrigTask.rangeNodes (h : KrigTask v dx dy cov trend T d) (hdx : 0 < dx) (hdy : 0 < dy) :
    ∃ nx ny ax ay : ℕ, trend.ni ≤ nx ∧ trend.nj ≤ ny ∧ 2 * nx * ny < 2 ^ 31 ∧ ax < nx ∧ ay < ny ∧
      cov.getRangeX = .ok (ax * dx) ∧ cov.getRangeY = .ok (ay * dy) ∧
      (∀ i j : ℕ, i < nx → j < ny → v.corr2 (i * dx) (j * dy) ≥ 0.05 → i ≤ ax ∧ j ≤ ay) ∧
      (ax = 0 ∨ ∃ j : ℤ, v.corr2 (ax * dx) (j * dy) ≥ 0.05) ∧ (ay = 0 ∨ ∃ i : ℤ, v.corr2 (i * dx) (ay * dy) ≥ 0.05) := by
  obtain ⟨nx, ny, h1, h2, h3, h4, h5, hc⟩ := h.table
  obtain ⟨n, rfl⟩ := Int.eq_ofNat_of_zero_le h1.le
  obtain ⟨m, rfl⟩ := Int.eq_ofNat_of_zero_le h2.le
  obtain ⟨r, hr, g1, g2⟩ := covTable_rangeX v dx dy h1 h2 h3 hc
  obtain ⟨r', hr', g1', g2'⟩ := covTable_rangeY v dx dy h1 h2 h3 hc
  have hX : ∃ ax : ℕ, ax < n ∧ r = ax * dx ∧ (ax = 0 ∨ ∃ j : ℤ, v.corr2 (ax * dx) (j * dy) ≥ 0.05) := by
    rcases g1 with g1 | ⟨i, j, i1, i2, -, -, i3, i4⟩
    · exact ⟨0, by omega, by rw [g1]; simp, .inl rfl⟩
    · obtain ⟨i, rfl⟩ := Int.eq_ofNat_of_zero_le i1
      exact ⟨i, by omega, by rw [i4]; rfl, .inr ⟨j, i3⟩⟩
  have hY : ∃ ay : ℕ, ay < m ∧ r' = ay * dy ∧ (ay = 0 ∨ ∃ i : ℤ, v.corr2 (i * dx) (ay * dy) ≥ 0.05) := by
    rcases g1' with g | ⟨i, j, i1, i2, j1, j2, i3, i4⟩
    · exact ⟨0, by omega, by rw [g]; simp, .inl rfl⟩
    · by_cases hj : j ≤ 0
      · refine ⟨0, by omega, ?_, .inl rfl⟩
        have z := g2' (show (0 : ℝ) ∈ _ from .inl rfl)
        have : (j : ℝ) * dy ≤ 0 := mul_nonpos_of_nonpos_of_nonneg (by exact_mod_cast hj) hdy.le
        rw [i4] at z ⊢
        push_cast
        linarith
      · obtain ⟨j, rfl⟩ := Int.eq_ofNat_of_zero_le (show 0 ≤ j by omega)
        exact ⟨j, by omega, by rw [i4]; rfl, .inr ⟨i, i3⟩⟩
  obtain ⟨ax, a1, rfl, a3⟩ := hX
  obtain ⟨ay, b1, rfl, b3⟩ := hY
  refine ⟨n, m, ax, ay, by omega, by omega, by exact_mod_cast h3, a1, b1, hr, hr', ?_, a3, b3⟩
  intro i j hi hj hcor
  constructor
  · have := g2 (show ((i : ℤ) : ℝ) * dx ∈ _ from .inr ⟨i, j, by omega, by omega, by omega, by omega, by exact_mod_cast hcor, rfl⟩)
    have := (mul_le_mul_iff_left₀ hdx).1 this
    exact_mod_cast this
  · have := g2' (show ((j : ℤ) : ℝ) * dy ∈ _ from .inr ⟨i, j, by omega, by omega, by omega, by omega, by exact_mod_cast hcor, rfl⟩)
    have := (mul_le_mul_iff_left₀ hdy).1 this
    exact_mod_cast this

/-- **C95.** With more than 200 data and a range shorter than the distance between nodes, numbers that are not finite
are converted to integers: the behaviour is undefined. -/
theorem krig2D_blocks_undefined (h : KrigTask v dx dy cov trend T d) (hl : 200 < d.length) (hr : cov.getRangeX = .ok 0)
    (gr : Bool) (P : ℝ) (sort : BlockSort (List Datum)) :
    ∃ why, krig2DNodal sort trend d cov gr false P = .nonfinite why := by
  obtain ⟨-, ry, hry⟩ := h.ranges
  unfold krig2DNodal krigBlocks findOptimalBlockP
  simp only [Res.monad_bind_eq]
  rw [hr, Res.bind_ok, hry, Res.bind_ok, if_neg (by decide), if_pos hl, divD, if_pos rfl]
  exact ⟨_, rfl⟩

end

/-! ### Cases -/

/-- A Gaussian variogram of range ten. -/
noncomputable def wideVario : Variogram :=
  { type := .gaussian, power := 1, rangeX := 10, rangeY := 10, rangeZ := 10, azimuth := 0, dip := 0, var := 1,
    txx := 1 / 100, tyy := 1 / 100, tzz := 1 / 100, txy := 0, txz := 0, tyz := 0 }

theorem wideVario_create : Variogram.create .gaussian 1 10 10 10 0 0 1 = .ok wideVario := by
  unfold Variogram.create Variogram.estimateFactors wideVario
  norm_num

theorem wideVario_corr (x y : ℝ) : wideVario.corr2 x y = Real.exp (-(3 / 100 * (x ^ 2 + y ^ 2))) := by
  show Real.exp (-3.0 * √(1 / 100 * x * x + 1 / 100 * y * y + 0 * x * y) * √(1 / 100 * x * x + 1 / 100 * y * y + 0 * x * y)) = _
  rw [mul_assoc, Real.mul_self_sqrt (by nlinarith [sq_nonneg x, sq_nonneg y])]
  congr 1
  norm_num
  ring

theorem gaussVario_corr (x y : ℝ) : gaussVario.corr2 x y = Real.exp (-(3 * (x ^ 2 + y ^ 2))) := by
  show Real.exp (-3.0 * √(1 * x * x + 1 * y * y + 0 * x * y) * √(1 * x * x + 1 * y * y + 0 * x * y)) = _
  rw [mul_assoc, Real.mul_self_sqrt (by nlinarith [sq_nonneg x, sq_nonneg y])]
  congr 1
  norm_num
  ring

theorem wideVario_ranges {cov : CovTable} {trend : Grid2D ℝ} {T : ℕ → ℕ → ℝ} {d : List Datum}
    (h : KrigTask wideVario 1 1 cov trend T d) (h1' : 5 ≤ trend.ni) (h2' : 5 ≤ trend.nj) :
    ∃ ax ay : ℕ, cov.getRangeX = .ok (ax * 1) ∧ cov.getRangeY = .ok (ay * 1) ∧ 4 ≤ ax ∧ ax ≤ 100 ∧ 4 ≤ ay ∧ ay ≤ 100 := by
  obtain ⟨nx, ny, ax, ay, h1, h2, h3, h4, h5, h6, h7, h8, h9, h10⟩ := h.rangeNodes one_pos one_pos
  have hcor : ∀ x y : ℝ, x ^ 2 + y ^ 2 = 16 → wideVario.corr2 x y ≥ 0.05 := by
    intro x y hxy
    rw [wideVario_corr, hxy]
    have := Real.add_one_le_exp (-(3 / 100 * 16))
    refine le_trans ?_ this
    norm_num
  have hfar : ∀ x y : ℝ, wideVario.corr2 x y ≥ 0.05 → x ^ 2 + y ^ 2 ≤ 634 := by
    intro x y hxy
    rw [wideVario_corr, Real.exp_neg] at hxy
    have := Real.add_one_le_exp (3 / 100 * (x ^ 2 + y ^ 2))
    have hp := Real.exp_pos (3 / 100 * (x ^ 2 + y ^ 2))
    have h2 : Real.exp (3 / 100 * (x ^ 2 + y ^ 2)) ≤ 20 := by
      rw [ge_iff_le, le_inv_comm₀ (by norm_num) hp] at hxy
      norm_num at hxy
      exact hxy
    linarith
  have k1 := (h8 4 0 (by omega) (by omega) (hcor _ _ (by norm_num))).1
  have k2 := (h8 0 4 (by omega) (by omega) (hcor _ _ (by norm_num))).2
  have u1 : ax ≤ 100 := by
    rcases h9 with rfl | ⟨j, hj⟩
    · omega
    · have := hfar _ _ hj
      have h2 : (ax : ℝ) ^ 2 ≤ 634 := by nlinarith [sq_nonneg ((j : ℝ) * 1)]
      have h3 : ax ^ 2 ≤ 634 := by exact_mod_cast h2
      nlinarith
  have u2 : ay ≤ 100 := by
    rcases h10 with rfl | ⟨i, hi⟩
    · omega
    · have := hfar _ _ hi
      have h2 : (ay : ℝ) ^ 2 ≤ 634 := by nlinarith [sq_nonneg ((i : ℝ) * 1)]
      have h3 : ay ^ 2 ≤ 634 := by exact_mod_cast h2
      nlinarith
  exact ⟨ax, ay, h6, h7, k1, u1, k2, u2⟩

/-- A grid of twelve by twelve nodes with a datum in the part left over. -/
theorem blockTask_case : ∃ cov ax ay, 4 ≤ ax ∧ 4 ≤ ay ∧
    KrigTask wideVario 1 1 cov (Grid2D.mk' 12 12 5) (fun _ _ => 5) [⟨0, 0, 7, 1⟩, ⟨11, 11, 4, 1⟩] ∧
    BlockTask 1 1 cov (Grid2D.mk' 12 12 5) [⟨0, 0, 7, 1⟩, ⟨11, 11, 4, 1⟩] 2 ax ay ∧
    BlockTask 1 1 cov (Grid2D.mk' 12 12 5) [⟨0, 0, 7, 1⟩, ⟨11, 11, 4, 1⟩] 6 ax ay := by
  obtain ⟨cov, hc, -⟩ := covTable_lookup wideVario (nx := 12) (ny := 12) 1 1 (by norm_num) (by norm_num) (by norm_num)
  have h : KrigTask wideVario 1 1 cov (Grid2D.mk' 12 12 5) (fun _ _ => 5) [⟨0, 0, 7, 1⟩, ⟨11, 11, 4, 1⟩] := by
    refine ⟨(Grid2D.Holds.mk' (nx := 12) (ny := 12) 5).2.2.1, fun i hi j hj => (Grid2D.Holds.mk' (nx := 12) (ny := 12) 5).get hi hj, ?_, ?_, ?_⟩
    · exact ⟨12, 12, by norm_num, by norm_num, by norm_num, le_refl _, le_refl _, hc⟩
    · intro e he
      simp only [List.mem_cons, List.not_mem_nil, or_false] at he
      rcases he with rfl | rfl <;> simp [Grid2D.mk']
    · simp
  obtain ⟨ax, ay, h6, h7, k1, u1, k2, u2⟩ := wideVario_ranges h (by norm_num [Grid2D.mk']) (by norm_num [Grid2D.mk'])
  have u1' : (ax : ℝ) ≤ 100 := by exact_mod_cast u1
  have u2' : (ay : ℝ) ≤ 100 := by exact_mod_cast u2
  have hB : ∀ P : ℝ, 0 ≤ P → P ≤ 6 → BlockTask 1 1 cov (Grid2D.mk' 12 12 5) [⟨0, 0, 7, 1⟩, ⟨11, 11, 4, 1⟩] P ax ay := by
    intro P h0 hP
    refine ⟨one_pos, one_pos, h0, by simp [Grid2D.mk'], by simp [Grid2D.mk'], by simp, h6, h7, ?_, ?_, by omega, by omega, .inl (by simp)⟩
    · have : P * ax ≤ 6 * 100 := mul_le_mul hP u1' (Nat.cast_nonneg _) (by norm_num)
      show 2 * ((12 : ℕ) : ℝ) + 2 * P * ax + 1 < 2 ^ 31
      norm_num
      linarith
    · have : P * ay ≤ 6 * 100 := mul_le_mul hP u2' (Nat.cast_nonneg _) (by norm_num)
      show 2 * ((12 : ℕ) : ℝ) + 2 * P * ay + 1 < 2 ^ 31
      norm_num
      linarith
  exact ⟨cov, ax, ay, k1, k2, h, hB 2 (by norm_num) (by norm_num), hB 6 (by norm_num) (by norm_num)⟩

/-- The data are honoured there with the default `P`, and blocks make no difference with `P` three times as large. -/
example : ∃ cov out, krig2DNodal id (Grid2D.mk' 12 12 5) [⟨0, 0, 7, 1⟩, ⟨11, 11, 4, 1⟩] cov false false 2 = .ok out ∧
    out.get 11 11 = .ok 4 := by
  obtain ⟨cov, ax, ay, k1, k2, h, hb, -⟩ := blockTask_case
  have k1' : (4 : ℝ) ≤ ax := by exact_mod_cast k1
  have k2' : (4 : ℝ) ≤ ay := by exact_mod_cast k2
  obtain ⟨out, ho, hd⟩ := krig2D_blocks_honours h hb (dataCorr_gauss wideVario_create rfl one_ne_zero one_ne_zero h.nodup)
    (by simp) (by linarith) (by linarith) false (sort := id) (fun l => List.Perm.refl _)
  exact ⟨cov, out, ho, by rw [hd ⟨11, 11, 4, 1⟩ (by simp) (by norm_num) 11 11 rfl rfl]; simp⟩

example : ∃ cov out out', krig2DNodal id (Grid2D.mk' 12 12 5) [⟨0, 0, 7, 1⟩, ⟨11, 11, 4, 1⟩] cov false false 6 = .ok out ∧
    krig2DNodal id (Grid2D.mk' 12 12 5) [⟨0, 0, 7, 1⟩, ⟨11, 11, 4, 1⟩] cov false true 2 = .ok out' ∧
    out.get 3 7 = out'.get 3 7 := by
  obtain ⟨cov, ax, ay, k1, k2, h, -, hb⟩ := blockTask_case
  have k1' : (4 : ℝ) ≤ ax := by exact_mod_cast k1
  have k2' : (4 : ℝ) ≤ ay := by exact_mod_cast k2
  have hn : ((Grid2D.mk' 12 12 (5 : ℝ)).ni : ℝ) = 12 := by simp [Grid2D.mk']
  have hn' : ((Grid2D.mk' 12 12 (5 : ℝ)).nj : ℝ) = 12 := by simp [Grid2D.mk']
  obtain ⟨out, out', ho, ho', hd⟩ := krig2D_blocks_all h hb (dataCorr_gauss wideVario_create rfl one_ne_zero one_ne_zero h.nodup)
    (by simp) (by intro e he; simp only [List.mem_cons, List.not_mem_nil, or_false] at he; rcases he with rfl | rfl <;> norm_num)
    (by rw [hn]; linarith) (by rw [hn']; linarith) false (sort := id) (sort' := id) (fun l => List.Perm.refl _) (fun l => List.Perm.refl _) 2
  exact ⟨cov, out, out', ho, ho', hd 3 (by simp [Grid2D.mk']) 7 (by simp [Grid2D.mk'])⟩

/-- The ranges of a table for the variogram of range one are zero nodes. -/
theorem gaussVario_ranges {cov : CovTable} {trend : Grid2D ℝ} {T : ℕ → ℕ → ℝ} {d : List Datum}
    (h : KrigTask gaussVario 1 1 cov trend T d) : cov.getRangeX = .ok 0 ∧ cov.getRangeY = .ok 0 := by
  obtain ⟨nx, ny, ax, ay, -, -, -, -, -, h6, h7, -, h9, h10⟩ := h.rangeNodes one_pos one_pos
  have hfar : ∀ x y : ℝ, gaussVario.corr2 x y ≥ 0.05 → x ^ 2 + y ^ 2 < 1 := by
    intro x y hxy
    rw [gaussVario_corr, Real.exp_neg] at hxy
    by_contra hc
    push Not at hc
    have e1 : (20 : ℝ) < Real.exp 3 := by
      have := Real.exp_one_gt_d9
      have e : Real.exp 3 = Real.exp 1 ^ 3 := by rw [← Real.exp_nat_mul]; norm_num
      rw [e]
      calc (20 : ℝ) < 2.718 ^ 3 := by norm_num
        _ ≤ Real.exp 1 ^ 3 := pow_le_pow_left₀ (by norm_num) (by linarith) 3
    have e2 : Real.exp 3 ≤ Real.exp (3 * (x ^ 2 + y ^ 2)) := Real.exp_le_exp.2 (by linarith)
    rw [ge_iff_le, le_inv_comm₀ (by norm_num) (Real.exp_pos _)] at hxy
    norm_num at hxy
    linarith
  have z1 : ax = 0 := by
    rcases h9 with h | ⟨j, hj⟩
    · exact h
    · have := hfar _ _ hj
      have h2 : (ax : ℝ) ^ 2 < 1 := by nlinarith [sq_nonneg ((j : ℝ) * 1)]
      have h3 : ax ^ 2 < 1 := by exact_mod_cast h2
      nlinarith
  have z2 : ay = 0 := by
    rcases h10 with h | ⟨i, hi⟩
    · exact h
    · have := hfar _ _ hi
      have h2 : (ay : ℝ) ^ 2 < 1 := by nlinarith [sq_nonneg ((i : ℝ) * 1)]
      have h3 : ay ^ 2 < 1 := by exact_mod_cast h2
      nlinarith
  rw [h6, h7, z1, z2]
  simp

/-- **C95.** A datum that is not honoured: on a grid of three by two nodes with trend 5, kriged from a datum 4 in the
far corner with the default arguments, that corner stays 5. If residuals are asked for, it is 5 too, neither the residual
-1 nor 0. -/
theorem krig2D_blocks_violation : ∃ cov out res,
    KrigTask gaussVario 1 1 cov (Grid2D.mk' 3 2 5) (fun _ _ => 5) [⟨2, 1, 4, 1⟩] ∧
    BlockTask 1 1 cov (Grid2D.mk' 3 2 5) [⟨2, 1, 4, 1⟩] 2 0 0 ∧
    krig2DNodal id (Grid2D.mk' 3 2 5) [⟨2, 1, 4, 1⟩] cov false false 2 = .ok out ∧ out.get 2 1 = .ok 5 ∧
    krig2DNodal id (Grid2D.mk' 3 2 5) [⟨2, 1, 4, 1⟩] cov true false 2 = .ok res ∧ res.get 2 1 = .ok 5 := by
  obtain ⟨cov, hcov⟩ := krigTask_case
  have h : KrigTask gaussVario 1 1 cov (Grid2D.mk' 3 2 5) (fun _ _ => 5) [⟨2, 1, 4, 1⟩] :=
    ⟨hcov.wf, hcov.holds, hcov.table, by simp [Grid2D.mk'], by simp⟩
  have hb : BlockTask 1 1 cov (Grid2D.mk' 3 2 5) [⟨2, 1, 4, 1⟩] 2 0 0 := by
    obtain ⟨r1, r2⟩ := gaussVario_ranges h
    refine ⟨one_pos, one_pos, by norm_num, by simp [Grid2D.mk'], by simp [Grid2D.mk'], by simp, by rw [r1]; simp, by rw [r2]; simp,
      ?_, ?_, by norm_num, by norm_num, .inl (by simp)⟩
    · show 2 * ((3 : ℕ) : ℝ) + 2 * 2 * ((0 : ℕ) : ℝ) + 1 < 2 ^ 31
      norm_num
    · show 2 * ((2 : ℕ) : ℝ) + 2 * 2 * ((0 : ℕ) : ℝ) + 1 < 2 ^ 31
      norm_num
  obtain ⟨nbx, nby, nxb, nyb, D, -, -, h200, hx, hy, hD, hout⟩ := krig2D_blocks h hb
    (dataCorr_gauss gaussVario_create rfl one_ne_zero one_ne_zero h.nodup)
  obtain ⟨rfl, rfl⟩ := h200 (by simp)
  have hx' : 10 * nxb ≤ 3 + 5 := hx.2
  obtain rfl : nxb = 0 := by omega
  have i2 : 2 < (Grid2D.mk' 3 2 (5 : ℝ)).ni := by simp [Grid2D.mk']
  have j1' : 1 < (Grid2D.mk' 3 2 (5 : ℝ)).nj := by simp [Grid2D.mk']
  have hnil : D 2 1 = [] := by
    obtain ⟨i0, i1, j0, j1, q1, q2, q3⟩ := hD 2 i2 1 j1'
    rcases q1 with q1 | ⟨q1, -⟩
    swap
    · omega
    have w1 := q2.farHi
    norm_num at w1
    have w1' : i1 ≤ 1 := by exact_mod_cast w1
    rw [q1]
    unfold dataWithin
    rw [List.filter_cons_of_neg, List.filter_nil]
    rw [decide_eq_true_iff]
    rintro ⟨-, hc, -⟩
    have hc : (2 : ℤ) ≤ i1 := hc
    omega
  obtain ⟨out, ho, -, -, hT⟩ := hout false id fun l => List.Perm.refl _
  obtain ⟨res, hr, -, -, hT'⟩ := hout true id fun l => List.Perm.refl _
  exact ⟨cov, out, res, h, hb, ho, (hT 2 i2 1 j1').1 hnil, hr, (hT' 2 i2 1 j1').1 hnil⟩

/-- Undefined behaviour with 201 data on a line of nodes. -/
example : ∃ cov trend d, KrigTask gaussVario 1 1 cov trend (fun _ _ => 5) d ∧ 200 < d.length ∧ cov.getRangeX = .ok 0 := by
  obtain ⟨cov, hc, -⟩ := covTable_lookup gaussVario (nx := 201) (ny := 1) 1 1 (by norm_num) (by norm_num) (by norm_num)
  have h : KrigTask gaussVario 1 1 cov (Grid2D.mk' 201 1 5) (fun _ _ => 5)
      ((List.range 201).map fun k : ℕ => (⟨(k : ℤ), 0, 7, 1⟩ : Datum)) := by
    refine ⟨(Grid2D.Holds.mk' (nx := 201) (ny := 1) 5).2.2.1, fun i hi j hj => (Grid2D.Holds.mk' (nx := 201) (ny := 1) 5).get hi hj, ?_, ?_, ?_⟩
    · exact ⟨201, 1, by norm_num, by norm_num, by norm_num, le_refl _, le_refl _, hc⟩
    · intro e he
      obtain ⟨k, hk, rfl⟩ := List.mem_map.1 he
      rw [List.mem_range] at hk
      exact ⟨Int.natCast_nonneg k, show (k : ℤ) < ((201 : ℕ) : ℤ) by exact_mod_cast hk, le_refl _, by simp [Grid2D.mk']⟩
    · rw [List.map_map]
      refine List.Nodup.map ?_ List.nodup_range
      intro a b hab
      simpa using hab
  exact ⟨cov, _, _, h, by rw [List.length_map, List.length_range]; norm_num, (gaussVario_ranges h).1⟩

end Verif
