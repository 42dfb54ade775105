import Verif.Lemmas.Krig2DOptimal
import Verif.Props.Krig2DBlocks
import Verif.Props.Krig2DCont

/-!
# C97: kriging in two dimensions, from data between nodes, in blocks

The setting is that of C96, with `krig_all` false, which is the default. The ranges of the variogram are `ax` and `ay`
whole nodes and a part of a node.
-/

namespace Verif

/-- The extra conditions for kriging in blocks: at least one node, positive spacings and ranges, and numbers that are
not too large. -/
structure ContBlocks (v : Variogram) (s : RegSurf) (d : List Pt) (P : ℝ) (ax ay : ℕ) : Prop where
  hdx : 0 < s.dx
  hdy : 0 < s.dy
  hP : 0 ≤ P
  hni : 1 ≤ s.grid.ni
  hnj : 1 ≤ s.grid.nj
  hlen : d.length ≤ s.grid.ni * s.grid.nj
  rangeX : ax * s.dx ≤ v.rangeX ∧ v.rangeX < (ax + 1) * s.dx
  rangeY : ay * s.dy ≤ v.rangeY ∧ v.rangeY < (ay + 1) * s.dy
  /-- no overflow -/
  boundX : 2 * (s.grid.ni : ℝ) + 2 * P * ax + 1 < 2 ^ 31
  boundY : 2 * (s.grid.nj : ℝ) + 2 * P * ay + 1 < 2 ^ 31
  shortX : ax < 2 ^ 31
  shortY : ay < 2 ^ 31
  /-- with many data, the ranges are at least a node -/
  many : d.length ≤ 200 ∨ (1 ≤ ax ∧ 1 ≤ ay ∧ 5 * s.grid.ni * (ay + 1) < 2 ^ 32 ∧ 5 * s.grid.nj * (ax + 1) < 2 ^ 32 ∧
    (d.length : ℝ) * (ax + 1) * (ay + 1) * (2 * P + 5 + s.grid.ni) ^ 2 < 2 ^ 64)

/-- In one direction with `n` nodes, made into `m` blocks of `nb` nodes (the last block may be longer): the data from
the node `lo` up to but not including the node `hi` are used for the node `i`. They include the data at most `P/2` ranges
before the node, and those less than a node and `P/2` ranges beyond it; if the node is not before `m * nb`, less than `P/2`
ranges from there. They are at most a block, a node and `2 P` ranges away. -/
structure PtWindow (n m nb : ℕ) (P : ℝ) (a i lo hi : ℕ) : Prop where
  nearLo : ∀ u : ℝ, 0 ≤ u → (i : ℝ) - P / 2 * a ≤ u → lo ≤ u
  nearHi : ∀ u : ℝ, u < n → u < min ((i : ℝ) + 1) ((m * nb : ℕ) : ℝ) + P / 2 * a → u < hi
  farLo : min (i : ℝ) ((m * nb : ℕ) : ℝ) - (nb + 2 * P * a + 1) ≤ lo
  farHi : (hi : ℝ) ≤ min (i : ℝ) ((m * nb : ℕ) : ℝ) + nb + 2 * P * a + 1

theorem PtWindow.ofBlock {n m nb b i a lo hi : ℕ} {P : ℝ} (hb : b < m) (h1 : b * nb ≤ i) (h2 : i < blockEnd b m nb n)
    (k1 : ∀ x : ℝ, 0 ≤ x → ((b * nb : ℕ) : ℝ) - P / 2 * a ≤ x → lo ≤ x)
    (k2 : ∀ x : ℝ, x ≤ n → x ≤ (((b + 1) * nb : ℕ) : ℝ) + P / 2 * a → x ≤ hi)
    (k3 : (hi : ℝ) ≤ (((b + 1) * nb : ℕ) : ℝ) + 2 * P * a + 1) (k4 : ((b * nb : ℕ) : ℝ) - 2 * P * a - 1 ≤ lo) :
    PtWindow n m nb P a i lo hi := by
  have h1' : ((b * nb : ℕ) : ℝ) ≤ (i : ℝ) := by exact_mod_cast h1
  have hm : min ((i : ℝ) + 1) ((m * nb : ℕ) : ℝ) ≤ (((b + 1) * nb : ℕ) : ℝ) := by
    unfold blockEnd at h2
    split at h2
    · have : m = b + 1 := by omega
      rw [this]
      exact min_le_right _ _
    · refine (min_le_left _ _).trans ?_
      exact_mod_cast h2.trans_le (min_le_left _ _)
  have e : (((b + 1) * nb : ℕ) : ℝ) = ((b * nb : ℕ) : ℝ) + nb := by push_cast; ring
  have hm' : ((b * nb : ℕ) : ℝ) ≤ min (i : ℝ) ((m * nb : ℕ) : ℝ) :=
    le_min h1' (by exact_mod_cast Nat.mul_le_mul_right nb hb.le)
  have hmm : min (i : ℝ) ((m * nb : ℕ) : ℝ) ≤ min ((i : ℝ) + 1) ((m * nb : ℕ) : ℝ) := min_le_min (by linarith) le_rfl
  refine ⟨fun x hx hx' => k1 x hx (by linarith), fun x hx hx' => ?_, by linarith, by linarith⟩
  refine lt_of_lt_of_le ?_ (k2 (min (n : ℝ) ((((b + 1) * nb : ℕ) : ℝ) + P / 2 * a)) (min_le_left _ _) (min_le_right _ _))
  exact lt_min hx (by linarith)

/-- The points from one node up to another in both directions. -/
noncomputable def pointsWithin (s : RegSurf) (d : List Pt) (i0 i1 j0 j1 : ℕ) : List Pt :=
  d.filter fun p => s.x_min + i0 * s.dx ≤ p.x ∧ p.x < s.x_min + i1 * s.dx ∧
    s.y_min + j0 * s.dy ≤ p.y ∧ p.y < s.y_min + j1 * s.dy

section
variable {v : Variogram} {s : RegSurf} {T : ℕ → ℕ → ℝ} {points d : List Pt} {t : ℝ → ℝ → ℝ} {fl : ℝ → ℝ} {P : ℝ} {ax ay : ℕ}

theorem rangeTrunc {r dx : ℝ} {a : ℕ} (hdx : 0 < dx) (h : a * dx ≤ r ∧ r < (a + 1) * dx) (ha : a < 2 ^ 31) :
    toInt32 (truncZ (r / dx)) = .ok (a : ℤ) := by
  have h1 : (a : ℝ) ≤ r / dx := by rw [le_div_iff₀ hdx]; exact h.1
  have h2 : r / dx < a + 1 := by rw [div_lt_iff₀ hdx]; exact h.2
  have hf : ⌊r / dx⌋ = (a : ℤ) := by
    rw [Int.floor_eq_iff]
    exact ⟨by exact_mod_cast h1, by exact_mod_cast h2⟩
  unfold truncZ
  rw [if_pos (le_trans (Nat.cast_nonneg a) h1), hf, toInt32, if_pos ⟨by omega, by exact_mod_cast ha⟩]

/-- The data of the blocks. -/
theorem contBlocks_ok (h : SurfTask s T points t) (hd : d = usedPoints fl points) (hb : ContBlocks v s d P ax ay) :
    ∃ (nbx nby : ℕ) (L : List ((ℕ × ℕ) × List Pt)), 1 ≤ nbx ∧ 1 ≤ nby ∧ (d.length ≤ 200 → nbx = 10 ∧ nby = 10) ∧
      krigBlocks (contCount s d) (contSelect s d) d d.length s.grid.ni s.grid.nj v.rangeX v.rangeY s.dx s.dy P false
        = .ok (nbx, nby, L) ∧
      (L.map Prod.fst).Nodup ∧ (∀ b, b ∈ L.map Prod.fst ↔ b.1 < nbx ∧ b.2 < nby) ∧
      ∀ b ∈ L, ∃ i0 i1 j0 j1 : ℕ, (b.2 = pointsWithin s d i0 i1 j0 j1 ∨ (nbx = 1 ∧ nby = 1 ∧ b.2 = d)) ∧
        (∀ i, b.1.1 * cellsPerBlock s.grid.ni nbx ≤ i → i < blockEnd b.1.1 nbx (cellsPerBlock s.grid.ni nbx) s.grid.ni →
          PtWindow s.grid.ni nbx (cellsPerBlock s.grid.ni nbx) P ax i i0 i1) ∧
        ∀ j, b.1.2 * cellsPerBlock s.grid.nj nby ≤ j → j < blockEnd b.1.2 nby (cellsPerBlock s.grid.nj nby) s.grid.nj →
          PtWindow s.grid.nj nby (cellsPerBlock s.grid.nj nby) P ay j j0 j1 := by
  have hno : ∀ p ∈ d, p.z ≠ 99999 := by
    intro p hp
    rw [hd] at hp
    obtain ⟨q, hq, rfl⟩ := List.mem_map.1 hp
    simpa using (List.mem_filter.1 hq).2
  have hnx := h.nodes.ni_lt
  have hny := h.nodes.nj_lt
  have hx1 : (ax : ℝ) ≤ v.rangeX / s.dx ∧ v.rangeX / s.dx < ax + 1 :=
    ⟨by rw [le_div_iff₀ hb.hdx]; exact hb.rangeX.1, by rw [div_lt_iff₀ hb.hdx]; exact hb.rangeX.2⟩
  have hy1 : (ay : ℝ) ≤ v.rangeY / s.dy ∧ v.rangeY / s.dy < ay + 1 :=
    ⟨by rw [le_div_iff₀ hb.hdy]; exact hb.rangeY.1, by rw [div_lt_iff₀ hb.hdy]; exact hb.rangeY.2⟩
  obtain ⟨nbx, nby, nd, e0, hbx, hby, h200⟩ := findOptimalBlockP_ok' (n_data := d.length) (ax := v.rangeX / s.dx)
    (ay := v.rangeY / s.dy) (P := P) hb.hdx hb.hdy hb.hP hb.hni hb.hnj hnx hny (by
      rcases hb.many with hm | ⟨m1, m2, m3, m4, m5⟩
      · exact .inl hm
      · have m1' : (1 : ℝ) ≤ ax := by exact_mod_cast m1
        have m2' : (1 : ℝ) ≤ ay := by exact_mod_cast m2
        have m3' : (5 : ℝ) * s.grid.ni * (ay + 1) < 2 ^ 32 := by exact_mod_cast m3
        have m4' : (5 : ℝ) * s.grid.nj * (ax + 1) < 2 ^ 32 := by exact_mod_cast m4
        have hP := hb.hP
        refine .inr ⟨by linarith, by linarith, lt_of_le_of_lt (mul_le_mul_of_nonneg_left hy1.2.le (by positivity)) m3',
          lt_of_le_of_lt (mul_le_mul_of_nonneg_left hx1.2.le (by positivity)) m4', lt_of_le_of_lt ?_ m5⟩
        refine mul_le_mul_of_nonneg_right ?_ (by positivity)
        refine mul_le_mul (mul_le_mul_of_nonneg_left hx1.2.le (by positivity)) hy1.2.le (by linarith) (by positivity))
  rw [div_mul_cancel₀ _ hb.hdx.ne', div_mul_cancel₀ _ hb.hdy.ne'] at e0
  have hstart : krigBlocks (contCount s d) (contSelect s d) d d.length s.grid.ni s.grid.nj v.rangeX v.rangeY s.dx s.dy P false
      = (if nbx > 1 ∨ nby > 1 then
          forRange 0 nbx (fun i blocks => forRange 0 nby (fun j blocks => do
            let d ← blockData (contCount s d) (contSelect s d)
              P ax ay s.grid.ni s.grid.nj (cellsPerBlock s.grid.ni nbx) (cellsPerBlock s.grid.nj nby) (min nd 100000) i j
            .ok (blocks ++ [((i, j), d)])) blocks) []
        else .ok [((0, 0), d)]).bind fun blocks => .ok (nbx, nby, blocks) := by
    unfold krigBlocks findOptimalDataInBlock
    simp only [Res.monad_bind_eq]
    rw [if_neg (by decide), e0, Res.bind_ok]
    dsimp only
    rw [divD, if_neg hb.hdx.ne', Res.bind_ok, divD, if_neg hb.hdy.ne', rangeTrunc hb.hdx hb.rangeX hb.shortX, Res.bind_ok, Res.bind_ok,
      rangeTrunc hb.hdy hb.rangeY hb.shortY, Res.bind_ok]
  rw [hstart]
  by_cases hm : nbx > 1 ∨ nby > 1
  · rw [if_pos hm]
    have key := blockList_ok (m := nbx) (n := nby) (fun i j => blockData (contCount s d) (contSelect s d)
        P ax ay s.grid.ni s.grid.nj (cellsPerBlock s.grid.ni nbx) (cellsPerBlock s.grid.nj nby) (min nd 100000) i j)
      (fun bx by_ D => ∃ i0 i1 j0 j1 : ℕ, D = pointsWithin s d i0 i1 j0 j1 ∧
        (∀ i, bx * cellsPerBlock s.grid.ni nbx ≤ i → i < blockEnd bx nbx (cellsPerBlock s.grid.ni nbx) s.grid.ni →
          PtWindow s.grid.ni nbx (cellsPerBlock s.grid.ni nbx) P ax i i0 i1) ∧
        ∀ j, by_ * cellsPerBlock s.grid.nj nby ≤ j → j < blockEnd by_ nby (cellsPerBlock s.grid.nj nby) s.grid.nj →
          PtWindow s.grid.nj nby (cellsPerBlock s.grid.nj nby) P ay j j0 j1) ?_
    · obtain ⟨L, hL, h1, h2, h3⟩ := key
      refine ⟨nbx, nby, L, hbx, hby, h200, ?_, h1, h2, ?_⟩
      · rw [hL, Res.bind_ok]
      · intro b hb'
        obtain ⟨i0, i1, j0, j1, q1, q2, q3⟩ := h3 b hb'
        exact ⟨i0, i1, j0, j1, .inl q1, q2, q3⟩
    · intro bx hbx' by_ hby'
      have mx : (bx + 1) * cellsPerBlock s.grid.ni nbx ≤ 2 * s.grid.ni :=
        (Nat.mul_le_mul_right _ hbx').trans (cellsPerBlock_mul s.grid.ni nbx hbx).1
      have my : (by_ + 1) * cellsPerBlock s.grid.nj nby ≤ 2 * s.grid.nj :=
        (Nat.mul_le_mul_right _ hby').trans (cellsPerBlock_mul s.grid.nj nby hby).1
      obtain ⟨i0, i1, j0, j1, q0, q1, q2, q3, q4, r1, r2, r3, r4⟩ := blockData_ok (contCount s d)
        (contSelect s d) (n_target := min nd 100000) hb.hP
        (Int.natCast_nonneg ax) (Int.natCast_nonneg ay) mx my (by have := hb.boundX; push_cast; exact this)
        (by have := hb.boundY; push_cast; exact this) hnx hny
      rw [q0, Res.sat_ok]
      rw [Int.cast_natCast] at q1 q2 q3 q4 r1 r2 r3 r4
      refine ⟨i0, i1, j0, j1, ?_, fun i hi hi' => PtWindow.ofBlock hbx' hi hi' q1 q2 q3 q4,
        fun j hj hj' => PtWindow.ofBlock hby' hj hj' r1 r2 r3 r4⟩
      rw [contSelect_eq s hno]
      unfold pointsWithin
      refine List.filter_congr fun p _ => ?_
      rw [decide_eq_decide]
      tauto
  · rw [if_neg hm, Res.bind_ok]
    obtain rfl : nbx = 1 := by omega
    obtain rfl : nby = 1 := by omega
    refine ⟨1, 1, _, le_refl _, le_refl _, h200, rfl, by simp, ?_, ?_⟩
    · intro b
      simp [Prod.ext_iff]
    · intro b hb'
      rw [List.mem_singleton] at hb'
      subst hb'
      have w : ∀ (n a i : ℕ), i < n → PtWindow n 1 n P a i 0 n := by
        intro n a i hi
        have hi' : (i : ℝ) ≤ n := by exact_mod_cast hi.le
        have p : 0 ≤ 2 * P * a := by have := hb.hP; positivity
        refine ⟨fun x hx _ => by exact_mod_cast hx, fun x hx _ => hx, ?_, ?_⟩
        · have := min_le_left (i : ℝ) ((1 * n : ℕ) : ℝ)
          push_cast at this ⊢
          linarith
        · have : (0 : ℝ) ≤ min (i : ℝ) ((1 * n : ℕ) : ℝ) := le_min (Nat.cast_nonneg _) (Nat.cast_nonneg _)
          push_cast at this ⊢
          linarith
      refine ⟨0, s.grid.ni, 0, s.grid.nj, .inr ⟨rfl, rfl, rfl⟩, ?_, ?_⟩
      · intro i _ hi
        rw [cellsPerBlock_one]
        exact w _ _ _ (by simpa [blockEnd] using hi)
      · intro i _ hi
        rw [cellsPerBlock_one]
        exact w _ _ _ (by simpa [blockEnd] using hi)

/-- Fewer data keep the covariance matrix positive definite. -/
theorem pointCov_sub {D : List Pt} (h : D.Sublist d) (hK : (pointCov v d).PosDef) : (pointCov v D).PosDef := by
  obtain ⟨f, hf⟩ := List.sublist_iff_exists_fin_orderEmbedding_get_eq.1 h
  have := hK.submatrix (e := f) f.injective
  convert this using 1
  ext a b
  have e : ∀ a : Fin D.length, D[a] = d[f a] := fun a => hf a
  show v.cov2 (D[a].x - D[b].x) (D[a].y - D[b].y) = v.cov2 (d[f a].x - d[f b].x) (d[f a].y - d[f b].y)
  rw [e a, e b]

/-- The whole outcome in blocks. -/
theorem krigCont_inBlocks (h : SurfTask s T points t) (hd : d = usedPoints fl points) (hb : ContBlocks v s d P ax ay)
    (hK : (pointCov v d).PosDef) :
    ∃ (nbx nby : ℕ) (D : ℕ → ℕ → List Pt), 1 ≤ nbx ∧ 1 ≤ nby ∧ (d.length ≤ 200 → nbx = 10 ∧ nby = 10) ∧
      (∀ i < s.grid.ni, ∀ j < s.grid.nj, ∃ i0 i1 j0 j1 : ℕ,
        (D i j = pointsWithin s d i0 i1 j0 j1 ∨ (nbx = 1 ∧ nby = 1 ∧ D i j = d)) ∧
        PtWindow s.grid.ni nbx (cellsPerBlock s.grid.ni nbx) P ax i i0 i1 ∧
        PtWindow s.grid.nj nby (cellsPerBlock s.grid.nj nby) P ay j j0 j1 ∧ (pointCov v (D i j)).PosDef) ∧
      ∀ (gr : Bool) (sort : BlockSort (List Pt)), (∀ l, (sort l).Perm l) →
        ∃ out, krig2DCont fl sort s points v gr false P = .ok { s with grid := out } ∧
          Grid2D.Holds s.grid.ni s.grid.nj (fun i j => if D i j = [] then T i j else
            (if gr = true then 0 else T i j) + ptKrig v (D i j) (fun a => (D i j)[a].z - fl (t (D i j)[a].x (D i j)[a].y))
              (s.x_min + i * s.dx) (s.y_min + j * s.dy)) out := by
  obtain ⟨nbx, nby, L, hbx, hby, h200, e0, hL1, hL2, hL3⟩ := contBlocks_ok h hd hb
  have hsub : ∀ b ∈ L, b.2.Sublist d := by
    intro b hb'
    obtain ⟨i0, i1, j0, j1, q | ⟨-, -, q⟩, -⟩ := hL3 b hb'
    · rw [q]; exact List.filter_sublist
    · rw [q]
  have hpd : ∀ b ∈ L, (pointCov v b.2).PosDef := fun b hb' => pointCov_sub (hsub b hb') hK
  have hlb : ∀ b ∈ L, b.1.1 < nbx ∧ b.1.2 < nby := fun b hb' => (hL2 b.1).1 (List.mem_map.2 ⟨b, hb', rfl⟩)
  have hcov : ∀ i j, i < s.grid.ni → j < s.grid.nj → ∃ b ∈ L,
      BlockHas s.grid.ni s.grid.nj (cellsPerBlock s.grid.ni nbx) (cellsPerBlock s.grid.nj nby) nbx nby b.1 i j := by
    intro i j hi hj
    obtain ⟨b, b1, b2, b3⟩ := blockHas_cover (nxb := cellsPerBlock s.grid.ni nbx) (nyb := cellsPerBlock s.grid.nj nby) hbx hby hi hj
    obtain ⟨b', hb', rfl⟩ := List.mem_map.1 ((hL2 b).2 ⟨b1, b2⟩)
    exact ⟨b', hb', b3⟩
  choose B hB1 hB2 using hcov
  refine ⟨nbx, nby, fun i j => if hij : i < s.grid.ni ∧ j < s.grid.nj then (B i j hij.1 hij.2).2 else [], hbx, hby, h200, ?_, ?_⟩
  · intro i hi j hj
    obtain ⟨i0, i1, j0, j1, q1, q2, q3⟩ := hL3 _ (hB1 i j hi hj)
    dsimp only
    rw [dif_pos ⟨hi, hj⟩]
    have hBH := hB2 i j hi hj
    exact ⟨i0, i1, j0, j1, q1, q2 i hBH.1 hBH.2.1, q3 j hBH.2.2.1 hBH.2.2.2, hpd _ (hB1 i j hi hj)⟩
  · intro gr sort hsort
    have hp := hsort L
    obtain ⟨-, k2⟩ := overBlocksCont_ok (fl := fl) (v := v) (s := s) (gr := gr) (n_blocks_x := nbx) (n_blocks_y := nby)
      (nxb := cellsPerBlock s.grid.ni nbx) (nyb := cellsPerBlock s.grid.nj nby) h.nodes.ni_lt h.nodes.nj_lt (cov2_even v)
      (L := sort L) (t := t) ((hp.map Prod.fst).nodup_iff.2 hL1) (fun b hb' => hlb b (hp.mem_iff.1 hb'))
      (fun b hb' => (hsub b (hp.mem_iff.1 hb')).length_le.trans hb.hlen)
      (fun b hb' p hpp => h.used (fl := fl) p (by rw [← hd]; exact (hsub b (hp.mem_iff.1 hb')).subset hpp)) h.filled
    obtain ⟨g, hg, T', hT', e, -⟩ := k2 fun b hb' _ => hpd b (hp.mem_iff.1 hb')
    have hdat : contData fl points = d := (contData_eq fl points).trans hd.symm
    refine ⟨g, ?_, hT'.congr fun i hi j hj => ?_⟩
    · unfold krig2DCont
      simp only [Res.monad_bind_eq]
      rw [hdat, e0, Res.bind_ok]
      dsimp only
      rw [hg, Res.bind_ok]
    · rw [e _ (hp.mem_iff.2 (hB1 i j hi hj)) i hi j hj (hB2 i j hi hj)]
      have key : ∀ D', D' = (B i j hi hj).2 → (if (B i j hi hj).2 = [] then T i j else (if gr = true then 0 else T i j)
          + ptKrig v (B i j hi hj).2 (fun a => (B i j hi hj).2[a].z - fl (t (B i j hi hj).2[a].x (B i j hi hj).2[a].y))
            (s.x_min + i * s.dx) (s.y_min + j * s.dy))
          = if D' = [] then T i j else (if gr = true then 0 else T i j)
            + ptKrig v D' (fun a => D'[a].z - fl (t D'[a].x D'[a].y)) (s.x_min + i * s.dx) (s.y_min + j * s.dy) := by
        rintro D' rfl
        rfl
      exact key _ (dif_pos ⟨hi, hj⟩)

/-- **C97.** Kriging in blocks, if the covariance matrix of all data is positive definite: it always succeeds, whatever
the order of the blocks; nodes are kriged from the data in a window around them, and a node without such data keeps the
trend. -/
theorem krigCont_blocks (h : SurfTask s T points t) (hd : d = usedPoints fl points) (hb : ContBlocks v s d P ax ay)
    (hK : (pointCov v d).PosDef) :
    ∃ (nbx nby nxb nyb : ℕ) (D : ℕ → ℕ → List Pt), 1 ≤ nbx ∧ 1 ≤ nby ∧ (d.length ≤ 200 → nbx = 10 ∧ nby = 10) ∧
      (s.grid.ni ≤ nbx * nxb + nbx / 2 ∧ nbx * nxb ≤ s.grid.ni + nbx / 2) ∧
      (s.grid.nj ≤ nby * nyb + nby / 2 ∧ nby * nyb ≤ s.grid.nj + nby / 2) ∧
      (∀ i < s.grid.ni, ∀ j < s.grid.nj, ∃ i0 i1 j0 j1 : ℕ,
        (D i j = pointsWithin s d i0 i1 j0 j1 ∨ (nbx = 1 ∧ nby = 1 ∧ D i j = d)) ∧
        PtWindow s.grid.ni nbx nxb P ax i i0 i1 ∧ PtWindow s.grid.nj nby nyb P ay j j0 j1) ∧
      ∀ (gr : Bool) (sort : BlockSort (List Pt)), (∀ l, (sort l).Perm l) →
        ∃ out, krig2DCont fl sort s points v gr false P = .ok { s with grid := out } ∧
          out.ni = s.grid.ni ∧ out.nj = s.grid.nj ∧
          ∀ i < s.grid.ni, ∀ j < s.grid.nj, (D i j = [] → out.get i j = .ok (T i j)) ∧
            (D i j ≠ [] → ∀ w : Fin (D i j).length → ℝ,
              (∀ a : Fin (D i j).length, ∑ b : Fin (D i j).length,
                v.cov2 ((D i j)[a].x - (D i j)[b].x) ((D i j)[a].y - (D i j)[b].y) * w b
                = v.cov2 ((D i j)[a].x - (s.getXY i j).1) ((D i j)[a].y - (s.getXY i j).2)) →
              out.get i j = .ok ((if gr = true then 0 else T i j)
                + ∑ a : Fin (D i j).length, w a * ((D i j)[a].z - fl (t (D i j)[a].x (D i j)[a].y)))) := by
  obtain ⟨nbx, nby, D, hbx, hby, h200, hD, hout⟩ := krigCont_inBlocks h hd hb hK
  refine ⟨nbx, nby, cellsPerBlock s.grid.ni nbx, cellsPerBlock s.grid.nj nby, D, hbx, hby, h200,
    ⟨(cellsPerBlock_mul _ _ hbx).2, cellsPerBlock_round _ _ hbx⟩, ⟨(cellsPerBlock_mul _ _ hby).2, cellsPerBlock_round _ _ hby⟩, ?_, ?_⟩
  · intro i hi j hj
    obtain ⟨i0, i1, j0, j1, q1, q2, q3, -⟩ := hD i hi j hj
    exact ⟨i0, i1, j0, j1, q1, q2, q3⟩
  · intro gr sort hsort
    obtain ⟨out, ho, hT⟩ := hout gr sort hsort
    refine ⟨out, ho, hT.1, hT.2.1, fun i hi j hj => ⟨fun h0 => ?_, fun h0 w hw => ?_⟩⟩
    · rw [hT.get hi hj, if_pos h0]
    · rw [hT.get hi hj, if_neg h0]
      obtain ⟨i0, i1, j0, j1, -, -, -, hp⟩ := hD i hi j hj
      congr 2
      exact dot_inv_mulVec hp (w := w)
        (k := fun a => v.cov2 ((D i j)[a].x - (s.getXY i j).1) ((D i j)[a].y - (s.getXY i j).2)) (funext hw) _

theorem mem_pointsWithin {i j i0 i1 j0 j1 n m nbx nby nxb nyb : ℕ} {p : Pt} (hdx : 0 < s.dx) (hdy : 0 < s.dy) (hp : p ∈ d)
    (w1 : PtWindow n nbx nxb P ax i i0 i1) (w2 : PtWindow m nby nyb P ay j j0 j1) {x y : ℝ}
    (hx : p.x = s.x_min + x * s.dx) (hy : p.y = s.y_min + y * s.dy)
    (x1 : 0 ≤ x) (x2 : (i : ℝ) - P / 2 * ax ≤ x) (x3 : x < n) (x4 : x < min ((i : ℝ) + 1) ((nbx * nxb : ℕ) : ℝ) + P / 2 * ax)
    (y1 : 0 ≤ y) (y2 : (j : ℝ) - P / 2 * ay ≤ y) (y3 : y < m) (y4 : y < min ((j : ℝ) + 1) ((nby * nyb : ℕ) : ℝ) + P / 2 * ay) :
    p ∈ pointsWithin s d i0 i1 j0 j1 := by
  unfold pointsWithin
  rw [List.mem_filter, decide_eq_true_iff, hx, hy]
  refine ⟨hp, ?_, ?_, ?_, ?_⟩
  · have := mul_le_mul_of_nonneg_right (w1.nearLo x x1 x2) hdx.le
    linarith
  · have := mul_lt_mul_of_pos_right (w1.nearHi x x3 x4) hdx
    linarith
  · have := mul_le_mul_of_nonneg_right (w2.nearLo y y1 y2) hdy.le
    linarith
  · have := mul_lt_mul_of_pos_right (w2.nearHi y y3 y4) hdy
    linarith

/-- **C97.** A datum at a node is honoured, up to the conversions to `float`, if the part of the grid that is left over
when it is divided into blocks is shorter than `P/2` ranges. With up to 200 data there are ten blocks in each direction,
and up to four nodes are left over. -/
theorem krigCont_blocks_honours (h : SurfTask s T points t) (hd : d = usedPoints fl points) (hb : ContBlocks v s d P ax ay)
    (hK : (pointCov v d).PosDef) (hl : d.length ≤ 200) (hx : 4 < P / 2 * ax) (hy : 4 < P / 2 * ay) (gr : Bool)
    {sort : BlockSort (List Pt)} (hsort : ∀ l, (sort l).Perm l) :
    ∃ out, krig2DCont fl sort s points v gr false P = .ok { s with grid := out } ∧
      ∀ p ∈ d, ∀ i < s.grid.ni, ∀ j < s.grid.nj, (p.x, p.y) = s.getXY i j →
        out.get i j = .ok ((if gr = true then 0 else T i j) + (p.z - fl (T i j))) := by
  obtain ⟨nbx, nby, D, hbx, hby, h200, hD, hout⟩ := krigCont_inBlocks h hd hb hK
  obtain ⟨rfl, rfl⟩ := h200 hl
  obtain ⟨out, ho, hT⟩ := hout gr sort hsort
  refine ⟨out, ho, ?_⟩
  intro p hp i hi j hj hij
  have hxy : s.getXY i j = (s.x_min + i * s.dx, s.y_min + j * s.dy) := rfl
  have hpx : p.x = s.x_min + i * s.dx := congrArg Prod.fst (hij.trans hxy)
  have hpy : p.y = s.y_min + j * s.dy := congrArg Prod.snd (hij.trans hxy)
  obtain ⟨i0, i1, j0, j1, q1, q2, q3, hpd⟩ := hD i hi j hj
  have lim : ∀ (n i : ℕ) (z : ℝ), i < n → 4 < z → (i : ℝ) < min ((i : ℝ) + 1) ((10 * cellsPerBlock n 10 : ℕ) : ℝ) + z := by
    intro n i z hi hz
    have c := (cellsPerBlock_mul n 10 (by norm_num)).2
    have : (i : ℝ) ≤ ((10 * cellsPerBlock n 10 : ℕ) : ℝ) + 4 := by exact_mod_cast (by omega)
    rcases min_choice ((i : ℝ) + 1) ((10 * cellsPerBlock n 10 : ℕ) : ℝ) with hm | hm <;> rw [hm] <;> linarith
  have hmem : p ∈ D i j := by
    rcases q1 with q1 | ⟨q1, -⟩
    swap
    · omega
    rw [q1]
    exact mem_pointsWithin hb.hdx hb.hdy hp q2 q3 hpx hpy (Nat.cast_nonneg _) (by linarith) (by exact_mod_cast hi) (lim _ _ _ hi hx)
      (Nat.cast_nonneg _) (by linarith) (by exact_mod_cast hj) (lim _ _ _ hj hy)
  have hne : D i j ≠ [] := List.ne_nil_of_mem hmem
  rw [hT.get hi hj, if_neg hne]
  have ht := h.used (fl := fl) p (by rw [← hd]; exact hp)
  have hn : s.getZ (s.x_min + i * s.dx) (s.y_min + j * s.dy) = .ok (T i j) := getZ_node h.nodes hi hj
  have htt : t (s.x_min + i * s.dx) (s.y_min + j * s.dy) = T i j := by
    rw [hpx, hpy, hn] at ht
    exact (Res.ok.inj ht).symm
  obtain ⟨a, ha, rfl⟩ := List.getElem_of_mem hmem
  have e := ptKrig_data hpd (fun a => (D i j)[a].z - fl (t (D i j)[a].x (D i j)[a].y)) ⟨a, ha⟩
  rw [show (D i j)[(⟨a, ha⟩ : Fin (D i j).length)].x = (D i j)[a].x from rfl,
    show (D i j)[(⟨a, ha⟩ : Fin (D i j).length)].y = (D i j)[a].y from rfl, hpx, hpy] at e
  rw [e, htt]
  rfl

/-- **C97.** If `P/2` ranges are as long as the grid, and all data are between the first node and the node after the
last one, blocks make no difference. -/
theorem krigCont_blocks_all (h : SurfTask s T points t) (hd : d = usedPoints fl points) (hb : ContBlocks v s d P ax ay)
    (hK : (pointCov v d).PosDef) (h0 : d ≠ [])
    (hin : ∀ p ∈ d, s.x_min ≤ p.x ∧ p.x < s.x_min + s.grid.ni * s.dx ∧ s.y_min ≤ p.y ∧ p.y < s.y_min + s.grid.nj * s.dy)
    (hx : (s.grid.ni : ℝ) ≤ P / 2 * ax) (hy : (s.grid.nj : ℝ) ≤ P / 2 * ay) (gr : Bool)
    {sort sort' : BlockSort (List Pt)} (hsort : ∀ l, (sort l).Perm l) (hsort' : ∀ l, (sort' l).Perm l) (P' : ℝ) :
    ∃ out out', krig2DCont fl sort s points v gr false P = .ok { s with grid := out } ∧
      krig2DCont fl sort' s points v gr true P' = .ok { s with grid := out' } ∧
      ∀ i < s.grid.ni, ∀ j < s.grid.nj, out.get i j = out'.get i j := by
  obtain ⟨nbx, nby, D, hbx, hby, h200, hD, hout⟩ := krigCont_inBlocks h hd hb hK
  obtain ⟨out, ho, hT⟩ := hout gr sort hsort
  obtain ⟨out', ho', hT'⟩ := (krigCont_all hsort' h gr P' hd h0 hb.hlen).2 hK
  refine ⟨out, out', ho, ho', ?_⟩
  intro i hi j hj
  rw [hT.get hi hj, hT'.get hi hj]
  have hDd : D i j = d := by
    obtain ⟨i0, i1, j0, j1, q1 | ⟨-, -, q1⟩, q2, q3, -⟩ := hD i hi j hj
    swap
    · exact q1
    rw [q1]
    refine List.filter_eq_self.2 fun p hp => (List.mem_filter.1 (?_ : p ∈ pointsWithin s d i0 i1 j0 j1)).2
    obtain ⟨b1, b2, b3, b4⟩ := hin p hp
    have hi' : (i : ℝ) ≤ s.grid.ni := by exact_mod_cast hi.le
    have hj' : (j : ℝ) ≤ s.grid.nj := by exact_mod_cast hj.le
    have m1 : (0 : ℝ) ≤ min ((i : ℝ) + 1) ((nbx * cellsPerBlock s.grid.ni nbx : ℕ) : ℝ) := le_min (by positivity) (Nat.cast_nonneg _)
    have m2 : (0 : ℝ) ≤ min ((j : ℝ) + 1) ((nby * cellsPerBlock s.grid.nj nby : ℕ) : ℝ) := le_min (by positivity) (Nat.cast_nonneg _)
    have hdx := hb.hdx
    have hdy := hb.hdy
    have c1 : 0 ≤ (p.x - s.x_min) / s.dx := div_nonneg (by linarith) hdx.le
    have c2 : (p.x - s.x_min) / s.dx < s.grid.ni := by rw [div_lt_iff₀ hdx]; linarith
    have c3 : 0 ≤ (p.y - s.y_min) / s.dy := div_nonneg (by linarith) hdy.le
    have c4 : (p.y - s.y_min) / s.dy < s.grid.nj := by rw [div_lt_iff₀ hdy]; linarith
    exact mem_pointsWithin hdx hdy hp q2 q3 (x := (p.x - s.x_min) / s.dx) (y := (p.y - s.y_min) / s.dy)
      (by field_simp; ring) (by field_simp; ring) c1 (by linarith) c2 (by linarith) c3 (by linarith) c4 (by linarith)
  have key : ∀ D', D' = d → (if D' = [] then T i j else (if gr = true then 0 else T i j)
        + ptKrig v D' (fun a => D'[a].z - fl (t D'[a].x D'[a].y)) (s.x_min + i * s.dx) (s.y_min + j * s.dy))
      = (if gr = true then 0 else T i j)
        + ptKrig v d (fun a => d[a].z - fl (t d[a].x d[a].y)) (s.x_min + i * s.dx) (s.y_min + j * s.dy) := by
    rintro D' rfl
    rw [if_neg h0]
  exact congrArg Res.ok (key _ hDd)

/-- **C97.** With more than 200 data and a range of zero, the behaviour is undefined. -/
theorem krigCont_blocks_undefined (hl : 200 < (usedPoints fl points).length) (hr : v.rangeX = 0)
    (gr : Bool) (P : ℝ) (sort : BlockSort (List Pt)) :
    ∃ why, krig2DCont fl sort s points v gr false P = .nonfinite why := by
  have hdat : contData fl points = usedPoints fl points := contData_eq fl points
  unfold krig2DCont krigBlocks findOptimalBlockP
  simp only [Res.monad_bind_eq]
  rw [if_neg (by decide), hdat, if_pos hl, divD, if_pos hr]
  exact ⟨_, rfl⟩

end

/-! ### Cases -/

/-- A square surface. -/
noncomputable def squareSurf (n : ℕ) (dx z : ℝ) : RegSurf :=
  (RegSurf.ofGrid 0 0 ((n - 1) * dx) ((n - 1) * dx) (Grid2D.mk' n n z)).setMissingValue (-999)

theorem squareSurf_step {n : ℕ} (hn : 2 ≤ n) (dx z : ℝ) : (squareSurf n dx z).dx = dx ∧ (squareSurf n dx z).dy = dx := by
  have h : spacing n ((n - 1) * dx) = dx := by
    unfold spacing
    rw [if_pos (by omega)]
    have : (2 : ℝ) ≤ n := by exact_mod_cast hn
    rw [Nat.cast_sub (by omega), Nat.cast_one]
    exact mul_div_cancel_left₀ dx (by linarith : (n : ℝ) - 1 ≠ 0)
  exact ⟨h, h⟩

theorem squareSurf_task {n : ℕ} {dx z : ℝ} (hn : 2 ≤ n) (hn' : n < 2 ^ 31) (hdx : 1 ≤ dx) {points : List Pt}
    (hp : ∀ p ∈ points, |p.x| ≤ 1000 ∧ |p.y| ≤ 1000) : ∃ t, SurfTask (squareSurf n dx z) (fun _ _ => z) points t := by
  obtain ⟨e1, e2⟩ := squareSurf_step hn dx z
  have hn2 : (2 : ℝ) ≤ n := by exact_mod_cast hn
  have hh := Grid2D.Holds.mk' (nx := n) (ny := n) z
  refine surfTask_exists (T := fun _ _ => z) ⟨fun i j hi hj => hh.get hi hj, hn', hn', ?_, ?_⟩ hh.2.2.1 fun p hpp => ?_
  · rw [e1]; linarith
  · rw [e2]; linarith
  · obtain ⟨h1, h2⟩ := hp p hpp
    rw [abs_le] at h1 h2
    unfold InReach
    rw [e1, e2]
    have h0 : (squareSurf n dx z).x_min = 0 ∧ (squareSurf n dx z).y_min = 0 := ⟨rfl, rfl⟩
    have q : ∀ x : ℝ, -1000 ≤ x → x ≤ 1000 → -1000 ≤ x / dx ∧ x / dx ≤ 1000 := fun x a b =>
      ⟨by rw [le_div_iff₀ (by linarith)]; linarith, by rw [div_le_iff₀ (by linarith)]; linarith⟩
    rw [h0.1, h0.2, sub_zero, sub_zero]
    have a := q p.x h1.1 h1.2
    have b := q p.y h2.1 h2.2
    norm_num
    refine ⟨⟨?_, ?_⟩, ?_, ?_⟩ <;> linarith

theorem cornerPoints (z w x : ℝ) (hx : 0 < x) : (([⟨0, 0, z⟩, ⟨x, x, w⟩] : List Pt).map fun e => (e.x, e.y)).Nodup := by
  simp [hx.ne]

/-- A surface of twelve by twelve nodes with a datum in the part left over. -/
theorem contBlocks_case : ∃ t, SurfTask (squareSurf 12 1 5) (fun _ _ => 5) [⟨0, 0, 7⟩, ⟨11, 11, 4⟩] t ∧
    [⟨0, 0, 7⟩, ⟨11, 11, 4⟩] = usedPoints id [⟨0, 0, 7⟩, ⟨11, 11, 4⟩] ∧
    (pointCov wideVario [⟨0, 0, 7⟩, ⟨11, 11, 4⟩]).PosDef ∧
    ∀ P : ℝ, 0 ≤ P → P ≤ 6 → ContBlocks wideVario (squareSurf 12 1 5) [⟨0, 0, 7⟩, ⟨11, 11, 4⟩] P 10 10 := by
  obtain ⟨t, h⟩ := squareSurf_task (n := 12) (dx := 1) (z := 5) (by norm_num) (by norm_num) le_rfl
    (points := [⟨0, 0, 7⟩, ⟨11, 11, 4⟩]) (by
      intro p hp
      simp only [List.mem_cons, List.not_mem_nil, or_false] at hp
      rcases hp with rfl | rfl <;> norm_num [abs_le])
  have hd : ([⟨0, 0, 7⟩, ⟨11, 11, 4⟩] : List Pt) = usedPoints id [⟨0, 0, 7⟩, ⟨11, 11, 4⟩] := by
    unfold usedPoints
    rw [List.filter_cons_of_pos (by norm_num), List.filter_cons_of_pos (by norm_num), List.filter_nil]
    rfl
  have hK : (pointCov wideVario [⟨0, 0, 7⟩, ⟨11, 11, 4⟩]).PosDef :=
    (krigCont_gauss (fl := id) (sort := id) (fun l => List.Perm.refl _) h false 1 hd (by simp)
      (by simp [squareSurf, RegSurf.setMissingValue, RegSurf.ofGrid, Grid2D.mk']) wideVario_create one_pos
      (cornerPoints 7 4 11 (by norm_num))).1
  obtain ⟨e1, e2⟩ := squareSurf_step (n := 12) (by norm_num) 1 5
  have en : (squareSurf 12 1 5).grid.ni = 12 ∧ (squareSurf 12 1 5).grid.nj = 12 := ⟨rfl, rfl⟩
  refine ⟨t, h, hd, hK, fun P h0 hP => ⟨by rw [e1]; norm_num, by rw [e2]; norm_num, h0, by rw [en.1]; norm_num, by rw [en.2]; norm_num,
    by rw [en.1, en.2]; norm_num, by rw [e1]; norm_num [wideVario], by rw [e2]; norm_num [wideVario], ?_, ?_, by norm_num, by norm_num, .inl (by norm_num)⟩⟩
  · rw [en.1]; norm_num; linarith
  · rw [en.2]; norm_num; linarith

/-- The data are honoured there with the default `P`, and blocks make no difference with `P` three times as large. -/
example : ∃ out, krig2DCont id id (squareSurf 12 1 5) [⟨0, 0, 7⟩, ⟨11, 11, 4⟩] wideVario false false 2
    = .ok { squareSurf 12 1 5 with grid := out } ∧ out.get 11 11 = .ok 4 := by
  obtain ⟨t, h, hd, hK, hb⟩ := contBlocks_case
  obtain ⟨out, ho, hh⟩ := krigCont_blocks_honours h hd (hb 2 (by norm_num) (by norm_num)) hK (by norm_num) (by norm_num) (by norm_num) false
    (sort := id) (fun l => List.Perm.refl _)
  obtain ⟨e1, e2⟩ := squareSurf_step (n := 12) (by norm_num) 1 5
  refine ⟨out, ho, ?_⟩
  rw [hh ⟨11, 11, 4⟩ (by simp) 11 (by norm_num [squareSurf, RegSurf.setMissingValue, RegSurf.ofGrid, Grid2D.mk']) 11
    (by norm_num [squareSurf, RegSurf.setMissingValue, RegSurf.ofGrid, Grid2D.mk']) (by
      unfold RegSurf.getXY
      rw [e1, e2]
      norm_num [squareSurf, RegSurf.setMissingValue, RegSurf.ofGrid])]
  norm_num

example : ∃ out out', krig2DCont id id (squareSurf 12 1 5) [⟨0, 0, 7⟩, ⟨11, 11, 4⟩] wideVario false false 6
      = .ok { squareSurf 12 1 5 with grid := out } ∧
    krig2DCont id id (squareSurf 12 1 5) [⟨0, 0, 7⟩, ⟨11, 11, 4⟩] wideVario false true 2
      = .ok { squareSurf 12 1 5 with grid := out' } ∧ out.get 3 7 = out'.get 3 7 := by
  obtain ⟨t, h, hd, hK, hb⟩ := contBlocks_case
  obtain ⟨e1, e2⟩ := squareSurf_step (n := 12) (by norm_num) 1 5
  have en : (squareSurf 12 1 5).grid.ni = 12 ∧ (squareSurf 12 1 5).grid.nj = 12 := ⟨rfl, rfl⟩
  have e0 : (squareSurf 12 1 5).x_min = 0 ∧ (squareSurf 12 1 5).y_min = 0 := ⟨rfl, rfl⟩
  obtain ⟨out, out', ho, ho', hh⟩ := krigCont_blocks_all h hd (hb 6 (by norm_num) (by norm_num)) hK (by simp)
    (by
      rw [e1, e2, en.1, en.2, e0.1, e0.2]
      intro p hp
      simp only [List.mem_cons, List.not_mem_nil, or_false] at hp
      rcases hp with rfl | rfl <;> norm_num)
    (by rw [en.1]; norm_num) (by rw [en.2]; norm_num) false (sort := id) (sort' := id) (fun l => List.Perm.refl _)
    (fun l => List.Perm.refl _) 2
  exact ⟨out, out', ho, ho', hh 3 (by rw [en.1]; norm_num) 7 (by rw [en.2]; norm_num)⟩

/-- **C97.** A datum that is not honoured: on a surface of three by three nodes with trend 5, whose nodes are farther apart
than the range, kriged from a datum 4 in the far corner with the default arguments, that corner stays 5. If residuals are
asked for, it is 5 too, neither the residual -1 nor 0. -/
theorem krigCont_blocks_violation : ∃ (s : RegSurf) (p : Pt) (t : ℝ → ℝ → ℝ) (out res : Grid2D ℝ),
    SurfTask s (fun _ _ => 5) [p] t ∧ ContBlocks gaussVario s [p] 2 0 0 ∧ s.getXY 2 2 = (p.x, p.y) ∧ p.z = 4 ∧
    krig2DCont id id s [p] gaussVario false false 2 = .ok { s with grid := out } ∧ out.get 2 2 = .ok 5 ∧
    krig2DCont id id s [p] gaussVario true false 2 = .ok { s with grid := res } ∧ res.get 2 2 = .ok 5 := by
  obtain ⟨t, h⟩ := squareSurf_task (n := 3) (dx := 2) (z := 5) (by norm_num) (by norm_num) (by norm_num)
    (points := [⟨4, 4, 4⟩]) (by
      intro p hp
      rw [List.mem_singleton] at hp
      subst hp
      norm_num [abs_le])
  have hd : ([⟨4, 4, 4⟩] : List Pt) = usedPoints id [⟨4, 4, 4⟩] := by
    unfold usedPoints
    rw [List.filter_cons_of_pos (by norm_num), List.filter_nil]
    rfl
  obtain ⟨e1, e2⟩ := squareSurf_step (n := 3) (by norm_num) 2 5
  have en : (squareSurf 3 2 5).grid.ni = 3 ∧ (squareSurf 3 2 5).grid.nj = 3 := ⟨rfl, rfl⟩
  have e0 : (squareSurf 3 2 5).x_min = 0 ∧ (squareSurf 3 2 5).y_min = 0 := ⟨rfl, rfl⟩
  have hb : ContBlocks gaussVario (squareSurf 3 2 5) [⟨4, 4, 4⟩] 2 0 0 := by
    refine ⟨by rw [e1]; norm_num, by rw [e2]; norm_num, by norm_num, by rw [en.1]; norm_num, by rw [en.2]; norm_num,
      by rw [en.1, en.2]; norm_num, by rw [e1]; norm_num [gaussVario], by rw [e2]; norm_num [gaussVario], by rw [en.1]; norm_num,
      by rw [en.2]; norm_num, by norm_num, by norm_num, .inl (by norm_num)⟩
  have hK : (pointCov gaussVario [⟨4, 4, 4⟩]).PosDef :=
    (krigCont_gauss (fl := id) (sort := id) (fun l => List.Perm.refl _) h false 1 hd (by simp)
      hb.hlen gaussVario_create one_pos (by simp)).1
  obtain ⟨nbx, nby, nxb, nyb, D, -, -, h200, hx, hy, hD, hout⟩ := krigCont_blocks h hd hb hK
  obtain ⟨rfl, rfl⟩ := h200 (by simp)
  have hx' : 10 * nxb ≤ 3 + 5 := hx.2
  obtain rfl : nxb = 0 := by omega
  have i2 : 2 < (squareSurf 3 2 5).grid.ni := by rw [en.1]; norm_num
  have j2 : 2 < (squareSurf 3 2 5).grid.nj := by rw [en.2]; norm_num
  have hnil : D 2 2 = [] := by
    obtain ⟨i0, i1, j0, j1, q1, q2, q3⟩ := hD 2 i2 2 j2
    rcases q1 with q1 | ⟨q1, -⟩
    swap
    · omega
    have w1 := q2.farHi
    norm_num at w1
    rw [q1]
    unfold pointsWithin
    rw [List.filter_cons_of_neg, List.filter_nil]
    rw [decide_eq_true_iff, e1, e0.1]
    rintro ⟨-, hc, -⟩
    have w1' : (i1 : ℝ) ≤ 1 := by exact_mod_cast w1
    norm_num at hc
    linarith
  obtain ⟨out, ho, -, -, hT⟩ := hout false id fun l => List.Perm.refl _
  obtain ⟨res, hr, -, -, hT'⟩ := hout true id fun l => List.Perm.refl _
  refine ⟨squareSurf 3 2 5, ⟨4, 4, 4⟩, t, out, res, h, hb, ?_, rfl, ho, (hT 2 i2 2 j2).1 hnil, hr, (hT' 2 i2 2 j2).1 hnil⟩
  unfold RegSurf.getXY
  rw [e1, e2, e0.1, e0.2]
  norm_num

/-- Data and a variogram of range zero for the undefined behaviour. -/
example : ∃ (points : List Pt) (v : Variogram), 200 < (usedPoints id points).length ∧ v.rangeX = 0 := by
  refine ⟨(List.range 201).map fun k : ℕ => ⟨k, 0, 7⟩, { gaussVario with rangeX := 0 }, ?_, rfl⟩
  unfold usedPoints
  rw [List.filter_eq_self.2, List.length_map, List.length_map, List.length_range]
  · norm_num
  · intro p hp
    obtain ⟨k, -, rfl⟩ := List.mem_map.1 hp
    norm_num

end Verif
