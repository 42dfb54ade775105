import Verif.Lemmas.Krig2D
import Verif.Lemmas.BestLinear

/-! Helper lemmas: one block of kriging from data at nodes. -/

namespace Verif

open Grid2D

theorem sizeOf32_cast {n : ℕ} (h : n < 2 ^ 31) : sizeOf32 (n : ℤ) = n := by
  unfold sizeOf32
  rw [Int.emod_eq_of_lt (by omega) (by omega), Int.toNat_natCast]

/-- A grid that holds a function. -/
def Grid2D.Holds (nx ny : ℕ) (f : ℕ → ℕ → ℝ) (g : Grid2D ℝ) : Prop := Filled nx ny (fun _ _ => True) f g

/-- A function changed at one node. -/
noncomputable def upd2 (f : ℕ → ℕ → ℝ) (i j : ℕ) (x : ℝ) : ℕ → ℕ → ℝ := fun a b => if a = i ∧ b = j then x else f a b

section
variable {nx ny : ℕ}

theorem Grid2D.Holds.get {f : ℕ → ℕ → ℝ} {g : Grid2D ℝ} (h : Holds nx ny f g) {i j : ℕ} (hi : i < nx) (hj : j < ny) :
    g.get i j = .ok (f i j) := h.2.2.2 i j hi hj trivial

theorem Grid2D.Holds.congr {f f' : ℕ → ℕ → ℝ} {g : Grid2D ℝ} (h : Holds nx ny f g)
    (he : ∀ i < nx, ∀ j < ny, f i j = f' i j) : Holds nx ny f' g :=
  ⟨h.1, h.2.1, h.2.2.1, fun i j hi hj _ => by rw [h.get hi hj, he i hi j hj]⟩

theorem Grid2D.Holds.set {f : ℕ → ℕ → ℝ} {g : Grid2D ℝ} (h : Holds nx ny f g) {i j : ℕ} (hi : i < nx) (hj : j < ny)
    (x : ℝ) : (g.set i j x).Sat (Holds nx ny (upd2 f i j x)) := by
  refine (set_sat g h.2.2.1 (by rw [h.1]; exact hi) (by rw [h.2.1]; exact hj) x).mono ?_
  rintro g' ⟨e1, e2, e3, e4⟩
  refine ⟨e1.trans h.1, e2.trans h.2.1, e3, fun a b ha hb _ => ?_⟩
  rw [e4 a b (by rw [h.1]; exact ha) (by rw [h.2.1]; exact hb)]
  unfold upd2
  split
  · rfl
  · exact h.get ha hb

theorem Grid2D.Holds.mk' (x : ℝ) : Holds nx ny (fun _ _ => x) (Grid2D.mk' nx ny x) := by
  refine ⟨rfl, rfl, wf_mk' _ _ _, fun i j hi hj _ => ?_⟩
  rw [get_eq _ (by exact hi) (by exact hj)]
  unfold rd Grid2D.mk'
  dsimp only
  rw [List.getElem?_replicate, if_pos (idx2_lt hi hj)]

/-- Every grid of the right size holds something. -/
theorem Grid2D.Holds.of_wf {g : Grid2D ℝ} (h : g.WF) :
    Holds g.ni g.nj (fun i j => g.data.getD (i + j * g.ni) 0) g := by
  refine ⟨rfl, rfl, h, fun i j hi hj _ => ?_⟩
  rw [get_eq _ hi hj, rd_getD (by rw [h]; exact idx2_lt hi hj)]

theorem putNode_ok (hnx : nx < 2 ^ 31) (hny : ny < 2 ^ 31) {T : ℕ → ℕ → ℝ} {g : Grid2D ℝ} (h : Holds nx ny T g) (gr : Bool)
    {i j : ℕ} (hi : i < nx) (hj : j < ny) (y : ℝ) :
    (putNode gr g i j y).Sat (Holds nx ny (upd2 T i j ((if gr = true then 0 else T i j) + y))) := by
  unfold putNode getZ32 setZ32
  rw [sizeOf32_cast (by omega), sizeOf32_cast (by omega)]
  cases gr
  · rw [if_neg (by decide), if_neg (by decide), Res.monad_bind_eq, h.get hi hj, Res.bind_ok]
    exact h.set hi hj _
  · rw [if_pos rfl, if_pos rfl, zero_add]
    exact h.set hi hj _

/-- Data within the grid at distinct nodes. -/
structure DataIn (nx ny : ℕ) (d : List Datum) : Prop where
  inside : ∀ e ∈ d, 0 ≤ e.i ∧ e.i < nx ∧ 0 ≤ e.j ∧ e.j < ny
  nodup : (d.map Datum.loc).Nodup

/-- The covariances of the data. -/
noncomputable def nodeCorr (c : ℤ → ℤ → ℝ) (d : List Datum) : Matrix (Fin d.length) (Fin d.length) ℝ :=
  Matrix.of fun a b => c (d[a].i - d[b].i) (d[a].j - d[b].j)

/-- The residuals of the data. -/
noncomputable def nodeRes (T : ℕ → ℕ → ℝ) (d : List Datum) : Fin d.length → ℝ :=
  fun a => d[a].value - T d[a].i.toNat d[a].j.toNat

/-- The kriged residual at a node. -/
noncomputable def krigged (c : ℤ → ℤ → ℝ) (T : ℕ → ℕ → ℝ) (d : List Datum) (i j : ℕ) : ℝ :=
  ∑ a : Fin d.length, c (d[a].i - i) (d[a].j - j) * ((nodeCorr c d)⁻¹.mulVec (nodeRes T d)) a

variable {d : List Datum} {c : ℤ → ℤ → ℝ} {cov : CovTable} {T0 : ℕ → ℕ → ℝ} {trend_orig : Grid2D ℝ}

theorem nodeCorr_symm (hs : ∀ x y, c (-x) (-y) = c x y) (a b : Fin d.length) : nodeCorr c d a b = nodeCorr c d b a := by
  show c _ _ = c _ _
  rw [← hs]
  congr 1 <;> ring

/-- At a datum the kriged residual is the residual of the datum. -/
theorem krigged_data (hs : ∀ x y, c (-x) (-y) = c x y) (hd : DataIn nx ny d) (hK : (nodeCorr c d).PosDef)
    (T : ℕ → ℕ → ℝ) (b : Fin d.length) : krigged c T d d[b].i.toNat d[b].j.toNat = nodeRes T d b := by
  obtain ⟨h1, -, h2, -⟩ := hd.inside d[b] (List.getElem_mem _)
  have hu : IsUnit (nodeCorr c d).det := hK.isUnit.map Matrix.detMonoidHom
  have h := congrFun (show (nodeCorr c d).mulVec ((nodeCorr c d)⁻¹.mulVec (nodeRes T d)) = nodeRes T d by
    rw [Matrix.mulVec_mulVec, Matrix.mul_nonsing_inv _ hu, Matrix.one_mulVec]) b
  rw [← h]
  show krigged c T d _ _ = ∑ a, nodeCorr c d b a * ((nodeCorr c d)⁻¹.mulVec (nodeRes T d)) a
  unfold krigged
  refine Finset.sum_congr rfl fun a _ => ?_
  rw [nodeCorr_symm hs b a, Int.toNat_of_nonneg h1, Int.toNat_of_nonneg h2]
  rfl

theorem DataIn.length_le (hd : DataIn nx ny d) : d.length ≤ nx * ny := by
  have hn : (d.map fun e => e.i.toNat + e.j.toNat * nx).Nodup := by
    have h := hd.nodup
    rw [List.Nodup, List.pairwise_map] at h ⊢
    refine List.Pairwise.imp_of_mem ?_ h
    intro a b ha hb hne he
    obtain ⟨a1, a2, a3, a4⟩ := hd.inside a ha
    obtain ⟨b1, b2, b3, b4⟩ := hd.inside b hb
    obtain ⟨e1, e2⟩ := idx2_inj (by omega) (by omega) he
    apply hne
    unfold Datum.loc
    rw [Prod.mk.injEq]
    omega
  have hsub : (d.map fun e => e.i.toNat + e.j.toNat * nx) ⊆ List.range (nx * ny) := by
    intro x hx
    obtain ⟨e, he, rfl⟩ := List.mem_map.1 hx
    obtain ⟨a1, a2, a3, a4⟩ := hd.inside e he
    exact List.mem_range.2 (idx2_lt (by omega) (by omega))
  have := (hn.subperm hsub).length_le
  rwa [List.length_map, List.length_range] at this

theorem rd_data {a : ℕ} (h : a < d.length) : rd d a = .ok d[a] := rd_ok h

theorem nodeResidual_ok (hnx : nx < 2 ^ 31) (hny : ny < 2 ^ 31) (hd : DataIn nx ny d) (hT : Holds nx ny T0 trend_orig) :
    ∃ r, nodeResidual trend_orig d = .ok r ∧ r.length = d.length ∧ ∀ a : Fin d.length, r[(a : ℕ)]? = some (nodeRes T0 d a) := by
  unfold nodeResidual
  rw [fillVec_ok (g := fun a => if h : a < d.length then nodeRes T0 d ⟨a, h⟩ else 0)]
  · refine ⟨_, rfl, by simp, fun a => ?_⟩
    rw [List.getElem?_map, List.getElem?_range a.2, Option.map_some, dif_pos a.2]
  · intro a ha
    obtain ⟨a1, a2, a3, a4⟩ := hd.inside d[a] (List.getElem_mem _)
    rw [Res.monad_bind_eq, rd_data ha, Res.bind_ok, Res.monad_bind_eq, getZ32]
    rw [show d[a].i = ((d[a].i.toNat : ℕ) : ℤ) by omega, show d[a].j = ((d[a].j.toNat : ℕ) : ℤ) by omega,
      sizeOf32_cast (by omega), sizeOf32_cast (by omega), hT.get (by omega) (by omega), Res.bind_ok, dif_pos ha]
    rfl

theorem nodeMatrix_ok (hd : DataIn nx ny d) (hs : ∀ x y, c (-x) (-y) = c x y)
    (hc : ∀ x y : ℤ, |x| < nx → |y| < ny → cov.getCov x y = .ok (c x y)) :
    ∃ K, nodeMatrix cov d = .ok K ∧ K.toMatrix d.length = nodeCorr c d := by
  unfold nodeMatrix
  have key := fillSymm_ok (n := d.length) (f := fun a b => (rd d a).bind fun e => (rd d b).bind fun f =>
      cov.getCov (e.i - f.i) (e.j - f.j))
    (g := fun a b => if h : a < d.length ∧ b < d.length then nodeCorr c d ⟨a, h.1⟩ ⟨b, h.2⟩ else 0) (by
      intro a ha b hb
      have hb' : b < d.length := by omega
      obtain ⟨a1, a2, a3, a4⟩ := hd.inside d[a] (List.getElem_mem _)
      obtain ⟨b1, b2, b3, b4⟩ := hd.inside d[b] (List.getElem_mem _)
      rw [rd_data ha, Res.bind_ok, rd_data hb', Res.bind_ok, hc _ _ (by rw [abs_lt]; omega) (by rw [abs_lt]; omega),
        dif_pos ⟨ha, hb'⟩]
      rfl)
  obtain ⟨K, hK, hKv⟩ := key
  refine ⟨K, hK, toMatrix_congr fun a b => ?_⟩
  rw [hKv a a.2 b b.2]
  rcases le_total (a : ℕ) b with h | h
  · rw [max_eq_right h, min_eq_left h, dif_pos ⟨b.2, a.2⟩, nodeCorr_symm hs]
  · rw [max_eq_left h, min_eq_right h, dif_pos ⟨a.2, b.2⟩]

theorem nodeVector_ok (hd : DataIn nx ny d)
    (hc : ∀ x y : ℤ, |x| < nx → |y| < ny → cov.getCov x y = .ok (c x y)) {i j : ℕ} (hi : i < nx) (hj : j < ny)
    (x : Fin d.length → ℝ) :
    ∃ k, nodeVector cov d i j = .ok k ∧ dotList k (List.ofFn x) = ∑ a : Fin d.length, c (d[a].i - i) (d[a].j - j) * x a := by
  unfold nodeVector
  rw [fillVec_ok (g := fun a => if h : a < d.length then c (d[a].i - i) (d[a].j - j) else 0)]
  · refine ⟨_, rfl, ?_⟩
    rw [dotList_ofFn]
    refine Finset.sum_congr rfl fun a _ => ?_
    rw [dif_pos a.2]
    rfl
  · intro a ha
    obtain ⟨a1, a2, a3, a4⟩ := hd.inside d[a] (List.getElem_mem _)
    rw [Res.monad_bind_eq, rd_data ha, Res.bind_ok, hc _ _ (by rw [abs_lt]; omega) (by rw [abs_lt]; omega), dif_pos ha]

open Classical in
/-- The outcome of one block. -/
theorem krigBlock_ok (hnx : nx < 2 ^ 31) (hny : ny < 2 ^ 31) (hd : DataIn nx ny d) (hs : ∀ x y, c (-x) (-y) = c x y)
    (hc : ∀ x y : ℤ, |x| < nx → |y| < ny → cov.getCov x y = .ok (c x y)) (hT0 : Holds nx ny T0 trend_orig)
    {T F : ℕ → ℕ → ℝ} {st : Grid2D ℝ × Grid2D ℝ} (hT : Holds nx ny T st.1) (hF : Holds nx ny F st.2) (h0 : d ≠ [])
    (gr : Bool) {bx by_ nxb nyb n_blocks_x n_blocks_y : ℕ} (B : ℕ → ℕ → Prop)
    (hB : ∀ i j, B i j ↔ bx * nxb ≤ i ∧ i < blockEnd bx n_blocks_x nxb nx ∧ by_ * nyb ≤ j ∧ j < blockEnd by_ n_blocks_y nyb ny)
    (hF0 : ∀ i < nx, ∀ j < ny, B i j → F i j = 0) :
    (¬ (nodeCorr c d).PosDef → ∃ msg, krigBlockNodal trend_orig d cov bx by_ nxb nyb n_blocks_x n_blocks_y gr st = .throws msg) ∧
    ((nodeCorr c d).PosDef →
      (krigBlockNodal trend_orig d cov bx by_ nxb nyb n_blocks_x n_blocks_y gr st).Sat fun st' =>
        Holds nx ny (fun i j => if B i j then (if gr = true then 0 else T i j) + krigged c T0 d i j else T i j) st'.1 ∧
        ∃ F', Holds nx ny F' st'.2 ∧ ∀ i < nx, ∀ j < ny, ¬ B i j → F' i j = F i j) := by
  have hlen : d.length > 0 := List.length_pos_iff.2 h0
  obtain ⟨r, hr, hrl, hrv⟩ := nodeResidual_ok hnx hny hd hT0
  obtain ⟨K, hK, hKv⟩ := nodeMatrix_ok hd hs hc
  have hvec : toVec d.length r = nodeRes T0 d := by
    funext a
    unfold toVec
    rw [List.getD_eq_getElem?_getD, hrv]
    rfl
  have hbe : ∀ b n nb m : ℕ, blockEnd b n nb m ≤ m := by
    intro b n nb m
    unfold blockEnd
    split
    · exact le_rfl
    · exact min_le_right _ _
  have hstart : krigBlockNodal trend_orig d cov bx by_ nxb nyb n_blocks_x n_blocks_y gr st
      = (choleskySolve d.length K r).bind fun x =>
        (forRange 0 d.length (dataStep d r (bx * nxb) (blockEnd bx n_blocks_x nxb nx) (by_ * nyb)
          (blockEnd by_ n_blocks_y nyb ny) gr) st).bind fun st =>
        (forRange (bx * nxb) (blockEnd bx n_blocks_x nxb nx) (fun i trend =>
          forRange (by_ * nyb) (blockEnd by_ n_blocks_y nyb ny) (fun j trend => nodeStep cov d x gr st.2 i j trend) trend)
          st.1).bind fun trend => .ok (trend, st.2) := by
    unfold krigBlockNodal
    dsimp only
    rw [hT.1, hT.2.1, if_pos ⟨hlen, hd.length_le⟩, Res.monad_bind_eq, hr, Res.bind_ok, Res.monad_bind_eq, hK, Res.bind_ok]
    rfl
  rw [hstart]
  unfold choleskySolve
  rw [if_neg (by omega), hKv, hvec]
  constructor
  · intro h
    rw [if_neg h]
    exact ⟨_, rfl⟩
  intro hPD
  rw [if_pos hPD, Res.bind_ok]
  have key1 := forRange_sat (lo := 0) (hi := d.length)
    (body := dataStep d r (bx * nxb) (blockEnd bx n_blocks_x nxb nx) (by_ * nyb) (blockEnd by_ n_blocks_y nyb ny) gr) (s := st)
    (fun n st' =>
      Holds nx ny (fun i j => if B i j ∧ (∃ a : Fin d.length, (a : ℕ) < n ∧ d[a].loc = ((i : ℤ), (j : ℤ)))
        then (if gr = true then 0 else T i j) + krigged c T0 d i j else T i j) st'.1 ∧
      Holds nx ny (fun i j => if B i j ∧ (∃ a : Fin d.length, (a : ℕ) < n ∧ d[a].loc = ((i : ℤ), (j : ℤ)))
        then 1 else F i j) st'.2) (Nat.zero_le _) ⟨?_, ?_⟩ ?_
  rotate_left
  · refine hT.congr fun i hi j hj => ?_
    rw [if_neg]
    rintro ⟨-, a, ha, -⟩
    omega
  · refine hF.congr fun i hi j hj => ?_
    rw [if_neg]
    rintro ⟨-, a, ha, -⟩
    omega
  · rintro n st' - hn ⟨h1, h2⟩
    obtain ⟨a1, a2, a3, a4⟩ := hd.inside d[n] (List.getElem_mem _)
    obtain ⟨i, hi⟩ := Int.eq_ofNat_of_zero_le a1
    obtain ⟨j, hj⟩ := Int.eq_ofNat_of_zero_le a3
    have hix : i < nx := by omega
    have hjy : j < ny := by omega
    unfold dataStep
    rw [Res.monad_bind_eq, rd_data hn, Res.bind_ok]
    have hmore : ∀ p q : ℕ, (∃ a : Fin d.length, (a : ℕ) < n + 1 ∧ d[a].loc = ((p : ℤ), (q : ℤ))) ↔
        (∃ a : Fin d.length, (a : ℕ) < n ∧ d[a].loc = ((p : ℤ), (q : ℤ))) ∨ (p = i ∧ q = j) := by
      intro p q
      constructor
      · rintro ⟨a, ha, hl⟩
        rcases Nat.lt_succ_iff_lt_or_eq.1 ha with ha | ha
        · exact .inl ⟨a, ha, hl⟩
        · right
          have : d[a] = d[n] := by
            show d[(a : ℕ)] = d[n]
            congr 1
          rw [this, Datum.loc, hi, hj, Prod.mk.injEq] at hl
          omega
      · rintro (⟨a, ha, hl⟩ | ⟨rfl, rfl⟩)
        · exact ⟨a, by omega, hl⟩
        · refine ⟨⟨n, hn⟩, by simp, ?_⟩
          show (d[n].i, d[n].j) = _
          rw [hi, hj]
    have hnew : ¬ ∃ a : Fin d.length, (a : ℕ) < n ∧ d[a].loc = ((i : ℤ), (j : ℤ)) := by
      rintro ⟨a, ha, hl⟩
      have hnd := hd.nodup
      rw [List.nodup_iff_injective_get] at hnd
      have := @hnd ⟨a, by rw [List.length_map]; exact a.2⟩ ⟨n, by rw [List.length_map]; exact hn⟩ (by
        simp only [List.get_eq_getElem, List.getElem_map]
        rw [show d[(a : ℕ)].loc = d[a].loc from rfl, hl, Datum.loc, hi, hj])
      have := congrArg Fin.val this
      dsimp only at this
      omega
    by_cases hb : B i j
    · rw [if_pos (by have := (hB i j).1 hb; omega), Res.monad_bind_eq,
        show rd r n = .ok (nodeRes T0 d ⟨n, hn⟩) from rd_eq_ok.2 (hrv ⟨n, hn⟩), Res.bind_ok, Res.monad_bind_eq, hi, hj]
      refine Res.Sat.bind (putNode_ok hnx hny h1 gr hix hjy _) fun g1 hg1 => ?_
      rw [Res.monad_bind_eq]
      unfold setZ32
      rw [sizeOf32_cast (by omega), sizeOf32_cast (by omega)]
      refine Res.Sat.bind (h2.set hix hjy _) fun g2 hg2 => ?_
      rw [Res.sat_ok]
      have hkd := krigged_data hs hd hPD T0 ⟨n, hn⟩
      rw [show (d[(⟨n, hn⟩ : Fin d.length)]).i = (i : ℤ) from hi, show (d[(⟨n, hn⟩ : Fin d.length)]).j = (j : ℤ) from hj,
        Int.toNat_natCast, Int.toNat_natCast] at hkd
      constructor
      · refine hg1.congr fun p hp q hq => ?_
        unfold upd2
        by_cases hpq : p = i ∧ q = j
        · obtain ⟨rfl, rfl⟩ := hpq
          dsimp only
          rw [if_pos ⟨rfl, rfl⟩,
            if_neg (show ¬ (B p q ∧ ∃ a : Fin d.length, (a : ℕ) < n ∧ d[a].loc = ((p : ℤ), (q : ℤ))) from fun h => hnew h.2),
            if_pos (show B p q ∧ ∃ a : Fin d.length, (a : ℕ) < n + 1 ∧ d[a].loc = ((p : ℤ), (q : ℤ)) from
              ⟨hb, (hmore p q).2 (.inr ⟨rfl, rfl⟩)⟩), hkd]
        · rw [if_neg hpq]
          simp only [hmore p q, hpq, or_false]
      · refine hg2.congr fun p hp q hq => ?_
        unfold upd2
        by_cases hpq : p = i ∧ q = j
        · obtain ⟨rfl, rfl⟩ := hpq
          rw [if_pos ⟨rfl, rfl⟩, if_pos ⟨hb, (hmore p q).2 (.inr ⟨rfl, rfl⟩)⟩]
          norm_num
        · rw [if_neg hpq]
          simp only [hmore p q, hpq, or_false]
    · rw [if_neg (by rw [hB] at hb; omega), Res.sat_ok]
      have he : ∀ p q : ℕ, (B p q ∧ (∃ a : Fin d.length, (a : ℕ) < n + 1 ∧ d[a].loc = ((p : ℤ), (q : ℤ)))) ↔
          (B p q ∧ (∃ a : Fin d.length, (a : ℕ) < n ∧ d[a].loc = ((p : ℤ), (q : ℤ)))) := by
        intro p q
        rw [hmore]
        constructor
        · rintro ⟨h, h' | ⟨rfl, rfl⟩⟩
          · exact ⟨h, h'⟩
          · exact absurd h hb
        · rintro ⟨h, h'⟩
          exact ⟨h, .inl h'⟩
      simp only [he]
      exact ⟨h1, h2⟩
  refine Res.Sat.bind key1 ?_
  rintro st1 ⟨h1, h2⟩
  -- the data of the block
  generalize hD : (fun i j : ℕ => ∃ a : Fin d.length, (a : ℕ) < d.length ∧ d[a].loc = ((i : ℤ), (j : ℤ))) = D at *
  have hD' : ∀ i j : ℕ, (∃ a : Fin d.length, (a : ℕ) < d.length ∧ d[a].loc = ((i : ℤ), (j : ℤ))) = D i j := fun i j => congrFun (congrFun hD i) j
  simp only [hD'] at h1 h2
  have hnode : ∀ (S : ℕ → ℕ → Prop) (g : Grid2D ℝ) (i j : ℕ), B i j → ¬ S i j →
      Holds nx ny (fun p q => if B p q ∧ (D p q ∨ S p q) then (if gr = true then 0 else T p q) + krigged c T0 d p q else T p q) g →
      (nodeStep cov d (List.ofFn ((nodeCorr c d)⁻¹.mulVec (nodeRes T0 d))) gr st1.2 i j g).Sat
        (Holds nx ny (fun p q => if B p q ∧ (D p q ∨ S p q ∨ (p = i ∧ q = j)) then (if gr = true then 0 else T p q) + krigged c T0 d p q else T p q)) := by
    intro S g i j hb hns hg
    have hbb := (hB i j).1 hb
    have hi : i < nx := by have := hbe bx n_blocks_x nxb nx; omega
    have hj : j < ny := by have := hbe by_ n_blocks_y nyb ny; omega
    unfold nodeStep
    rw [Res.monad_bind_eq, h2.get hi hj, Res.bind_ok]
    by_cases hDij : D i j
    · rw [if_neg (by rw [if_pos (show B i j ∧ D i j from ⟨hb, hDij⟩)]; norm_num), Res.sat_ok]
      refine hg.congr fun p hp q hq => ?_
      congr 1
      refine propext (and_congr_right fun _ => ?_)
      constructor
      · rintro (h | h)
        · exact .inl h
        · exact .inr (.inl h)
      · rintro (h | h | ⟨rfl, rfl⟩)
        · exact .inl h
        · exact .inr h
        · exact .inl hDij
    · rw [if_pos (by rw [if_neg (show ¬ (B i j ∧ D i j) from fun h => hDij h.2), hF0 i hi j hj hb]; norm_num),
        Res.monad_bind_eq]
      obtain ⟨k, hk, hkx⟩ := nodeVector_ok hd hc hi hj ((nodeCorr c d)⁻¹.mulVec (nodeRes T0 d))
      rw [hk, Res.bind_ok, hkx]
      refine (putNode_ok hnx hny hg gr hi hj _).mono fun g' hg' => hg'.congr fun p hp q hq => ?_
      unfold upd2
      by_cases hpq : p = i ∧ q = j
      · obtain ⟨rfl, rfl⟩ := hpq
        dsimp only
        rw [if_pos ⟨rfl, rfl⟩, if_neg (show ¬ (B p q ∧ (D p q ∨ S p q)) by rintro ⟨-, h | h⟩ <;> contradiction),
          if_pos (show B p q ∧ (D p q ∨ S p q ∨ p = p ∧ q = q) from ⟨hb, .inr (.inr ⟨rfl, rfl⟩)⟩)]
        rfl
      · rw [if_neg hpq]
        simp only [hpq, or_false]
  have hfil : ∀ i < nx, ∀ j < ny, ¬ B i j → (if B i j ∧ D i j then (1 : ℝ) else F i j) = F i j := by
    intro i _ j _ hb
    rw [if_neg fun h => hb h.1]
  by_cases hne : bx * nxb < blockEnd bx n_blocks_x nxb nx ∧ by_ * nyb < blockEnd by_ n_blocks_y nyb ny
  swap
  · have hno : ∀ i j, ¬ B i j := by
      intro i j hb
      have := (hB i j).1 hb
      omega
    have key2 := forRange_inv (lo := bx * nxb) (hi := blockEnd bx n_blocks_x nxb nx) (s := st1.1)
      (body := fun i trend => forRange (by_ * nyb) (blockEnd by_ n_blocks_y nyb ny) (fun j trend =>
        nodeStep cov d (List.ofFn ((nodeCorr c d)⁻¹.mulVec (nodeRes T0 d))) gr st1.2 i j trend) trend)
      (fun g => g = st1.1) rfl (by
        rintro i g hi1 hi2 rfl
        rw [forRange_empty (by omega), Res.sat_ok])
    refine Res.Sat.bind key2 ?_
    rintro g rfl
    rw [Res.sat_ok]
    refine ⟨h1.congr fun i _ j _ => ?_, _, h2, hfil⟩
    rw [if_neg fun h => hno i j h.1, if_neg (hno i j)]
  · have key2 := forRange_sat (lo := bx * nxb) (hi := blockEnd bx n_blocks_x nxb nx) (s := st1.1)
      (body := fun i trend => forRange (by_ * nyb) (blockEnd by_ n_blocks_y nyb ny) (fun j trend =>
        nodeStep cov d (List.ofFn ((nodeCorr c d)⁻¹.mulVec (nodeRes T0 d))) gr st1.2 i j trend) trend)
      (fun i g => Holds nx ny (fun p q => if B p q ∧ (D p q ∨ p < i)
        then (if gr = true then 0 else T p q) + krigged c T0 d p q else T p q) g) hne.1.le ?_ ?_
    · refine Res.Sat.bind key2 ?_
      intro g hg
      rw [Res.sat_ok]
      refine ⟨hg.congr fun i _ j _ => ?_, _, h2, hfil⟩
      by_cases hb : B i j
      · rw [if_pos hb, if_pos ⟨hb, .inr ((hB i j).1 hb).2.1⟩]
      · rw [if_neg hb, if_neg fun h => hb h.1]
    · refine h1.congr fun i _ j _ => ?_
      congr 1
      refine propext (and_congr_right fun hb => ?_)
      have := (hB i j).1 hb
      constructor
      · exact .inl
      · rintro (h | h)
        · exact h
        · omega
    · intro i g hi1 hi2 hg
      have key3 := forRange_sat (lo := by_ * nyb) (hi := blockEnd by_ n_blocks_y nyb ny) (s := g)
        (body := fun j trend =>
          nodeStep cov d (List.ofFn ((nodeCorr c d)⁻¹.mulVec (nodeRes T0 d))) gr st1.2 i j trend)
        (fun j g => Holds nx ny (fun p q => if B p q ∧ (D p q ∨ (p < i ∨ (p = i ∧ q < j)))
          then (if gr = true then 0 else T p q) + krigged c T0 d p q else T p q) g) hne.2.le ?_ ?_
      · refine key3.mono fun g' hg' => hg'.congr fun p _ q _ => ?_
        congr 1
        refine propext (and_congr_right fun hb => or_congr Iff.rfl ?_)
        have := (hB p q).1 hb
        omega
      · refine hg.congr fun p _ q _ => ?_
        congr 1
        refine propext (and_congr_right fun hb => or_congr Iff.rfl ?_)
        have := (hB p q).1 hb
        omega
      · intro j g hj1 hj2 hg
        refine (hnode (fun p q => p < i ∨ (p = i ∧ q < j)) g i j ((hB i j).2 ⟨hi1, hi2, hj1, hj2⟩) (by omega) (by convert hg)).mono
          fun g' hg' => hg'.congr fun p _ q _ => ?_
        congr 1
        refine propext (and_congr_right fun hb => or_congr Iff.rfl ?_)
        omega

end

end Verif
