import Verif.Model.Krig2DCont
import Verif.Lemmas.Krig2DSelect

/-! Helper lemmas: kriging from data between nodes. -/

namespace Verif

open Grid2D

section
variable {nx ny : ℕ}

/-- Two loops that change every node of a part of the grid once. -/
theorem eachNode_ok {lo hi lo' hi' : ℕ} (hhi : hi ≤ nx) (hhi' : hi' ≤ ny) {step : ℕ → ℕ → Grid2D ℝ → Res (Grid2D ℝ)}
    {val : ℕ → ℕ → ℝ → ℝ}
    (hstep : ∀ i j T g, i < nx → j < ny → Holds nx ny T g → (step i j g).Sat (Holds nx ny (upd2 T i j (val i j (T i j)))))
    {T : ℕ → ℕ → ℝ} {g : Grid2D ℝ} (hT : Holds nx ny T g) :
    (forRange lo hi (fun i g => forRange lo' hi' (fun j g => step i j g) g) g).Sat
      (Holds nx ny fun i j => if lo ≤ i ∧ i < hi ∧ lo' ≤ j ∧ j < hi' then val i j (T i j) else T i j) := by
  by_cases hlo : lo ≤ hi
  swap
  · rw [forRange_empty (by omega), Res.sat_ok]
    exact hT.congr fun i _ j _ => by rw [if_neg (by omega)]
  by_cases hlo' : lo' ≤ hi'
  swap
  · have key := forRange_inv (lo := lo) (hi := hi) (s := g)
      (body := fun i g => forRange lo' hi' (fun j g => step i j g) g) (fun g' => g' = g) rfl (by
        rintro i g' _ _ rfl
        rw [forRange_empty (by omega), Res.sat_ok])
    refine key.mono ?_
    rintro g' rfl
    exact hT.congr fun i _ j _ => by rw [if_neg (by omega)]
  have key := forRange_sat (lo := lo) (hi := hi) (s := g) (body := fun i g => forRange lo' hi' (fun j g => step i j g) g)
    (fun n => Holds nx ny fun i j => if lo ≤ i ∧ i < n ∧ lo' ≤ j ∧ j < hi' then val i j (T i j) else T i j) hlo
    (hT.congr fun i _ j _ => by rw [if_neg (by omega)]) ?_
  · exact key
  intro p g1 hp1 hp2 hg1
  have key2 := forRange_sat (lo := lo') (hi := hi') (s := g1) (body := fun j g => step p j g)
    (fun n => Holds nx ny fun i j => if (lo ≤ i ∧ i < p ∧ lo' ≤ j ∧ j < hi') ∨ (i = p ∧ lo' ≤ j ∧ j < n) then val i j (T i j)
      else T i j) hlo' (hg1.congr fun i _ j _ => ?_) ?_
  · refine key2.mono fun g2 hg2 => hg2.congr fun i _ j _ => ?_
    congr 1
    apply propext
    omega
  · congr 1
    apply propext
    omega
  · intro q g2 hq1 hq2 hg2
    refine (hstep p q _ g2 (by omega) (by omega) hg2).mono fun g3 hg3 => hg3.congr fun i _ j _ => ?_
    unfold upd2
    by_cases hij : i = p ∧ j = q
    · obtain ⟨rfl, rfl⟩ := hij
      rw [if_pos ⟨rfl, rfl⟩, if_neg (by omega), if_pos (by omega)]
    · rw [if_neg hij]
      dsimp only
      congr 1
      apply propext
      omega

end

/-! ### The data -/

theorem contData_eq (fl : ℝ → ℝ) (points : List Pt) :
    contData fl points = (points.filter fun p => fl p.z ≠ 99999).map fun p => { p with z := fl p.z } := by
  have key : ∀ (l acc : List Pt), l.foldl (fun d p => contAdd d { p with z := fl p.z }) acc
      = acc ++ (l.filter fun p => fl p.z ≠ 99999).map fun p => { p with z := fl p.z } := by
    intro l
    induction l with
    | nil => intro acc; simp
    | cons p l ih =>
      intro acc
      rw [List.foldl_cons, ih]
      unfold contAdd
      by_cases h : fl p.z = 99999
      · rw [if_neg (by norm_num [h]), List.filter_cons_of_neg (by simp [h])]
      · rw [if_pos (by norm_num [h]), List.filter_cons_of_pos (by simp [h]), List.map_cons, List.append_assoc]
        rfl
  unfold contData
  rw [key, List.nil_append]

theorem contSelect_eq (s : RegSurf) {d : List Pt} (hd : ∀ p ∈ d, p.z ≠ 99999) (i0 i1 j0 j1 : ℕ) :
    contSelect s d i0 i1 j0 j1 = d.filter fun p => p.x < s.x_min + i1 * s.dx ∧ p.x ≥ s.x_min + i0 * s.dx ∧
      p.y < s.y_min + j1 * s.dy ∧ p.y ≥ s.y_min + j0 * s.dy := by
  have key : ∀ (l acc : List Pt), (∀ p ∈ l, p.z ≠ 99999) →
      l.foldl (fun b p => if p.x < s.x_min + i1 * s.dx ∧ p.x ≥ s.x_min + i0 * s.dx ∧ p.y < s.y_min + j1 * s.dy ∧
        p.y ≥ s.y_min + j0 * s.dy then contAdd b p else b) acc
      = acc ++ l.filter fun p => p.x < s.x_min + i1 * s.dx ∧ p.x ≥ s.x_min + i0 * s.dx ∧
          p.y < s.y_min + j1 * s.dy ∧ p.y ≥ s.y_min + j0 * s.dy := by
    intro l
    induction l with
    | nil => intro acc _; simp
    | cons p l ih =>
      intro acc hl
      have hp := hl p List.mem_cons_self
      rw [List.foldl_cons, ih _ fun q hq => hl q (List.mem_cons_of_mem _ hq)]
      by_cases h : p.x < s.x_min + i1 * s.dx ∧ p.x ≥ s.x_min + i0 * s.dx ∧ p.y < s.y_min + j1 * s.dy ∧ p.y ≥ s.y_min + j0 * s.dy
      · rw [if_pos h, List.filter_cons_of_pos (by simpa using h), contAdd, if_pos (by norm_num [hp]), List.append_assoc]
        rfl
      · rw [if_neg h, List.filter_cons_of_neg (by simpa using h)]
  unfold contSelect
  rw [key d [] hd, List.nil_append]

/-! ### A block -/

/-- The covariances between points. -/
noncomputable def ptCov (v : Variogram) (d : List Pt) : Matrix (Fin d.length) (Fin d.length) ℝ :=
  Matrix.of fun a b => v.cov2 (d[a].x - d[b].x) (d[a].y - d[b].y)

/-- The kriged residual at a point, from the residuals `r`. -/
noncomputable def ptKrig (v : Variogram) (d : List Pt) (r : Fin d.length → ℝ) (x y : ℝ) : ℝ :=
  ∑ a : Fin d.length, v.cov2 (d[a].x - x) (d[a].y - y) * ((ptCov v d)⁻¹.mulVec r) a

section
variable {nx ny : ℕ} {v : Variogram} {d : List Pt} {fl : ℝ → ℝ} {s : RegSurf}

theorem rd_pt {a : ℕ} (h : a < d.length) : rd d a = .ok d[a] := rd_ok h

theorem contResidual_ok {t : ℝ → ℝ → ℝ} (ht : ∀ p ∈ d, s.getZ p.x p.y = .ok (t p.x p.y)) :
    ∃ r, contResidual fl s d = .ok r ∧ toVec d.length r = fun a : Fin d.length => d[a].z - fl (t d[a].x d[a].y) := by
  unfold contResidual
  rw [fillVec_ok (g := fun a => if h : a < d.length then d[a].z - fl (t d[a].x d[a].y) else 0)]
  · refine ⟨_, rfl, funext fun a => ?_⟩
    unfold toVec
    rw [List.getD_eq_getElem?_getD, List.getElem?_map, List.getElem?_range a.2, Option.map_some, dif_pos a.2]
    rfl
  · intro a ha
    rw [Res.monad_bind_eq, rd_pt ha, Res.bind_ok, Res.monad_bind_eq, ht _ (List.getElem_mem ha), Res.bind_ok, dif_pos ha]

theorem contMatrix_ok (hs : ∀ x y, v.cov2 (-x) (-y) = v.cov2 x y) :
    ∃ K, contMatrix v d = .ok K ∧ K.toMatrix d.length = ptCov v d := by
  unfold contMatrix
  obtain ⟨K, hK, hKv⟩ := fillSymm_ok (n := d.length) (f := fun a b => (rd d a).bind fun e => (rd d b).bind fun f =>
      .ok (v.cov2 (e.x - f.x) (e.y - f.y)))
    (g := fun a b => if h : a < d.length ∧ b < d.length then ptCov v d ⟨a, h.1⟩ ⟨b, h.2⟩ else 0) (by
      intro a ha b hb
      have hb' : b < d.length := by omega
      rw [rd_pt ha, Res.bind_ok, rd_pt hb', Res.bind_ok, dif_pos ⟨ha, hb'⟩]
      rfl)
  refine ⟨K, hK, toMatrix_congr fun a b => ?_⟩
  rw [hKv a a.2 b b.2]
  rcases le_total (a : ℕ) b with h | h
  · rw [max_eq_right h, min_eq_left h, dif_pos ⟨b.2, a.2⟩]
    show v.cov2 _ _ = v.cov2 _ _
    rw [← hs]
    congr 1 <;> ring
  · rw [max_eq_left h, min_eq_right h, dif_pos ⟨a.2, b.2⟩]

theorem contVector_ok (x y : ℝ) (w : Fin d.length → ℝ) :
    ∃ k, contVector v d x y = .ok k ∧ dotList k (List.ofFn w) = ∑ a : Fin d.length, v.cov2 (d[a].x - x) (d[a].y - y) * w a := by
  unfold contVector
  rw [fillVec_ok (g := fun a => if h : a < d.length then v.cov2 (d[a].x - x) (d[a].y - y) else 0)]
  · refine ⟨_, rfl, ?_⟩
    rw [dotList_ofFn]
    refine Finset.sum_congr rfl fun a _ => ?_
    rw [dif_pos a.2]
    rfl
  · intro a ha
    rw [Res.monad_bind_eq, rd_pt ha, Res.bind_ok, dif_pos ha]

theorem blockEnd_le (b n nb m : ℕ) : blockEnd b n nb m ≤ m := by
  unfold blockEnd
  split
  · exact le_rfl
  · exact min_le_right _ _

/-- A block with no data or too many does nothing. -/
theorem krigBlockCont_idle {bx by_ nxb nyb n_blocks_x n_blocks_y : ℕ} {gr : Bool} {g : Grid2D ℝ}
    (h : d = [] ∨ g.ni * g.nj < d.length) :
    krigBlockCont fl s d v bx by_ nxb nyb n_blocks_x n_blocks_y gr g = .ok g := by
  unfold krigBlockCont
  dsimp only
  rw [if_neg]
  rintro ⟨h1, h2⟩
  rcases h with rfl | h
  · simp at h1
  · omega

/-- The outcome of one block. -/
theorem krigBlockCont_ok (hnx : nx < 2 ^ 31) (hny : ny < 2 ^ 31) (hs : ∀ x y, v.cov2 (-x) (-y) = v.cov2 x y)
    {t : ℝ → ℝ → ℝ} (ht : ∀ p ∈ d, s.getZ p.x p.y = .ok (t p.x p.y)) {T : ℕ → ℕ → ℝ} {g : Grid2D ℝ} (hT : Holds nx ny T g)
    (h0 : d ≠ []) (hl : d.length ≤ nx * ny) (gr : Bool) {bx by_ nxb nyb n_blocks_x n_blocks_y : ℕ} :
    (¬ (ptCov v d).PosDef → ∃ msg, krigBlockCont fl s d v bx by_ nxb nyb n_blocks_x n_blocks_y gr g = .throws msg) ∧
    ((ptCov v d).PosDef →
      (krigBlockCont fl s d v bx by_ nxb nyb n_blocks_x n_blocks_y gr g).Sat
        (Holds nx ny fun i j => if bx * nxb ≤ i ∧ i < blockEnd bx n_blocks_x nxb nx ∧ by_ * nyb ≤ j ∧ j < blockEnd by_ n_blocks_y nyb ny
          then (if gr = true then 0 else T i j)
            + ptKrig v d (fun a => d[a].z - fl (t d[a].x d[a].y)) (s.x_min + i * s.dx) (s.y_min + j * s.dy)
          else T i j)) := by
  have hlen : d.length > 0 := List.length_pos_iff.2 h0
  obtain ⟨r, hr, hvec⟩ := contResidual_ok (fl := fl) ht
  obtain ⟨K, hK, hKv⟩ := contMatrix_ok (d := d) hs
  have hstart : krigBlockCont fl s d v bx by_ nxb nyb n_blocks_x n_blocks_y gr g
      = (choleskySolve d.length K r).bind fun x =>
        forRange (bx * nxb) (blockEnd bx n_blocks_x nxb nx) (fun i trend =>
          forRange (by_ * nyb) (blockEnd by_ n_blocks_y nyb ny) (fun j trend => contStep s v d x gr i j trend) trend) g := by
    unfold krigBlockCont
    dsimp only
    rw [hT.1, hT.2.1, if_pos ⟨hlen, hl⟩, Res.monad_bind_eq, hr, Res.bind_ok, Res.monad_bind_eq, hK, Res.bind_ok]
    rfl
  rw [hstart]
  unfold choleskySolve
  rw [if_neg (by omega), hKv, hvec]
  constructor
  · intro h
    rw [if_neg h]
    exact ⟨_, rfl⟩
  intro hPD
  rw [if_pos hPD, Res.bind_ok]
  refine eachNode_ok (val := fun i j x => (if gr = true then 0 else x)
      + ptKrig v d (fun a => d[a].z - fl (t d[a].x d[a].y)) (s.x_min + i * s.dx) (s.y_min + j * s.dy))
    (blockEnd_le _ _ _ _) (blockEnd_le _ _ _ _) ?_ hT
  intro i j T g hi hj hg
  unfold contStep
  obtain ⟨k, hk, hkx⟩ := contVector_ok (v := v) (d := d) (s.x_min + i * s.dx) (s.y_min + j * s.dy)
    ((ptCov v d)⁻¹.mulVec fun a => d[a].z - fl (t d[a].x d[a].y))
  rw [Res.monad_bind_eq, hk, Res.bind_ok, hkx]
  exact putNode_ok hnx hny hg gr hi hj _

/-- All the blocks of a list. -/
theorem overBlocksCont_ok {nxb nyb n_blocks_x n_blocks_y : ℕ} {gr : Bool} (hnx : nx < 2 ^ 31) (hny : ny < 2 ^ 31)
    (hs : ∀ x y, v.cov2 (-x) (-y) = v.cov2 x y) {t : ℝ → ℝ → ℝ}
    (L : List ((ℕ × ℕ) × List Pt)) (hL : (L.map Prod.fst).Nodup)
    (hLb : ∀ b ∈ L, b.1.1 < n_blocks_x ∧ b.1.2 < n_blocks_y) (hl : ∀ b ∈ L, b.2.length ≤ nx * ny)
    (ht : ∀ b ∈ L, ∀ p ∈ b.2, s.getZ p.x p.y = .ok (t p.x p.y))
    {T : ℕ → ℕ → ℝ} {g : Grid2D ℝ} (hT : Holds nx ny T g) :
    ((∃ b ∈ L, b.2 ≠ [] ∧ ¬ (ptCov v b.2).PosDef) →
      ∃ msg, overBlocks (fun bx by_ db => krigBlockCont fl s db v bx by_ nxb nyb n_blocks_x n_blocks_y gr) L g = .throws msg) ∧
    ((∀ b ∈ L, b.2 ≠ [] → (ptCov v b.2).PosDef) →
      (overBlocks (fun bx by_ db => krigBlockCont fl s db v bx by_ nxb nyb n_blocks_x n_blocks_y gr) L g).Sat
        fun g' => ∃ T', Holds nx ny T' g' ∧
          (∀ b ∈ L, ∀ i < nx, ∀ j < ny, BlockHas nx ny nxb nyb n_blocks_x n_blocks_y b.1 i j →
            T' i j = if b.2 = [] then T i j else (if gr = true then 0 else T i j)
              + ptKrig v b.2 (fun a => b.2[a].z - fl (t b.2[a].x b.2[a].y)) (s.x_min + i * s.dx) (s.y_min + j * s.dy)) ∧
          ∀ i < nx, ∀ j < ny, (∀ b ∈ L, ¬ BlockHas nx ny nxb nyb n_blocks_x n_blocks_y b.1 i j) → T' i j = T i j) := by
  induction L generalizing T g with
  | nil =>
    refine ⟨by rintro ⟨b, hb, -⟩; simp at hb, fun _ => ?_⟩
    rw [overBlocks, Res.sat_ok]
    exact ⟨T, hT, by simp, fun _ _ _ _ _ => rfl⟩
  | cons b L ih =>
    rw [List.map_cons, List.nodup_cons] at hL
    have hLb' : ∀ b ∈ L, b.1.1 < n_blocks_x ∧ b.1.2 < n_blocks_y := fun a ha => hLb a (List.mem_cons_of_mem _ ha)
    have hdis : ∀ a ∈ L, ∀ i j, BlockHas nx ny nxb nyb n_blocks_x n_blocks_y a.1 i j →
        ¬ BlockHas nx ny nxb nyb n_blocks_x n_blocks_y b.1 i j := by
      intro a ha i j h1 h2
      have := blockHas_disjoint (hLb' a ha) (hLb b List.mem_cons_self) h1 h2
      exact hL.1 (this ▸ List.mem_map.2 ⟨a, ha, rfl⟩)
    rw [overBlocks]
    have IH : ∀ {T : ℕ → ℕ → ℝ} {g : Grid2D ℝ}, Holds nx ny T g → _ := fun {T g} hT =>
      ih hL.2 hLb' (fun a ha => hl a (List.mem_cons_of_mem _ ha)) (fun a ha => ht a (List.mem_cons_of_mem _ ha)) (T := T) (g := g) hT
    by_cases h0 : b.2 = []
    · rw [krigBlockCont_idle (.inl h0), Res.bind_ok]
      obtain ⟨i1, i2⟩ := IH hT
      constructor
      · rintro ⟨a, ha, ha1, ha2⟩
        rcases List.mem_cons.1 ha with rfl | ha
        · exact absurd h0 ha1
        · exact i1 ⟨a, ha, ha1, ha2⟩
      · intro hp
        refine (i2 fun a ha => hp a (List.mem_cons_of_mem _ ha)).mono ?_
        rintro st' ⟨T', hT', k1, k2⟩
        refine ⟨T', hT', ?_, fun i hi j hj hn => k2 i hi j hj fun a ha => hn a (List.mem_cons_of_mem _ ha)⟩
        intro a ha i hi j hj hB
        rcases List.mem_cons.1 ha with rfl | ha
        · rw [if_pos h0]
          exact k2 i hi j hj fun a' ha' h => hdis a' ha' i j h hB
        · exact k1 a ha i hi j hj hB
    · obtain ⟨k1, k2⟩ := krigBlockCont_ok (fl := fl) hnx hny hs (ht b List.mem_cons_self) hT h0 (hl b List.mem_cons_self) gr
        (bx := b.1.1) (by_ := b.1.2) (nxb := nxb) (nyb := nyb) (n_blocks_x := n_blocks_x) (n_blocks_y := n_blocks_y)
      by_cases hp : (ptCov v b.2).PosDef
      · obtain ⟨g1, hg1, hT1⟩ := k2 hp
        rw [hg1, Res.bind_ok]
        obtain ⟨i1, i2⟩ := IH hT1
        constructor
        · rintro ⟨a, ha, ha1, ha2⟩
          rcases List.mem_cons.1 ha with rfl | ha
          · exact absurd hp ha2
          · exact i1 ⟨a, ha, ha1, ha2⟩
        · intro hp'
          refine (i2 fun a ha => hp' a (List.mem_cons_of_mem _ ha)).mono ?_
          rintro st' ⟨T', hT', m1, m2⟩
          refine ⟨T', hT', ?_, ?_⟩
          · intro a ha i hi j hj hB
            rcases List.mem_cons.1 ha with rfl | ha
            · rw [if_neg h0, m2 i hi j hj fun a' ha' h => hdis a' ha' i j h hB]
              exact if_pos hB
            · rw [m1 a ha i hi j hj hB]
              have := hdis a ha i j hB
              unfold BlockHas at this
              simp only [if_neg this]
          · intro i hi j hj hn
            rw [m2 i hi j hj fun a ha => hn a (List.mem_cons_of_mem _ ha)]
            exact if_neg (hn b List.mem_cons_self)
      · obtain ⟨msg, hm⟩ := k1 hp
        rw [hm]
        constructor
        · intro _
          exact ⟨msg, rfl⟩
        · intro h
          exact absurd (h b List.mem_cons_self h0) hp

end

end Verif
