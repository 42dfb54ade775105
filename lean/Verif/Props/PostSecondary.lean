import Verif.Lemmas.PostChain
import Verif.Props.PostNormal

/-!
# Secondary observations and observations that are nearly the same
-/

namespace Verif

open MeasureTheory ProbabilityTheory PostNormal

/-- What `IdentifyLargeCorr` takes for the correlation of the observation `i` and a later one `j`. -/
noncomputable def nearCorr (vario : Variogram) (pos : List Geo.Pt) (lc : List ℝ) (i j : ℕ) : ℝ :=
  (if lc.getD i 0 = lc.getD j 0 then 1 else lc.getD j 0) * corrAt vario (place pos i) (place pos j)

/-- `IdentifyLargeCorr`: every observation is in one chain, that of its number; a chain has its least member first, and every other member
is nearly the same as a lower one before it; an observation is never nearly the same as a higher one of a later chain; and the chains come in the
order of their first members. -/
theorem identify_spec (vario : Variogram) {pos : List Geo.Pt} {lc : List ℝ} (hl : lc.length = pos.length) :
    ∃ (map : List ℤ) (chains : List (List ℕ)), identify vario pos lc = .ok (map, chains) ∧ map.length = pos.length ∧
      (∀ j < pos.length, ∃ k < chains.length, map.getD j (-1) = k ∧ j ∈ chains.getD k []) ∧
      (∀ k < chains.length, ∀ j ∈ chains.getD k [], j < pos.length ∧ map.getD j (-1) = k) ∧
      (∀ c ∈ chains, c.Nodup ∧ c ≠ [] ∧ (∀ j ∈ c, c.getD 0 0 ≤ j) ∧
        ∀ p, 0 < p → p < c.length → ∃ q < p, c.getD q 0 < c.getD p 0 ∧ nearCorr vario pos lc (c.getD q 0) (c.getD p 0) > 0.999) ∧
      (∀ i j, i < j → j < pos.length → map.getD i (-1) < map.getD j (-1) → nearCorr vario pos lc i j ≤ 0.999) ∧
      (chains.map (·.getD 0 0)).Pairwise (· < ·) := by
  obtain ⟨map, D, e, h⟩ := identify_between (c := nearCorr vario pos lc) fun i hi j hj => chainCorr_ok vario hl hi hj
  refine ⟨map, D, e, h.len, fun j hj => ?_, fun k hk j hj => (h.done k hk j).1 hj, fun c hc => ?_, fun i j hij hj hm => ?_, h.sorted⟩
  · have h1 := h.seen j hj
    have h2 := h.range j
    obtain ⟨k, hk⟩ := Int.eq_ofNat_of_zero_le h1
    exact ⟨k, by omega, hk, (h.done k (by omega) j).2 ⟨hj, hk⟩⟩
  · obtain ⟨k, hk, rfl⟩ := List.getElem_of_mem hc
    obtain ⟨b, _, hg⟩ := h.good k hk
    rw [show D.getD k [] = D[k] by simp [List.getD_eq_getElem?_getD, hk]] at hg
    refine ⟨hg.nodup, ?_, ?_, hg.link⟩
    · obtain ⟨t, ht⟩ := hg.head
      rw [ht]
      exact List.cons_ne_nil _ _
    · obtain ⟨t, ht⟩ := hg.head
      have h0 : D[k].getD 0 0 = b := by rw [ht]; rfl
      rw [h0]
      exact hg.least
  · by_contra hn
    have h1 := h.seen i (by omega)
    have h2 := h.range i
    obtain ⟨k, hk⟩ := Int.eq_ofNat_of_zero_le h1
    have := (h.closed k (by omega) i ((h.done k (by omega) i).2 ⟨by omega, hk⟩) j hij hj (not_le.1 hn)).2
    omega

/-- The observations that are kept, the first of every chain, are not nearly the same. -/
theorem identify_kept (vario : Variogram) {pos : List Geo.Pt} {lc : List ℝ} (hl : lc.length = pos.length) {map : List ℤ} {chains : List (List ℕ)}
    (h : identify vario pos lc = .ok (map, chains)) :
    (chains.map (·.getD 0 0)).Pairwise fun i j => i < j ∧ nearCorr vario pos lc i j ≤ 0.999 := by
  obtain ⟨map', chains', e, h1, h2, h3, h4, h5, h6⟩ := identify_spec vario hl
  rw [e] at h
  obtain ⟨rfl, rfl⟩ : map' = map ∧ chains' = chains := by
    injection h with h
    exact ⟨congrArg Prod.fst h, congrArg Prod.snd h⟩
  rw [List.pairwise_iff_getElem] at h6 ⊢
  intro i j hi hj hij
  have hlt := h6 i j hi hj hij
  refine ⟨hlt, ?_⟩
  simp only [List.length_map] at hi hj
  have hd : ∀ k (hk : k < chains'.length), chains'[k].getD 0 0 < pos.length ∧ map'.getD (chains'[k].getD 0 0) (-1) = k := by
    intro k hk
    refine h3 k hk _ ?_
    obtain ⟨t, ts, ht⟩ := List.exists_cons_of_ne_nil (h4 _ (List.getElem_mem hk)).2.1
    rw [show chains'.getD k [] = chains'[k] by simp [List.getD_eq_getElem?_getD, hk], ht]
    simp
  simp only [List.getElem_map] at hlt ⊢
  refine h5 _ _ hlt (hd j hj).1 ?_
  rw [(hd i hi).2, (hd j hj).2]
  exact_mod_cast hij

/-- The covariances of the observations that are kept. -/
noncomputable def keptCov (vario : Variogram) (pos : List Geo.Pt) (lc std : List ℝ) (kept : List ℕ) : Matrix (Fin kept.length) (Fin kept.length) ℝ :=
  Matrix.of fun k l => std.getD (kept.getD k 0) 0 * std.getD (kept.getD l 0) 0 *
    (obsCorr (lc.getD (kept.getD k 0) 0) (lc.getD (kept.getD l 0) 0) * corrAt vario (place pos (kept.getD k 0)) (place pos (kept.getD l 0)))

/-- `SecondayCondDistrMultiNormal2D` when all the observations have the same local correlation, or no two of them are nearly the same: the function
returns the conditional law of the unknown given the observations that are kept. Missing: observations of different kinds of which some are
nearly the same, for which it is false (`secondary_merged_violation`, `secondary_primary_violation`). -/
theorem secondary_spec_partial {pos_known pos_unknown : List Geo.Pt} {lc exp_known exp_unknown std_known std_unknown : List ℝ} (vario : Variogram)
    (hk : pos_known ≠ []) (hu : pos_unknown ≠ []) (h0 : lc.length = pos_known.length) (h1 : exp_known.length = pos_known.length)
    (h2 : std_known.length = pos_known.length) (h3 : exp_unknown.length = pos_unknown.length) (h4 : std_unknown.length = pos_unknown.length)
    (hc : (∀ i < pos_known.length, lc.getD i 0 = lc.getD 0 0) ∨
      ∀ i j, i < j → j < pos_known.length → nearCorr vario pos_known lc i j ≤ 0.999) :
    ∃ kept : List ℕ, kept.Pairwise (fun i j => i < j ∧ nearCorr vario pos_known lc i j ≤ 0.999) ∧ (∀ k ∈ kept, k < pos_known.length) ∧
      ((∀ i j, i < j → j < pos_known.length → nearCorr vario pos_known lc i j ≤ 0.999) → kept = List.range pos_known.length) ∧
      ((keptCov vario pos_known lc std_known kept).PosDef →
        ∃ (e : (Fin kept.length → ℝ) → Fin pos_unknown.length → ℝ) (C : SymMat),
          (∀ values : List ℝ, values.length = pos_known.length →
            secondary pos_known values lc pos_unknown exp_known exp_unknown std_known std_unknown vario =
              .ok (List.ofFn (e fun k => values.getD (kept.getD k 0) 0), C)) ∧
          ∀ {Ω : Type} [MeasurableSpace Ω] (P : Measure Ω) (X : Fin kept.length → Ω → ℝ) (Y : Fin pos_unknown.length → Ω → ℝ),
            JointNormal P X Y (fun k => exp_known.getD (kept.getD k 0) 0) (fun a => exp_unknown.getD a 0)
              (fun k l => keptCov vario pos_known lc std_known kept k l)
              (fun a k => std_unknown.getD a 0 * std_known.getD (kept.getD k 0) 0 *
                (lc.getD (kept.getD k 0) 0 * corrAt vario (place pos_unknown a) (place pos_known (kept.getD k 0))))
              (fun a b => std_unknown.getD a 0 * std_unknown.getD b 0 * corrAt vario (place pos_unknown a) (place pos_unknown b)) →
            CondNormal P X Y e (fun a b => C (min a b) (max a b))) := by
  obtain ⟨map, D, e, hD⟩ := identify_between (c := nearCorr vario pos_known lc) fun i hi j hj => chainCorr_ok vario h0 hi hj
  have hsp := identify_spec vario h0
  rw [e] at hsp
  obtain ⟨map', D', e', s1, s2, s3, s4, s5, s6⟩ := hsp
  obtain ⟨rfl, rfl⟩ : map = map' ∧ D = D' := by
    injection e' with h
    exact ⟨congrArg Prod.fst h, congrArg Prod.snd h⟩
  have hlt : ∀ k ∈ D.map (·.getD 0 0), k < pos_known.length := by
    intro k hk
    obtain ⟨c, hc, rfl⟩ := List.mem_map.1 hk
    obtain ⟨t, ts, ht⟩ := List.exists_cons_of_ne_nil (s4 _ hc).2.1
    obtain ⟨k, hk2, rfl⟩ := List.getElem_of_mem hc
    refine (s3 k hk2 _ ?_).1
    rw [show D.getD k [] = D[k] by simp [List.getD_eq_getElem?_getD, hk2], ht]
    simp
  have hrange : (∀ i j, i < j → j < pos_known.length → nearCorr vario pos_known lc i j ≤ 0.999) → D.map (·.getD 0 0) = List.range pos_known.length := by
    intro hn
    have hmem : ∀ j, j ∈ D.map (·.getD 0 0) ↔ j ∈ List.range pos_known.length := by
      intro j
      rw [List.mem_range]
      refine ⟨hlt j, fun hj => ?_⟩
      obtain ⟨k, hk, _, hjk⟩ := s2 j hj
      rw [show D.getD k [] = D[k] by simp [List.getD_eq_getElem?_getD, hk]] at hjk
      obtain ⟨p, hp, hpe⟩ := List.getElem_of_mem hjk
      have hpd : ∀ q (hq : q < D[k].length), D[k].getD q 0 = D[k][q] := fun q hq => by simp [List.getD_eq_getElem?_getD, hq]
      rcases Nat.eq_zero_or_pos p with rfl | h0
      · exact List.mem_map.2 ⟨D[k], List.getElem_mem hk, by rw [hpd 0 hp, hpe]⟩
      · obtain ⟨q, hq, h5, h6⟩ := (s4 _ (List.getElem_mem hk)).2.2.2 p h0 hp
        refine absurd h6 (not_lt.2 (hn _ _ h5 ?_))
        rw [hpd p hp, hpe]
        exact hj
    refine List.Perm.eq_of_pairwise (le := (· < ·)) (fun a b _ _ h1 h2 => absurd h1 h2.not_gt) s6 List.pairwise_lt_range ?_
    exact (List.perm_ext_iff_of_nodup (s6.imp fun h => h.ne) List.nodup_range).2 hmem
  refine ⟨D.map (·.getD 0 0), identify_kept vario h0 e, hlt, hrange, fun hpos => ?_⟩
  set kept := D.map (·.getD 0 0) with hkept
  have hkm : ∀ k < kept.length, kept.getD k 0 < pos_known.length := by
    intro k hk
    refine hlt _ ?_
    rw [show kept.getD k 0 = kept[k] by simp [List.getD_eq_getElem?_getD, hk]]
    exact List.getElem_mem hk
  have hle := nodup_le (s6.imp fun h => h.ne) hlt
  have hlc : ∀ k < kept.length, lc.getD k 0 = lc.getD (kept.getD k 0) 0 := by
    intro k hk
    rcases hc with hc | hc
    · rw [hc k (by omega), hc _ (hkm k hk)]
    · rw [hrange hc] at hk ⊢
      simp only [List.length_range] at hk
      simp [List.getD_eq_getElem?_getD, hk]
  have hcov : usedCov vario pos_known lc std_known kept = keptCov vario pos_known lc std_known kept := by
    ext k l
    unfold usedCov keptCov
    simp only [Matrix.of_apply]
    rw [hlc k k.2, hlc l l.2]
  obtain ⟨w, C, hw, hok, hC⟩ := secondary_weights (exp_known := exp_known) (exp_unknown := exp_unknown) vario hk hu h0 h1 h2 h3 h4 e hD
    (kept := kept) rfl (by rw [hcov]; exact hpos)
  refine ⟨fun x a => exp_unknown.getD a 0 + ∑ k, w a k * (x k - exp_known.getD (kept.getD k 0) 0), C, hok, fun P X Y hJ => ?_⟩
  have := condNormal_of_weights hJ (w := w) (fun a k => by rw [← hcov, hw, hlc k k.2])
  have hC' : ∀ a b : Fin pos_unknown.length, a ≤ b → C a b =
      std_unknown.getD a 0 * std_unknown.getD b 0 * corrAt vario (place pos_unknown a) (place pos_unknown b) -
        ∑ k, w a k * (std_unknown.getD b 0 * std_known.getD (kept.getD k 0) 0 *
          (lc.getD (kept.getD k 0) 0 * corrAt vario (place pos_unknown b) (place pos_known (kept.getD k 0)))) := by
    intro a b hab
    rw [hC a b hab]
    congr 1
    exact Finset.sum_congr rfl fun k _ => by rw [hlc k k.2]
  refine ⟨this.indep, this.gauss, this.mean, fun a b => ?_⟩
  rcases le_total a b with hab | hab
  · have hab' : (a : ℕ) ≤ b := hab
    rw [this.cov a b, min_eq_left hab', max_eq_right hab', hC' a b hab]
  · have hab' : (b : ℕ) ≤ a := hab
    rw [covariance_comm, this.cov b a, min_eq_right hab', max_eq_left hab', hC' b a hab]

/-- Without observations: the expectations and the covariances that were given. -/
theorem secondary_none {pos_unknown : List Geo.Pt} {values lc exp_known exp_unknown std_known std_unknown : List ℝ} (vario : Variogram)
    (h3 : exp_unknown.length = pos_unknown.length) (h4 : std_unknown.length = pos_unknown.length) :
    ∃ C, secondary [] values lc pos_unknown exp_known exp_unknown std_known std_unknown vario = .ok (exp_unknown, C) ∧
      ∀ a < pos_unknown.length, ∀ b < pos_unknown.length,
        C a b = std_unknown.getD a 0 * std_unknown.getD b 0 * corrAt vario (place pos_unknown a) (place pos_unknown b) := by
  obtain ⟨C, e, g⟩ := fillFull_ok (n := pos_unknown.length) (f := cov2 vario (fun _ _ => .ok 1) std_unknown std_unknown pos_unknown pos_unknown)
    (g := fun i j => std_unknown.getD i 0 * std_unknown.getD j 0 * (1 * corrAt vario (place pos_unknown i) (place pos_unknown j)))
    (fun i hi j hj => cov2_ok vario rfl (by omega) (by omega) (by omega) (by omega))
  refine ⟨C, ?_, fun a ha b hb => by rw [g a ha b hb, one_mul]⟩
  unfold secondary
  rw [if_pos List.length_nil, fillVec_ok (g := fun i => exp_unknown.getD i 0) fun i hi => rd_getD (by omega), e]
  simp only [Res.monad_bind_eq, Res.bind_ok]
  congr 2
  apply List.ext_getElem (by simp [h3])
  intro i h1 h2
  simp [List.getD_eq_getElem?_getD, h2]

theorem expVario_at (p q : Geo.Pt) : corrAt expVario p q = Real.exp (-3 * √((p.x - q.x) * (p.x - q.x) + (p.y - q.y) * (p.y - q.y))) := by
  show Real.exp (-3.0 * √(1 * (p.x - q.x) * (p.x - q.x) + 1 * (p.y - q.y) * (p.y - q.y) + 0 * (p.x - q.x) * (p.y - q.y))) = _
  have z : (3.0 : ℝ) = 3 := by norm_num
  rw [z]
  congr 3
  ring

/-- The observations that are kept are found by comparing with lower ones. -/
theorem kept_eq {vario : Variogram} {pos : List Geo.Pt} {lc : List ℝ} {map : List ℤ} {D : List (List ℕ)} (hl : lc.length = pos.length)
    (e : identify vario pos lc = .ok (map, D)) {T : List ℕ} (hT : T.Pairwise (· < ·)) (h1 : ∀ j ∈ T, j < pos.length)
    (h2 : ∀ j ∈ T, ∀ i < j, nearCorr vario pos lc i j ≤ 0.999) (h3 : ∀ j < pos.length, j ∉ T → ∃ i ∈ T, i < j ∧ nearCorr vario pos lc i j > 0.999) :
    D.map (·.getD 0 0) = T := by
  have hsp := identify_spec vario hl
  rw [e] at hsp
  obtain ⟨map', D', e', s1, s2, s3, s4, s5, s6⟩ := hsp
  obtain ⟨rfl, rfl⟩ : map = map' ∧ D = D' := by
    injection e' with h
    exact ⟨congrArg Prod.fst h, congrArg Prod.snd h⟩
  have hin : ∀ j ∈ T, j ∈ D.map (·.getD 0 0) := by
    intro j hj
    obtain ⟨k, hk, _, hjk⟩ := s2 j (h1 j hj)
    rw [show D.getD k [] = D[k] by simp [List.getD_eq_getElem?_getD, hk]] at hjk
    obtain ⟨p, hp, hpe⟩ := List.getElem_of_mem hjk
    have hpd : ∀ q (hq : q < D[k].length), D[k].getD q 0 = D[k][q] := fun q hq => by simp [List.getD_eq_getElem?_getD, hq]
    rcases Nat.eq_zero_or_pos p with rfl | h0
    · exact List.mem_map.2 ⟨D[k], List.getElem_mem hk, by rw [hpd 0 hp, hpe]⟩
    · obtain ⟨q, hq, h5, h6⟩ := (s4 _ (List.getElem_mem hk)).2.2.2 p h0 hp
      rw [hpd p hp, hpe] at h5 h6
      exact absurd h6 (not_lt.2 (h2 j hj _ h5))
  have hlt : ∀ k ∈ D.map (·.getD 0 0), k < pos.length := by
    intro k hk
    obtain ⟨c, hc, rfl⟩ := List.mem_map.1 hk
    obtain ⟨t, ts, ht⟩ := List.exists_cons_of_ne_nil (s4 _ hc).2.1
    obtain ⟨k, hk2, rfl⟩ := List.getElem_of_mem hc
    refine (s3 k hk2 _ ?_).1
    rw [show D.getD k [] = D[k] by simp [List.getD_eq_getElem?_getD, hk2], ht]
    simp
  refine List.Perm.eq_of_pairwise (le := (· < ·)) (fun a b _ _ h1 h2 => absurd h1 h2.not_gt) s6 hT ?_
  refine (List.perm_ext_iff_of_nodup (s6.imp fun h => h.ne) (hT.imp fun h => h.ne)).2 fun j => ⟨fun hj => ?_, hin j⟩
  by_contra hjT
  obtain ⟨i, hi, hij, hn⟩ := h3 j (hlt j hj) hjT
  have hpw := identify_kept vario hl e
  rw [List.pairwise_iff_getElem] at hpw
  obtain ⟨a, ha, hae⟩ := List.getElem_of_mem (hin i hi)
  obtain ⟨b, hb, hbe⟩ := List.getElem_of_mem hj
  have hab : a < b := by
    by_contra hab
    rcases (not_lt.1 hab).eq_or_lt with h | h
    · subst h
      omega
    · have := (hpw b a hb ha h).1
      omega
  have := (hpw a b ha hb hab).2
  rw [hae, hbe] at this
  exact absurd hn (not_lt.2 this)

theorem posDef2 {r : ℝ} (h1 : -1 < r) (h2 : r < 1) {M : Matrix (Fin 2) (Fin 2) ℝ} (h00 : M 0 0 = 1) (h01 : M 0 1 = r) (h10 : M 1 0 = r)
    (h11 : M 1 1 = 1) : M.PosDef := by
  refine Matrix.PosDef.of_dotProduct_mulVec_pos ?_ fun x hx => ?_
  · ext i j
    fin_cases i <;> fin_cases j <;> simp [Matrix.conjTranspose_apply, h00, h01, h10, h11]
  · have hne : x 0 ≠ 0 ∨ x 1 ≠ 0 := by
      by_contra h
      push Not at h
      apply hx
      funext i
      fin_cases i
      · exact h.1
      · exact h.2
    simp only [dotProduct, Matrix.mulVec, Fin.sum_univ_two, star_trivial, h00, h01, h10, h11, Pi.star_apply]
    have e : x 0 * (1 * x 0 + r * x 1) + x 1 * (r * x 0 + 1 * x 1) = (1 + r) / 2 * (x 0 + x 1) ^ 2 + (1 - r) / 2 * (x 0 - x 1) ^ 2 := by ring
    rw [e]
    by_cases hs : x 0 + x 1 = 0
    · have hd : x 0 - x 1 ≠ 0 := by
        intro hd
        have : x 0 = 0 := by linarith
        have : x 1 = 0 := by linarith
        rcases hne with h | h <;> contradiction
      have := mul_pos (by linarith : 0 < (1 - r) / 2) (sq_pos_of_ne_zero hd)
      have := mul_nonneg (by linarith : 0 ≤ (1 + r) / 2) (sq_nonneg (x 0 + x 1))
      linarith
    · have := mul_pos (by linarith : 0 < (1 + r) / 2) (sq_pos_of_ne_zero hs)
      have := mul_nonneg (by linarith : 0 ≤ (1 - r) / 2) (sq_nonneg (x 0 - x 1))
      linarith

/-- The correlation at the distance one. -/
theorem expVario_one : 0 < Real.exp (-3 : ℝ) ∧ Real.exp (-3 : ℝ) < 1 / 2 := by
  refine ⟨Real.exp_pos _, ?_⟩
  have h := Real.add_one_le_exp (3 : ℝ)
  rw [Real.exp_neg, inv_lt_comm₀ (Real.exp_pos _) (by norm_num)]
  norm_num
  linarith

theorem expVario_self (p : Geo.Pt) : corrAt expVario p p = 1 := by
  rw [expVario_at]
  simp

theorem expVario_unit : corrAt expVario ⟨0, 0, 0⟩ ⟨1, 0, 0⟩ = Real.exp (-3) ∧ corrAt expVario ⟨1, 0, 0⟩ ⟨0, 0, 0⟩ = Real.exp (-3) := by
  rw [expVario_at, expVario_at]
  constructor <;> norm_num

/-- After two observations at one place were merged, the local correlations are taken from the wrong observations: a secondary observation (local
correlation one half) is then taken for a primary one, and the variance where it was made is zero; without the repeated observation it is not. -/
theorem secondary_merged_violation :
    (∀ u u' v : ℝ, ∃ C : SymMat, secondary [⟨0, 0, 0⟩, ⟨0, 0, 0⟩, ⟨1, 0, 0⟩] [u, u', v] [1, 1, 0.5] [⟨1, 0, 0⟩] [0, 0, 0] [0] [1, 1, 1] [1] expVario =
      .ok ([v], C) ∧ C 0 0 = 0) ∧
    ∀ u v : ℝ, ∃ e C, secondary [⟨0, 0, 0⟩, ⟨1, 0, 0⟩] [u, v] [1, 0.5] [⟨1, 0, 0⟩] [0, 0] [0] [1, 1] [1] expVario = .ok (e, C) ∧ 0 < C 0 0 := by
  obtain ⟨r0, r1⟩ := expVario_one
  obtain ⟨u1, u2⟩ := expVario_unit
  generalize Real.exp (-3) = r at r0 r1 u1 u2
  constructor
  · obtain ⟨map, D, e, hD⟩ := identify_between (vario := expVario) (pos := [⟨0, 0, 0⟩, ⟨0, 0, 0⟩, ⟨1, 0, 0⟩]) (lc := [1, 1, 0.5])
      (c := nearCorr expVario [⟨0, 0, 0⟩, ⟨0, 0, 0⟩, ⟨1, 0, 0⟩] [1, 1, 0.5]) fun i hi j hj => chainCorr_ok expVario rfl hi hj
    have hk : D.map (·.getD 0 0) = [0, 2] := by
      refine kept_eq rfl e (by simp) (by simp) ?_ ?_
      · intro j hj i hi
        simp only [List.mem_cons, List.not_mem_nil, or_false] at hj
        rcases hj with rfl | rfl
        · omega
        · interval_cases i <;> simp [nearCorr, place, u1] <;> norm_num <;> linarith
      · intro j hj hjT
        simp only [List.length_cons, List.length_nil] at hj
        interval_cases j
        · simp at hjT
        · exact ⟨0, by simp, by simp, by simp [nearCorr, place, expVario_self]; norm_num⟩
        · simp at hjT
    obtain ⟨w, C, hw, hok, hC⟩ := secondary_weights (exp_known := [0, 0, 0]) (exp_unknown := [0]) (std_known := [1, 1, 1]) (std_unknown := [1])
      (pos_unknown := [⟨1, 0, 0⟩]) expVario (by simp) (by simp) rfl rfl rfl rfl rfl e hD hk
      (posDef2 (r := r) (by linarith) (by linarith) (by simp [usedCov, obsCorr, place, expVario_self]) (by simp [usedCov, obsCorr, place, u1])
        (by simp [usedCov, obsCorr, place, u2]) (by simp [usedCov, obsCorr, place, expVario_self]))
    have w0 := hw (0 : Fin 1) (0 : Fin 2)
    have w1 := hw (0 : Fin 1) (1 : Fin 2)
    have c0 := hC (0 : Fin 1) (0 : Fin 1) le_rfl
    simp [Fin.sum_univ_succ, usedCov, obsCorr, place, u1, u2, expVario_self] at w0 w1 c0
    have e0 : w 0 0 = 0 := by
      have : w 0 0 * (1 - r * r) = 0 := by linear_combination w0 - r * w1
      rcases mul_eq_zero.1 this with h | h
      · exact h
      · nlinarith
    have e1 : w 0 1 = 1 := by
      rw [e0] at w1
      linarith
    intro u u' v
    refine ⟨C, ?_, by rw [c0, e0, e1]; ring⟩
    rw [hok [u, u', v] rfl]
    congr 2
    simp [Fin.sum_univ_succ, e0, e1]
  · obtain ⟨map, D, e, hD⟩ := identify_between (vario := expVario) (pos := [⟨0, 0, 0⟩, ⟨1, 0, 0⟩]) (lc := [1, 0.5])
      (c := nearCorr expVario [⟨0, 0, 0⟩, ⟨1, 0, 0⟩] [1, 0.5]) fun i hi j hj => chainCorr_ok expVario rfl hi hj
    have hh : ¬ ((1 : ℝ) = 0.5) := by norm_num
    have hk : D.map (·.getD 0 0) = [0, 1] := by
      refine kept_eq rfl e (by simp) (by simp) ?_ ?_
      · intro j hj i hi
        simp only [List.mem_cons, List.not_mem_nil, or_false] at hj
        rcases hj with rfl | rfl
        · omega
        · interval_cases i
          simp [nearCorr, place, u1] <;> norm_num <;> linarith
      · intro j hj hjT
        simp only [List.length_cons, List.length_nil] at hj
        interval_cases j <;> simp at hjT
    have hm : min (1 : ℝ) 0.5 = 1 / 2 ∧ min (0.5 : ℝ) 1 = 1 / 2 := by constructor <;> norm_num
    obtain ⟨w, C, hw, hok, hC⟩ := secondary_weights (exp_known := [0, 0]) (exp_unknown := [0]) (std_known := [1, 1]) (std_unknown := [1])
      (pos_unknown := [⟨1, 0, 0⟩]) expVario (by simp) (by simp) rfl rfl rfl rfl rfl e hD hk
      (posDef2 (r := 1 / 2 * r) (by linarith) (by linarith) (by simp [usedCov, obsCorr, place, expVario_self])
        (by simp only [usedCov, obsCorr, place, Matrix.of_apply]; simp [u1, hh, hm])
        (by simp only [usedCov, obsCorr, place, Matrix.of_apply]; simp [u2, Ne.symm hh, hm]) (by simp [usedCov, obsCorr, place, expVario_self]))
    have w0 := hw (0 : Fin 1) (0 : Fin 2)
    have w1 := hw (0 : Fin 1) (1 : Fin 2)
    have c0 := hC (0 : Fin 1) (0 : Fin 1) le_rfl
    simp [Fin.sum_univ_succ, usedCov, obsCorr, place, u1, u2, expVario_self, hh, Ne.symm hh, hm] at w0 w1 c0
    have w1' : w 0 1 * (1 - r * r / 4) = (1 - r * r) / 2 := by
      norm_num at w1
      linear_combination w1 - r / 2 * w0
    have hr : r * r < 1 / 4 := by nlinarith
    have hw1 : w 0 1 < 2 := by
      by_contra h
      nlinarith [not_lt.1 h]
    intro u v
    refine ⟨_, C, hok [u, v] rfl, ?_⟩
    rw [c0]
    have : 1 - (w 0 0 * r + w 0 1 * 0.5) = (1 - r * r) * (1 - w 0 1 / 2) := by
      norm_num
      linear_combination -r * w0
    rw [this]
    exact mul_pos (by linarith) (by linarith)

/-- A primary observation at the place of an earlier secondary one is not used: where it was made the variance is three quarters of what it was
and the expectation half the secondary observation. In the other order the expectation is the primary observation and the variance zero. -/
theorem secondary_primary_violation :
    (∀ s p : ℝ, ∃ C : SymMat, secondary [⟨0, 0, 0⟩, ⟨0, 0, 0⟩] [s, p] [0.5, 1] [⟨0, 0, 0⟩] [0, 0] [0] [1, 1] [1] expVario = .ok ([s / 2], C) ∧
      C 0 0 = 3 / 4) ∧
    ∀ s p : ℝ, ∃ C : SymMat, secondary [⟨0, 0, 0⟩, ⟨0, 0, 0⟩] [p, s] [1, 0.5] [⟨0, 0, 0⟩] [0, 0] [0] [1, 1] [1] expVario = .ok ([p], C) ∧ C 0 0 = 0 := by
  have hh : ¬ ((1 : ℝ) = 0.5) := by norm_num
  have hm : min (1 : ℝ) 0.5 = 1 / 2 ∧ min (0.5 : ℝ) 1 = 1 / 2 := by constructor <;> norm_num
  constructor
  · obtain ⟨map, D, e, hD⟩ := identify_between (vario := expVario) (pos := [⟨0, 0, 0⟩, ⟨0, 0, 0⟩]) (lc := [0.5, 1])
      (c := nearCorr expVario [⟨0, 0, 0⟩, ⟨0, 0, 0⟩] [0.5, 1]) fun i hi j hj => chainCorr_ok expVario rfl hi hj
    have hk : D.map (·.getD 0 0) = [0] := by
      refine kept_eq rfl e (by simp) (by simp) (by simp) ?_
      intro j hj hjT
      simp only [List.length_cons, List.length_nil] at hj
      interval_cases j
      · simp at hjT
      · exact ⟨0, by simp, by simp, by simp [nearCorr, place, expVario_self]; norm_num⟩
    obtain ⟨w, C, hw, hok, hC⟩ := secondary_weights (exp_known := [0, 0]) (exp_unknown := [0]) (std_known := [1, 1]) (std_unknown := [1])
      (pos_unknown := [⟨0, 0, 0⟩]) expVario (by simp) (by simp) rfl rfl rfl rfl rfl e hD hk (by
        have : usedCov expVario [⟨0, 0, 0⟩, ⟨0, 0, 0⟩] [0.5, 1] [1, 1] [0] = 1 := by
          ext i j
          fin_cases i
          fin_cases j
          simp [usedCov, obsCorr, place, expVario_self]
        rw [this]
        exact Matrix.PosDef.one)
    have w0 := hw (0 : Fin 1) (0 : Fin 1)
    have c0 := hC (0 : Fin 1) (0 : Fin 1) le_rfl
    simp [Fin.sum_univ_succ, usedCov, obsCorr, place, expVario_self] at w0 c0
    intro s p
    refine ⟨C, ?_, by rw [c0, w0]; norm_num⟩
    rw [hok [s, p] rfl]
    congr 2
    simp [w0]
    ring
  · obtain ⟨map, D, e, hD⟩ := identify_between (vario := expVario) (pos := [⟨0, 0, 0⟩, ⟨0, 0, 0⟩]) (lc := [1, 0.5])
      (c := nearCorr expVario [⟨0, 0, 0⟩, ⟨0, 0, 0⟩] [1, 0.5]) fun i hi j hj => chainCorr_ok expVario rfl hi hj
    have hk : D.map (·.getD 0 0) = [0, 1] := by
      refine kept_eq rfl e (by simp) (by simp) ?_ ?_
      · intro j hj i hi
        simp only [List.mem_cons, List.not_mem_nil, or_false] at hj
        rcases hj with rfl | rfl
        · omega
        · interval_cases i
          simp [nearCorr, place, expVario_self, hh]
          norm_num
      · intro j hj hjT
        simp only [List.length_cons, List.length_nil] at hj
        interval_cases j <;> simp at hjT
    obtain ⟨w, C, hw, hok, hC⟩ := secondary_weights (exp_known := [0, 0]) (exp_unknown := [0]) (std_known := [1, 1]) (std_unknown := [1])
      (pos_unknown := [⟨0, 0, 0⟩]) expVario (by simp) (by simp) rfl rfl rfl rfl rfl e hD hk
      (posDef2 (r := 1 / 2) (by norm_num) (by norm_num) (by simp [usedCov, obsCorr, place, expVario_self])
        (by simp only [usedCov, obsCorr, place, Matrix.of_apply]; simp [expVario_self, hh, hm])
        (by simp only [usedCov, obsCorr, place, Matrix.of_apply]; simp [expVario_self, Ne.symm hh, hm])
        (by simp [usedCov, obsCorr, place, expVario_self]))
    have w0 := hw (0 : Fin 1) (0 : Fin 2)
    have w1 := hw (0 : Fin 1) (1 : Fin 2)
    have c0 := hC (0 : Fin 1) (0 : Fin 1) le_rfl
    simp [Fin.sum_univ_succ, usedCov, obsCorr, place, expVario_self, hh, Ne.symm hh, hm] at w0 w1 c0
    have e0 : w 0 0 = 1 := by
      norm_num at w1
      linarith
    have e1 : w 0 1 = 0 := by linarith
    intro s p
    refine ⟨C, ?_, by rw [c0, e0, e1]; ring⟩
    rw [hok [p, s] rfl]
    congr 2
    simp [Fin.sum_univ_succ, e0, e1]

/-- Two observations that are nearly the same can be in different chains: the second and the third of three on a line, where the third is between the
other two. -/
theorem identify_pairs_violation : ∃ map chains, identify expVario [⟨0, 0, 0⟩, ⟨0.0006, 0, 0⟩, ⟨0.0003, 0, 0⟩] [1, 1, 1] = .ok (map, chains) ∧
    nearCorr expVario [⟨0, 0, 0⟩, ⟨0.0006, 0, 0⟩, ⟨0.0003, 0, 0⟩] [1, 1, 1] 1 2 > 0.999 ∧ map.getD 1 (-1) ≠ map.getD 2 (-1) := by
  set pos : List Geo.Pt := [⟨0, 0, 0⟩, ⟨0.0006, 0, 0⟩, ⟨0.0003, 0, 0⟩] with hpos
  have hn : ∀ i j, i < 3 → j < 3 → nearCorr expVario pos [1, 1, 1] i j = Real.exp (-3 * |(place pos i).x - (place pos j).x|) := by
    intro i j hi hj
    unfold nearCorr
    rw [expVario_at]
    have hy : (place pos i).y - (place pos j).y = 0 := by
      interval_cases i <;> interval_cases j <;> simp [pos, place]
    have hlc : ([1, 1, 1] : List ℝ).getD i 0 = ([1, 1, 1] : List ℝ).getD j 0 := by
      interval_cases i <;> interval_cases j <;> rfl
    rw [if_pos hlc, hy, one_mul, mul_zero, add_zero, Real.sqrt_mul_self_eq_abs]
  have big : Real.exp (-0.0009 : ℝ) > 0.999 := by
    have := Real.add_one_le_exp (-0.0009 : ℝ)
    norm_num at this ⊢
    linarith
  have small : Real.exp (-0.0018 : ℝ) ≤ 0.999 := by
    have := Real.add_one_le_exp (0.0018 : ℝ)
    rw [Real.exp_neg, inv_le_comm₀ (Real.exp_pos _) (by norm_num)]
    norm_num at this ⊢
    linarith
  have h01 : nearCorr expVario pos [1, 1, 1] 0 1 ≤ 0.999 := by
    rw [hn 0 1 (by norm_num) (by norm_num), show (-3 : ℝ) * |(place pos 0).x - (place pos 1).x| = -0.0018 by
      simp only [pos, place, List.getD_cons_zero, List.getD_cons_succ]
      rw [abs_of_nonpos (by norm_num)]
      norm_num]
    exact small
  have h12 : nearCorr expVario pos [1, 1, 1] 1 2 > 0.999 := by
    rw [hn 1 2 (by norm_num) (by norm_num), show (-3 : ℝ) * |(place pos 1).x - (place pos 2).x| = -0.0009 by
      simp only [pos, place, List.getD_cons_zero, List.getD_cons_succ]
      rw [abs_of_nonneg (by norm_num)]
      norm_num]
    exact big
  have h02 : nearCorr expVario pos [1, 1, 1] 0 2 > 0.999 := by
    rw [hn 0 2 (by norm_num) (by norm_num), show (-3 : ℝ) * |(place pos 0).x - (place pos 2).x| = -0.0009 by
      simp only [pos, place, List.getD_cons_zero, List.getD_cons_succ]
      rw [abs_of_nonpos (by norm_num)]
      norm_num]
    exact big
  obtain ⟨map, D, e, s1, s2, s3, s4, s5, s6⟩ := identify_spec expVario (pos := pos) (lc := [1, 1, 1]) rfl
  refine ⟨map, D, e, h12, fun heq => ?_⟩
  have m02 : map.getD 2 (-1) ≤ map.getD 0 (-1) := by
    by_contra h
    exact absurd h02 (not_lt.2 (s5 0 2 (by norm_num) (by simp [pos]) (not_le.1 h)))
  obtain ⟨k, hk, hm, hin⟩ := s2 1 (by simp [pos])
  obtain ⟨k0, hk0, hm0, hin0⟩ := s2 0 (by simp [pos])
  have gd : ∀ k (hk : k < D.length), D.getD k [] = D[k] := fun k hk => by simp [List.getD_eq_getElem?_getD, hk]
  rw [gd k hk] at hin
  rw [gd k0 hk0] at hin0
  obtain ⟨p, hp, hpe⟩ := List.getElem_of_mem hin
  have hpd : ∀ q (hq : q < D[k].length), D[k].getD q 0 = D[k][q] := fun q hq => by simp [List.getD_eq_getElem?_getD, hq]
  rcases Nat.eq_zero_or_pos p with rfl | h0
  · rw [List.pairwise_iff_getElem] at s6
    have hd0 : D[k0].getD 0 0 = 0 := Nat.le_zero.1 ((s4 _ (List.getElem_mem hk0)).2.2.1 0 hin0)
    have hd1 : D[k].getD 0 0 = 1 := by rw [hpd 0 hp, hpe]
    have hkk : k ≤ k0 := by omega
    rcases hkk.eq_or_lt with h | h
    · subst h
      omega
    · have := s6 k k0 (by simpa using hk) (by simpa using hk0) h
      simp only [List.getElem_map] at this
      omega
  · obtain ⟨q, hq, h5, h6⟩ := (s4 _ (List.getElem_mem hk)).2.2.2 p h0 hp
    rw [hpd p hp, hpe] at h5 h6
    have hz : D[k].getD q 0 = 0 := by omega
    rw [hz] at h6
    exact absurd h6 (not_lt.2 h01)

/-- A primary and a secondary observation and one unknown: the hypotheses of the theorem hold. -/
example : ∃ (e : (Fin 2 → ℝ) → Fin 1 → ℝ) (C : SymMat),
    (∀ u v : ℝ, secondary [⟨0, 0, 0⟩, ⟨1, 0, 0⟩] [u, v] [1, 0.5] [⟨1, 0, 0⟩] [0, 0] [0] [1, 1] [1] expVario = .ok (List.ofFn (e ![u, v]), C)) := by
  obtain ⟨r0, r1⟩ := expVario_one
  obtain ⟨u1, u2⟩ := expVario_unit
  generalize Real.exp (-3) = r at r0 r1 u1 u2
  have hh : ¬ ((1 : ℝ) = 0.5) := by norm_num
  have hm : min (1 : ℝ) 0.5 = 1 / 2 ∧ min (0.5 : ℝ) 1 = 1 / 2 := by constructor <;> norm_num
  have hn : ∀ i j, i < j → j < 2 → nearCorr expVario [⟨0, 0, 0⟩, ⟨1, 0, 0⟩] [1, 0.5] i j ≤ 0.999 := by
    intro i j hij hj
    obtain ⟨rfl, rfl⟩ : i = 0 ∧ j = 1 := by omega
    simp [nearCorr, place, u1]
    norm_num
    linarith
  obtain ⟨kept, _, _, hkept, h⟩ := secondary_spec_partial (pos_known := [⟨0, 0, 0⟩, ⟨1, 0, 0⟩]) (pos_unknown := [⟨1, 0, 0⟩]) (lc := [1, 0.5])
    (exp_known := [0, 0]) (exp_unknown := [0]) (std_known := [1, 1]) (std_unknown := [1]) expVario (by simp) (by simp) rfl rfl rfl rfl rfl (.inr hn)
  have hk : kept = [0, 1] := hkept hn
  subst hk
  obtain ⟨e, C, he, _⟩ := h (posDef2 (r := 1 / 2 * r) (by linarith) (by linarith) (by simp [keptCov, obsCorr, place, expVario_self])
    (by simp only [keptCov, obsCorr, place, Matrix.of_apply]; simp [u1, hh, hm])
    (by simp only [keptCov, obsCorr, place, Matrix.of_apply]; simp [u2, Ne.symm hh, hm]) (by simp [keptCov, obsCorr, place, expVario_self]))
  refine ⟨e, C, fun u v => ?_⟩
  rw [he [u, v] rfl]
  congr 3
  congr 1
  funext i
  fin_cases i <;> rfl

end Verif
