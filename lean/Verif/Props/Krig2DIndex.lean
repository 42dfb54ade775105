import Verif.Props.Krig2DContBlocks
import Verif.Props.Krig2DBlocks
import Verif.Props.Krig2DData

/-!
# C98: kriging in two dimensions, from points moved to nodes

`Krig2D` for a surface with an index grid. The node of a point is the lower left corner of its cell.
-/

namespace Verif

/-- A kriging task with an index grid: the setting of the theorems. -/
structure IndexTask (s : RegSurf) (T : ℕ → ℕ → ℝ) (points : List Pt) (node : Pt → ℕ × ℕ) : Prop where
  nodes : HasNodes s T
  wf : s.grid.data.length = s.grid.ni * s.grid.nj
  hni : 1 ≤ s.grid.ni
  hnj : 1 ≤ s.grid.nj
  hdx : 0 < s.dx
  hdy : 0 < s.dy
  /-- no overflow -/
  small : 2 * s.grid.ni * s.grid.nj < 2 ^ 31
  /-- the points are on the surface -/
  inside : ∀ p ∈ points, p.x ≤ s.xMax ∧ p.y ≤ s.yMax ∧ (node p).1 < s.grid.ni ∧ (node p).2 < s.grid.nj
  /-- their cells -/
  cellX : ∀ p ∈ points, s.x_min + (node p).1 * s.dx ≤ p.x ∧ p.x < s.x_min + ((node p).1 + 1) * s.dx
  cellY : ∀ p ∈ points, s.y_min + (node p).2 * s.dy ≤ p.y ∧ p.y < s.y_min + ((node p).2 + 1) * s.dy

/-- The mean of the values of the points at a node. -/
noncomputable def meanAt (points : List Pt) (node : Pt → ℕ × ℕ) (i j : ℕ) : ℝ :=
  ((pointsAt points node i j).map Pt.z).sum / (pointsAt points node i j).length

section
variable {v : Variogram} {s : RegSurf} {T : ℕ → ℕ → ℝ} {points : List Pt} {node : Pt → ℕ × ℕ}

theorem cellIndex {x x_min dx : ℝ} {k : ℕ} (hdx : 0 < dx) (h : x_min + k * dx ≤ x ∧ x < x_min + (k + 1) * dx) :
    (k : ℝ) ≤ (x - x_min) / dx ∧ (x - x_min) / dx < k + 1 ∧ (truncZ ((x - x_min) / dx)).toNat = k := by
  have h1 : (k : ℝ) ≤ (x - x_min) / dx := by rw [le_div_iff₀ hdx]; linarith
  have h2 : (x - x_min) / dx < k + 1 := by rw [div_lt_iff₀ hdx]; linarith
  refine ⟨h1, h2, ?_⟩
  have hf : ⌊(x - x_min) / dx⌋ = (k : ℤ) := by
    rw [Int.floor_eq_iff]
    exact ⟨by exact_mod_cast h1, by exact_mod_cast h2⟩
  unfold truncZ
  rw [if_pos (le_trans (Nat.cast_nonneg k) h1), hf, Int.toNat_natCast]

theorem IndexTask.index (h : IndexTask s T points node) {p : Pt} (hp : p ∈ points) :
    s.findIndex p.x p.y = .ok (node p) := by
  obtain ⟨a1, a2, a3, a4⟩ := h.inside p hp
  have b1 := h.cellX p hp
  have b2 := h.cellY p hp
  obtain ⟨c1, c2, c3⟩ := cellIndex h.hdx b1
  obtain ⟨d1, d2, d3⟩ := cellIndex h.hdy b2
  have p1 : 0 ≤ ((node p).1 : ℝ) * s.dx := by have := h.hdx; positivity
  have p2 : 0 ≤ ((node p).2 : ℝ) * s.dy := by have := h.hdy; positivity
  have q1 : ((node p).1 : ℝ) + 1 < 2 ^ 64 := by exact_mod_cast (by have := h.nodes.ni_lt; omega : (node p).1 + 1 < 2 ^ 64)
  have q2 : ((node p).2 : ℝ) + 1 < 2 ^ 64 := by exact_mod_cast (by have := h.nodes.nj_lt; omega : (node p).2 + 1 < 2 ^ 64)
  have e1 : (0 : ℝ) ≤ (node p).1 := Nat.cast_nonneg _
  have e2 : (0 : ℝ) ≤ (node p).2 := Nat.cast_nonneg _
  unfold RegSurf.findIndex
  rw [if_pos ⟨by linarith, a1, by linarith, a2⟩]
  simp only [Res.monad_bind_eq]
  rw [divD, if_neg h.hdx.ne', Res.bind_ok, divD, if_neg h.hdy.ne', Res.bind_ok,
    if_pos ⟨by linarith, by linarith, by linarith, by linarith⟩, c3, d3]

/-- The nodes with data, each with the mean of its points; the rest is kriging from data at nodes. -/
theorem krigIndex_eq (v : Variogram) (h : IndexTask s T points node) :
    ∃ (d : List Datum) (cov : CovTable), KrigTask v s.dx s.dy cov s.grid T d ∧
      CovTable.create v s.grid.ni s.grid.nj s.dx s.dy = .ok cov ∧ d.length ≤ points.length ∧ (∀ e ∈ d, e.count = 1) ∧
      (∀ i j : ℕ, (∃ e ∈ d, e.i = i ∧ e.j = j) ↔ pointsAt points node i j ≠ []) ∧
      (∀ e ∈ d, ∀ i j : ℕ, e.i = i → e.j = j → e.value = meanAt points node i j) ∧
      ∀ sort gr krig_all P, krig2DIndex sort s points v gr krig_all P
        = (krig2DNodal sort s.grid d cov gr krig_all P).bind fun g => .ok { s with grid := g } := by
  obtain ⟨d, h1, h2, h3, h4⟩ := nodalData_spec (s := s) (points := points) (node := node) (fun p hp => by
    obtain ⟨-, -, a3, a4⟩ := h.inside p hp
    exact ⟨h.index hp, a3.trans h.nodes.ni_lt, a4.trans h.nodes.nj_lt⟩)
  have s1 := h.nodes.ni_lt
  have s2 := h.nodes.nj_lt
  have n1 := h.hni
  have n2 := h.hnj
  obtain ⟨cov, hc, -⟩ := covTable_lookup v (nx := s.grid.ni) (ny := s.grid.nj) s.dx s.dy (by omega) (by omega)
    (by exact_mod_cast h.small)
  have hin : ∀ e ∈ d, 0 ≤ e.i ∧ e.i < s.grid.ni ∧ 0 ≤ e.j ∧ e.j < s.grid.nj := by
    intro e he
    have hne := (h3 e.i e.j).1 ⟨e, he, rfl, rfl⟩
    obtain ⟨p, hp⟩ := List.exists_mem_of_ne_nil _ hne
    unfold pointsAt at hp
    rw [List.mem_filter, decide_eq_true_iff] at hp
    obtain ⟨-, -, a3, a4⟩ := h.inside p hp.1
    omega
  have hlen : d.length ≤ points.length := by
    have hsub : (d.map fun e => (e.i, e.j)) ⊆ points.map fun p => (((node p).1 : ℤ), ((node p).2 : ℤ)) := by
      intro q hq
      obtain ⟨e, he, rfl⟩ := List.mem_map.1 hq
      obtain ⟨p, hp⟩ := List.exists_mem_of_ne_nil _ ((h3 e.i e.j).1 ⟨e, he, rfl, rfl⟩)
      unfold pointsAt at hp
      rw [List.mem_filter, decide_eq_true_iff] at hp
      exact List.mem_map.2 ⟨p, hp.1, by rw [hp.2.2.1, hp.2.2.2]⟩
    have := (h2.subperm hsub).length_le
    rwa [List.length_map, List.length_map] at this
  refine ⟨d, cov, ⟨h.wf, fun i hi j hj => h.nodes.read i j hi hj, ⟨s.grid.ni, s.grid.nj, by omega, by omega, by exact_mod_cast h.small,
    le_rfl, le_rfl, hc⟩, hin, h2⟩, hc, hlen, fun e he => (h4 e he).1, fun i j => h3 i j, ?_, ?_⟩
  · intro e he i j hi hj
    rw [(h4 e he).2, hi, hj]
    rfl
  · intro sort gr krig_all P
    unfold krig2DIndex
    simp only [Res.monad_bind_eq]
    rw [h1, Res.bind_ok, toInt32, if_pos ⟨by omega, by omega⟩, Res.bind_ok, toInt32, if_pos ⟨by omega, by omega⟩, Res.bind_ok, hc,
      Res.bind_ok]

/-- **C98.** All data at once: a node with points gets the mean of their values, or the mean minus the trend if residuals
are asked for; every node gets the trend plus weighted residuals of these means; the function throws exactly if the
correlation matrix of the nodes is not positive definite. -/
theorem krigIndex_spec (h : IndexTask s T points node) (hne : ∃ p ∈ points, p.z ≠ 99999) :
    ∃ d : List Datum, (d.map fun e => (e.i, e.j)).Nodup ∧
      (∀ i j : ℕ, (∃ e ∈ d, e.i = i ∧ e.j = j) ↔ pointsAt points node i j ≠ []) ∧
      (∀ e ∈ d, 0 ≤ e.i ∧ 0 ≤ e.j) ∧
      ∀ (sort : BlockSort (List Datum)) (_ : ∀ l, (sort l).Perm l) (gr : Bool) (P : ℝ),
        (¬ (dataCorr v s.dx s.dy d).PosDef ↔ ∃ msg, krig2DIndex sort s points v gr true P = .throws msg) ∧
        ((dataCorr v s.dx s.dy d).PosDef → ∃ out, krig2DIndex sort s points v gr true P = .ok { s with grid := out } ∧
          out.ni = s.grid.ni ∧ out.nj = s.grid.nj ∧
          (∀ i j : ℕ, pointsAt points node i j ≠ [] →
            out.get i j = .ok (if gr = true then meanAt points node i j - T i j else meanAt points node i j)) ∧
          ∀ i < s.grid.ni, ∀ j < s.grid.nj, ∀ w : Fin d.length → ℝ,
            (∀ a : Fin d.length, ∑ b : Fin d.length, v.corr2 ((d[a].i - d[b].i : ℤ) * s.dx) ((d[a].j - d[b].j : ℤ) * s.dy) * w b
              = v.corr2 ((d[a].i - i : ℤ) * s.dx) ((d[a].j - j : ℤ) * s.dy)) →
            out.get i j = .ok ((if gr = true then 0 else T i j)
              + ∑ a : Fin d.length, w a * (meanAt points node d[a].i.toNat d[a].j.toNat - T d[a].i.toNat d[a].j.toNat))) := by
  obtain ⟨d, cov, hk, -, -, -, hpt, hval, heq⟩ := krigIndex_eq v h
  have h0 : d ≠ [] := by
    obtain ⟨p, hp, hz⟩ := hne
    obtain ⟨e, he, -⟩ := (hpt (node p).1 (node p).2).2 (by
      refine List.ne_nil_of_mem (a := p) ?_
      unfold pointsAt
      rw [List.mem_filter, decide_eq_true_iff]
      exact ⟨hp, hz, rfl, rfl⟩)
    exact List.ne_nil_of_mem he
  refine ⟨d, hk.nodup, hpt, fun e he => ⟨(hk.inside e he).1, (hk.inside e he).2.2.1⟩, ?_⟩
  intro sort hsort gr P
  rw [heq]
  have hth := krig2D_throws hsort hk gr P h0
  constructor
  · rw [← hth]
    constructor
    · rintro ⟨msg, hm⟩
      rw [hm]
      exact ⟨msg, rfl⟩
    · rintro ⟨msg, hm⟩
      by_contra hc
      have hK : (dataCorr v s.dx s.dy d).PosDef := by
        by_contra hK
        exact hc (hth.2 hK)
      obtain ⟨out, ho, -⟩ := krig2D_spec hsort hk gr P h0 hK
      rw [ho, Res.bind_ok] at hm
      cases hm
  · intro hK
    obtain ⟨out, ho, e1, e2, e3, e4⟩ := krig2D_spec hsort hk gr P h0 hK
    refine ⟨out, by rw [ho, Res.bind_ok], e1, e2, ?_, ?_⟩
    · intro i j hij
      obtain ⟨e, he, hi, hj⟩ := (hpt i j).2 hij
      rw [e3 e he i j hi hj, hval e he i j hi hj]
    · intro i hi j hj w hw
      rw [e4 i hi j hj w hw]
      congr 2
      refine Finset.sum_congr rfl fun a _ => ?_
      have hin := hk.inside d[a] (List.getElem_mem _)
      rw [hval d[a] (List.getElem_mem _) d[a].i.toNat d[a].j.toNat (by omega) (by omega)]

/-- **C98.** With the Gaussian variogram it always succeeds, whatever the points on the surface: points may coincide. -/
theorem krigIndex_gauss (h : IndexTask s T points node) (hne : ∃ p ∈ points, p.z ≠ 99999)
    {sort : BlockSort (List Datum)} (hsort : ∀ l, (sort l).Perm l) (gr : Bool) (P : ℝ) {p rx ry rz az dp sd : ℝ}
    (hv : Variogram.create .gaussian p rx ry rz az dp sd = .ok v) :
    ∃ out, krig2DIndex sort s points v gr true P = .ok { s with grid := out } ∧
      ∀ i j : ℕ, pointsAt points node i j ≠ [] →
        out.get i j = .ok (if gr = true then meanAt points node i j - T i j else meanAt points node i j) := by
  obtain ⟨d, hd, -, -, hout⟩ := krigIndex_spec (v := v) h hne
  obtain ⟨out, ho, -, -, e, -⟩ := (hout sort hsort gr P).2 (dataCorr_gauss hv rfl h.hdx.ne' h.hdy.ne' hd)
  exact ⟨out, ho, e⟩

/-- **C98.** In blocks, with up to 200 points: a node with points gets the mean of their values, unless it is 99999, if
`P/2` ranges of the table of correlations are at least four nodes. -/
theorem krigIndex_blocks (h : IndexTask s T points node) {p rx ry rz az dp sd : ℝ}
    (hv : Variogram.create .gaussian p rx ry rz az dp sd = .ok v) {P : ℝ} {ax ay : ℕ} {cov : CovTable}
    (hcov : CovTable.create v s.grid.ni s.grid.nj s.dx s.dy = .ok cov)
    (hrx : cov.getRangeX = .ok (ax * s.dx)) (hry : cov.getRangeY = .ok (ay * s.dy))
    (hx : 4 ≤ P / 2 * ax) (hy : 4 ≤ P / 2 * ay) (bx : 2 * (s.grid.ni : ℝ) + 2 * P * ax + 1 < 2 ^ 31)
    (by_ : 2 * (s.grid.nj : ℝ) + 2 * P * ay + 1 < 2 ^ 31) (sx : ax < 2 ^ 31) (sy : ay < 2 ^ 31)
    (hl : points.length ≤ 200) {sort : BlockSort (List Datum)} (hsort : ∀ l, (sort l).Perm l) (gr : Bool) :
    ∃ out, krig2DIndex sort s points v gr false P = .ok { s with grid := out } ∧
      ∀ i j : ℕ, pointsAt points node i j ≠ [] → meanAt points node i j ≠ 99999 →
        out.get i j = .ok (if gr = true then meanAt points node i j - T i j else meanAt points node i j) := by
  obtain ⟨d, cov', hk, hc, hlen, hcount, hpt, hval, heq⟩ := krigIndex_eq v h
  obtain rfl : cov' = cov := Res.ok.inj (hc.symm.trans hcov)
  have hP : 0 ≤ P := by
    by_contra hc
    push Not at hc
    have : P / 2 * ax ≤ 0 := mul_nonpos_of_nonpos_of_nonneg (by linarith) (Nat.cast_nonneg _)
    linarith
  obtain ⟨out, ho, hh⟩ := krig2D_blocks_honours hk ⟨h.hdx, h.hdy, hP, h.hni, h.hnj, hcount, hrx, hry, bx, by_, sx, sy, .inl (by omega)⟩
    (dataCorr_gauss hv rfl h.hdx.ne' h.hdy.ne' hk.nodup) (by omega) hx hy gr hsort
  refine ⟨out, by rw [heq, ho, Res.bind_ok], ?_⟩
  intro i j hij hm
  obtain ⟨e, he, hi, hj⟩ := (hpt i j).2 hij
  have hv := hval e he i j hi hj
  rw [hh e he (by rw [hv]; exact hm) i j hi hj, hv]

/-- **C98.** A point outside the surface is not accepted: the behaviour is undefined. -/
theorem krigIndex_outside (hx : s.dx ≠ 0) (hy : s.dy ≠ 0)
    (h : ∃ p ∈ points, p.x < s.x_min ∨ s.xMax < p.x ∨ p.y < s.y_min ∨ s.yMax < p.y) (v : Variogram)
    (sort : BlockSort (List Datum)) (gr krig_all : Bool) (P : ℝ) :
    ∃ why, krig2DIndex sort s points v gr krig_all P = .ub why := by
  obtain ⟨w, hw⟩ := nodalData_outside hx hy h
  unfold krig2DIndex
  simp only [Res.monad_bind_eq]
  rw [hw]
  exact ⟨w, rfl⟩

end

/-! ### Cases -/

/-- A row of two nodes and two points in the first cell, one of them close to the second node. -/
theorem indexTask_case : IndexTask (RegSurf.mkConst 0 0 1 1 2 2 5) (fun _ _ => 5) [⟨0, 0, 1⟩, ⟨0.9, 0, 3⟩] (fun _ => (0, 0)) := by
  have hh := Grid2D.Holds.mk' (nx := 2) (ny := 2) (5 : ℝ)
  have e1 : (RegSurf.mkConst 0 0 1 1 2 2 5).dx = 1 ∧ (RegSurf.mkConst 0 0 1 1 2 2 5).dy = 1 := by
    norm_num [RegSurf.mkConst, spacing]
  have e0 : (RegSurf.mkConst 0 0 1 1 2 2 5).x_min = 0 ∧ (RegSurf.mkConst 0 0 1 1 2 2 5).y_min = 0 := ⟨rfl, rfl⟩
  have em : (RegSurf.mkConst 0 0 1 1 2 2 5).xMax = 1 ∧ (RegSurf.mkConst 0 0 1 1 2 2 5).yMax = 1 := by
    norm_num [RegSurf.mkConst, RegSurf.xMax, RegSurf.yMax]
  have en : (RegSurf.mkConst 0 0 1 1 2 2 5).grid.ni = 2 ∧ (RegSurf.mkConst 0 0 1 1 2 2 5).grid.nj = 2 := ⟨rfl, rfl⟩
  refine ⟨⟨fun i j hi hj => hh.get hi hj, by rw [en.1]; norm_num, by rw [en.2]; norm_num, by rw [e1.1]; norm_num, by rw [e1.2]; norm_num⟩,
    hh.2.2.1, by rw [en.1]; norm_num, by rw [en.2]; norm_num, by rw [e1.1]; norm_num, by rw [e1.2]; norm_num,
    by rw [en.1, en.2]; norm_num, ?_, ?_, ?_⟩
  · rw [em.1, em.2, en.1, en.2]
    intro p hp
    simp only [List.mem_cons, List.not_mem_nil, or_false] at hp
    rcases hp with rfl | rfl <;> norm_num
  · rw [e0.1, e1.1]
    intro p hp
    simp only [List.mem_cons, List.not_mem_nil, or_false] at hp
    rcases hp with rfl | rfl <;> norm_num
  · rw [e0.2, e1.2]
    intro p hp
    simp only [List.mem_cons, List.not_mem_nil, or_false] at hp
    rcases hp with rfl | rfl <;> norm_num

theorem indexTask_points : pointsAt [(⟨0, 0, 1⟩ : Pt), ⟨0.9, 0, 3⟩] (fun _ => (0, 0)) (0 : ℕ) (0 : ℕ)
    = [⟨0, 0, 1⟩, ⟨0.9, 0, 3⟩] := by
  unfold pointsAt
  rw [List.filter_cons_of_pos (by norm_num), List.filter_cons_of_pos (by norm_num), List.filter_nil]

/-- The node gets the mean of the two values. -/
example : ∃ out, krig2DIndex id (RegSurf.mkConst 0 0 1 1 2 2 5) [⟨0, 0, 1⟩, ⟨0.9, 0, 3⟩] gaussVario false true 2
    = .ok { RegSurf.mkConst 0 0 1 1 2 2 5 with grid := out } ∧ out.get 0 0 = .ok 2 := by
  obtain ⟨out, ho, hh⟩ := krigIndex_gauss indexTask_case ⟨⟨0, 0, 1⟩, by simp, by norm_num⟩ (sort := id) (fun l => List.Perm.refl _)
    false 2 gaussVario_create
  refine ⟨out, ho, ?_⟩
  rw [hh 0 0 (by rw [indexTask_points]; simp), meanAt, indexTask_points]
  norm_num

/-- Twelve by twelve nodes in blocks. -/
example : ∃ out, krig2DIndex id (squareSurf 12 1 5) [⟨11, 11, 4⟩] wideVario false false 2
    = .ok { squareSurf 12 1 5 with grid := out } ∧ out.get 11 11 = .ok 4 := by
  obtain ⟨e1, e2⟩ := squareSurf_step (n := 12) (by norm_num) 1 5
  have en : (squareSurf 12 1 5).grid.ni = 12 ∧ (squareSurf 12 1 5).grid.nj = 12 := ⟨rfl, rfl⟩
  have e0 : (squareSurf 12 1 5).x_min = 0 ∧ (squareSurf 12 1 5).y_min = 0 := ⟨rfl, rfl⟩
  have em : (squareSurf 12 1 5).xMax = 11 ∧ (squareSurf 12 1 5).yMax = 11 := by
    norm_num [squareSurf, RegSurf.setMissingValue, RegSurf.ofGrid, RegSurf.xMax, RegSurf.yMax]
  have hh := Grid2D.Holds.mk' (nx := 12) (ny := 12) (5 : ℝ)
  have h : IndexTask (squareSurf 12 1 5) (fun _ _ => 5) [⟨11, 11, 4⟩] (fun _ => (11, 11)) := by
    refine ⟨⟨fun i j hi hj => hh.get hi hj, by rw [en.1]; norm_num, by rw [en.2]; norm_num, by rw [e1]; norm_num, by rw [e2]; norm_num⟩,
      hh.2.2.1, by rw [en.1]; norm_num, by rw [en.2]; norm_num, by rw [e1]; norm_num, by rw [e2]; norm_num,
      by rw [en.1, en.2]; norm_num, ?_, ?_, ?_⟩
    · rw [em.1, em.2, en.1, en.2]
      intro p hp
      rw [List.mem_singleton] at hp
      subst hp
      norm_num
    · rw [e0.1, e1]
      intro p hp
      rw [List.mem_singleton] at hp
      subst hp
      norm_num
    · rw [e0.2, e2]
      intro p hp
      rw [List.mem_singleton] at hp
      subst hp
      norm_num
  obtain ⟨d, cov, hk, hc, -⟩ := krigIndex_eq wideVario h
  rw [e1, e2] at hk
  obtain ⟨ax, ay, r1, r2, a1, a2, b1, b2⟩ := wideVario_ranges hk (by rw [en.1]; norm_num) (by rw [en.2]; norm_num)
  have a1' : (4 : ℝ) ≤ ax := by exact_mod_cast a1
  have b1' : (4 : ℝ) ≤ ay := by exact_mod_cast b1
  have a2' : (ax : ℝ) ≤ 100 := by exact_mod_cast a2
  have b2' : (ay : ℝ) ≤ 100 := by exact_mod_cast b2
  have hp : pointsAt [(⟨11, 11, 4⟩ : Pt)] (fun _ => (11, 11)) (11 : ℕ) (11 : ℕ) = [⟨11, 11, 4⟩] := by
    unfold pointsAt
    rw [List.filter_cons_of_pos (by norm_num), List.filter_nil]
  obtain ⟨out, ho, hh⟩ := krigIndex_blocks h wideVario_create (P := 2) hc (by rw [r1, e1]) (by rw [r2, e2]) (by linarith) (by linarith)
    (by rw [en.1]; norm_num; linarith) (by rw [en.2]; norm_num; linarith) (by omega) (by omega) (by simp) (sort := id)
    (fun l => List.Perm.refl _) false
  refine ⟨out, ho, ?_⟩
  have hm : meanAt [(⟨11, 11, 4⟩ : Pt)] (fun _ => (11, 11)) 11 11 = 4 := by
    rw [meanAt, hp]
    norm_num
  rw [hh 11 11 (by rw [hp]; simp) (by rw [hm]; norm_num), hm]
  simp

/-- **C98.** A datum at a node is not honoured if there is another point in its cell: the node gets 2 and not 1. -/
theorem krigIndex_violation : ∃ (s : RegSurf) (p q : Pt) (out : Grid2D ℝ), s.getXY 0 0 = (p.x, p.y) ∧ (q.x, q.y) ≠ (p.x, p.y) ∧
    krig2DIndex id s [p, q] gaussVario false true 2 = .ok { s with grid := out } ∧ out.get 0 0 = .ok 2 ∧ p.z = 1 := by
  obtain ⟨out, ho, hh⟩ := krigIndex_gauss indexTask_case ⟨⟨0, 0, 1⟩, by simp, by norm_num⟩ (sort := id) (fun l => List.Perm.refl _)
    false 2 gaussVario_create
  refine ⟨_, _, _, out, ?_, ?_, ho, ?_, rfl⟩
  · norm_num [RegSurf.getXY, RegSurf.mkConst]
  · norm_num
  · rw [hh 0 0 (by rw [indexTask_points]; simp), meanAt, indexTask_points]
    norm_num

/-- A point outside. -/
example : ∃ p ∈ [(⟨2, 0, 1⟩ : Pt)], p.x < (RegSurf.mkConst 0 0 1 1 2 2 0).x_min ∨
    (RegSurf.mkConst 0 0 1 1 2 2 0).xMax < p.x ∨ p.y < (RegSurf.mkConst 0 0 1 1 2 2 0).y_min ∨
    (RegSurf.mkConst 0 0 1 1 2 2 0).yMax < p.y :=
  ⟨_, List.mem_cons_self, .inr (.inl (by norm_num [RegSurf.mkConst, RegSurf.xMax]))⟩

end Verif
