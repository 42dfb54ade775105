import Verif.Lemmas.Krig2D
import Verif.Props.SurfaceIndex

/-!
# C93: kriging data at the nodes of a grid

Points are data if their value is not 99999, the code for a missing value.
-/

namespace Verif

/-- The data points of a list that are at a node. -/
noncomputable def pointsAt (points : List Pt) (node : Pt → ℕ × ℕ) (i j : ℤ) : List Pt :=
  points.filter fun p => p.z ≠ 99999 ∧ ((node p).1 : ℤ) = i ∧ ((node p).2 : ℤ) = j

theorem addPoints_eq {s : RegSurf} {points : List Pt} {node : Pt → ℕ × ℕ}
    (hn : ∀ p ∈ points, s.findIndex p.x p.y = .ok (node p) ∧ (node p).1 < 2 ^ 31 ∧ (node p).2 < 2 ^ 31) (d : List Datum) :
    addPoints s points d = .ok ((points.map fun p => ((((node p).1 : ℤ), ((node p).2 : ℤ)), p.z)).foldl
      (fun d p => addData d p.1.1 p.1.2 p.2) d) := by
  induction points generalizing d with
  | nil => rfl
  | cons p ps ih =>
    obtain ⟨h1, h2, h3⟩ := hn p List.mem_cons_self
    unfold addPoints
    simp only [Res.monad_bind_eq]
    rw [h1, Res.bind_ok, toInt32, if_pos ⟨by omega, by exact_mod_cast h2⟩, Res.bind_ok, toInt32,
      if_pos ⟨by omega, by exact_mod_cast h3⟩, Res.bind_ok, ih fun q hq => hn q (List.mem_cons_of_mem _ hq)]
    rfl

/-- **C93.** The data made from points on a surface: each node occurs at most once; the nodes are the lower left
corners of the cells of the points that are not missing; the value at a node is the mean of the values of its
points, and its count is one. -/
theorem nodalData_spec {s : RegSurf} {points : List Pt} {node : Pt → ℕ × ℕ}
    (hn : ∀ p ∈ points, s.findIndex p.x p.y = .ok (node p) ∧ (node p).1 < 2 ^ 31 ∧ (node p).2 < 2 ^ 31) :
    ∃ d, nodalData points s = .ok d ∧ (d.map fun e => (e.i, e.j)).Nodup ∧
      (∀ i j, (∃ e ∈ d, e.i = i ∧ e.j = j) ↔ pointsAt points node i j ≠ []) ∧
      ∀ e ∈ d, e.count = 1 ∧
        e.value = ((pointsAt points node e.i e.j).map Pt.z).sum / (pointsAt points node e.i e.j).length := by
  unfold nodalData
  simp only [Res.monad_bind_eq]
  rw [addPoints_eq hn, Res.bind_ok]
  obtain ⟨h1, h2, h3, h4⟩ := addAll_inv (points.map fun p => ((((node p).1 : ℤ), ((node p).2 : ℤ)), p.z)) [] (by simp)
  generalize (points.map fun p => ((((node p).1 : ℤ), ((node p).2 : ℤ)), p.z)).foldl
      (fun d p => addData d p.1.1 p.1.2 p.2) [] = r at h1 h2 h3 h4
  have hfil : ∀ i j, ((points.map fun p => ((((node p).1 : ℤ), ((node p).2 : ℤ)), p.z)).filter
      fun q => q.1 = (i, j) ∧ q.2 ≠ 99999) = (pointsAt points node i j).map fun p => ((((node p).1 : ℤ), ((node p).2 : ℤ)), p.z) := by
    intro i j
    rw [List.filter_map]
    congr 1
    unfold pointsAt
    refine List.filter_congr fun p _ => ?_
    simp only [Function.comp, Prod.mk.injEq]
    rw [decide_eq_decide]
    tauto
  refine ⟨_, rfl, ?_, ?_, ?_⟩
  · exact (findMean_locs r).symm ▸ h1
  · intro i j
    have e : (∃ e ∈ findMeanValues r, e.i = i ∧ e.j = j) ↔ (i, j) ∈ r.map Datum.loc := by
      rw [← findMean_locs, List.mem_map]
      refine exists_congr fun e => and_congr Iff.rfl ?_
      simp only [Datum.loc, Prod.mk.injEq]
    rw [e, h2]
    simp only [List.map_nil, List.not_mem_nil, false_or, List.mem_map, exists_exists_and_eq_and]
    rw [show pointsAt points node i j ≠ [] ↔ ∃ x, x ∈ pointsAt points node i j from
      ⟨List.exists_mem_of_ne_nil _, fun ⟨x, hx⟩ => List.ne_nil_of_mem hx⟩]
    unfold pointsAt
    refine exists_congr fun p => ?_
    simp only [List.mem_filter, Prod.mk.injEq, decide_eq_true_eq]
    tauto
  · intro e he
    obtain ⟨f, hf, rfl⟩ := List.mem_map.1 he
    refine ⟨rfl, ?_⟩
    dsimp only
    have t := h3 f.loc
    have c := h4 f.loc
    rw [totAt_self h1 hf, show f.loc = (f.i, f.j) from rfl, hfil, List.map_map] at t
    rw [cntAt_self h1 hf, show f.loc = (f.i, f.j) from rfl, hfil, List.length_map] at c
    rw [t, c]
    simp only [totAt, cntAt, List.filter_nil, List.map_nil, List.sum_nil, zero_add]
    norm_cast

/-- Two points of a unit square share its lower left corner: the datum there is their mean. -/
example : ∃ d, nodalData [⟨0, 0, 1⟩, ⟨0.5, 0.5, 3⟩, ⟨0.25, 0.5, 99999⟩] (RegSurf.mkConst 0 0 1 1 2 2 0) = .ok d ∧
    ∃ e ∈ d, e.i = 0 ∧ e.j = 0 ∧ e.value = 2 := by
  have hf : ∀ p ∈ [(⟨0, 0, 1⟩ : Pt), ⟨0.5, 0.5, 3⟩, ⟨0.25, 0.5, 99999⟩],
      (RegSurf.mkConst 0 0 1 1 2 2 0).findIndex p.x p.y = .ok (0, 0) := by
    intro p hp
    have t : ∀ q : ℝ, 0 ≤ q → q < 1 → truncZ q = 0 := by
      intro q h0 h1
      unfold truncZ
      rw [if_pos h0, Int.floor_eq_zero_iff]
      exact ⟨h0, h1⟩
    have a : truncZ 0 = 0 := t _ (by norm_num) (by norm_num)
    have b : truncZ (1 / 2) = 0 := t _ (by norm_num) (by norm_num)
    have c : truncZ (1 / 4) = 0 := t _ (by norm_num) (by norm_num)
    simp only [List.mem_cons, List.not_mem_nil, or_false] at hp
    rcases hp with rfl | rfl | rfl <;>
      norm_num [RegSurf.findIndex, RegSurf.mkConst, RegSurf.xMax, RegSurf.yMax, spacing, divD, a, b, c]
  obtain ⟨d, h1, -, h3, h4⟩ := nodalData_spec (node := fun _ => (0, 0)) fun p hp => ⟨hf p hp, by norm_num, by norm_num⟩
  refine ⟨d, h1, ?_⟩
  have hp : pointsAt [(⟨0, 0, 1⟩ : Pt), ⟨0.5, 0.5, 3⟩, ⟨0.25, 0.5, 99999⟩] (fun _ => (0, 0)) 0 0
      = [⟨0, 0, 1⟩, ⟨0.5, 0.5, 3⟩] := by
    unfold pointsAt
    rw [List.filter_cons_of_pos (by norm_num), List.filter_cons_of_pos (by norm_num),
      List.filter_cons_of_neg (by norm_num), List.filter_nil]
  obtain ⟨e, he, hi, hj⟩ := (h3 0 0).2 (by rw [hp]; simp)
  refine ⟨e, he, hi, hj, ?_⟩
  rw [(h4 e he).2, hi, hj, hp]
  norm_num

/-- **C93.** The order of the points does not matter, except for the order of the data. -/
theorem nodalData_perm {s : RegSurf} {points points' : List Pt} {node : Pt → ℕ × ℕ} (h : points.Perm points')
    (hn : ∀ p ∈ points, s.findIndex p.x p.y = .ok (node p) ∧ (node p).1 < 2 ^ 31 ∧ (node p).2 < 2 ^ 31) :
    ∃ d d', nodalData points s = .ok d ∧ nodalData points' s = .ok d' ∧ d.Perm d' := by
  obtain ⟨d, h1, h2, h3, h4⟩ := nodalData_spec hn
  obtain ⟨d', h1', h2', h3', h4'⟩ := nodalData_spec (points := points') fun p hp => hn p (h.mem_iff.2 hp)
  refine ⟨d, d', h1, h1', ?_⟩
  have hpt : ∀ i j, (pointsAt points node i j).Perm (pointsAt points' node i j) := fun i j => h.filter _
  refine (List.perm_ext_iff_of_nodup h2.of_map h2'.of_map).2 fun e => ?_
  have key : ∀ (u : List Datum) (w : List Datum) (P Q : List Pt), P.Perm Q →
      (∀ i j, (∃ e ∈ w, e.i = i ∧ e.j = j) ↔ pointsAt Q node i j ≠ []) →
      (∀ i j, (∃ e ∈ u, e.i = i ∧ e.j = j) ↔ pointsAt P node i j ≠ []) →
      (∀ e ∈ u, e.count = 1 ∧
        e.value = ((pointsAt P node e.i e.j).map Pt.z).sum / (pointsAt P node e.i e.j).length) →
      (∀ e ∈ w, e.count = 1 ∧
        e.value = ((pointsAt Q node e.i e.j).map Pt.z).sum / (pointsAt Q node e.i e.j).length) → e ∈ u → e ∈ w := by
    intro u w P Q hPQ hw hu hu' hw' he
    have hp2 : (pointsAt P node e.i e.j).Perm (pointsAt Q node e.i e.j) := hPQ.filter _
    obtain ⟨f, hf, hfi, hfj⟩ := (hw e.i e.j).2 fun hnil => (hu e.i e.j).1 ⟨e, he, rfl, rfl⟩ (by
      rw [hnil] at hp2; exact hp2.eq_nil)
    have a := hu' e he
    have b := hw' f hf
    rw [hfi, hfj, ← (hp2.map Pt.z).sum_eq, ← hp2.length_eq] at b
    have : f = e := by
      cases e
      cases f
      simp only [Datum.mk.injEq]
      exact ⟨hfi, hfj, b.2.trans a.2.symm, b.1.trans a.1.symm⟩
    exact this ▸ hf
  exact ⟨key d d' _ _ h h3' h3 h4 h4', key d' d _ _ h.symm h3 h3' h4' h4⟩

/-- **C93.** A point outside the surface is not accepted: the behaviour is undefined. -/
theorem nodalData_outside {s : RegSurf} {points : List Pt} (hx : s.dx ≠ 0) (hy : s.dy ≠ 0)
    (h : ∃ p ∈ points, p.x < s.x_min ∨ s.xMax < p.x ∨ p.y < s.y_min ∨ s.yMax < p.y) :
    ∃ why, nodalData points s = .ub why := by
  have key : ∀ d, ∃ why, addPoints s points d = .ub why := by
    induction points with
    | nil => simp at h
    | cons p ps ih =>
      intro d
      unfold addPoints
      simp only [Res.monad_bind_eq]
      have hf : (∃ q, s.findIndex p.x p.y = .ok q) ∨ ∃ w, s.findIndex p.x p.y = .ub w := by
        unfold RegSurf.findIndex
        split
        · simp only [Res.monad_bind_eq]
          rw [divD, if_neg hx, Res.bind_ok, divD, if_neg hy, Res.bind_ok]
          split
          · exact .inl ⟨_, rfl⟩
          · exact .inr ⟨_, rfl⟩
        · exact .inr ⟨_, rfl⟩
      rcases hf with ⟨q, hq⟩ | ⟨w, hw⟩
      swap
      · rw [hw]; exact ⟨w, rfl⟩
      have hp : ¬ (p.x < s.x_min ∨ s.xMax < p.x ∨ p.y < s.y_min ∨ s.yMax < p.y) := by
        intro hc
        unfold RegSurf.findIndex at hq
        rw [if_neg (by push Not; intro a b c; by_contra hd; push Not at hd; rcases hc with hc | hc | hc | hc <;> linarith)] at hq
        cases hq
      have h' : ∃ p ∈ ps, p.x < s.x_min ∨ s.xMax < p.x ∨ p.y < s.y_min ∨ s.yMax < p.y := by
        obtain ⟨r, hr, hr'⟩ := h
        rcases List.mem_cons.1 hr with rfl | hr
        · exact absurd hr' hp
        · exact ⟨r, hr, hr'⟩
      rw [hq, Res.bind_ok]
      unfold toInt32
      split
      · rw [Res.bind_ok]
        split
        · rw [Res.bind_ok]
          exact ih h' _
        · exact ⟨_, rfl⟩
      · exact ⟨_, rfl⟩
  obtain ⟨w, hw⟩ := key []
  unfold nodalData
  simp only [Res.monad_bind_eq]
  rw [hw]
  exact ⟨w, rfl⟩

/-- Such a point exists. -/
example : ∃ p ∈ [(⟨2, 0, 1⟩ : Pt)], p.x < (RegSurf.mkConst 0 0 1 1 2 2 0).x_min ∨
    (RegSurf.mkConst 0 0 1 1 2 2 0).xMax < p.x ∨ p.y < (RegSurf.mkConst 0 0 1 1 2 2 0).y_min ∨
    (RegSurf.mkConst 0 0 1 1 2 2 0).yMax < p.y :=
  ⟨_, List.mem_cons_self, .inr (.inl (by norm_num [RegSurf.mkConst, RegSurf.xMax]))⟩

/-- The data of a block by name: those within the bounds, both ends included, that are not 99999. -/
theorem addDataToBlock_mem {d : List Datum} (hd : (d.map Datum.loc).Nodup) (imin imax jmin jmax : ℕ) :
    ((addDataToBlock d [] imin imax jmin jmax).map Datum.loc).Nodup ∧
    ∀ x, x ∈ addDataToBlock d [] imin imax jmin jmax ↔
      ∃ e ∈ d, e.inBlock imin imax jmin jmax = true ∧ e.value ≠ 99999 ∧ x = { e with count := 1 } := by
  have hfold : addDataToBlock d [] imin imax jmin jmax
      = ((d.filter fun e => e.inBlock imin imax jmin jmax).map fun e => ((e.i, e.j), e.value)).foldl
        (fun d p => addData d p.1.1 p.1.2 p.2) [] := by
    unfold addDataToBlock
    rw [List.foldl_map, List.foldl_filter]
  obtain ⟨h1, h2, h3, h4⟩ := addAll_inv
    ((d.filter fun e => e.inBlock imin imax jmin jmax).map fun e => ((e.i, e.j), e.value)) [] (by simp)
  rw [← hfold] at h1 h2 h3 h4
  generalize addDataToBlock d [] imin imax jmin jmax = r at h1 h2 h3 h4
  refine ⟨h1, ?_⟩
  have hat : ∀ e ∈ d, e.inBlock imin imax jmin jmax = true → e.value ≠ 99999 →
      (((d.filter fun e => e.inBlock imin imax jmin jmax).map fun e => ((e.i, e.j), e.value)).filter
        fun q => q.1 = e.loc ∧ q.2 ≠ 99999) = [(e.loc, e.value)] := by
    intro e he hb hv
    rw [List.filter_map, List.filter_filter]
    have : (d.filter fun a => (((fun q : (ℤ × ℤ) × ℝ => decide (q.1 = e.loc ∧ q.2 ≠ 99999)) ∘ fun e : Datum => ((e.i, e.j), e.value)) a
        && a.inBlock imin imax jmin jmax)) = [e] := by
      have e1 : (d.filter fun a => (((fun q : (ℤ × ℤ) × ℝ => decide (q.1 = e.loc ∧ q.2 ≠ 99999)) ∘ fun e : Datum => ((e.i, e.j), e.value)) a
        && a.inBlock imin imax jmin jmax)) = (d.filter fun f => f.loc = e.loc).filter fun a => decide (a.value ≠ 99999) && a.inBlock imin imax jmin jmax := by
        rw [List.filter_filter]
        refine List.filter_congr fun a _ => ?_
        simp only [Function.comp, Datum.loc]
        by_cases h : (a.i, a.j) = (e.i, e.j) <;> simp [h]
      rw [e1, at_eq hd he, List.filter_cons_of_pos (by simp [hb, hv]), List.filter_nil]
    rw [this]
    rfl
  have hmk : ∀ e ∈ d, e.inBlock imin imax jmin jmax = true → e.value ≠ 99999 → ∀ x ∈ r, x.loc = e.loc →
      x = { e with count := 1 } := by
    intro e he hb hv x hx hl
    have t := h3 x.loc
    have c := h4 x.loc
    rw [totAt_self h1 hx, hl, hat e he hb hv] at t
    rw [cntAt_self h1 hx, hl, hat e he hb hv] at c
    cases x
    cases e
    simp only [Datum.loc, Prod.mk.injEq] at hl
    simp [totAt, cntAt] at t c
    simp only [Datum.mk.injEq]
    exact ⟨hl.1, hl.2, t, c⟩
  intro x
  constructor
  · intro hx
    have hl : x.loc ∈ r.map Datum.loc := List.mem_map.2 ⟨x, hx, rfl⟩
    rw [h2] at hl
    rcases hl with hl | ⟨q, hq, hql, hqv⟩
    · simp at hl
    obtain ⟨e, he, rfl⟩ := List.mem_map.1 hq
    rw [List.mem_filter] at he
    exact ⟨e, he.1, he.2, hqv, hmk e he.1 he.2 hqv x hx hql.symm⟩
  · rintro ⟨e, he, hb, hv, rfl⟩
    have hl : e.loc ∈ r.map Datum.loc := by
      rw [h2]
      exact .inr ⟨((e.i, e.j), e.value), List.mem_map.2 ⟨e, List.mem_filter.2 ⟨he, hb⟩, rfl⟩, rfl, hv⟩
    obtain ⟨x, hx, hxl⟩ := List.mem_map.1 hl
    rwa [← hmk e he hb hv x hx hxl]

/-- **C93.** The data of a block of distinct data are those within the bounds, both ends included. A datum that
is 99999 is left out, even if it is the mean of values that are not. -/
theorem addDataToBlock_spec {d : List Datum} (hd : (d.map fun e => (e.i, e.j)).Nodup)
    (hb : ∀ e ∈ d, 0 ≤ e.i ∧ e.i < 2 ^ 31 ∧ 0 ≤ e.j ∧ e.j < 2 ^ 31) (imin imax jmin jmax : ℕ) (x : Datum) :
    x ∈ findMeanValues (addDataToBlock d [] imin imax jmin jmax) ↔
      ∃ e ∈ d, imin ≤ e.i ∧ e.i ≤ imax ∧ jmin ≤ e.j ∧ e.j ≤ jmax ∧ e.value ≠ 99999 ∧ x = { e with count := 1 } := by
  have h := (addDataToBlock_mem hd imin imax jmin jmax).2
  unfold findMeanValues
  rw [List.mem_map]
  have hs : ∀ z : ℤ, 0 ≤ z → z < 2 ^ 31 → (sizeOf32 z : ℤ) = z := by
    intro z h0 h1
    unfold sizeOf32
    rw [Int.toNat_of_nonneg (Int.emod_nonneg _ (by norm_num)), Int.emod_eq_of_lt h0 (by omega)]
  have hin : ∀ e ∈ d, (e.inBlock imin imax jmin jmax = true ↔ imin ≤ e.i ∧ e.i ≤ imax ∧ jmin ≤ e.j ∧ e.j ≤ jmax) := by
    intro e he
    obtain ⟨a, b, c, f⟩ := hb e he
    have := hs e.i a b
    have := hs e.j c f
    unfold Datum.inBlock
    rw [decide_eq_true_iff]
    omega
  constructor
  · rintro ⟨y, hy, rfl⟩
    obtain ⟨e, he, hbk, hv, rfl⟩ := (h y).1 hy
    obtain ⟨p, q, r, t⟩ := (hin e he).1 hbk
    exact ⟨e, he, p, q, r, t, hv, by simp⟩
  · rintro ⟨e, he, p, q, r, t, hv, rfl⟩
    exact ⟨{ e with count := 1 }, (h _).2 ⟨e, he, (hin e he).2 ⟨p, q, r, t⟩, hv, rfl⟩, by simp⟩

/-- A datum at the upper end of a block is a datum of the block. -/
example : (⟨2, 0, 7, 1⟩ : Datum) ∈ findMeanValues (addDataToBlock [⟨2, 0, 7, 1⟩, ⟨3, 0, 8, 1⟩] [] 0 2 0 0) :=
  (addDataToBlock_spec (by simp) (by simp) 0 2 0 0 _).2 ⟨_, List.mem_cons_self, by norm_num⟩

end Verif
